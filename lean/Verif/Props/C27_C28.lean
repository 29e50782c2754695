import Verif.P2p.Bip152
import Verif.Codec.WireDec
import Verif.Props.C13_C17
/-!
# C27, C28, C61: compact blocks (`p2p/src/bip152.rs`)
-/
namespace Btc
namespace Bip152

/-! ### C27 -/

theorem sort_perm (l : List Nat) : (sort l).Perm l := List.mergeSort_perm _ _

theorem sort_sorted (l : List Nat) : (sort l).Pairwise (· ≤ ·) := by
  have := List.pairwise_mergeSort (le := fun a b : Nat => decide (a ≤ b)) (by intro a b c; simp; omega) (by intro a b; simp; omega) l
  exact this.imp (by intro a b h; simpa using h)

theorem sort_strict {l : List Nat} (h : l.Nodup) : (sort l).Pairwise (· < ·) := by
  have h1 := sort_sorted l
  have h2 : (sort l).Pairwise (· ≠ ·) := (sort_perm l).nodup_iff.2 h
  exact (h1.and h2).imp fun ⟨a, b⟩ => Nat.lt_of_le_of_ne a b

theorem indicesLoop_ok (os : List Nat) : ∀ (last : Nat) (l : List Nat), indicesLoop os last = .ok l ↔
    (os ≠ [] → last + os.sum + os.length < 2 ^ 64) ∧ l = (List.range os.length).map fun i => last + (os.take (i + 1)).sum + i := by
  induction os with
  | nil => intro last l; simp [indicesLoop, eq_comm]
  | cons o os ih =>
    intro last l
    unfold indicesLoop
    have hl : ∀ l', (l' = (List.range os.length).map fun i => last + o + 1 + (os.take (i + 1)).sum + i) →
        (last + o) :: l' = (List.range (o :: os).length).map fun i => last + ((o :: os).take (i + 1)).sum + i := by
      intro l' h
      rw [List.length_cons, List.range_succ_eq_map, List.map_cons, List.map_map, h]
      congr 1
      · apply List.map_congr_left
        intro i _
        simp only [Function.comp, List.take_succ_cons, List.sum_cons]
        omega
    by_cases h1 : last + o < 2 ^ 64
    · rw [if_pos h1]
      by_cases h2 : last + o + 1 < 2 ^ 64
      · rw [if_pos h2]
        cases hr : indicesLoop os (last + o + 1) with
        | error e =>
          simp only
          constructor
          · intro h; cases h
          · rintro ⟨h, _⟩
            have h := h (by simp)
            have := (ih (last + o + 1) _).2 ⟨fun _ => by simp only [List.sum_cons, List.length_cons] at h; omega, rfl⟩
            rw [this] at hr; cases hr
        | ok l' =>
          simp only
          obtain ⟨g1, g2⟩ := (ih (last + o + 1) l').1 hr
          rw [Except.ok.injEq, hl l' g2]
          constructor
          · intro h
            refine ⟨fun _ => ?_, h.symm⟩
            simp only [List.sum_cons, List.length_cons]
            cases os with
            | nil => simp; omega
            | cons a os => have := g1 (by simp); simp only [List.sum_cons, List.length_cons] at this ⊢; omega
          · rintro ⟨_, h⟩; exact h.symm
      · rw [if_neg h2]
        constructor
        · intro h; cases h
        · rintro ⟨h, _⟩
          have h := h (by simp)
          simp only [List.sum_cons, List.length_cons] at h; omega
    · rw [if_neg h1]
      constructor
      · intro h; cases h
      · rintro ⟨h, _⟩
        have h := h (by simp)
        simp only [List.sum_cons, List.length_cons] at h; omega

/-- C27: on any list of offsets from the wire, `indices` gives the running sums (each step one further than the previous
index plus the offset) when the position after the last index fits 64 bits, and an error otherwise; it never wraps. -/
theorem C27_indices (r : Request) (l : List Nat) :
    r.indices = .ok l ↔ r.offsets.sum + r.offsets.length < 2 ^ 64
      ∧ l = (List.range r.offsets.length).map fun i => (r.offsets.take (i + 1)).sum + i := by
  unfold Request.indices
  rw [indicesLoop_ok]
  constructor
  · rintro ⟨h1, h2⟩
    refine ⟨?_, by simpa using h2⟩
    cases ho : r.offsets with
    | nil => simp
    | cons a as => have := h1 (by rw [ho]; simp); rw [ho] at this; omega
  · rintro ⟨h1, h2⟩
    exact ⟨fun _ => by omega, by simpa using h2⟩

theorem indicesLoop_strict (os : List Nat) : ∀ (last : Nat) (l : List Nat), indicesLoop os last = .ok l →
    l.Pairwise (· < ·) ∧ ∀ x ∈ l, last ≤ x ∧ x + 1 < 2 ^ 64 := by
  induction os with
  | nil => intro last l h; cases h; simp
  | cons o os ih =>
    intro last l h
    unfold indicesLoop at h
    split at h
    · split at h
      · split at h
        · cases h
        · rename_i h1 h2 _ l' hr
          cases h
          obtain ⟨g1, g2⟩ := ih _ _ hr
          refine ⟨List.pairwise_cons.2 ⟨fun x hx => by have := (g2 x hx).1; omega, g1⟩, ?_⟩
          intro x hx
          rcases List.mem_cons.1 hx with rfl | hx
          · omega
          · have := g2 x hx; omega
      · cases h
    · cases h

theorem C27_indices_increasing (r : Request) (l : List Nat) (h : r.indices = .ok l) :
    l.Pairwise (· < ·) ∧ ∀ x ∈ l, x < 2 ^ 64 - 1 := by
  obtain ⟨h1, h2⟩ := indicesLoop_strict _ _ _ h
  exact ⟨h1, fun x hx => by have := (h2 x hx).2; omega⟩

/-- The gaps between strictly increasing indices. -/
def gaps : Nat → List Nat → List Nat
  | _, [] => []
  | last, x :: l => (x - last) :: gaps (x + 1) l

theorem offsetsLoop_ok (checks : Bool) (l : List Nat) : ∀ last, l.Pairwise (· < ·) → (∀ x ∈ l, last ≤ x ∧ x + 1 < 2 ^ 64) →
    offsetsLoop checks l last = some (gaps last l) ∧ indicesLoop (gaps last l) last = .ok l := by
  induction l with
  | nil => intro last _ _; exact ⟨rfl, rfl⟩
  | cons x l ih =>
    intro last hp hb
    obtain ⟨p1, p2⟩ := List.pairwise_cons.1 hp
    have hx := hb x List.mem_cons_self
    obtain ⟨i1, i2⟩ := ih (x + 1) p2 (fun y hy => ⟨by have := p1 y hy; omega, (hb y (List.mem_cons_of_mem _ hy)).2⟩)
    constructor
    · have hs : subU checks x last = some (x - last) := by unfold subU; rw [if_pos hx.1]
      have ha : addU checks x 1 = some (x + 1) := by unfold addU; rw [if_pos hx.2]
      unfold offsetsLoop
      rw [hs, ha]
      simp only [i1, Option.map_some, gaps]
    · rw [gaps, indicesLoop, show last + (x - last) = x by omega, if_pos (by omega), if_pos hx.2, i2]

/-- C27: a request built from distinct indices, in any order, decodes to them in increasing order (every index must be
below 2^64 - 1). -/
theorem C27_round_trip (checks : Bool) (bh : Arr 32) (indexes : List Nat) (hn : indexes.Nodup) (hb : ∀ x ∈ indexes, x < 2 ^ 64 - 1) :
    ∃ r l, fromUnsortedIndices checks bh indexes = some r ∧ r.blockHash = bh ∧ r.indices = .ok l
      ∧ l.Pairwise (· < ·) ∧ l.Perm indexes := by
  have hs := sort_strict hn
  obtain ⟨h1, h2⟩ := offsetsLoop_ok checks (sort indexes) 0 hs (fun x hx => by
    have := hb x ((sort_perm indexes).mem_iff.1 hx); omega)
  refine ⟨⟨bh, gaps 0 (sort indexes)⟩, sort indexes, ?_, rfl, h2, hs, sort_perm _⟩
  unfold fromUnsortedIndices fromIndicesUnchecked
  rw [h1]; rfl

/-- C27: already increasing indices may be passed to the unchecked constructor. -/
theorem C27_unchecked_round_trip (checks : Bool) (bh : Arr 32) (indexes : List Nat) (hs : indexes.Pairwise (· < ·)) (hb : ∀ x ∈ indexes, x < 2 ^ 64 - 1) :
    ∃ r, fromIndicesUnchecked checks bh indexes = some r ∧ r.blockHash = bh ∧ r.indices = .ok indexes := by
  obtain ⟨h1, h2⟩ := offsetsLoop_ok checks indexes 0 hs (fun x hx => by have := hb x hx; omega)
  refine ⟨⟨bh, gaps 0 indexes⟩, ?_, rfl, h2⟩
  unfold fromIndicesUnchecked
  rw [h1]; rfl

theorem offsetsLoop_sound (checks : Bool) (l : List Nat) : ∀ last os r, (∀ x ∈ l, x < 2 ^ 64) → last < 2 ^ 64 →
    offsetsLoop checks l last = some os → indicesLoop os last = .ok r → r = l := by
  induction l with
  | nil =>
    intro last os r _ _ h1 h2
    cases h1; cases h2; rfl
  | cons x l ih =>
    intro last os r hb hl h1 h2
    unfold offsetsLoop at h1
    split at h1
    · rename_i o last' ho ha
      cases hm : offsetsLoop checks l last' with
      | none => rw [hm] at h1; cases h1
      | some os' =>
        rw [hm] at h1
        cases h1
        have hx := hb x List.mem_cons_self
        have hsum : last + o = x ∨ 2 ^ 64 ≤ last + o := by
          unfold subU at ho
          split at ho
          · cases ho; left; omega
          · split at ho
            · cases ho
            · cases ho; right; omega
        unfold indicesLoop at h2
        split at h2
        · split at h2
          · split at h2
            · cases h2
            · rename_i g1 g2 _ r' hr
              cases h2
              have hxx : last + o = x := by omega
              have : last' = x + 1 := by
                unfold addU at ha
                rw [if_pos (by omega)] at ha
                cases ha; rfl
              subst this
              rw [hxx] at hr ⊢
              rw [ih (x + 1) os' r' (fun y hy => hb y (List.mem_cons_of_mem _ hy)) (by omega) hm hr]
          · cases h2
        · cases h2
    · cases h1

/-- C27: whatever the input, including repeated indices and builds without overflow checks, a constructed request either
fails to decode or decodes to exactly the indices asked for. -/
theorem C27_never_wrong (checks : Bool) (bh : Arr 32) (indexes : List Nat) (hb : ∀ x ∈ indexes, x < 2 ^ 64) (r : Request) (l : List Nat) :
    (fromIndicesUnchecked checks bh indexes = some r → r.indices = .ok l → l = indexes)
    ∧ (fromUnsortedIndices checks bh indexes = some r → r.indices = .ok l → l.Pairwise (· < ·) ∧ l.Perm indexes) := by
  have key : ∀ ix, (∀ x ∈ ix, x < 2 ^ 64) → fromIndicesUnchecked checks bh ix = some r → r.indices = .ok l → l = ix := by
    intro ix hix h1 h2
    unfold fromIndicesUnchecked at h1
    cases ho : offsetsLoop checks ix 0 with
    | none => rw [ho] at h1; cases h1
    | some os =>
      rw [ho] at h1
      cases h1
      exact offsetsLoop_sound checks ix 0 os l hix (by omega) ho h2
  refine ⟨key indexes hb, fun h1 h2 => ?_⟩
  have := key (sort indexes) (fun x hx => hb x ((sort_perm _).mem_iff.1 hx)) h1 h2
  exact ⟨(C27_indices_increasing r l h2).1, this ▸ sort_perm _⟩

/-- C27 finding: on repeated indices (or the index 2^64 - 1) the constructor panics when overflow checks are on; without
them it returns a request whose `indices` fails. -/
theorem C27_duplicates (bh : Arr 32) (indexes : List Nat) (hb : ∀ x ∈ indexes, x < 2 ^ 64)
    (h : ¬ (indexes.Nodup ∧ ∀ x ∈ indexes, x < 2 ^ 64 - 1)) :
    fromUnsortedIndices true bh indexes = none
    ∧ ∃ r e, fromUnsortedIndices false bh indexes = some r ∧ r.indices = .error e := by
  have aux : ∀ (l : List Nat) last, (∀ x ∈ l, x < 2 ^ 64) → ∀ os, offsetsLoop true l last = some os →
      l.Pairwise (· < ·) ∧ ∀ x ∈ l, last ≤ x ∧ x + 1 < 2 ^ 64 := by
    intro l
    induction l with
    | nil => intro last _ os _; simp
    | cons x l ih =>
      intro last hl os hos
      unfold offsetsLoop at hos
      split at hos
      · rename_i o last' ho ha
        cases hm : offsetsLoop true l last' with
        | none => rw [hm] at hos; cases hos
        | some os' =>
          have h1 : last ≤ x := by
            unfold subU at ho
            split at ho
            · assumption
            · cases ho
          have h2 : x + 1 < 2 ^ 64 ∧ last' = x + 1 := by
            unfold addU at ha
            split at ha
            · cases ha; exact ⟨by assumption, rfl⟩
            · cases ha
          obtain ⟨h2, rfl⟩ := h2
          obtain ⟨i1, i2⟩ := ih (x + 1) (fun y hy => hl y (List.mem_cons_of_mem _ hy)) os' hm
          refine ⟨List.pairwise_cons.2 ⟨fun y hy => by have := (i2 y hy).1; omega, i1⟩, ?_⟩
          intro y hy
          rcases List.mem_cons.1 hy with rfl | hy
          · exact ⟨h1, h2⟩
          · have := i2 y hy; omega
      · cases hos
  have tot : ∀ (l : List Nat) last, ∃ os, offsetsLoop false l last = some os := by
    intro l
    induction l with
    | nil => intro last; exact ⟨[], rfl⟩
    | cons x l ih =>
      intro last
      have hs : ∃ o, subU false x last = some o := by unfold subU; split <;> exact ⟨_, rfl⟩
      have ha : ∃ o, addU false x 1 = some o := by unfold addU; split <;> exact ⟨_, rfl⟩
      obtain ⟨o, hs⟩ := hs
      obtain ⟨a, ha⟩ := ha
      obtain ⟨os, ho⟩ := ih a
      refine ⟨o :: os, ?_⟩
      unfold offsetsLoop
      rw [hs, ha]
      simp only [ho, Option.map_some]
  have hbs : ∀ x ∈ sort indexes, x < 2 ^ 64 := fun x hx => hb x ((sort_perm _).mem_iff.1 hx)
  have bad : ¬ ((sort indexes).Pairwise (· < ·) ∧ ∀ x ∈ sort indexes, x + 1 < 2 ^ 64) := by
    rintro ⟨h1, h2⟩
    apply h
    refine ⟨(sort_perm _).nodup_iff.1 (h1.imp fun hab => Nat.ne_of_lt hab), fun x hx => ?_⟩
    have := h2 x ((sort_perm _).mem_iff.2 hx); omega
  constructor
  · unfold fromUnsortedIndices fromIndicesUnchecked
    cases ho : offsetsLoop true (sort indexes) 0 with
    | none => rfl
    | some os =>
      obtain ⟨h1, h2⟩ := aux _ _ hbs os ho
      exact absurd ⟨h1, fun x hx => (h2 x hx).2⟩ bad
  · obtain ⟨os, ho⟩ := tot (sort indexes) 0
    have hf : fromUnsortedIndices false bh indexes = some ⟨bh, os⟩ := by
      unfold fromUnsortedIndices fromIndicesUnchecked
      rw [ho]; rfl
    cases hi : (Request.mk bh os).indices with
    | error e => exact ⟨_, e, hf, hi⟩
    | ok l =>
      exfalso
      obtain ⟨h1, h2⟩ := (C27_never_wrong false bh indexes hb _ l).2 hf hi
      have h3 := (C27_indices_increasing _ l hi).2
      apply h
      exact ⟨h2.nodup_iff.1 (h1.imp fun hab => Nat.ne_of_lt hab), fun x hx => h3 x (h2.mem_iff.2 hx)⟩

theorem collect_spec (txs : List Tx) (l : List Nat) :
    (∀ ts, collect txs l = .ok ts ↔ l.map (fun i => txs[i]?) = ts.map some)
    ∧ (∀ e, collect txs l = .error e ↔ l.find? (fun i => decide (txs.length ≤ i)) = some e) := by
  induction l with
  | nil => exact ⟨fun ts => by cases ts <;> simp [collect], fun e => by simp [collect]⟩
  | cons i l ih =>
    obtain ⟨ih1, ih2⟩ := ih
    unfold collect
    by_cases hi : i < txs.length
    · rw [List.getElem?_eq_getElem hi]
      have hne : ¬ txs.length ≤ i := by omega
      simp only
      cases hc : collect txs l with
      | error e =>
        refine ⟨fun ts => ⟨(fun h => by cases h), fun h => ?_⟩, fun e' => ?_⟩
        · cases ts with
          | nil => simp at h
          | cons t ts =>
            simp only [List.map_cons, List.cons.injEq] at h
            rw [(ih1 ts).2 h.2] at hc; cases hc
        · rw [List.find?_cons, decide_eq_false hne]
          simp only
          rw [← ih2 e', hc]
      | ok ts' =>
        refine ⟨fun ts => ?_, fun e' => ?_⟩
        · have := (ih1 ts').1 hc
          simp only [List.map_cons, List.getElem?_eq_getElem hi, this]
          constructor
          · intro h; cases h; simp
          · intro h
            cases ts with
            | nil => simp at h
            | cons t ts =>
              simp only [List.map_cons, List.cons.injEq, Option.some.injEq] at h
              have h2 : ts' = ts := (List.map_inj_right (fun a b => Option.some.inj)).1 h.2
              rw [h.1, h2]
        · rw [List.find?_cons, decide_eq_false hne]
          simp only
          rw [← ih2 e', hc]
          constructor <;> intro h <;> cases h
    · rw [List.getElem?_eq_none (by omega)]
      simp only
      refine ⟨fun ts => ⟨(fun h => by cases h), fun h => ?_⟩, fun e => ?_⟩
      · cases ts with
        | nil => simp at h
        | cons t ts => rw [List.map_cons, List.getElem?_eq_none (by omega)] at h; simp at h
      · rw [List.find?_cons, decide_eq_true (by omega)]
        simp

/-- C27: the transactions returned for a request are those of the block at the requested indices, in order; the request is
refused exactly when its indices overflow or one of them is not in the block, and then the error names the first such. -/
theorem C27_from_request (r : Request) (b : Block) :
    (∀ t, fromRequest r b = .ok t ↔ ∃ l, r.indices = .ok l ∧ t.blockHash = r.blockHash ∧ l.map (fun i => b.txs[i]?) = t.txs.map some)
    ∧ (∀ e, fromRequest r b = .error e ↔ r.indices = .error e
        ∨ ∃ l, r.indices = .ok l ∧ l.find? (fun i => decide (b.txs.length ≤ i)) = some e) := by
  unfold fromRequest
  cases hi : r.indices with
  | error e => exact ⟨fun t => by simp, fun e' => by simp⟩
  | ok l =>
    obtain ⟨h1, h2⟩ := collect_spec b.txs l
    simp only
    cases hc : collect b.txs l with
    | error e =>
      simp only
      refine ⟨fun t => ⟨(fun h => by cases h), ?_⟩, fun e' => ?_⟩
      · rintro ⟨l', hl, _, h⟩
        cases hl
        rw [(h1 _).2 h] at hc; cases hc
      · have := (h2 e).1 hc
        constructor
        · intro h; cases h; exact .inr ⟨l, rfl, this⟩
        · rintro (h | ⟨l', hl, h⟩)
          · cases h
          · cases hl; rw [this] at h; cases h; rfl
    | ok ts =>
      simp only
      have := (h1 ts).1 hc
      refine ⟨fun t => ⟨fun h => ?_, ?_⟩, fun e' => ⟨(fun h => by cases h), ?_⟩⟩
      · cases h; exact ⟨l, rfl, rfl, this⟩
      · rintro ⟨l', hl, hb, h⟩
        cases hl
        rw [this] at h
        have h2 : ts = t.txs := (List.map_inj_right (fun a b => Option.some.inj)).1 h
        rw [h2, ← hb]
      · rintro (h | ⟨l', hl, h⟩)
        · cases h
        · cases hl; rw [← h2] at h; rw [h] at hc; cases hc

/-! ### C28 -/

/-- Reading a compact block back (BIP-152): a prefilled transaction comes after as many short ids as its index says. -/
def rebuild {τ σ : Type} : List (Nat × τ) → List σ → Option (List (τ ⊕ σ))
  | [], s => some (s.map .inr)
  | (d, t) :: ps, s =>
    if d ≤ s.length then (rebuild ps (s.drop d)).map fun r => (s.take d).map .inr ++ .inl t :: r
    else none

/-- What should be at a position of the compact block. -/
def slot {σ : Type} (f : Tx → Tx) (g : Tx → Option σ) (prefill : List Nat) (i : Nat) (tx : Tx) : Option (Tx ⊕ σ) :=
  if i = 0 ∨ i ∈ prefill then some (.inl (f tx)) else (g tx).map .inr

theorem blockLoop_spec {σ : Type} (f : Tx → Tx) (g : Tx → Option σ) (txs : List Tx) : ∀ (idx : Nat) (prefill : List Nat) (last : Nat) (out : List (Tx ⊕ σ)) (pre : List σ),
    prefill.Pairwise (· < ·) → (∀ p ∈ prefill, idx ≤ p ∧ p < idx + txs.length) → last ≤ idx → idx + txs.length ≤ last + 65536 ∨ idx + txs.length ≤ 65536 →
    pre.length = idx - last → (txs.mapIdx fun i tx => slot f g prefill (idx + i) tx) = out.map some →
    ∃ s p, blockLoop f g txs idx prefill last = some (s, p, [])
      ∧ rebuild (p.map fun x => (x.idx, x.tx)) (pre ++ s) = some (pre.map .inr ++ out) := by
  induction txs with
  | nil =>
    intro idx prefill last out pre hp hb hl hu hpre hout
    have : prefill = [] := by
      cases prefill with
      | nil => rfl
      | cons p ps => have := hb p List.mem_cons_self; simp at this; omega
    subst this
    have hout' : out = [] := by cases out with | nil => rfl | cons a l => simp at hout
    subst hout'
    exact ⟨[], [], rfl, by simp [rebuild]⟩
  | cons tx txs ih =>
    intro idx prefill last out pre hp hb hl hu hpre hout
    rw [List.mapIdx_cons] at hout
    cases out with
    | nil => simp at hout
    | cons o out =>
      rw [List.map_cons, List.cons.injEq] at hout
      obtain ⟨ho, hout⟩ := hout
      simp only [Nat.add_zero] at ho
      have hlen : (tx :: txs).length = txs.length + 1 := rfl
      rw [hlen] at hb hu
      -- what the loop decides about this position
      have hdec : ∃ (b : Bool) (prefill' : List Nat),
          (if prefill.head? = some idx then (true, prefill.tail) else (decide (idx = 0), prefill)) = (b, prefill')
          ∧ (b = true ↔ idx = 0 ∨ idx ∈ prefill) ∧ prefill'.Pairwise (· < ·) ∧ (∀ p ∈ prefill', idx + 1 ≤ p ∧ p < idx + 1 + txs.length)
          ∧ ∀ j, idx < j → (j ∈ prefill' ↔ j ∈ prefill) := by
        by_cases hh : prefill.head? = some idx
        · rw [if_pos hh]
          cases prefill with
          | nil => simp at hh
          | cons p ps =>
            simp only [List.head?_cons, Option.some.injEq] at hh
            subst hh
            obtain ⟨p1, p2⟩ := List.pairwise_cons.1 hp
            refine ⟨true, ps, rfl, by simp, p2, fun q hq => ?_, fun j hj => ?_⟩
            · have := p1 q hq; have := hb q (List.mem_cons_of_mem _ hq); omega
            · rw [List.mem_cons]
              exact ⟨.inr, fun h => h.elim (fun e => absurd e (by omega)) id⟩
        · rw [if_neg hh]
          have hnot : idx ∉ prefill := by
            intro hm
            cases prefill with
            | nil => simp at hm
            | cons p ps =>
              have h1 := hb p List.mem_cons_self
              rcases List.mem_cons.1 hm with rfl | hm
              · simp at hh
              · have := (List.pairwise_cons.1 hp).1 _ hm; omega
          refine ⟨decide (idx = 0), prefill, rfl, by simp [hnot], hp, fun q hq => ?_, fun j _ => Iff.rfl⟩
          have h1 := hb q hq
          have : q ≠ idx := fun e => hnot (e ▸ hq)
          omega
      obtain ⟨b, prefill', e1, e2, e3, e4, e5⟩ := hdec
      have hout' : (txs.mapIdx fun i t => slot f g prefill' (idx + 1 + i) t) = out.map some := by
        rw [← hout]
        apply List.ext_getElem
        · simp
        · intro n h1 h2
          simp only [List.getElem_mapIdx]
          unfold slot
          have hiff : (idx + 1 + n = 0 ∨ idx + 1 + n ∈ prefill') ↔ (idx + (n + 1) = 0 ∨ idx + (n + 1) ∈ prefill) := by
            rw [show idx + 1 + n = idx + (n + 1) by omega, e5 _ (by omega)]
          by_cases hc : idx + (n + 1) = 0 ∨ idx + (n + 1) ∈ prefill
          · rw [if_pos hc, if_pos (hiff.2 hc)]
          · rw [if_neg hc, if_neg (fun h => hc (hiff.1 h))]
      unfold blockLoop
      rw [e1]
      simp only
      cases b with
      | true =>
        rw [if_pos rfl]
        have hs : o = .inl (f tx) := by
          unfold slot at ho
          rw [if_pos (e2.1 rfl)] at ho
          exact (Option.some.inj ho).symm
        obtain ⟨s, p, i1, i2⟩ := ih (idx + 1) prefill' (idx + 1) out [] e3 e4 (by omega) (by omega) (by simp) hout'
        refine ⟨s, _, by rw [i1]; rfl, ?_⟩
        rw [List.map_cons, rebuild]
        have hd : (idx - last) % 2 ^ 16 = pre.length := by rw [hpre]; exact Nat.mod_eq_of_lt (by omega)
        simp only [hd]
        rw [if_pos (by simp), List.drop_left' rfl, List.take_left' rfl]
        simp only [List.nil_append, List.map_nil] at i2
        rw [i2, hs]
        simp
      | false =>
        rw [if_neg (by simp)]
        have hs : ∃ s0, g tx = some s0 ∧ o = .inr s0 := by
          unfold slot at ho
          rw [if_neg (fun h => by have := e2.2 h; cases this)] at ho
          cases hg : g tx with
          | none => rw [hg] at ho; cases ho
          | some s0 => rw [hg] at ho; exact ⟨s0, rfl, (Option.some.inj ho).symm⟩
        obtain ⟨s0, hg, hs⟩ := hs
        obtain ⟨s, p, i1, i2⟩ := ih (idx + 1) prefill' last out (pre ++ [s0]) e3 e4 (by omega) (by omega)
          (by rw [List.length_append, List.length_singleton]; omega) hout'
        refine ⟨s0 :: s, p, by rw [hg]; simp only; rw [i1]; rfl, ?_⟩
        rw [show pre ++ s0 :: s = pre ++ [s0] ++ s by simp, i2, hs]
        simp

theorem strict_length (l : List Nat) : ∀ a n, l.Pairwise (· < ·) → (∀ x ∈ l, a ≤ x ∧ x < n) → l.length ≤ n - a := by
  induction l with
  | nil => intro a n _ _; simp
  | cons x l ih =>
    intro a n hp hb
    obtain ⟨p1, p2⟩ := List.pairwise_cons.1 hp
    have hx := hb x List.mem_cons_self
    have := ih (x + 1) n p2 (fun y hy => ⟨p1 y hy, (hb y (List.mem_cons_of_mem _ hy)).2⟩)
    rw [List.length_cons]
    omega

/-- The ids used by version 1 and 2 and the transactions sent, in words: version 1 uses the txid and sends the transaction
without witnesses, version 2 the wtxid and the transaction itself.  A short id is the first six bytes of the SipHash of
the id under the keys, which are the first two words of SHA-256 of the header and the nonce. -/
def IdOf (sip : Nat → Nat → Bytes → Nat) (H1 H : Bytes → Arr 32) (h : Header) (nonce : UInt64) (version : Nat) (tx : Tx) : Option (Arr 6) :=
  let d := (H1 (headerBytes h ++ leBytes 8 nonce.toNat)).val
  let k0 := leNat (d.take 8)
  let k1 := leNat ((d.drop 8).take 8)
  (if version = 1 then tx.txid H else tx.wtxid H).map fun id =>
    ⟨(leBytes 8 (sip k0 k1 id.val)).take 6, by simp⟩

def Sent (version : Nat) (tx : Tx) : Tx :=
  if version = 1 then { tx with inputs := tx.inputs.map fun i => { i with witness := Wit.empty } } else tx

/-- C28: for every block of at most 65536 transactions whose ids can be computed and every increasing list of positions in
the block, the compact block has, read back as BIP-152 says, at every position either the transaction itself (the first
one and those asked for) or its short id. -/
theorem C28_covers_partial (sip : Nat → Nat → Bytes → Nat) (H1 H : Bytes → Arr 32) (b : Block) (nonce : UInt64) (version : Nat) (prefill : List Nat)
    (hv : version = 1 ∨ version = 2) (hn : b.txs.length ≤ 65536) (hp : prefill.Pairwise (· < ·)) (hb : ∀ p ∈ prefill, p < b.txs.length)
    (hid : ∀ tx ∈ b.txs, IdOf sip H1 H b.header nonce version tx ≠ none) :
    ∃ c out, fromBlock sip H1 H b nonce version prefill = some (.ok c) ∧ c.header = b.header ∧ c.nonce = nonce
      ∧ rebuild (c.prefilled.map fun x => (x.idx, x.tx)) c.shortIds = some out
      ∧ (b.txs.mapIdx fun i tx => if i = 0 ∨ i ∈ prefill then some (.inl (Sent version tx))
          else (IdOf sip H1 H b.header nonce version tx).map .inr) = out.map some := by
  have hg : idOf sip H (sipKeys H1 b.header nonce) version = IdOf sip H1 H b.header nonce version := rfl
  have hf : sent version = Sent version := rfl
  have hout : ∃ out : List (Tx ⊕ Arr 6), (b.txs.mapIdx fun i tx => slot (Sent version) (IdOf sip H1 H b.header nonce version) prefill (0 + i) tx) = out.map some := by
    have : ∀ x ∈ (b.txs.mapIdx fun i tx => slot (Sent version) (IdOf sip H1 H b.header nonce version) prefill (0 + i) tx), x ≠ none := by
      intro x hx
      obtain ⟨i, hi, rfl⟩ := List.mem_mapIdx.1 hx
      unfold slot
      split
      · simp
      · have := hid b.txs[i] (List.getElem_mem hi)
        cases h : IdOf sip H1 H b.header nonce version b.txs[i] with
        | none => exact absurd h this
        | some s => simp
    generalize (b.txs.mapIdx fun i tx => slot (Sent version) (IdOf sip H1 H b.header nonce version) prefill (0 + i) tx) = l at this
    clear hid hb hp
    induction l with
    | nil => exact ⟨[], rfl⟩
    | cons a l ih =>
      obtain ⟨out, h⟩ := ih (fun x hx => this x (List.mem_cons_of_mem _ hx))
      cases a with
      | none => exact absurd rfl (this none List.mem_cons_self)
      | some a => exact ⟨a :: out, by rw [h]; rfl⟩
  obtain ⟨out, hout⟩ := hout
  obtain ⟨s, p, h1, h2⟩ := blockLoop_spec (Sent version) (IdOf sip H1 H b.header nonce version) b.txs 0 prefill 0 out [] hp
    (fun q hq => ⟨by omega, by have := hb q hq; omega⟩) (by omega) (by omega) rfl hout
  have hlen : prefill.length ≤ b.txs.length := by
    have := strict_length prefill 0 b.txs.length hp (fun q hq => ⟨Nat.zero_le _, hb q hq⟩)
    omega
  refine ⟨⟨b.header, nonce, s, p⟩, out, ?_, rfl, rfl, h2, ?_⟩
  · unfold fromBlock
    rw [if_neg (by omega), if_neg (by omega), hg, hf, h1]
    rfl
  · rw [← hout]
    congr 1
    funext i tx
    unfold slot
    rw [Nat.zero_add]

theorem blockLoop_total {σ : Type} (f : Tx → Tx) (g : Tx → Option σ) (txs : List Tx) : ∀ (idx : Nat) (prefill : List Nat) (last : Nat),
    (∀ tx ∈ txs, g tx ≠ none) → ∃ s p r, blockLoop f g txs idx prefill last = some (s, p, r) := by
  induction txs with
  | nil => intro idx prefill last _; exact ⟨[], [], prefill, rfl⟩
  | cons tx txs ih =>
    intro idx prefill last hg
    unfold blockLoop
    generalize (if prefill.head? = some idx then (true, prefill.tail) else (decide (idx = 0), prefill)) = q
    obtain ⟨b, prefill'⟩ := q
    cases b with
    | true =>
      obtain ⟨s, p, r, h⟩ := ih (idx + 1) prefill' (idx + 1) (fun t ht => hg t (List.mem_cons_of_mem _ ht))
      simp only [if_true]
      rw [h]
      exact ⟨_, _, _, rfl⟩
    | false =>
      obtain ⟨s, p, r, h⟩ := ih (idx + 1) prefill' last (fun t ht => hg t (List.mem_cons_of_mem _ ht))
      have h0 := hg tx List.mem_cons_self
      cases hgt : g tx with
      | none => exact absurd hgt h0
      | some s0 =>
        simp only [Bool.false_eq_true, if_false]
        rw [h]
        exact ⟨_, _, _, rfl⟩

theorem blockLoop_used {σ : Type} (f : Tx → Tx) (g : Tx → Option σ) (txs : List Tx) : ∀ (idx : Nat) (prefill : List Nat) (last : Nat) (s : List σ) (p : List Prefilled),
    blockLoop f g txs idx prefill last = some (s, p, []) → prefill.Pairwise (· < ·) ∧ ∀ q ∈ prefill, idx ≤ q ∧ q < idx + txs.length := by
  induction txs with
  | nil =>
    intro idx prefill last s p h
    cases h
    simp
  | cons tx txs ih =>
    intro idx prefill last s p h
    have hq : ∃ b prefill', (if prefill.head? = some idx then (true, prefill.tail) else (decide (idx = 0), prefill)) = (b, prefill')
        ∧ (prefill = idx :: prefill' ∨ prefill = prefill') := by
      by_cases hh : prefill.head? = some idx
      · cases prefill with
        | nil => simp at hh
        | cons a l =>
          have : a = idx := by simpa using hh
          subst this
          exact ⟨true, l, by rw [if_pos hh]; rfl, .inl rfl⟩
      · exact ⟨_, prefill, by rw [if_neg hh], .inr rfl⟩
    obtain ⟨b, prefill', e, hor⟩ := hq
    unfold blockLoop at h
    rw [e] at h
    have hrec : ∃ last' s' p', blockLoop f g txs (idx + 1) prefill' last' = some (s', p', []) := by
      cases b with
      | true =>
        simp only [if_true] at h
        cases hr : blockLoop f g txs (idx + 1) prefill' (idx + 1) with
        | none => rw [hr] at h; cases h
        | some x =>
          obtain ⟨s', p', r'⟩ := x
          rw [hr] at h
          cases h
          exact ⟨_, _, _, hr⟩
      | false =>
        simp only [Bool.false_eq_true, if_false] at h
        cases hgt : g tx with
        | none => rw [hgt] at h; cases h
        | some s0 =>
          rw [hgt] at h
          simp only at h
          cases hr : blockLoop f g txs (idx + 1) prefill' last with
          | none => rw [hr] at h; cases h
          | some x =>
            obtain ⟨s', p', r'⟩ := x
            rw [hr] at h
            cases h
            exact ⟨_, _, _, hr⟩
    obtain ⟨last', s', p', hr⟩ := hrec
    obtain ⟨i1, i2⟩ := ih _ _ _ _ _ hr
    rw [List.length_cons]
    rcases hor with rfl | rfl
    · refine ⟨List.pairwise_cons.2 ⟨fun q hq => by have := (i2 q hq).1; omega, i1⟩, fun q hq => ?_⟩
      rcases List.mem_cons.1 hq with rfl | hq
      · omega
      · have := i2 q hq; omega
    · exact ⟨i1, fun q hq => by have := i2 q hq; omega⟩

theorem blockLoop_done {σ : Type} (f : Tx → Tx) (g : Tx → Option σ) (txs : List Tx) : ∀ (idx : Nat) (prefill : List Nat) (last : Nat),
    prefill.Pairwise (· < ·) → (∀ q ∈ prefill, idx ≤ q ∧ q < idx + txs.length) → ∀ {s p r}, blockLoop f g txs idx prefill last = some (s, p, r) → r = [] := by
  induction txs with
  | nil =>
    intro idx prefill last _ hb s p r h
    cases h
    cases prefill with
    | nil => rfl
    | cons q l => have := hb q List.mem_cons_self; simp at this; omega
  | cons tx txs ih =>
    intro idx prefill last hp hb s p r h
    rw [List.length_cons] at hb
    have hq : ∃ b prefill', (if prefill.head? = some idx then (true, prefill.tail) else (decide (idx = 0), prefill)) = (b, prefill')
        ∧ prefill'.Pairwise (· < ·) ∧ (∀ q ∈ prefill', idx + 1 ≤ q ∧ q < idx + 1 + txs.length) := by
      cases prefill with
      | nil => exact ⟨_, [], by rw [if_neg (by simp)], hp, by simp⟩
      | cons a l =>
        obtain ⟨p1, p2⟩ := List.pairwise_cons.1 hp
        have ha := hb a List.mem_cons_self
        by_cases hh : a = idx
        · refine ⟨true, l, by rw [if_pos (by simp [hh])]; rfl, p2, fun q hq => ?_⟩
          have := p1 q hq; have := hb q (List.mem_cons_of_mem _ hq); omega
        · refine ⟨_, a :: l, by rw [if_neg (by simpa using hh)], hp, fun q hq => ?_⟩
          have h2 := hb q hq
          rcases List.mem_cons.1 hq with rfl | hq
          · omega
          · have := p1 q hq; omega
    obtain ⟨b, prefill', e, h1, h2⟩ := hq
    unfold blockLoop at h
    rw [e] at h
    cases b with
    | true =>
      simp only [if_true] at h
      cases hr : blockLoop f g txs (idx + 1) prefill' (idx + 1) with
      | none => rw [hr] at h; cases h
      | some x =>
        obtain ⟨s', p', r'⟩ := x
        rw [hr] at h
        cases h
        exact ih _ _ _ h1 h2 hr
    | false =>
      simp only [Bool.false_eq_true, if_false] at h
      cases hgt : g tx with
      | none => rw [hgt] at h; cases h
      | some s0 =>
        rw [hgt] at h
        simp only at h
        cases hr : blockLoop f g txs (idx + 1) prefill' last with
        | none => rw [hr] at h; cases h
        | some x =>
          obtain ⟨s', p', r'⟩ := x
          rw [hr] at h
          cases h
          exact ih _ _ _ h1 h2 hr

/-- C28: which requests for a compact block are refused: an unknown version, or a list of positions that is not
increasing or leaves the block.  A list longer than the block panics instead. -/
theorem C28_refused (sip : Nat → Nat → Bytes → Nat) (H1 H : Bytes → Arr 32) (b : Block) (nonce : UInt64) (version : Nat) (prefill : List Nat)
    (hid : ∀ tx ∈ b.txs, IdOf sip H1 H b.header nonce version tx ≠ none) :
    (fromBlock sip H1 H b nonce version prefill = some (.error .unknownVersion) ↔ version ≠ 1 ∧ version ≠ 2)
    ∧ (fromBlock sip H1 H b nonce version prefill = none ↔ (version = 1 ∨ version = 2) ∧ b.txs.length < prefill.length)
    ∧ (fromBlock sip H1 H b nonce version prefill = some (.error .invalidPrefill) ↔
        (version = 1 ∨ version = 2) ∧ prefill.length ≤ b.txs.length
          ∧ ¬ (prefill.Pairwise (· < ·) ∧ ∀ p ∈ prefill, p < b.txs.length))
    ∧ ((∃ c, fromBlock sip H1 H b nonce version prefill = some (.ok c)) ↔
        (version = 1 ∨ version = 2) ∧ prefill.Pairwise (· < ·) ∧ ∀ p ∈ prefill, p < b.txs.length) := by
  have hlen : (prefill.Pairwise (· < ·) ∧ ∀ p ∈ prefill, p < b.txs.length) → prefill.length ≤ b.txs.length := by
    rintro ⟨h1, h2⟩
    have := strict_length prefill 0 b.txs.length h1 (fun q hq => ⟨Nat.zero_le _, h2 q hq⟩)
    omega
  obtain ⟨s, p, r, hs⟩ := blockLoop_total (sent version) (IdOf sip H1 H b.header nonce version) b.txs 0 prefill 0 hid
  have hg : idOf sip H (sipKeys H1 b.header nonce) version = IdOf sip H1 H b.header nonce version := rfl
  have hr : r = [] ↔ (prefill.Pairwise (· < ·) ∧ ∀ p ∈ prefill, p < b.txs.length) := by
    constructor
    · rintro rfl
      obtain ⟨i1, i2⟩ := blockLoop_used _ _ _ _ _ _ _ _ hs
      exact ⟨i1, fun q hq => by have := (i2 q hq).2; omega⟩
    · rintro ⟨h1, h2⟩
      exact blockLoop_done (sent version) _ b.txs 0 prefill 0 h1 (fun q hq => ⟨Nat.zero_le _, by have := h2 q hq; omega⟩) hs
  unfold fromBlock
  by_cases hv : version ≠ 1 ∧ version ≠ 2
  · rw [if_pos hv]
    have hv' : ¬ (version = 1 ∨ version = 2) := by omega
    refine ⟨by simp [hv], by simp [hv'], by simp [hv'], by simp [hv']⟩
  · rw [if_neg hv]
    have hv' : version = 1 ∨ version = 2 := by omega
    by_cases hl : b.txs.length < prefill.length
    · rw [if_pos hl]
      refine ⟨by simp; omega, by simp [hv', hl], ?_, ?_⟩
      · simp; intro _ h; omega
      · simp only [hv', true_and]
        constructor
        · rintro ⟨c, h⟩; cases h
        · intro h; have := hlen h; omega
    · rw [if_neg hl, hg, hs]
      simp only
      by_cases hre : r = []
      · have hgood := hr.1 hre
        rw [if_pos (by rw [hre]; rfl)]
        refine ⟨by simp; omega, by simp; omega, ?_, ?_⟩
        · constructor
          · intro h; cases h
          · rintro ⟨_, _, h⟩; exact absurd hgood h
        · exact ⟨fun _ => ⟨hv', hgood⟩, fun _ => ⟨_, rfl⟩⟩
      · rw [if_neg (by simpa using hre)]
        have hbad := fun h => hre (hr.2 h)
        refine ⟨by simp; omega, by simp; omega, ?_, ?_⟩
        · exact ⟨fun _ => ⟨hv', by omega, hbad⟩, fun _ => rfl⟩
        · constructor
          · rintro ⟨c, h⟩; cases h
          · rintro ⟨_, h⟩; exact absurd h hbad

/-- A run of transactions that are not prefilled. -/
theorem blockLoop_skip {σ : Type} (f : Tx → Tx) (g : Tx → Option σ) (txs rest : List Tx) : ∀ (idx q last : Nat), 0 < idx → idx + txs.length = q →
    (∀ tx ∈ txs, g tx ≠ none) → ∃ s, s.length = txs.length ∧
      blockLoop f g (txs ++ rest) idx [q] last = (blockLoop f g rest q [q] last).map fun (s', p, r) => (s ++ s', p, r) := by
  induction txs with
  | nil =>
    intro idx q last _ hq _
    have : idx = q := by simpa using hq
    subst this
    refine ⟨[], rfl, ?_⟩
    rw [List.nil_append]
    cases blockLoop f g rest idx [idx] last <;> rfl
  | cons tx txs ih =>
    intro idx q last h0 hq hg
    rw [List.length_cons] at hq
    obtain ⟨s, h1, h2⟩ := ih (idx + 1) q last (by omega) (by omega) (fun t ht => hg t (List.mem_cons_of_mem _ ht))
    cases hgt : g tx with
    | none => exact absurd hgt (hg tx List.mem_cons_self)
    | some s0 =>
      refine ⟨s0 :: s, by rw [List.length_cons, List.length_cons, h1], ?_⟩
      rw [List.cons_append, blockLoop, if_neg (by simp; omega)]
      simp only
      rw [decide_eq_false (by omega), hgt]
      simp only [Bool.false_eq_true, if_false]
      rw [h2, Option.map_map]
      cases blockLoop f g rest q [q] last <;> rfl

/-- C28 finding: the differential index is cut to 16 bits, so with more than 65536 short ids between two prefilled
transactions the compact block no longer has them at their positions: in a block of 65538 transactions with the last
one prefilled, that one is announced as the second transaction of the block. -/
theorem C28_wraps (sip : Nat → Nat → Bytes → Nat) (H1 H : Bytes → Arr 32) (h : Header) (nonce : UInt64) (t0 t1 : Tx) (txs : List Tx)
    (hlen : txs.length = 65536) (hid : ∀ tx ∈ txs, IdOf sip H1 H h nonce 2 tx ≠ none) :
    ∃ s, s.length = 65536 ∧ fromBlock sip H1 H ⟨h, t0 :: txs ++ [t1]⟩ nonce 2 [65537] = some (.ok ⟨h, nonce, s, [⟨0, t0⟩, ⟨0, t1⟩]⟩)
      ∧ rebuild [(0, t0), (0, t1)] s = some (.inl t0 :: .inl t1 :: s.map .inr) := by
  have hg : idOf sip H (sipKeys H1 h nonce) 2 = IdOf sip H1 H h nonce 2 := rfl
  obtain ⟨s, h1, h2⟩ := blockLoop_skip (sent 2) (IdOf sip H1 H h nonce 2) txs [t1] 1 65537 1 (by omega) (by omega) hid
  refine ⟨s, by omega, ?_, by simp [rebuild]⟩
  have h3 : blockLoop (sent 2) (IdOf sip H1 H h nonce 2) [t1] 65537 [65537] 1 = some ([], [⟨0, t1⟩], []) := by
    simp only [blockLoop, List.head?_cons, List.tail_cons, if_true, Option.map_some]
    rfl
  have h4 : blockLoop (sent 2) (IdOf sip H1 H h nonce 2) (t0 :: (txs ++ [t1])) 0 [65537] 0 = some (s, [⟨0, t0⟩, ⟨0, t1⟩], []) := by
    rw [blockLoop, if_neg (by simp)]
    simp only [decide_true, if_true]
    rw [h2, h3]
    simp [sent]
  unfold fromBlock
  rw [if_neg (by simp), if_neg (by simp), hg]
  simp only [List.cons_append]
  rw [h4]
  rfl

/-- The ids can be computed: txids always, wtxids of every decodable transaction. -/
theorem C28_ids (sip : Nat → Nat → Bytes → Nat) (H1 H : Bytes → Arr 32) (h : Header) (nonce : UInt64) (tx : Tx) :
    IdOf sip H1 H h nonce 1 tx ≠ none ∧ (Decodable tx → IdOf sip H1 H h nonce 2 tx ≠ none) := by
  refine ⟨?_, fun hd => ?_⟩
  · unfold IdOf
    rw [if_pos rfl, C11_txid_preimage]
    simp
  · unfold IdOf
    rw [if_neg (by decide)]
    have : tx.wtxid H = some (H (txBytes tx.usesSegwit tx)) := by
      unfold Tx.wtxid
      cases hs : tx.usesSegwit with
      | false => rw [hashTxInput_false]; rfl
      | true =>
        rw [hashTxInput_true tx (fun i hi => by
          obtain ⟨l, h1, h2⟩ := hd.witnesses i hi
          exact hashWitness_good h1.fits h1.sizes h2)]
        rfl
    rw [this]
    simp

example : ∃ r l, fromUnsortedIndices true ⟨List.replicate 32 1, by simp⟩ [7, 0, 3, 2 ^ 64 - 2] = some r ∧ r.blockHash = ⟨List.replicate 32 1, by simp⟩
    ∧ r.indices = .ok l ∧ l.Pairwise (· < ·) ∧ l.Perm [7, 0, 3, 2 ^ 64 - 2] :=
  C27_round_trip true _ _ (by decide) (by decide)
example : ∃ r, fromIndicesUnchecked true ⟨List.replicate 32 1, by simp⟩ [0, 3, 7] = some r ∧ r.blockHash = ⟨List.replicate 32 1, by simp⟩ ∧ r.indices = .ok [0, 3, 7] :=
  C27_unchecked_round_trip true _ _ (by decide) (by decide)
example : (Request.mk ⟨List.replicate 32 1, by simp⟩ [0, 2, 3]).indices = .ok [0, 3, 7] := rfl
example : (Request.mk ⟨List.replicate 32 1, by simp⟩ [5, 2 ^ 64 - 7]).indices = .ok [5, 2 ^ 64 - 1] → False :=
  fun h => absurd ((C27_indices _ _).1 h).1 (by decide)
example : fromUnsortedIndices true ⟨List.replicate 32 1, by simp⟩ [3, 3] = none :=
  (C27_duplicates _ [3, 3] (by decide) (by decide)).1
example : fromUnsortedIndices true ⟨List.replicate 32 1, by simp⟩ [2 ^ 64 - 1] = none :=
  (C27_duplicates _ [2 ^ 64 - 1] (by decide) (by decide)).1
example (a b c : Tx) (h : Header) (bh : Arr 32) :
    fromRequest ⟨bh, [0, 1]⟩ ⟨h, [a, b, c]⟩ = .ok ⟨bh, [a, c]⟩ := by
  exact ((C27_from_request ⟨bh, [0, 1]⟩ ⟨h, [a, b, c]⟩).1 ⟨bh, [a, c]⟩).2 ⟨[0, 2], rfl, rfl, rfl⟩
example (a b c : Tx) (h : Header) (bh : Arr 32) :
    fromRequest ⟨bh, [0, 4, 1]⟩ ⟨h, [a, b, c]⟩ = .error 5 := by
  exact ((C27_from_request ⟨bh, [0, 4, 1]⟩ ⟨h, [a, b, c]⟩).2 5).2 (.inr ⟨[0, 5, 7], rfl, rfl⟩)
example (sip : Nat → Nat → Bytes → Nat) (H1 H : Bytes → Arr 32) : ∃ c out,
    fromBlock sip H1 H ⟨sampleHeader, [sampleTx, sampleTx, sampleTx, sampleTx]⟩ 5 2 [2] = some (.ok c)
      ∧ rebuild (c.prefilled.map fun x => (x.idx, x.tx)) c.shortIds = some out ∧ out.length = 4 := by
  obtain ⟨c, out, h1, _, _, h2, h3⟩ := C28_covers_partial sip H1 H ⟨sampleHeader, [sampleTx, sampleTx, sampleTx, sampleTx]⟩ 5 2 [2] (.inr rfl) (by simp) (by simp) (by simp) (by
    intro tx h; simp at h; subst h; exact (C28_ids sip H1 H _ _ _).2 sampleTx_decodable)
  exact ⟨c, out, h1, h2, by have := congrArg List.length h3; simpa using this.symm⟩
example (sip : Nat → Nat → Bytes → Nat) (H1 H : Bytes → Arr 32) :
    fromBlock sip H1 H ⟨sampleHeader, [sampleTx, sampleTx]⟩ 5 1 [2] = some (.error .invalidPrefill) :=
  (C28_refused sip H1 H ⟨sampleHeader, [sampleTx, sampleTx]⟩ 5 1 [2] (fun tx _ => (C28_ids sip H1 H _ _ tx).1)).2.2.1.2 ⟨.inl rfl, by simp, by simp⟩
example (sip : Nat → Nat → Bytes → Nat) (H1 H : Bytes → Arr 32) : ∃ s : List (Arr 6), s.length = 65536 ∧
    fromBlock sip H1 H ⟨sampleHeader, sampleTx :: List.replicate 65536 sampleTx ++ [sampleTx]⟩ 5 2 [65537] = some (.ok ⟨sampleHeader, 5, s, [⟨0, sampleTx⟩, ⟨0, sampleTx⟩]⟩) := by
  obtain ⟨s, h1, h2, _⟩ := C28_wraps sip H1 H sampleHeader 5 sampleTx sampleTx (List.replicate 65536 sampleTx) List.length_replicate
    (fun tx h => by rw [(List.mem_replicate.1 h).2]; exact (C28_ids sip H1 H _ _ _).2 sampleTx_decodable)
  exact ⟨s, h1, h2⟩

end Bip152
end Btc
