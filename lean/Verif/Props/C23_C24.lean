import Verif.P2p.Pmt
import Verif.Props.C22
/-!
# C23, C24: partial merkle trees
-/
namespace Btc
namespace Pmt
open Merkle
variable {α : Type} [DecidableEq α] (c : α → α → α)

/-- The nodes at height `h` of the merkle tree over `l`. -/
def lev : Nat → List α → List α
  | 0, l => l
  | h + 1, l => level c (lev h l)

theorem width_zero (n : Nat) : width n 0 = n := by simp [width]

theorem width_succ (n h : Nat) : width n (h + 1) = (width n h + 1) / 2 := by
  unfold width
  have hp : 0 < 2 ^ h := Nat.pow_pos (by omega)
  rw [Nat.pow_succ, ← Nat.div_div_eq_div_mul, ← Nat.add_div_right _ hp]
  congr 2
  omega

theorem width_le_iff (n h p : Nat) : p < width n h ↔ p * 2 ^ h < n := by
  unfold width
  have hp : 0 < 2 ^ h := Nat.pow_pos (by omega)
  rw [Nat.lt_iff_add_one_le, Nat.le_div_iff_mul_le hp, Nat.add_mul]
  omega

omit [DecidableEq α] in
theorem lev_length (h : Nat) (l : List α) : (lev c h l).length = width l.length h := by
  induction h with
  | zero => rw [width_zero]; rfl
  | succ h ih => rw [width_succ, ← ih, ← level_length c]; rfl

omit [DecidableEq α] in
theorem level_get : ∀ (l : List α) (p : Nat) (a : α), l[p * 2]? = some a →
    (level c l)[p]? = some (c a (l[p * 2 + 1]?.getD a))
  | [], p, a, h => by simp at h
  | [x], 0, a, h => by simp at h; subst h; simp [level]
  | [x], p + 1, a, h => by
    rw [List.getElem?_eq_none (by simp; omega)] at h
    cases h
  | x :: y :: t, 0, a, h => by simp at h; subst h; simp [level]
  | x :: y :: t, p + 1, a, h => by
    simp only [level, List.getElem?_cons_succ, show (p + 1) * 2 = p * 2 + 1 + 1 by omega] at h ⊢
    exact level_get t p a h

omit [DecidableEq α] in
theorem calcHash_eq (l : List α) : ∀ h pos, pos < width l.length h →
    calcHash c l.length l h pos = (lev c h l)[pos]? := by
  intro h
  induction h with
  | zero => intro pos _; rfl
  | succ h ih =>
    intro pos hp
    rw [width_succ] at hp
    have h1 : pos * 2 < width l.length h := by omega
    unfold calcHash
    have hlen := lev_length c h l
    obtain ⟨a, ha⟩ : ∃ a, (lev c h l)[pos * 2]? = some a := ⟨_, List.getElem?_eq_getElem (by omega)⟩
    rw [ih _ h1, ha]
    simp only
    show _ = (level c (lev c h l))[pos]?
    rw [level_get c _ _ _ ha]
    split
    · next h2 =>
      rw [ih _ h2]
      obtain ⟨b, hb⟩ : ∃ b, (lev c h l)[pos * 2 + 1]? = some b := ⟨_, List.getElem?_eq_getElem (by omega)⟩
      rw [hb]
      rfl
    · next h2 =>
      rw [List.getElem?_eq_none (by omega)]
      rfl

theorem heightLoop_spec (n : Nat) : ∀ fuel h, width n (h + fuel) ≤ 1 →
    (∀ k < h, 1 < width n k) →
    width n (heightLoop n fuel h) ≤ 1 ∧ (∀ k < heightLoop n fuel h, 1 < width n k) ∧
      heightLoop n fuel h ≤ h + fuel := by
  intro fuel
  induction fuel with
  | zero => intro h h1 h2; exact ⟨h1, h2, Nat.le_refl _⟩
  | succ fuel ih =>
    intro h h1 h2
    unfold heightLoop
    split
    · next hw =>
      obtain ⟨g1, g2, g3⟩ := ih (h + 1) (by rwa [show h + 1 + fuel = h + (fuel + 1) by omega]) (fun k hk => by
        rcases Nat.lt_or_eq_of_le (Nat.le_of_lt_succ hk) with hk | rfl
        · exact h2 k hk
        · exact hw)
      exact ⟨g1, g2, by omega⟩
    · next hw => exact ⟨by omega, h2, by omega⟩

theorem width_small (n h : Nat) (hn : n ≤ 2 ^ h) : width n h ≤ 1 := by
  rcases Nat.lt_or_ge 1 (width n h) with h1 | h1
  · rw [width_le_iff] at h1; omega
  · exact h1

theorem height_spec (n : Nat) (hn : n ≤ 2 ^ 32) :
    width n (height n) ≤ 1 ∧ (∀ k < height n, 1 < width n k) := by
  obtain ⟨h1, h2, _⟩ := heightLoop_spec n 32 0 (width_small n _ (by simpa using hn)) (by simp)
  exact ⟨h1, h2⟩

theorem height_le (n m : Nat) (hm : n ≤ 2 ^ m) (hm' : m ≤ 32) : height n ≤ m := by
  have hn : n ≤ 2 ^ 32 := Nat.le_trans hm (Nat.pow_le_pow_right (by omega) hm')
  obtain ⟨_, h2⟩ := height_spec n hn
  rcases Nat.lt_or_ge m (height n) with h | h
  · have h3 := h2 m h
    have h4 := width_small n m hm
    omega
  · exact h

omit [DecidableEq α] in
theorem root_lev (l : List α) (h : Nat) (hk : ∀ k < h, 1 < width l.length k) :
    root c l = root c (lev c h l) := by
  induction h with
  | zero => rfl
  | succ h ih =>
    rw [ih (fun k hk' => hk k (by omega))]
    exact root_eq c (by rw [lev_length]; exact hk h (by omega))

omit [DecidableEq α] in
theorem root_top (l : List α) (hl : l ≠ []) (hn : l.length ≤ 2 ^ 32) :
    ∃ r, root c l = some r ∧ (lev c (height l.length) l)[0]? = some r := by
  obtain ⟨h1, h2⟩ := height_spec l.length hn
  have hpos := List.length_pos_iff.mpr hl
  have hlen := lev_length c (height l.length) l
  have h3 : 0 < width l.length (height l.length) := by rw [width_le_iff]; omega
  rw [root_lev c l _ h2]
  match lev c (height l.length) l, hlen with
  | [r], _ => exact ⟨r, by rw [root], rfl⟩
  | [], hlen => simp at hlen; omega
  | _ :: _ :: _, hlen => simp at hlen; omega

omit [DecidableEq α] in
theorem twins_any (l : List α) : TwinsSomewhere c l ↔ HasTwins l ∨ TwinsSomewhere c (level c l) := by
  by_cases h : 1 < l.length
  · exact twins_eq c h
  · have h1 := not_twins_small c (show l.length ≤ 1 by omega)
    have h2 := not_twins_small c (show (level c l).length ≤ 1 by rw [level_length]; omega)
    have h3 : ¬ HasTwins l := by
      match l, h with
      | [], _ => exact id
      | [_], _ => exact id
      | _ :: _ :: _, h => simp at h
    exact ⟨fun h => absurd h h1, fun h => h.elim (fun h => absurd h h3) (fun h => absurd h h2)⟩

omit [DecidableEq α] in
theorem no_twins_lev (l : List α) (h : ¬ TwinsSomewhere c l) (k : Nat) :
    ¬ TwinsSomewhere c (lev c k l) := by
  induction k with
  | zero => exact h
  | succ k ih =>
    intro hc
    exact ih ((twins_any c _).mpr (.inr hc))

omit [DecidableEq α] in
theorem hasTwins_get : ∀ (l : List α) (p : Nat) (a : α), l[p * 2]? = some a → l[p * 2 + 1]? = some a →
    HasTwins l
  | [], p, a, h, _ => by simp at h
  | [x], 0, a, _, h => by simp at h
  | [x], p + 1, a, h, _ => by
    rw [List.getElem?_eq_none (by simp; omega)] at h
    cases h
  | x :: y :: t, 0, a, h, h' => by
    simp at h h'; exact .inl (h.trans h'.symm)
  | x :: y :: t, p + 1, a, h, h' => by
    simp only [List.getElem?_cons_succ, show (p + 1) * 2 = p * 2 + 1 + 1 by omega] at h h'
    exact .inr (hasTwins_get t p a h h')

/-! ## C23 -/

/-- The matched entries with index in `[lo, lo + k)`. -/
def matchedIn (l : List α) (ms : List Bool) (lo k : Nat) : List (α × Nat) :=
  (List.range' lo k).filterMap fun p => if ms[p]? = some true then l[p]?.map (·, p) else none

omit [DecidableEq α] in
theorem matchedIn_append (l : List α) (ms : List Bool) (lo k k' : Nat) :
    matchedIn l ms lo (k + k') = matchedIn l ms lo k ++ matchedIn l ms (lo + k) k' := by
  unfold matchedIn
  rw [← List.filterMap_append]
  congr 1
  have := List.range'_append (s := lo) (m := k) (n := k') (step := 1)
  rw [Nat.one_mul] at this
  exact this.symm

theorem orMatches_spec (ms : List Bool) : ∀ k lo, lo + k ≤ ms.length →
    ∃ b, orMatches ms k lo = some b ∧ (b = false → ∀ p, lo ≤ p → p < lo + k → ms[p]? = some false) ∧
      (k = 1 → ms[lo]? = some b) := by
  intro k
  induction k with
  | zero => intro lo _; exact ⟨false, rfl, fun _ p h1 h2 => by omega, fun h => by omega⟩
  | succ k ih =>
    intro lo h
    obtain ⟨r, h1, h2, _⟩ := ih (lo + 1) (by omega)
    obtain ⟨b, hb⟩ : ∃ b, ms[lo]? = some b := ⟨_, List.getElem?_eq_getElem (by omega)⟩
    refine ⟨b || r, by unfold orMatches; rw [hb, h1], fun hf p hp1 hp2 => ?_, fun hk => ?_⟩
    · simp only [Bool.or_eq_false_iff] at hf
      rcases Nat.eq_or_lt_of_le hp1 with rfl | hp
      · rw [hb, hf.1]
      · exact h2 hf.2 p (by omega) (by omega)
    · have : k = 0 := by omega
      subst this
      simp only [orMatches, Option.some.injEq] at h1
      subst h1
      rw [hb, Bool.or_false]

omit [DecidableEq α] in
theorem matchedIn_none (l : List α) (ms : List Bool) (lo k : Nat)
    (h : ∀ p, lo ≤ p → p < lo + k → ms[p]? = some false) : matchedIn l ms lo k = [] := by
  unfold matchedIn
  rw [List.filterMap_eq_nil_iff]
  intro p hp
  rw [List.mem_range'_1] at hp
  rw [h p hp.1 hp.2]
  simp

/-- Number of leaves below a node. -/
def leaves (n h pos : Nat) : Nat := min ((pos + 1) * 2 ^ h) n - pos * 2 ^ h

theorem leaves_split (n h pos : Nat) (_hp : pos * 2 ^ (h + 1) < n) :
    (pos * 2 + 1 < width n h → leaves n (h + 1) pos = leaves n h (pos * 2) + leaves n h (pos * 2 + 1) ∧
      leaves n h (pos * 2) = 2 ^ h) ∧
    (¬ pos * 2 + 1 < width n h → leaves n (h + 1) pos = leaves n h (pos * 2)) := by
  rw [width_le_iff]
  unfold leaves
  rw [Nat.pow_succ] at *
  have e1 : pos * (2 ^ h * 2) = pos * 2 * 2 ^ h := by rw [Nat.mul_comm (2 ^ h) 2, Nat.mul_assoc]
  have e2 : (pos + 1) * (2 ^ h * 2) = pos * 2 * 2 ^ h + 2 ^ h + 2 ^ h := by
    rw [Nat.add_mul, e1]; omega
  have e3 : (pos * 2 + 1) * 2 ^ h = pos * 2 * 2 ^ h + 2 ^ h := by rw [Nat.add_mul, Nat.one_mul]
  have e4 : (pos * 2 + 1 + 1) * 2 ^ h = pos * 2 * 2 ^ h + 2 ^ h + 2 ^ h := by
    rw [Nat.add_mul, e3, Nat.one_mul]
  rw [e1] at *
  rw [e2, e3, e4]
  generalize pos * 2 * 2 ^ h = a at *
  have : 0 < 2 ^ h := Nat.pow_pos (by omega)
  generalize 2 ^ h = b at *
  omega

theorem build_extract (l : List α) (ms : List Bool) (hlen : l.length = ms.length)
    (hnt : ¬ TwinsSomewhere c l) : ∀ h pos, pos < width l.length h →
    ∃ bs hs x, build c l.length l ms h pos = some (bs, hs) ∧ (lev c h l)[pos]? = some x ∧
      hs.length ≤ leaves l.length h pos ∧ hs.length ≤ bs.length ∧ bs.length < 2 ^ (h + 1) ∧
      ∀ bits' hashes', extract c l.length h pos (bs ++ bits') (hs ++ hashes') =
        .ok (x, matchedIn l ms (pos * 2 ^ h) (leaves l.length h pos), bits', hashes') := by
  intro h
  induction h with
  | zero =>
    intro pos hp
    have hp' : pos < l.length := by rwa [width_zero] at hp
    have hlv : leaves l.length 0 pos = 1 := by unfold leaves; simp; omega
    obtain ⟨b, h1, _, h3⟩ := orMatches_spec ms (leaves l.length 0 pos) (pos * 2 ^ 0) (by
      rw [hlv]; simp; omega)
    have h3 := h3 hlv
    obtain ⟨x, hx⟩ : ∃ x, l[pos]? = some x := ⟨_, List.getElem?_eq_getElem hp'⟩
    refine ⟨[b], [x], x, ?_, hx, by simp [hlv], by simp, by simp, ?_⟩
    · unfold build
      unfold leaves at h1
      rw [h1]
      simp only [calcHash, hx]
    · intro bits' hashes'
      simp only [Nat.pow_zero, Nat.mul_one] at h3 ⊢
      simp only [List.cons_append, List.nil_append, extract]
      rw [hlv]
      simp only [matchedIn, List.range'_one, List.filterMap_cons, h3, hx]
      cases b <;> simp
  | succ h ih =>
    intro pos hp
    have hp' := hp
    rw [width_le_iff] at hp'
    have hpow : 0 < 2 ^ (h + 1) := Nat.pow_pos (by omega)
    have hle : 1 ≤ leaves l.length (h + 1) pos := by
      unfold leaves
      rw [Nat.add_mul]
      omega
    obtain ⟨b, h1, h2, _⟩ := orMatches_spec ms (leaves l.length (h + 1) pos) (pos * 2 ^ (h + 1)) (by
      unfold leaves; omega)
    obtain ⟨x, hx⟩ : ∃ x, (lev c (h + 1) l)[pos]? = some x :=
      ⟨_, List.getElem?_eq_getElem (by rw [lev_length]; exact hp)⟩
    have hcalc := calcHash_eq c l (h + 1) pos hp
    rw [hx] at hcalc
    unfold build
    unfold leaves at h1
    rw [h1]
    cases b with
    | false =>
      simp only [hcalc]
      refine ⟨[false], [x], x, rfl, hx, by simpa using hle, by simp, ?_, ?_⟩
      · have := Nat.pow_le_pow_right (n := 2) (by omega) (show 1 ≤ h + 1 + 1 by omega)
        simp only [List.length_singleton]; omega
      · intro bits' hashes'
        simp only [List.cons_append, List.nil_append, extract]
        rw [matchedIn_none l ms _ _ (h2 rfl)]
    | true =>
      simp only
      rw [width_succ] at hp
      obtain ⟨b1, s1, x1, g1, g2, g3, g4, g5, g6⟩ := ih (pos * 2) (by omega)
      obtain ⟨sp1, sp2⟩ := leaves_split l.length h pos hp'
      have hmul : pos * 2 ^ (h + 1) = pos * 2 * 2 ^ h := by
        rw [Nat.pow_succ, Nat.mul_comm (2 ^ h) 2, Nat.mul_assoc]
      have hpow2 : 2 ^ (h + 1 + 1) = 2 ^ (h + 1) + 2 ^ (h + 1) := by rw [Nat.pow_succ 2 (h + 1)]; omega
      rw [g1]
      simp only
      have hlx := level_get c _ _ _ g2
      have hx' : (level c (lev c h l))[pos]? = some x := hx
      rw [hlx] at hx'
      by_cases hr : pos * 2 + 1 < width l.length h
      · rw [if_pos hr]
        obtain ⟨b2, s2, x2, k1, k2, k3, k4, k5, k6⟩ := ih (pos * 2 + 1) hr
        rw [k1]
        simp only
        obtain ⟨sp3, sp4⟩ := sp1 hr
        rw [k2] at hx'
        refine ⟨true :: (b1 ++ b2), s1 ++ s2, x, rfl, hx, ?_, ?_, ?_, ?_⟩
        · simp only [List.length_append]; omega
        · simp only [List.length_append, List.length_cons]; omega
        · simp only [List.length_append, List.length_cons]; omega
        · intro bits' hashes'
          simp only [List.cons_append, extract, List.append_assoc]
          rw [g6]
          simp only
          rw [if_pos hr, k6]
          simp only
          have hne : x2 ≠ x1 := by
            rintro rfl
            exact no_twins_lev c l hnt h ((twins_any c _).mpr (.inl (hasTwins_get _ _ _ g2 k2)))
          rw [if_neg hne]
          simp only [Option.getD_some, Option.some.injEq] at hx'
          rw [hx', sp3, hmul, matchedIn_append, sp4]
          rw [show pos * 2 * 2 ^ h + 2 ^ h = (pos * 2 + 1) * 2 ^ h by rw [Nat.add_mul, Nat.one_mul]]
      · rw [if_neg hr]
        rw [List.getElem?_eq_none (by rw [lev_length]; omega)] at hx'
        refine ⟨true :: b1, s1, x, rfl, hx, ?_, ?_, ?_, ?_⟩
        · rw [sp2 hr]; exact g3
        · simp only [List.length_cons]; omega
        · simp only [List.length_cons]; omega
        · intro bits' hashes'
          simp only [List.cons_append, extract]
          rw [g6]
          simp only
          rw [if_neg hr]
          simp only [Option.getD_none, Option.some.injEq] at hx'
          rw [hx', sp2 hr, hmul]

/-- The matched txids with their positions in the block. -/
def matchedTxids (l : List α) (ms : List Bool) : List (α × Nat) :=
  ((l.zip ms).zipIdx.filter fun e => e.1.2).map fun e => (e.1.1, e.2)

omit [DecidableEq α] in
theorem matchedTxids_eq (l : List α) (ms : List Bool) (h : l.length = ms.length) :
    matchedTxids l ms = matchedIn l ms 0 l.length := by
  suffices ∀ (l' : List α) (ms' : List Bool) (pre : List α) (pms : List Bool),
      pre.length = pms.length → l'.length = ms'.length →
      (((l'.zip ms').zipIdx pre.length).filter fun e => e.1.2).map (fun e => (e.1.1, e.2)) =
        matchedIn (pre ++ l') (pms ++ ms') pre.length l'.length from
    this l ms [] [] rfl h
  intro l'
  induction l' with
  | nil => intro ms' pre pms _ _; simp [matchedIn]
  | cons a t ih =>
    intro ms' pre pms h1 h2
    cases ms' with
    | nil => simp at h2
    | cons b u =>
      have := ih u (pre ++ [a]) (pms ++ [b]) (by simp [h1]) (by simpa using h2)
      simp only [List.length_append, List.length_singleton, List.append_assoc, List.cons_append,
        List.nil_append] at this
      rw [List.length_cons, Nat.add_comm t.length 1, matchedIn_append, ← this]
      simp only [List.zip_cons_cons, List.zipIdx_cons, matchedIn, List.range'_one]
      have e1 : (pms ++ b :: u)[pre.length]? = some b := by rw [h1]; simp
      have e2 : (pre ++ a :: t)[pre.length]? = some a := by simp
      cases b <;> simp [e1]

/-- The tree as sent over the wire: the flag bits are padded to whole bytes. -/
def padded (t : Tree α) : Tree α :=
  { t with bits := t.bits ++ List.replicate ((8 - t.bits.length % 8) % 8) false }

theorem extract_built (l : List α) (ms : List Bool) (hlen : l.length = ms.length) (hne : l ≠ [])
    (hmax : l.length ≤ 16666) (hnt : ¬ TwinsSomewhere c l) :
    ∃ t r, fromTxids c l ms = some t ∧ root c l = some r ∧ t.num = l.length ∧
      t.hashes.length ≤ 16666 ∧ t.bits.length < 2 ^ 16 ∧
      ∀ pad, divCeil8 (t.bits.length + pad.length) = divCeil8 t.bits.length →
        Tree.extractMatches c { t with bits := t.bits ++ pad } = .ok (r, matchedTxids l ms) := by
  obtain ⟨r, hr1, hr2⟩ := root_top c l hne (by omega)
  have hpos := List.length_pos_iff.mpr hne
  obtain ⟨bs, hs, x, b1, b2, b3, b4, b5, b6⟩ :=
    build_extract c l ms hlen hnt (height l.length) 0 (by rw [width_le_iff]; omega)
  have hh := height_le l.length 15 (by omega) (by omega)
  have hp : 2 ^ (height l.length + 1) ≤ 2 ^ 16 := Nat.pow_le_pow_right (by omega) (by omega)
  have hlv : leaves l.length (height l.length) 0 = l.length := by
    unfold leaves
    have h1 := (height_spec l.length (by omega)).1
    have h2 : ¬ 1 < width l.length (height l.length) := by omega
    rw [width_le_iff] at h2
    simp only [Nat.zero_add, Nat.zero_mul]
    omega
  rw [hr2] at b2
  cases b2
  rw [hlv] at b3
  refine ⟨⟨l.length, bs, hs⟩, r, ?_, hr1, rfl, by simp only; omega, by simp only; omega, ?_⟩
  · unfold fromTxids
    rw [if_neg (by omega), if_neg (by omega), b1]
    rfl
  · intro pad hpad
    simp only at hpad
    unfold Tree.extractMatches
    simp only
    have hsl : hs.length % 2 ^ 32 = hs.length := Nat.mod_eq_of_lt (by omega)
    rw [if_neg (by omega), if_neg (by omega), if_neg (by omega),
      if_neg (by simp only [List.length_append]; omega)]
    have := b6 pad []
    rw [List.append_nil] at this
    rw [this]
    simp only
    rw [hlv, Nat.zero_mul]
    have hd : divCeil8 bs.length < 2 ^ 32 := by unfold divCeil8; omega
    rw [if_neg (by
      simp only [List.length_append]
      rw [hpad, Nat.mod_eq_of_lt hd, Nat.add_sub_cancel]
      simp), if_neg (by simp only [List.length_nil, hsl]; omega), matchedTxids_eq l ms hlen]

/-! ### Codec -/

theorem unpack_pack_byte : ∀ (bits : List Bool), bits.length ≤ 8 →
    unpackByte (packByte 0 bits) = bits ++ List.replicate (8 - bits.length) false
  | [], _ => by decide
  | [a], _ => by revert a; decide
  | [a, b], _ => by revert a b; decide
  | [a, b, c], _ => by revert a b c; decide
  | [a, b, c, d], _ => by revert a b c d; decide
  | [a, b, c, d, e], _ => by revert a b c d e; decide
  | [a, b, c, d, e, f], _ => by revert a b c d e f; decide
  | [a, b, c, d, e, f, g], _ => by revert a b c d e f g; decide
  | [a, b, c, d, e, f, g, h], _ => by revert a b c d e f g h; decide
  | _ :: _ :: _ :: _ :: _ :: _ :: _ :: _ :: _ :: _, h => by simp at h

theorem unpack_pack : ∀ (fuel : Nat) (bits : List Bool), bits.length ≤ fuel →
    unpackBits (packBits fuel bits) = bits ++ List.replicate ((8 - bits.length % 8) % 8) false ∧
    (packBits fuel bits).length = divCeil8 bits.length := by
  intro fuel
  induction fuel with
  | zero =>
    intro bits h
    have := List.length_eq_zero_iff.mp (Nat.le_zero.mp h)
    subst this
    simp [packBits, unpackBits, divCeil8]
  | succ fuel ih =>
    intro bits h
    unfold packBits
    cases bits with
    | nil => simp [unpackBits, divCeil8]
    | cons a t =>
      simp only [List.isEmpty_cons, Bool.false_eq_true, if_false]
      generalize hb : a :: t = bits at h ⊢
      have hpos : 0 < bits.length := by rw [← hb]; simp
      obtain ⟨h1, h2⟩ := ih (bits.drop 8) (by simp only [List.length_drop]; omega)
      refine ⟨?_, ?_⟩
      · have : unpackBits (packByte 0 (bits.take 8) :: packBits fuel (bits.drop 8)) =
            unpackByte (packByte 0 (bits.take 8)) ++ unpackBits (packBits fuel (bits.drop 8)) := by
          simp [unpackBits]
        rw [this, h1, unpack_pack_byte _ (by simp; omega)]
        by_cases h8 : 8 ≤ bits.length
        · rw [show 8 - (bits.take 8).length = 0 by simp; omega, List.replicate_zero, List.append_nil,
            ← List.append_assoc, List.take_append_drop, List.length_drop]
          congr 3
          omega
        · rw [List.drop_of_length_le (by omega), List.take_of_length_le (by omega)]
          simp only [List.nil_append, List.length_nil, Nat.zero_mod, Nat.sub_zero, Nat.mod_self,
            List.replicate_zero, List.append_nil]
          congr 2
          omega
      · rw [List.length_cons, h2, List.length_drop]
        unfold divCeil8
        omega

/-- Serialization of a partial merkle tree. -/
def treeBytes (t : Tree (Arr 32)) : Bytes :=
  leBytes 4 t.num ++ (csEncode t.hashes.length ++ (t.hashes.map (·.1)).flatten) ++
    (csEncode (divCeil8 t.bits.length) ++ packBits t.bits.length t.bits)

theorem enc_drains (t : Tree (Arr 32)) (hn : t.num < 2 ^ 32) :
    Drains enc t.encoder (treeBytes t) := by
  have h1 := C06_prefixed_slice_partial (e := bytesEnc) (t.hashes.map (·.1)) (t.hashes.map (·.1))
    (drainsEach_map (e := bytesEnc) (fun a : Arr 32 => a.1) (fun a => a.1) (fun a => C06_bytes _) t.hashes)
    (by
      intro s hs bs _ hc
      obtain ⟨a, _, rfl⟩ := List.mem_map.mp hs
      have : a.1 = [] := hc
      have ha := a.2
      rw [this] at ha
      simp at ha)
  have h1 : Drains (prefixedSliceEnc bytesEnc) (prefixedSlice bytesEnc (t.hashes.map (·.1)))
      (csEncode t.hashes.length ++ (t.hashes.map (·.1)).flatten) := by
    rw [← List.length_map (as := t.hashes) (fun x : Arr 32 => x.1)]
    exact h1
  have h2 := C06_tuple (es := [bytesEnc, bytesEnc]) (by simp)
    (csEncode (divCeil8 t.bits.length), packBits t.bits.length t.bits, ())
    [csEncode (divCeil8 t.bits.length), packBits t.bits.length t.bits]
    ⟨C06_bytes _, C06_bytes _, rfl⟩
  have := C06_tuple (es := [bytesEnc, prefixedSliceEnc bytesEnc, encN [bytesEnc, bytesEnc]]) (by simp)
    (u32le (UInt32.ofNat t.num), prefixedSlice bytesEnc (t.hashes.map (·.1)),
      ((0, csEncode (divCeil8 t.bits.length), packBits t.bits.length t.bits, ()) :
        (encN [bytesEnc, bytesEnc]).S), ())
    [u32le (UInt32.ofNat t.num), csEncode t.hashes.length ++ (t.hashes.map (·.1)).flatten,
      [csEncode (divCeil8 t.bits.length), packBits t.bits.length t.bits].flatten]
    ⟨C06_bytes _, h1, h2, rfl⟩
  have hu : u32le (UInt32.ofNat t.num) = leBytes 4 t.num := by
    unfold u32le
    rw [UInt32.toNat_ofNat_of_lt' hn]
  rw [show List.flatten _ = treeBytes t by simp [treeBytes, hu]] at this
  exact this

set_option maxRecDepth 20000 in
theorem pack_unpack_byte (x : UInt8) : packByte 0 (unpackByte x) = x := by
  have h : ∀ n : Fin 256, packByte 0 (unpackByte (UInt8.ofNat n.1)) = UInt8.ofNat n.1 := by decide
  have := h ⟨x.toNat, x.toNat_lt⟩
  simpa using this

theorem unpackByte_length (x : UInt8) : (unpackByte x).length = 8 := by simp [unpackByte]

theorem unpackBits_length (bs : Bytes) : (unpackBits bs).length = 8 * bs.length := by
  induction bs with
  | nil => rfl
  | cons x t ih =>
    show (unpackByte x ++ unpackBits t).length = _
    rw [List.length_append, ih, unpackByte_length, List.length_cons]
    omega

theorem pack_unpack : ∀ (bs : Bytes) (fuel : Nat), 8 * bs.length ≤ fuel →
    packBits fuel (unpackBits bs) = bs := by
  intro bs
  induction bs with
  | nil => intro fuel _; cases fuel <;> simp [packBits, unpackBits]
  | cons x t ih =>
    intro fuel h
    rw [List.length_cons] at h
    match fuel, h with
    | 0, h => omega
    | fuel + 1, h =>
      have hu : unpackBits (x :: t) = unpackByte x ++ unpackBits t := rfl
      unfold packBits
      rw [hu, if_neg (by
        have := unpackByte_length x
        cases hx : unpackByte x with
        | nil => rw [hx] at this; cases this
        | cons a b => simp)]
      rw [List.take_left' (unpackByte_length x), List.drop_left' (unpackByte_length x), pack_unpack_byte,
        ih fuel (by omega)]

/-- What the decoder produces. -/
structure TreeOk (t : Tree (Arr 32)) : Prop where
  num : t.num < 2 ^ 32
  hashes : t.hashes.length ≤ MAX_VEC_SIZE
  bits : t.bits.length % 8 = 0
  len : t.bits.length ≤ 8 * MAX_VEC_SIZE

def parser : Parser (Tree (Arr 32)) :=
  (seq3 (arrayParser 4 []) (vecParser hash32Parser MAX_VEC_SIZE) (byteVecParser MAX_VEC_SIZE)).mapE
    (fun x => .ok ⟨leNat x.1, unpackBits x.2.2, x.2.1⟩) id

theorem dec_lawful : Lawful dec parser :=
  mapE_lawful (dec3_lawful (arrayDec_lawful 4 (by omega)) (vecDec_lawful hash32Dec_lawful _)
    (byteVecDec_lawful _)) _ _

theorem wire : Wire parser treeBytes TreeOk := by
  refine ((Wire.array 4).seq3 (vec_wire hash32_wire) (Wire.byteVec MAX_VEC_SIZE)).mapE ?_ ?_
  · rintro ⟨a, l, bs⟩ y ⟨h1, h2, h3⟩ hy
    cases hy
    simp only at h1 h2 h3
    refine ⟨⟨?_, h2.1, ?_, ?_⟩, ?_⟩
    · have := leNat_lt a
      rw [h1] at this
      exact this
    · simp only [unpackBits_length]; omega
    · simp only [unpackBits_length]; exact Nat.mul_le_mul_left 8 h3.1
    · simp only [treeBytes]
      have hd : divCeil8 (unpackBits bs).length = bs.length := by
        rw [unpackBits_length]; unfold divCeil8; omega
      rw [hd, pack_unpack bs _ (by rw [unpackBits_length]; omega), ← h1, leBytes_leNat]
  · rintro t ⟨h1, h2, h3, h4⟩
    obtain ⟨u1, u2⟩ := unpack_pack t.bits.length t.bits (Nat.le_refl _)
    refine ⟨(leBytes 4 t.num, t.hashes, packBits t.bits.length t.bits),
      ⟨leBytes_length _ _, ⟨h2, by simp⟩, ?_, ?_⟩, ?_⟩
    · simp only
      rw [u2]; unfold divCeil8; omega
    · simp only
      rw [u2]
      have := MAX_VEC_SIZE_lt
      unfold divCeil8; omega
    · simp only
      rw [leNat_leBytes _ _ h1, u1]
      simp [h3]

theorem treeOk_padded (t : Tree (Arr 32)) (h1 : t.num < 2 ^ 32) (h2 : t.hashes.length ≤ MAX_VEC_SIZE)
    (h3 : t.bits.length ≤ 8 * MAX_VEC_SIZE) : TreeOk (padded t) ∧ treeBytes (padded t) = treeBytes t := by
  have hl : (padded t).bits.length = t.bits.length + (8 - t.bits.length % 8) % 8 := by simp [padded]
  refine ⟨⟨h1, h2, by rw [hl]; omega, by rw [hl]; omega⟩, ?_⟩
  obtain ⟨u1, u2⟩ := unpack_pack t.bits.length t.bits (Nat.le_refl _)
  have hb : (padded t).bits = unpackBits (packBits t.bits.length t.bits) := by rw [u1]; rfl
  have hd : divCeil8 (padded t).bits.length = divCeil8 t.bits.length := by
    rw [hl]; unfold divCeil8; omega
  unfold treeBytes
  rw [hd, hb, pack_unpack _ _ (by rw [u2, unpackBits_length, u2]; omega)]
  rfl

theorem dec_ok_iff (bs : Bytes) (t : Tree (Arr 32)) :
    dec.decodeSlice bs = .ok t ↔ TreeOk t ∧ bs = treeBytes t := by
  obtain ⟨inv, den, L, hP⟩ := dec_lawful
  rw [L.decodeSlice_ok_iff, hP, wire]
  simp

/-- A partial merkle tree built from the txids of a block with any choice of matches, sent over the wire
and extracted, gives the merkle root and exactly the matched txids with their positions. -/
theorem C23_roundtrip (H : Bytes → Arr 32) (l : List (Arr 32)) (ms : List Bool)
    (hlen : l.length = ms.length) (hmax : l.length ≤ 16666) (r : Arr 32)
    (hr : merkleRootOf H l = some r) :
    ∃ t bs t', fromTxids (combineH H) l ms = some t ∧ Drains enc t.encoder bs ∧
      dec.decodeSlice bs = .ok t' ∧
      t.extractMatches (combineH H) = .ok (r, matchedTxids l ms) ∧
      t'.extractMatches (combineH H) = .ok (r, matchedTxids l ms) := by
  obtain ⟨h1, h2⟩ := (merkleRootOf_iff H l r).mp hr
  have hne : l ≠ [] := by rintro rfl; rw [root] at h1; cases h1
  obtain ⟨t, r', g1, g2, g3, g4, g5, g6⟩ := extract_built (combineH H) l ms hlen hne hmax h2
  rw [h1] at g2
  cases g2
  have hmx : 16666 ≤ MAX_VEC_SIZE := by decide
  obtain ⟨k1, k2⟩ := treeOk_padded t (by omega) (by omega) (by omega)
  refine ⟨t, treeBytes t, padded t, g1, enc_drains t (by omega), (dec_ok_iff _ _).mpr ⟨k1, k2.symm⟩,
    ?_, ?_⟩
  · have := g6 [] (by simp)
    rw [List.append_nil] at this
    exact this
  · exact g6 (List.replicate ((8 - t.bits.length % 8) % 8) false)
      (by rw [List.length_replicate]; unfold divCeil8; omega)

/-- The decoder accepts exactly the encodings of the trees it produces. -/
theorem C23_canonical (bs : Bytes) (t : Tree (Arr 32)) (h : dec.decodeSlice bs = .ok t) :
    Drains enc t.encoder bs := by
  obtain ⟨h1, rfl⟩ := (dec_ok_iff bs t).mp h
  exact enc_drains t h1.num

/-! ## C24 -/

omit [DecidableEq α] in
theorem extract_indices [DecidableEq α] (n : Nat) : ∀ h pos bits hashes v found bits' hashes',
    extract c n h pos bits hashes = .ok (v, found, bits', hashes') → pos * 2 ^ h < n →
    (∀ e ∈ found, pos * 2 ^ h ≤ e.2 ∧ e.2 < (pos + 1) * 2 ^ h ∧ e.2 < n) ∧
      (found.map (·.2)).Pairwise (· < ·) := by
  intro h
  induction h with
  | zero =>
    intro pos bits hashes v found bits' hashes' he hp
    match bits, hashes with
    | [], _ => simp [extract] at he
    | b :: bits, [] => simp [extract] at he
    | b :: bits, x :: hashes =>
      simp only [extract, Except.ok.injEq, Prod.mk.injEq] at he
      obtain ⟨_, rfl, _, _⟩ := he
      cases b
      · simp
      · simp at hp ⊢; exact hp
  | succ h ih =>
    intro pos bits hashes v found bits' hashes' he hp
    have e1 : pos * 2 ^ (h + 1) = pos * 2 * 2 ^ h := by
      rw [Nat.pow_succ, Nat.mul_comm (2 ^ h) 2, Nat.mul_assoc]
    have e2 : (pos + 1) * 2 ^ (h + 1) = (pos * 2 + 1 + 1) * 2 ^ h := by
      rw [Nat.pow_succ, Nat.mul_comm (2 ^ h) 2, ← Nat.mul_assoc]
      congr 1
      omega
    have e3 : (pos * 2 + 1) * 2 ^ h = pos * 2 * 2 ^ h + 2 ^ h := by rw [Nat.add_mul, Nat.one_mul]
    have e4 : (pos * 2 + 1 + 1) * 2 ^ h = pos * 2 * 2 ^ h + 2 ^ h + 2 ^ h := by
      rw [Nat.add_mul, e3, Nat.one_mul]
    rw [e1] at hp ⊢
    rw [e2]
    match bits with
    | [] => simp [extract] at he
    | false :: bits =>
      match hashes with
      | [] => simp [extract] at he
      | x :: hashes =>
        simp only [extract, Except.ok.injEq, Prod.mk.injEq] at he
        obtain ⟨_, rfl, _, _⟩ := he
        simp
    | true :: bits =>
      simp only [extract] at he
      cases h1 : extract c n h (pos * 2) bits hashes with
      | error e => rw [h1] at he; cases he
      | ok res =>
        obtain ⟨left, m1, b1, s1⟩ := res
        rw [h1] at he
        simp only at he
        obtain ⟨g1, g2⟩ := ih _ _ _ _ _ _ _ h1 hp
        by_cases hr : pos * 2 + 1 < width n h
        · rw [if_pos hr] at he
          rw [width_le_iff] at hr
          cases h2 : extract c n h (pos * 2 + 1) b1 s1 with
          | error e => rw [h2] at he; cases he
          | ok res =>
            obtain ⟨right, m2, b2, s2⟩ := res
            rw [h2] at he
            simp only at he
            obtain ⟨k1, k2⟩ := ih _ _ _ _ _ _ _ h2 hr
            split at he
            · cases he
            · simp only [Except.ok.injEq, Prod.mk.injEq] at he
              obtain ⟨_, rfl, _, _⟩ := he
              refine ⟨?_, ?_⟩
              · intro e hee
                rcases List.mem_append.mp hee with hee | hee
                · have := g1 e hee; omega
                · have := k1 e hee; omega
              · rw [List.map_append, List.pairwise_append]
                refine ⟨g2, k2, fun i hi j hj => ?_⟩
                obtain ⟨e, he1, rfl⟩ := List.mem_map.mp hi
                obtain ⟨f, hf1, rfl⟩ := List.mem_map.mp hj
                have := g1 e he1
                have := k1 f hf1
                omega
        · rw [if_neg hr] at he
          simp only [Except.ok.injEq, Prod.mk.injEq] at he
          obtain ⟨_, rfl, _, _⟩ := he
          refine ⟨fun e hee => ?_, g2⟩
          have := g1 e hee
          omega

theorem extractMatches_ok {t : Tree α} {r : α} {found : List (α × Nat)}
    (h : t.extractMatches c = .ok (r, found)) :
    0 < t.num ∧ t.num ≤ 16666 ∧
      ∃ bits hashes, extract c t.num (height t.num) 0 t.bits t.hashes = .ok (r, found, bits, hashes) := by
  unfold Tree.extractMatches at h
  split at h
  · cases h
  split at h
  · cases h
  split at h
  · cases h
  split at h
  · cases h
  split at h
  · cases h
  · next h1 h2 _ _ root ms bits hashes he =>
    split at h
    · cases h
    · split at h
      · cases h
      · cases h
        exact ⟨by omega, by omega, bits, hashes, he⟩

/-- The reported positions are strictly increasing and below the claimed number of transactions. -/
theorem C24_positions (t : Tree α) (r : α) (found : List (α × Nat))
    (h : t.extractMatches c = .ok (r, found)) :
    (∀ e ∈ found, e.2 < t.num) ∧ (found.map (·.2)).Pairwise (· < ·) := by
  obtain ⟨h1, h2, bits, hashes, he⟩ := extractMatches_ok _ h
  obtain ⟨k1, k2⟩ := extract_indices c t.num _ _ _ _ _ _ _ _ he (by omega)
  exact ⟨fun e hee => (k1 e hee).2.2, k2⟩

/-! ### What an accepted proof looks like -/

/-- A pruned tree: `hash b x` is a node given by its hash (`b`: a matched transaction). -/
inductive PT (α : Type) where
  | hash (b : Bool) (x : α)
  | one (l : PT α)
  | two (l r : PT α)

namespace PT
/-- The shape fits a tree of `n` leaves at height `h`, position `pos`: only leaves can be matched, a node
has two children exactly if the right one exists. -/
def Fits (n : Nat) : Nat → Nat → PT α → Prop
  | 0, _, .hash _ _ => True
  | 0, _, _ => False
  | _ + 1, _, .hash b _ => b = false
  | h + 1, pos, .one l => ¬ pos * 2 + 1 < width n h ∧ Fits n h (pos * 2) l
  | h + 1, pos, .two l r =>
    pos * 2 + 1 < width n h ∧ Fits n h (pos * 2) l ∧ Fits n h (pos * 2 + 1) r
/-- The flags in depth-first order. -/
def flags : PT α → List Bool
  | .hash b _ => [b]
  | .one l => true :: l.flags
  | .two l r => true :: (l.flags ++ r.flags)
/-- The given hashes in depth-first order. -/
def given : PT α → List α
  | .hash _ x => [x]
  | .one l => l.given
  | .two l r => l.given ++ r.given
/-- The hash of the root. -/
def top : PT α → α
  | .hash _ x => x
  | .one l => c l.top l.top
  | .two l r => c l.top r.top
/-- The matched leaves with their positions. -/
def matched : Nat → PT α → List (α × Nat)
  | pos, .hash b x => if b then [(x, pos)] else []
  | pos, .one l => l.matched (pos * 2)
  | pos, .two l r => l.matched (pos * 2) ++ r.matched (pos * 2 + 1)
/-- No node has two equal children. -/
def NoTwins : PT α → Prop
  | .hash _ _ => True
  | .one l => l.NoTwins
  | .two l r => l.top c ≠ r.top c ∧ l.NoTwins ∧ r.NoTwins
end PT

theorem extract_iff (n : Nat) : ∀ (h pos : Nat) (bits : List Bool) (hashes : List α) (r : α)
    (found : List (α × Nat)) (bits' : List Bool) (hashes' : List α),
    extract c n h pos bits hashes = .ok (r, found, bits', hashes') ↔
      ∃ T : PT α, T.Fits n h pos ∧ T.NoTwins c ∧ bits = T.flags ++ bits' ∧ hashes = T.given ++ hashes' ∧
        r = T.top c ∧ found = T.matched pos := by
  intro h
  induction h with
  | zero =>
    intro pos bits hashes r found bits' hashes'
    constructor
    · intro he
      cases bits with
      | nil => simp [extract] at he
      | cons b bits =>
        cases hashes with
        | nil => simp [extract] at he
        | cons x hashes =>
          simp only [extract] at he
          cases he
          exact ⟨.hash b _, trivial, trivial, rfl, rfl, rfl, rfl⟩
    · rintro ⟨T, hf, _, rfl, rfl, rfl, rfl⟩
      cases T with
      | hash b x => simp [extract, PT.flags, PT.given, PT.top, PT.matched]
      | one l => exact hf.elim
      | two l r => exact hf.elim
  | succ h ih =>
    intro pos bits hashes r found bits' hashes'
    constructor
    · intro he
      cases bits with
      | nil => simp [extract] at he
      | cons b bits =>
        cases b with
        | false =>
          cases hashes with
          | nil => simp [extract] at he
          | cons x hashes =>
            simp only [extract] at he
            cases he
            exact ⟨.hash false _, rfl, trivial, rfl, rfl, rfl, rfl⟩
        | true =>
          simp only [extract] at he
          split at he
          · cases he
          · next left m1 bits1 hashes1 h1 =>
            obtain ⟨T1, f1, n1, rfl, rfl, rfl, rfl⟩ := (ih _ _ _ _ _ _ _).1 h1
            split at he
            · next hw =>
              split at he
              · cases he
              · next right m2 bits2 hashes2 h2 =>
                obtain ⟨T2, f2, n2, rfl, rfl, rfl, rfl⟩ := (ih _ _ _ _ _ _ _).1 h2
                split at he
                · cases he
                · next hne =>
                  cases he
                  exact ⟨.two T1 T2, ⟨hw, f1, f2⟩, ⟨fun e => hne e.symm, n1, n2⟩,
                    by simp [PT.flags], by simp [PT.given], rfl, rfl⟩
            · next hw =>
              cases he
              exact ⟨.one T1, ⟨hw, f1⟩, n1, by simp [PT.flags], by simp [PT.given], rfl, rfl⟩
    · rintro ⟨T, hf, hn, rfl, rfl, rfl, rfl⟩
      cases T with
      | hash b x =>
        cases (show b = false from hf)
        simp [extract, PT.flags, PT.given, PT.top, PT.matched]
      | one l =>
        have h1 := (ih (pos * 2) (l.flags ++ bits') (l.given ++ hashes') _ _ _ _).2
          ⟨l, hf.2, hn, rfl, rfl, rfl, rfl⟩
        simp only [PT.flags, PT.given, List.cons_append, extract, h1, if_neg hf.1]
        rfl
      | two l r =>
        have h1 := (ih (pos * 2) (l.flags ++ (r.flags ++ bits')) (l.given ++ (r.given ++ hashes')) _ _ _ _).2
          ⟨l, hf.2.1, hn.2.1, rfl, rfl, rfl, rfl⟩
        have h2 := (ih (pos * 2 + 1) (r.flags ++ bits') (r.given ++ hashes') _ _ _ _).2
          ⟨r, hf.2.2, hn.2.2, rfl, rfl, rfl, rfl⟩
        have hne : ¬ PT.top c r = PT.top c l := fun e => hn.1 e.symm
        simp only [PT.flags, PT.given, List.cons_append, List.append_assoc, extract, h1, h2, if_pos hf.1,
          if_neg hne]
        rfl

omit [DecidableEq α] in
theorem PT.given_le (T : PT α) : T.given.length ≤ T.flags.length := by
  induction T with
  | hash b x => simp [PT.given, PT.flags]
  | one l ih => simp only [PT.given, PT.flags, List.length_cons]; omega
  | two l r ih1 ih2 => simp only [PT.given, PT.flags, List.length_cons, List.length_append]; omega

/-- `extract_matches` accepts exactly the depth-first flattenings of pruned trees of the right shape in
which no node has two equal children (CVE-2012-2459): every hash is used, every flag byte is used, and the
result is the tree's root with its matched leaves. -/
theorem C24_accepts (t : Tree α) (r : α) (found : List (α × Nat)) (hb : t.bits.length < 2 ^ 32)
    (hh : t.hashes.length < 2 ^ 32) :
    t.extractMatches c = .ok (r, found) ↔
      0 < t.num ∧ t.num ≤ 16666 ∧ t.hashes.length ≤ t.num ∧
      ∃ T : PT α, T.Fits t.num (height t.num) 0 ∧ T.NoTwins c ∧ t.hashes = T.given ∧
        (∃ padding, t.bits = T.flags ++ padding ∧ (T.flags.length + 7) / 8 = (t.bits.length + 7) / 8) ∧
        r = T.top c ∧ found = T.matched 0 := by
  have hb' : divCeil8 t.bits.length % 2 ^ 32 = divCeil8 t.bits.length :=
    Nat.mod_eq_of_lt (by unfold divCeil8; omega)
  constructor
  · intro h
    unfold Tree.extractMatches at h
    rw [Nat.mod_eq_of_lt hh, hb'] at h
    split at h
    · cases h
    split at h
    · cases h
    split at h
    · cases h
    split at h
    · cases h
    split at h
    · cases h
    · next h1 h2 h3 _ _ root ms bits hashes he =>
      split at h
      · cases h
      · next g1 =>
        split at h
        · cases h
        · next g2 =>
          cases h
          obtain ⟨T, f, nt, e1, e2, e3, e4⟩ := (extract_iff c _ _ _ _ _ _ _ _ _).1 he
          have hle : T.given.length + hashes.length = t.hashes.length := by rw [e2, List.length_append]
          have hle' : T.flags.length + bits.length = t.bits.length := by rw [e1, List.length_append]
          refine ⟨by omega, by omega, by omega, T, f, nt, ?_, ⟨bits, e1, ?_⟩, e3, e4⟩
          · by_cases hz : hashes = []
            · rw [e2, hz, List.append_nil]
            · have := List.length_pos_iff.2 hz
              omega
          · have g1' := Classical.not_not.1 g1
            unfold divCeil8 at g1'
            rw [show t.bits.length - bits.length = T.flags.length by omega] at g1'
            exact g1'
  · rintro ⟨h1, h2, h3, T, f, nt, e1, ⟨padding, e2, e3⟩, e4, e5⟩
    have he := (extract_iff c t.num (height t.num) 0 t.bits t.hashes r found padding []).2
      ⟨T, f, nt, e2, by rw [e1, List.append_nil], e4, e5⟩
    have hlen : T.flags.length + padding.length = t.bits.length := by rw [e2, List.length_append]
    have hg := T.given_le
    unfold Tree.extractMatches
    rw [Nat.mod_eq_of_lt hh, hb', if_neg (by omega), if_neg (by omega), if_neg (by omega),
      if_neg (by rw [e1]; omega), he]
    show (if _ then _ else _) = _
    rw [if_neg (by
      unfold divCeil8
      rw [show t.bits.length - padding.length = T.flags.length by omega]
      omega), if_neg (by simp)]

/-! ### Soundness -/

/-- The pairs of nodes combined to compute the root of a pruned tree. -/
def PT.combos : PT α → List (α × α)
  | .hash _ _ => []
  | .one l => (l.top c, l.top c) :: l.combos
  | .two l r => (l.top c, r.top c) :: (l.combos ++ r.combos)

/-- The pairs of nodes that `traverse_and_extract` combines. -/
def combosIn (n : Nat) : Nat → Nat → List Bool → List α → List (α × α)
  | h + 1, pos, true :: bits, hashes =>
    match extract c n h (pos * 2) bits hashes with
    | .error _ => []
    | .ok (left, _, bits1, hashes1) =>
      if pos * 2 + 1 < width n h then
        match extract c n h (pos * 2 + 1) bits1 hashes1 with
        | .error _ => []
        | .ok (right, _) =>
          (left, right) :: (combosIn n h (pos * 2) bits hashes ++ combosIn n h (pos * 2 + 1) bits1 hashes1)
      else (left, left) :: combosIn n h (pos * 2) bits hashes
  | _, _, _, _ => []

/-- The pairs of nodes that `extract_matches` combines. -/
def Tree.combined (t : Tree α) : List (α × α) := combosIn c t.num (height t.num) 0 t.bits t.hashes

theorem combosIn_eq (n : Nat) : ∀ (T : PT α) (h pos : Nat) (bits : List Bool) (hashes : List α), T.Fits n h pos → T.NoTwins c →
    combosIn c n h pos (T.flags ++ bits) (T.given ++ hashes) = T.combos c := by
  intro T
  induction T with
  | hash b x =>
    intro h pos bits hashes hf _
    cases h with
    | zero => simp [combosIn, PT.combos]
    | succ h =>
      cases (show b = false from hf)
      simp [combosIn, PT.combos, PT.flags]
  | one l ih =>
    intro h pos bits hashes hf hn
    cases h with
    | zero => exact hf.elim
    | succ h =>
      have h1 := (extract_iff c n h (pos * 2) (l.flags ++ bits) (l.given ++ hashes) _ _ _ _).2
        ⟨l, hf.2, hn, rfl, rfl, rfl, rfl⟩
      simp only [PT.flags, PT.given, List.cons_append, combosIn, h1, if_neg hf.1, PT.combos, ih _ _ _ _ hf.2 hn]
  | two l r ih1 ih2 =>
    intro h pos bits hashes hf hn
    cases h with
    | zero => exact hf.elim
    | succ h =>
      have h1 := (extract_iff c n h (pos * 2) (l.flags ++ (r.flags ++ bits)) (l.given ++ (r.given ++ hashes)) _ _ _ _).2
        ⟨l, hf.2.1, hn.2.1, rfl, rfl, rfl, rfl⟩
      have h2 := (extract_iff c n h (pos * 2 + 1) (r.flags ++ bits) (r.given ++ hashes) _ _ _ _).2
        ⟨r, hf.2.2, hn.2.2, rfl, rfl, rfl, rfl⟩
      simp only [PT.flags, PT.given, List.cons_append, List.append_assoc, combosIn, h1, h2, if_pos hf.1, PT.combos,
        ih1 _ _ _ _ hf.2.1 hn.2.1, ih2 _ _ _ _ hf.2.2 hn.2.2]

omit [DecidableEq α] in
theorem pairs_get : ∀ (l : List α) (p : Nat) (a : α), l[p * 2]? = some a → (a, l[p * 2 + 1]?.getD a) ∈ pairs l
  | [], p, a, h => by simp at h
  | [x], 0, a, h => by simp at h; subst h; simp [pairs]
  | [x], p + 1, a, h => by
    rw [List.getElem?_eq_none (by simp; omega)] at h
    cases h
  | x :: y :: t, 0, a, h => by simp at h; subst h; simp [pairs]
  | x :: y :: t, p + 1, a, h => by
    simp only [List.getElem?_cons_succ, show (p + 1) * 2 = p * 2 + 1 + 1 by omega, pairs, List.mem_cons] at h ⊢
    exact .inr (pairs_get t p a h)

omit [DecidableEq α] in
theorem pairs_lev (l : List α) : ∀ k, (∀ j ≤ k, 1 < width l.length j) → ∀ x ∈ pairs (lev c k l), x ∈ Merkle.combined c l := by
  have key : ∀ k, (∀ j < k, 1 < width l.length j) → ∀ x ∈ Merkle.combined c (lev c k l), x ∈ Merkle.combined c l := by
    intro k
    induction k with
    | zero => intro _ x hx; exact hx
    | succ k ih =>
      intro hk x hx
      refine ih (fun j hj => hk j (by omega)) x ?_
      rw [combined_eq c (by rw [lev_length]; exact hk k (by omega))]
      exact List.mem_append_right _ hx
  intro k hk x hx
  refine key k (fun j hj => hk j (by omega)) x ?_
  rw [combined_eq c (by rw [lev_length]; exact hk k (by omega))]
  exact List.mem_append_left _ hx

/-- A pruned tree and a real tree with the same top: if the heights agree, the matched leaves are where they are said to be; if the
pruned tree is lower, they are inner nodes of the real tree; if it is higher, a leaf of the real tree has children in the pruned one. -/
theorem pt_sound (n : Nat) (l : List α) : ∀ (T : PT α) (h p k q : Nat), T.Fits n h p → T.NoTwins c →
    (∀ j < k, 1 < width l.length j) → (lev c k l)[q]? = some (T.top c) →
    Clash c (T.combos c ++ Merkle.combined c l) ∨
    (h = k → p = q → ∀ e ∈ T.matched p, l[e.2]? = some e.1) ∧
    (h < k → ∀ e ∈ T.matched p, ∃ x ∈ Merkle.combined c l, e.1 = c x.1 x.2) ∧
    (k < h → T.matched p = [] ∨ ∃ y ∈ l, ∃ x ∈ T.combos c, y = c x.1 x.2) := by
  intro T
  induction T with
  | hash b x =>
    intro h p k q hf _ hk hv
    right
    simp only [PT.matched, PT.top] at hv ⊢
    refine ⟨?_, ?_, ?_⟩
    · rintro rfl rfl e he
      cases h with
      | zero => cases b <;> simp at he; subst he; exact hv
      | succ h => cases (show b = false from hf); simp at he
    · intro hlt e he
      obtain ⟨k, rfl⟩ : ∃ j, k = j + 1 := ⟨k - 1, by omega⟩
      cases b with
      | false => simp at he
      | true =>
        simp only [if_true, List.mem_singleton] at he
        subst he
        have hlt : q < (lev c (k + 1) l).length := by
          rcases Nat.lt_or_ge q (lev c (k + 1) l).length with hh | hh
          · exact hh
          · rw [List.getElem?_eq_none hh] at hv; cases hv
        rw [lev_length, width_succ] at hlt
        have hlen := lev_length c k l
        obtain ⟨a, ha⟩ : ∃ a, (lev c k l)[q * 2]? = some a := ⟨_, List.getElem?_eq_getElem (by omega)⟩
        have hv' : (level c (lev c k l))[q]? = some x := hv
        rw [level_get c _ _ _ ha] at hv'
        exact ⟨_, pairs_lev c l k (fun j hj => hk j (by omega)) _ (pairs_get _ _ _ ha), (Option.some.inj hv').symm⟩
    · intro hlt
      left
      obtain ⟨h, rfl⟩ : ∃ j, h = j + 1 := ⟨h - 1, by omega⟩
      cases (show b = false from hf)
      simp
  | one L ih =>
    intro h p k q hf hn hk hv
    obtain ⟨h, rfl⟩ : ∃ j, h = j + 1 := by cases h with | zero => exact hf.elim | succ h => exact ⟨h, rfl⟩
    cases k with
    | zero =>
      right
      refine ⟨fun e => by omega, fun e => by omega, fun _ => .inr ⟨_, List.mem_of_getElem? hv, _, List.mem_cons_self, rfl⟩⟩
    | succ k =>
      have hlt : q < (lev c (k + 1) l).length := by
        rcases Nat.lt_or_ge q (lev c (k + 1) l).length with hh | hh
        · exact hh
        · rw [List.getElem?_eq_none hh] at hv; cases hv
      rw [lev_length, width_succ] at hlt
      have hlen := lev_length c k l
      obtain ⟨a, ha⟩ : ∃ a, (lev c k l)[q * 2]? = some a := ⟨_, List.getElem?_eq_getElem (by omega)⟩
      have hv' : (level c (lev c k l))[q]? = some (c (L.top c) (L.top c)) := hv
      rw [level_get c _ _ _ ha] at hv'
      have hv' := Option.some.inj hv'
      by_cases heq : (a, (lev c k l)[q * 2 + 1]?.getD a) = (L.top c, L.top c)
      · injection heq with e1 e2
        rw [e1] at ha
        rcases ih h (p * 2) k (q * 2) hf.2 hn (fun j hj => hk j (by omega)) ha with hc | ⟨k1, k2, k3⟩
        · exact .inl (hc.mono fun x hx => by
            simp only [PT.combos, List.mem_append, List.mem_cons] at hx ⊢
            exact hx.imp .inr id)
        · refine .inr ⟨fun e1 e2 => k1 (by omega) (by omega), fun hl => k2 (by omega), fun hl => (k3 (by omega)).imp id ?_⟩
          rintro ⟨y, hy, x, hx, he⟩
          exact ⟨y, hy, x, List.mem_cons_of_mem _ hx, he⟩
      · exact .inl ⟨_, List.mem_append_right _ (pairs_lev c l k (fun j hj => hk j (by omega)) _ (pairs_get _ _ _ ha)), _,
          List.mem_append_left _ List.mem_cons_self, heq, hv'⟩
  | two L R ih1 ih2 =>
    intro h p k q hf hn hk hv
    obtain ⟨h, rfl⟩ : ∃ j, h = j + 1 := by cases h with | zero => exact hf.elim | succ h => exact ⟨h, rfl⟩
    cases k with
    | zero =>
      right
      refine ⟨fun e => by omega, fun e => by omega, fun _ => .inr ⟨_, List.mem_of_getElem? hv, _, List.mem_cons_self, rfl⟩⟩
    | succ k =>
      have hlt : q < (lev c (k + 1) l).length := by
        rcases Nat.lt_or_ge q (lev c (k + 1) l).length with hh | hh
        · exact hh
        · rw [List.getElem?_eq_none hh] at hv; cases hv
      rw [lev_length, width_succ] at hlt
      have hlen := lev_length c k l
      obtain ⟨a, ha⟩ : ∃ a, (lev c k l)[q * 2]? = some a := ⟨_, List.getElem?_eq_getElem (by omega)⟩
      have hv' : (level c (lev c k l))[q]? = some (c (L.top c) (R.top c)) := hv
      rw [level_get c _ _ _ ha] at hv'
      have hv' := Option.some.inj hv'
      by_cases heq : (a, (lev c k l)[q * 2 + 1]?.getD a) = (L.top c, R.top c)
      · injection heq with e1 e2
        have hb : (lev c k l)[q * 2 + 1]? = some (R.top c) := by
          cases hb : (lev c k l)[q * 2 + 1]? with
          | none =>
            rw [hb] at e2
            exact absurd (e1.symm.trans e2) hn.1
          | some b => rw [hb] at e2; exact congrArg some e2
        rw [e1] at ha
        rcases ih1 h (p * 2) k (q * 2) hf.2.1 hn.2.1 (fun j hj => hk j (by omega)) ha with hc | ⟨k1, k2, k3⟩
        · exact .inl (hc.mono fun x hx => by
            simp only [PT.combos, List.mem_append, List.mem_cons] at hx ⊢
            exact hx.imp (fun hx => .inr (.inl hx)) id)
        rcases ih2 h (p * 2 + 1) k (q * 2 + 1) hf.2.2 hn.2.2 (fun j hj => hk j (by omega)) hb with hc | ⟨g1, g2, g3⟩
        · exact .inl (hc.mono fun x hx => by
            simp only [PT.combos, List.mem_append, List.mem_cons] at hx ⊢
            exact hx.imp (fun hx => .inr (.inr hx)) id)
        right
        simp only [PT.matched, List.mem_append]
        refine ⟨fun e1 e2 e he => ?_, fun hl e he => ?_, fun hl => ?_⟩
        · exact he.elim (k1 (by omega) (by omega) e) (g1 (by omega) (by omega) e)
        · exact he.elim (k2 (by omega) e) (g2 (by omega) e)
        · rcases k3 (by omega) with m1 | ⟨y, hy, x, hx, he⟩
          · rcases g3 (by omega) with m2 | ⟨y, hy, x, hx, he⟩
            · exact .inl (by rw [m1, m2]; rfl)
            · exact .inr ⟨y, hy, x, List.mem_cons_of_mem _ (List.mem_append_right _ hx), he⟩
          · exact .inr ⟨y, hy, x, List.mem_cons_of_mem _ (List.mem_append_left _ hx), he⟩
      · exact .inl ⟨_, List.mem_append_right _ (pairs_lev c l k (fun j hj => hk j (by omega)) _ (pairs_get _ _ _ ha)), _,
          List.mem_append_left _ List.mem_cons_self, heq, hv'⟩

/-- What an accepted proof says about the list with that root, whatever number of transactions it claims. -/
theorem extract_sound (t : Tree α) (l : List α) (r : α) (found : List (α × Nat)) (hlen : l.length ≤ 2 ^ 32)
    (h : t.extractMatches c = .ok (r, found)) (hr : root c l = some r) :
    Clash c (t.combined c ++ Merkle.combined c l) ∨
    (height t.num = height l.length → ∀ e ∈ found, l[e.2]? = some e.1) ∧
    (height t.num < height l.length → ∀ e ∈ found, ∃ x ∈ Merkle.combined c l, e.1 = c x.1 x.2) ∧
    (height l.length < height t.num → found = [] ∨ ∃ y ∈ l, ∃ x ∈ t.combined c, y = c x.1 x.2) := by
  obtain ⟨_, _, bits, hashes, he⟩ := extractMatches_ok _ h
  have hne : l ≠ [] := by rintro rfl; rw [root] at hr; cases hr
  obtain ⟨r', hr1, hr2⟩ := root_top c l hne hlen
  rw [hr] at hr1
  cases hr1
  obtain ⟨T, f, nt, e1, e2, e3, e4⟩ := (extract_iff c _ _ _ _ _ _ _ _ _).1 he
  have hc : t.combined c = T.combos c := by
    unfold Tree.combined
    rw [e1, e2, combosIn_eq c t.num T _ _ _ _ f nt]
  rw [hc, e4]
  rw [e3] at hr2
  refine (pt_sound c t.num l T _ 0 _ 0 f nt (height_spec _ hlen).2 hr2).imp id ?_
  rintro ⟨k1, k2, k3⟩
  exact ⟨fun e => k1 e rfl, k2, k3⟩

/-- The strings hashed to check a partial merkle tree. -/
def Tree.inputs (H : Bytes → Arr 32) (t : Tree (Arr 32)) : List Bytes := pairBytes (t.combined (combineH H))

/-- Whatever partial merkle tree an adversary sends: if extraction returns the merkle root of a
transaction list with a tree of the claimed height, in particular of the claimed length, every reported txid is in that list at the
reported position, or two of the strings hashed collide.  (Only the plain root is needed, not the absence of equal siblings.) -/
theorem C24_sound (H : Bytes → Arr 32) (t : Tree (Arr 32)) (l : List (Arr 32)) (r : Arr 32)
    (found : List (Arr 32 × Nat)) (h : t.extractMatches (combineH H) = .ok (r, found)) (hlen : l.length ≤ 2 ^ 32)
    (hl : height l.length = height t.num) (hr : root (combineH H) l = some r) :
    (∀ e ∈ found, l[e.2]? = some e.1) ∨ Collision H (t.inputs H ++ merkleInputs H l) := by
  rcases extract_sound (combineH H) t l r found hlen h hr with hc | hc
  · right
    have := clash_collision H _ hc
    unfold pairBytes at this
    rw [List.map_append] at this
    exact this
  · exact .inl (hc.1 hl.symm)

/-- The check against the header. -/
theorem C24_merkle_block (H : Bytes → Arr 32) (b : MerkleBlock) (l : List (Arr 32))
    (found : List (Arr 32 × Nat)) (h : b.extractMatches (combineH H) = .ok found) (hlen : l.length ≤ 2 ^ 32)
    (hl : height l.length = height b.txn.num) (hr : root (combineH H) l = some b.header.merkleRoot) :
    (∀ e ∈ found, l[e.2]? = some e.1) ∨ Collision H (b.txn.inputs H ++ merkleInputs H l) := by
  unfold MerkleBlock.extractMatches at h
  split at h
  · cases h
  · next root ms he =>
    split at h
    · next hroot =>
      cases h
      rw [hroot] at he
      exact C24_sound H b.txn l _ _ he hlen hl hr
    · cases h

/-- Building a merkle block for a predicate and extracting gives the matching txids. -/
theorem C23_merkle_block (H : Bytes → Arr 32) (header : Header) (l : List (Arr 32)) (p : Arr 32 → Bool)
    (hmax : l.length ≤ 16666) (hr : merkleRootOf H l = some header.merkleRoot) :
    ∃ b, MerkleBlock.fromHeader (combineH H) header l p = some b ∧
      b.extractMatches (combineH H) = .ok (matchedTxids l (l.map p)) := by
  obtain ⟨t, _, _, h1, _, _, h4, _⟩ := C23_roundtrip H l (l.map p) (by simp) hmax _ hr
  refine ⟨⟨header, t⟩, ?_, ?_⟩
  · unfold MerkleBlock.fromHeader
    rw [h1]
    rfl
  · unfold MerkleBlock.extractMatches
    simp only [h4, if_true]

/-! ### Examples -/

/-- Five distinct "txids", second and fifth matched. -/
def sampleIds : List Nat := [11, 22, 33, 44, 55]
def sampleMatches : List Bool := [false, true, false, false, true]

example : matchedTxids sampleIds sampleMatches = [(22, 1), (55, 4)] := by decide

example : ((fromTxids (fun a b : Nat => 100 * a + b + 7) sampleIds sampleMatches).map fun t =>
    (t.num, t.bits, t.hashes)) =
    some (5, [true, true, true, false, true, false, true, true, true], [11, 22, 3351, 55]) := by decide

example : (fromTxids (fun a b : Nat => 100 * a + b + 7) sampleIds sampleMatches).map
    (fun t => (t.extractMatches (fun a b : Nat => 100 * a + b + 7)).toOption) =
    some (some (((100 * (100 * (100 * 11 + 22 + 7) + (100 * 33 + 44 + 7) + 7) +
      (100 * (100 * 55 + 55 + 7) + (100 * 55 + 55 + 7) + 7) + 7), [(22, 1), (55, 4)]))) := by decide

/-- A pruned tree meeting the conditions of `C24_accepts` for five transactions. -/
example : (PT.two (.two (.two (.hash false 11) (.hash true 22)) (.hash false 3351))
      (.one (.one (.hash true (55 : Nat))))).Fits 5 3 0 ∧ height 5 = 3 ∧
    (PT.two (.two (.two (.hash false 11) (.hash true 22)) (.hash false 3351))
      (.one (.one (.hash true (55 : Nat))))).NoTwins (fun a b : Nat => 100 * a + b + 7) := by
  simp [PT.Fits, PT.NoTwins, PT.top, width, height, heightLoop]

/-- The hypothesis of `C23_roundtrip` for two hashes and the toy hash of the C22 example. -/
example : merkleRootOf lenHash [⟨List.replicate 32 1, List.length_replicate⟩,
    ⟨List.replicate 32 2, List.length_replicate⟩] = some ⟨List.replicate 32 64, List.length_replicate⟩ := by
  decide

end Pmt
end Btc
