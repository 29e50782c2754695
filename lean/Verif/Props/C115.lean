import Verif.Bitcoin.HeaderSync
import Verif.Props.C46
import Verif.Props.C45
import Verif.Props.C90
/-!
# C115: following a chain of headers
-/
namespace Btc
namespace HeaderSync
open Pow (Network limit newTarget fromCompact toCompactLossy nextTargetAfter toWork consensusWork)

/-! ## The rules -/

def target (h : Header) : Nat := (fromCompact h.bits).val

/-- The main network's rule for the bits of the header after `l[i]`: at multiples of 2016 the adjustment from the last 2016 headers. -/
def BitsRule (n : Network) (l : List Header) (i : Nat) (last : Header) (bits : UInt32) : Prop :=
  if (i + 1) % 2016 = 0 then
    ∃ first t, l[i - 2015]? = some first ∧ t.val = newTarget n (target last) ((last.time.toNat : Int) - first.time.toNat) ∧ bits = toCompactLossy t
  else bits = last.bits

/-- A chain by the rules, from a given start; `R` compares a header's bits with the required ones. -/
structure Chain (H : Bytes → Arr 32) (n : Network) (R : UInt32 → UInt32 → Prop) (l : List Header) : Prop where
  linked : ∀ (i : Nat) (a b : Header), l[i]? = some a → l[i + 1]? = some b → b.prev = a.blockHash H
  bits : ∀ (i : Nat) (a b : Header), l[i]? = some a → l[i + 1]? = some b → ∃ c, BitsRule n l i a c ∧ R b.bits c
  work : ∀ (i : Nat) (b : Header), l[i + 1]? = some b → leNat (b.blockHash H).1 ≤ target b

/-- The consensus rule: the bits are the required ones. -/
def Valid (H : Bytes → Arr 32) (n : Network) (l : List Header) : Prop := Chain H n Eq l
/-- The targets are. -/
def SameTarget (b c : UInt32) : Prop := (fromCompact b).val = (fromCompact c).val
def TargetValid (H : Bytes → Arr 32) (n : Network) (l : List Header) : Prop := Chain H n SameTarget l

/-- What the program compares. -/
def Compared (strict : Bool) (b c : UInt32) : Prop := if strict then b = c else SameTarget b c

theorem Compared.same {strict : Bool} {b c : UInt32} (h : Compared strict b c) : SameTarget b c := by
  cases strict
  · exact h
  · have : b = c := h
    rw [this]; rfl

def Main (n : Network) : Prop := n = .bitcoin ∨ n = .signet

theorem Main.ne {n : Network} (h : Main n) : n ≠ .regtest ∧ n ≠ .testnet4 := by rcases h with rfl | rfl <;> decide

/-! ## One step -/

/-- The required bits are those of the rule; there is no panic. -/
theorem required_spec {n : Network} (hn : Main n) (l : List Header) (last : Header) (time : UInt32) (hlast : l.getLast? = some last)
    (hlen : l.length < 2 ^ 32) (ht : target last ≤ limit n) :
    ∃ bits, required n.params l time = some (.ok bits) ∧ BitsRule n l (l.length - 1) last bits ∧ (fromCompact bits).val ≤ limit n ∧
      ∀ c, BitsRule n l (l.length - 1) last c → c = bits := by
  have hpos : 0 < l.length := by
    cases l with
    | nil => cases hlast
    | cons => simp
  have hsucc : l.length - 1 + 1 = l.length := by omega
  unfold required BitsRule
  rw [hlast]
  simp only [hsucc]
  unfold nextTargetAfter
  have hmin : min (l.length - 1 + 1) (2 ^ 32 - 1) = l.length := by omega
  have hre : Pow.isRetarget l.length 2016 = some (decide (l.length % 2016 = 0)) := rfl
  simp only [Pow.params_spacing, Pow.params_timespan, hmin]
  rw [if_neg (by omega), show 1209600 / 600 = 2016 from rfl, hre]
  by_cases h0 : l.length % 2016 = 0
  · rw [decide_eq_true h0]
    have hi : l.length - 1 - 2015 < l.length := by omega
    have hg : byHeight l (l.length - 1 - (2016 - 1)) = .ok l[l.length - 1 - 2015] := by
      unfold byHeight
      rw [show 2016 - 1 = 2015 from rfl, List.getElem?_eq_getElem hi]
    simp only [hg]
    obtain ⟨t, e1, e2⟩ := Pow.C46_headers n hn.ne.1 l[l.length - 1 - 2015] last (by rw [if_neg hn.ne.2]; exact ht)
    rw [if_neg hn.ne.2] at e1
    have hlim : (fromCompact (toCompactLossy t)).val ≤ limit n := by
      have e3 := e2
      unfold Pow.fromHeaders at e3
      refine (Pow.C46_limit n hn.ne.1 _ _ _ ?_ e3).1
      have : n.params.enforceBip94 = false := by rcases hn with rfl | rfl <;> rfl
      rw [this]; exact ht
    refine ⟨toCompactLossy t, by rw [e2]; rfl, by rw [if_pos h0]; exact ⟨_, t, List.getElem?_eq_getElem hi, e1, rfl⟩, hlim, fun c hc => ?_⟩
    rw [if_pos h0] at hc
    obtain ⟨f, t', h1, h2, h3⟩ := hc
    rw [List.getElem?_eq_getElem hi] at h1
    cases h1
    rw [h3, U256.val_inj (h2.trans e1.symm)]
  · rw [decide_eq_false h0]
    refine ⟨last.bits, ?_, by rw [if_neg h0], ht, fun c hc => ?_⟩
    · rcases hn with rfl | rfl <;> rfl
    · rw [if_neg h0] at hc; exact hc

theorem accepts_spec (H : Bytes → Arr 32) {n : Network} (hn : Main n) (strict : Bool) (l : List Header) (last h : Header) (hlast : l.getLast? = some last)
    (hlen : l.length < 2 ^ 32) (ht : target last ≤ limit n) :
    ∃ b, accepts H n.params strict l h = some b ∧ (b = true ↔ h.prev = last.blockHash H ∧ leNat (h.blockHash H).1 ≤ target h ∧
      ∃ c, BitsRule n l (l.length - 1) last c ∧ Compared strict h.bits c) ∧ (b = true → target h ≤ limit n) := by
  obtain ⟨bits, e1, e2, e3, e4⟩ := required_spec hn l last h.time hlast hlen ht
  unfold accepts
  rw [e1]
  have hv : isOk (Genesis.validatePow H h (fromCompact bits)) = true ↔
      fromCompact h.bits = fromCompact bits ∧ leNat (h.blockHash H).1 ≤ target h := by
    unfold Genesis.validatePow
    simp only []
    by_cases hb : fromCompact h.bits = fromCompact bits
    · rw [if_neg (fun x => x hb)]
      by_cases hm : Pow.isMetBy (fromCompact h.bits) (h.blockHash H) = true
      · rw [if_pos hm]; simp only [isOk, true_iff]; exact ⟨hb, (Pow.C45_is_met_by _ _).mp hm⟩
      · rw [if_neg hm]
        refine ⟨fun x => (by cases x), fun x => absurd ((Pow.C45_is_met_by _ _).mpr x.2) hm⟩
    · rw [if_pos hb]
      exact ⟨fun x => (by cases x), fun x => absurd x.1 hb⟩
  refine ⟨_, rfl, ?_, ?_⟩
  · rw [Bool.and_eq_true, Bool.and_eq_true, hv, decide_eq_true_iff, hlast]
    simp only [Option.map_some, Option.some.injEq, Bool.or_eq_true, Bool.not_eq_true', beq_iff_eq]
    constructor
    · rintro ⟨⟨h1, h2⟩, h3, h4⟩
      refine ⟨h1.symm, h4, bits, e2, ?_⟩
      cases strict
      · exact congrArg U256.val h3
      · exact h2.resolve_left (by simp)
    · rintro ⟨h1, h2, c, h3, h4⟩
      cases e4 c h3
      refine ⟨⟨h1.symm, ?_⟩, U256.val_inj h4.same, h2⟩
      cases strict
      · exact .inl rfl
      · exact .inr h4
  · rw [Bool.and_eq_true, hv]
    rintro ⟨-, h3, -⟩
    unfold target
    rw [h3]
    exact e3

/-! ## All steps -/

theorem getElem?_concat {α : Type} (l : List α) (x : α) (i : Nat) : (l ++ [x])[i]? = if i < l.length then l[i]? else if i = l.length then some x else none := by
  by_cases h : i < l.length
  · rw [if_pos h, List.getElem?_append_left h]
  · rw [if_neg h, List.getElem?_append_right (by omega)]
    by_cases h2 : i = l.length
    · rw [if_pos h2, h2]; simp
    · rw [if_neg h2, List.getElem?_eq_none]; simp; omega

theorem bitsRule_append {n : Network} {l : List Header} {i : Nat} {a : Header} {c : UInt32} (m : List Header) (hi : i < l.length) :
    BitsRule n (l ++ m) i a c ↔ BitsRule n l i a c := by
  unfold BitsRule
  rw [List.getElem?_append_left (by omega : i - 2015 < l.length)]

/-- A property of all neighbours in `l ++ [h]`. -/
theorem concat_pairs {l : List Header} {last h : Header} (hlast : l.getLast? = some last) {R : Nat → Header → Header → Prop} :
    (∀ (i : Nat) (a b : Header), (l ++ [h])[i]? = some a → (l ++ [h])[i + 1]? = some b → R i a b) ↔
      (∀ (i : Nat) (a b : Header), l[i]? = some a → l[i + 1]? = some b → R i a b) ∧ R (l.length - 1) last h := by
  obtain ⟨m, rfl⟩ := List.getLast?_eq_some_iff.mp hlast
  constructor
  · intro hr
    refine ⟨fun i a b h1 h2 => hr i a b ?_ ?_, hr _ _ _ ?_ ?_⟩
    · rw [List.getElem?_append_left (List.getElem?_eq_some_iff.mp h1).1]; exact h1
    · rw [List.getElem?_append_left (List.getElem?_eq_some_iff.mp h2).1]; exact h2
    · simp
    · simp
  · rintro ⟨h1, h2⟩ i a b ha hb
    by_cases hi : i + 1 < (m ++ [last]).length
    · rw [List.getElem?_append_left (by omega)] at ha hb
      exact h1 i a b ha hb
    · have hl : (m ++ [last] ++ [h]).length = m.length + 2 := by simp
      have := (List.getElem?_eq_some_iff.mp hb).1
      have hl' : (m ++ [last]).length = m.length + 1 := by simp
      have : i = m.length := by omega
      subst this
      have e1 : (m ++ [last] ++ [h])[m.length]? = some last := by simp
      have e2 : (m ++ [last] ++ [h])[m.length + 1]? = some h := by simp
      rw [e1] at ha; rw [e2] at hb
      cases ha; cases hb
      rw [hl'] at h2
      exact h2

theorem chain_concat {H : Bytes → Arr 32} {n : Network} {R : UInt32 → UInt32 → Prop} {l : List Header} {last h : Header} (hlast : l.getLast? = some last) :
    Chain H n R (l ++ [h]) ↔ Chain H n R l ∧ h.prev = last.blockHash H ∧ leNat (h.blockHash H).1 ≤ target h ∧ ∃ c, BitsRule n l (l.length - 1) last c ∧ R h.bits c := by
  have hpos : 0 < l.length := by
    cases l with
    | nil => cases hlast
    | cons => simp
  have c1 := concat_pairs (h := h) hlast (R := fun _ a b => b.prev = a.blockHash H)
  have c2 := concat_pairs (h := h) hlast (R := fun i a b => ∃ c, BitsRule n (l ++ [h]) i a c ∧ R b.bits c)
  have hw : (∀ (i : Nat) (b : Header), (l ++ [h])[i + 1]? = some b → leNat (b.blockHash H).1 ≤ target b) ↔
      (∀ (i : Nat) (b : Header), l[i + 1]? = some b → leNat (b.blockHash H).1 ≤ target b) ∧ leNat (h.blockHash H).1 ≤ target h := by
    constructor
    · intro hr
      refine ⟨fun i b h2 => hr i b ?_, hr (l.length - 1) h ?_⟩
      · rw [List.getElem?_append_left (List.getElem?_eq_some_iff.mp h2).1]; exact h2
      · rw [show l.length - 1 + 1 = l.length by omega]; simp
    · rintro ⟨h1, h2⟩ i b hb
      rw [getElem?_concat] at hb
      by_cases hi : i + 1 < l.length
      · rw [if_pos hi] at hb; exact h1 i b hb
      · rw [if_neg hi] at hb
        by_cases he : i + 1 = l.length
        · rw [if_pos he] at hb; cases hb; exact h2
        · rw [if_neg he] at hb; cases hb
  have hb1 : ∀ (i : Nat) (a : Header) (c : UInt32), l[i]? = some a → (BitsRule n (l ++ [h]) i a c ↔ BitsRule n l i a c) :=
    fun i a c ha => bitsRule_append _ (List.getElem?_eq_some_iff.mp ha).1
  have hb2 : ∀ c, BitsRule n (l ++ [h]) (l.length - 1) last c ↔ BitsRule n l (l.length - 1) last c := fun c => bitsRule_append _ (by omega)
  constructor
  · rintro ⟨v1, v2, v3⟩
    obtain ⟨a1, a2⟩ := c1.mp v1
    obtain ⟨b1, c, b2, b3⟩ := c2.mp v2
    obtain ⟨d1, d2⟩ := hw.mp v3
    refine ⟨⟨a1, fun i a b ha hb => ?_, d1⟩, a2, d2, c, (hb2 c).mp b2, b3⟩
    obtain ⟨c, x1, x2⟩ := b1 i a b ha hb
    exact ⟨c, (hb1 i a c ha).mp x1, x2⟩
  · rintro ⟨⟨v1, v2, v3⟩, a2, d2, c, b2, b3⟩
    refine ⟨c1.mpr ⟨v1, a2⟩, c2.mpr ⟨fun i a b ha hb => ?_, c, (hb2 c).mpr b2, b3⟩, hw.mpr ⟨v3, d2⟩⟩
    obtain ⟨c, x1, x2⟩ := v2 i a b ha hb
    exact ⟨c, (hb1 i a c ha).mpr x1, x2⟩

/-- Whatever headers arrive, the client does not panic, and what it has kept is a chain. -/
theorem follow_spec (H : Bytes → Arr 32) {n : Network} (hn : Main n) (strict : Bool) (hs : List Header) : ∀ (l : List Header), l ≠ [] →
    l.length + hs.length ≤ 2 ^ 32 → (∀ h ∈ l, target h ≤ limit n) → Chain H n (Compared strict) l →
    ∃ m, follow H n.params strict l hs = some (l ++ m) ∧ m.Sublist hs ∧ Chain H n (Compared strict) (l ++ m) ∧ ∀ h ∈ l ++ m, target h ≤ limit n := by
  induction hs with
  | nil => intro l _ _ hl hc; exact ⟨[], by simp [follow], .slnil, by simpa using hc, by simpa using hl⟩
  | cons h hs ih =>
    intro l hne hlen hl hc
    have hlast := List.getLast?_eq_some_getLast hne
    have hlen' : l.length + (hs.length + 1) ≤ 2 ^ 32 := hlen
    obtain ⟨b, e, hb, hb'⟩ := accepts_spec H hn strict l _ h hlast (by omega) (hl _ (List.getLast_mem hne))
    unfold follow
    rw [e]
    cases b with
    | false =>
      obtain ⟨m, e1, e2, e3, e4⟩ := ih l hne (by omega) hl hc
      exact ⟨m, e1, .cons _ e2, e3, e4⟩
    | true =>
      obtain ⟨g1, g2, g3⟩ := hb.mp rfl
      obtain ⟨m, e1, e2, e3, e4⟩ := ih (l ++ [h]) (by simp) (by simp; omega) (fun x hx => by
          rcases List.mem_append.mp hx with hx | hx
          · exact hl x hx
          · rw [List.mem_singleton.mp hx]; exact hb' rfl) ((chain_concat hlast).mpr ⟨hc, g1, g2, g3⟩)
      rw [List.append_assoc] at e1 e3 e4
      exact ⟨h :: m, e1, e2.cons_cons _, e3, e4⟩

/-- And a chain that continues the headers kept so far is accepted as a whole. -/
theorem follow_complete (H : Bytes → Arr 32) {n : Network} (hn : Main n) (strict : Bool) (hs : List Header) : ∀ (l : List Header), l ≠ [] →
    l.length + hs.length ≤ 2 ^ 32 → (∀ h ∈ l, target h ≤ limit n) → Chain H n (Compared strict) (l ++ hs) →
    follow H n.params strict l hs = some (l ++ hs) := by
  induction hs with
  | nil => intro l _ _ _ _; simp [follow]
  | cons h hs ih =>
    intro l hne hlen hl hc
    have hlast := List.getLast?_eq_some_getLast hne
    have hlen' : l.length + (hs.length + 1) ≤ 2 ^ 32 := hlen
    obtain ⟨b, e, hb, hb'⟩ := accepts_spec H hn strict l _ h hlast (by omega) (hl _ (List.getLast_mem hne))
    have hsplit : l ++ h :: hs = (l ++ [h]) ++ hs := by simp
    have hc1 : Chain H n (Compared strict) (l ++ [h]) := by
      rw [hsplit] at hc
      refine ⟨fun i a b h1 h2 => hc.linked i a b ?_ ?_, fun i a b h1 h2 => ?_, fun i b h2 => hc.work i b ?_⟩
      · rw [List.getElem?_append_left (List.getElem?_eq_some_iff.mp h1).1]; exact h1
      · rw [List.getElem?_append_left (List.getElem?_eq_some_iff.mp h2).1]; exact h2
      · obtain ⟨c, x1, x2⟩ := hc.bits i a b (by rw [List.getElem?_append_left (List.getElem?_eq_some_iff.mp h1).1]; exact h1)
          (by rw [List.getElem?_append_left (List.getElem?_eq_some_iff.mp h2).1]; exact h2)
        exact ⟨c, (bitsRule_append _ (List.getElem?_eq_some_iff.mp h1).1).mp x1, x2⟩
      · rw [List.getElem?_append_left (List.getElem?_eq_some_iff.mp h2).1]; exact h2
    obtain ⟨-, g1, g2, g3⟩ := (chain_concat hlast).mp hc1
    have hbt : b = true := hb.mpr ⟨g1, g2, g3⟩
    subst hbt
    unfold follow
    rw [e, hsplit]
    refine ih (l ++ [h]) (by simp) (by simp; omega) (fun x hx => ?_) (by rw [← hsplit]; exact hc)
    rcases List.mem_append.mp hx with hx | hx
    · exact hl x hx
    · rw [List.mem_singleton.mp hx]; exact hb' rfl

theorem chain_start (H : Bytes → Arr 32) (n : Network) (R : UInt32 → UInt32 → Prop) (g : Header) : Chain H n R [g] := by
  refine ⟨fun i a b _ h => ?_, fun i a b _ h => ?_, fun i b h => ?_⟩ <;>
    · rw [List.getElem?_eq_none (by simp)] at h; cases h

/-- With its bits compared, the client keeps chains by the consensus rules only, for any incoming headers, and follows every such chain;
it never panics. -/
theorem C115_strict (H : Bytes → Arr 32) (n : Network) (hn : n = .bitcoin ∨ n = .signet) (g : Header) (hg : target g ≤ limit n) (hs : List Header)
    (hlen : hs.length < 2 ^ 32) :
    (∃ m, follow H n.params true [g] hs = some (g :: m) ∧ m.Sublist hs ∧ Valid H n (g :: m)) ∧
    (follow H n.params true [g] hs = some (g :: hs) ↔ Valid H n (g :: hs)) := by
  have hl : ∀ h ∈ [g], target h ≤ limit n := fun h hh => by rw [List.mem_singleton.mp hh]; exact hg
  obtain ⟨m, e1, e2, e3, -⟩ := follow_spec H hn true hs [g] (by simp) (by simp; omega) hl (chain_start ..)
  refine ⟨⟨m, e1, e2, e3⟩, fun h => ?_, fun h => follow_complete H hn true hs [g] (by simp) (by simp; omega) hl h⟩
  rw [h] at e1
  cases e1
  exact e3

/-- With `validate_pow` alone: chains in which the targets, hence the work, are by the rules. -/
theorem C115_targets (H : Bytes → Arr 32) (n : Network) (hn : n = .bitcoin ∨ n = .signet) (g : Header) (hg : target g ≤ limit n) (hs : List Header)
    (hlen : hs.length < 2 ^ 32) :
    (∃ m, follow H n.params false [g] hs = some (g :: m) ∧ m.Sublist hs ∧ TargetValid H n (g :: m)) ∧
    (follow H n.params false [g] hs = some (g :: hs) ↔ TargetValid H n (g :: hs)) := by
  have hl : ∀ h ∈ [g], target h ≤ limit n := fun h hh => by rw [List.mem_singleton.mp hh]; exact hg
  obtain ⟨m, e1, e2, e3, -⟩ := follow_spec H hn false hs [g] (by simp) (by simp; omega) hl (chain_start ..)
  refine ⟨⟨m, e1, e2, e3⟩, fun h => ?_, fun h => follow_complete H hn false hs [g] (by simp) (by simp; omega) hl h⟩
  rw [h] at e1
  cases e1
  exact e3

theorem follow_append (H : Bytes → Arr 32) (p : Pow.Params) (strict : Bool) (a b : List Header) : ∀ l,
    follow H p strict l (a ++ b) = (follow H p strict l a).bind fun r => follow H p strict r b := by
  induction a with
  | nil => intro l; rfl
  | cons h a ih =>
    intro l
    show follow H p strict l (h :: (a ++ b)) = _
    rw [follow, follow]
    cases accepts H p strict l h with
    | none => rfl
    | some x => cases x <;> exact ih _

/-- A header that does not continue the chain at its time is ignored: the rest is followed as if it had not come. -/
theorem C115_ignores (H : Bytes → Arr 32) (n : Network) (hn : n = .bitcoin ∨ n = .signet) (g : Header) (hg : target g ≤ limit n) (a b kept : List Header)
    (h : Header) (hlen : a.length + b.length + 1 < 2 ^ 32) (hk : follow H n.params true [g] a = some kept) (hbad : ¬ Valid H n (kept ++ [h])) :
    follow H n.params true [g] (a ++ h :: b) = follow H n.params true [g] (a ++ b) := by
  have hl : ∀ h ∈ [g], target h ≤ limit n := fun h hh => by rw [List.mem_singleton.mp hh]; exact hg
  obtain ⟨m, e1, e2, e3, e4⟩ := follow_spec H hn true a [g] (by simp) (by simp; omega) hl (chain_start ..)
  rw [hk] at e1
  cases e1
  have hlast := List.getLast?_eq_some_getLast (by simp : [g] ++ m ≠ [])
  have := e2.length_le
  obtain ⟨x, y1, y2, -⟩ := accepts_spec H hn true ([g] ++ m) _ h hlast (by simp; omega) (e4 _ (List.getLast_mem _))
  have hx : x = false := by
    cases x with
    | false => rfl
    | true => exact absurd ((chain_concat hlast).mpr ⟨e3, y2.mp rfl⟩) hbad
  subst hx
  rw [follow_append, follow_append, hk]
  show follow H n.params true ([g] ++ m) (h :: b) = follow H n.params true ([g] ++ m) b
  rw [follow, y1]

/-- The code itself refutes the claim that `validate_pow` with the required target enforces the rule: it compares targets, and a target can have
two compact forms, of which consensus takes one. -/
theorem C115_validate_pow_fails : ∃ (H : Bytes → Arr 32) (g h : Header), target g ≤ limit .bitcoin ∧
    follow H (Network.params .bitcoin) false [g] [h] = some [g, h] ∧ ¬ Valid H .bitcoin [g, h] ∧
    follow H (Network.params .bitcoin) true [g] [h] = some [g] := by
  let z : Arr 32 := ⟨List.replicate 32 0, by simp⟩
  refine ⟨fun _ => z, ⟨1, z, z, 0, 0x1b7f0000, 0⟩, ⟨1, z, z, 600, 0x1c007f00, 0⟩, by decide +kernel, by decide +kernel, fun hv => ?_, by decide +kernel⟩
  obtain ⟨c, h1, h2⟩ := hv.bits 0 _ _ rfl rfl
  unfold BitsRule at h1
  rw [if_neg (by decide)] at h1
  exact absurd (h2.trans h1) (by decide)

/-! ## The work of a chain -/

theorem add_spec {x y : U256} (h : x.val + y.val < 2 ^ 256) : ∃ z, U256.add x y = some z ∧ z.val = x.val + y.val := by
  obtain ⟨h1, h2⟩ := U256.overflowingAdd_spec x y
  unfold U256.add
  simp only []
  have hf : (U256.overflowingAdd x y).2 = false := by
    cases hh : (U256.overflowingAdd x y).2 with
    | false => rfl
    | true => simp [hh] at h2; omega
  rw [hf]
  refine ⟨_, rfl, ?_⟩
  rw [h1]
  omega

theorem totalWork_spec (l : List Header) : ∀ acc : U256, (∀ h ∈ l, 2 ^ 64 ≤ target h) → acc.val + l.length * 2 ^ 192 < 2 ^ 256 →
    ∃ w, totalWork acc l = some w ∧ w.val = acc.val + (l.map fun h => 2 ^ 256 / (target h + 1)).sum := by
  induction l with
  | nil => intro acc _ _; exact ⟨acc, rfl, by simp⟩
  | cons h l ih =>
    intro acc hl hb
    have ht : 2 ^ 64 ≤ target h := hl h (by simp)
    obtain ⟨w, e1, e2⟩ := Pow.C45_work_partial (fromCompact h.bits) (by unfold target at ht; omega)
    have hq : 2 ^ 256 / (target h + 1) ≤ 2 ^ 192 := by
      apply Nat.le_of_lt_succ
      apply (Nat.div_lt_iff_lt_mul (by omega)).mpr
      have : (2 ^ 192 + 1) * (2 ^ 64 + 1) ≤ (2 ^ 192 + 1) * (target h + 1) := Nat.mul_le_mul_left _ (by omega)
      exact Nat.lt_of_lt_of_le (by decide) this
    have e2 : w.val = 2 ^ 256 / (target h + 1) := by
      rw [e2]; unfold Pow.consensusWork; unfold target at hq ⊢; omega
    simp only [List.length_cons] at hb
    obtain ⟨s, e3, e4⟩ := add_spec (x := acc) (y := w) (by omega)
    obtain ⟨r, e5, e6⟩ := ih s (fun x hx => hl x (by simp [hx])) (by omega)
    refine ⟨r, ?_, ?_⟩
    · unfold totalWork
      rw [show toWork (fromCompact h.bits) = some w from e1]
      simp only [Option.bind_some, e3, e5]
    · rw [e6, e4, e2, List.map_cons, List.sum_cons]; omega

/-- The total work of any chain the client keeps is the consensus work, without overflow, unless a header with a hash below 2^64 was found. -/
theorem C115_work (H : Bytes → Arr 32) (n : Network) (g : Header) (m : List Header) (hg : 2 ^ 64 ≤ target g) (hlen : m.length < 2 ^ 32)
    (hv : TargetValid H n (g :: m)) (hh : ∀ h ∈ m, 2 ^ 64 ≤ leNat (h.blockHash H).1) :
    ∃ w, totalWork U256.zero (g :: m) = some w ∧ w.val = ((g :: m).map fun h => 2 ^ 256 / (target h + 1)).sum := by
  obtain ⟨w, e1, e2⟩ := totalWork_spec (g :: m) U256.zero (fun h hm => by
    rcases List.mem_cons.mp hm with rfl | hm
    · exact hg
    · obtain ⟨i, hi⟩ := List.getElem?_of_mem hm
      exact Nat.le_trans (hh h hm) (hv.work i h (by simpa using hi))) (by rw [U256.val_zero, List.length_cons]; omega)
  exact ⟨w, e1, by rw [e2, U256.val_zero, Nat.zero_add]⟩

/-! ## The tip determines the chain -/

theorem tip_core (H : Bytes → Arr 32) (g : Header) : ∀ (k : Nat) (l m : List Header) (x y : Header), l.length = k →
    (∀ (i : Nat) (a b : Header), (l ++ [x])[i]? = some a → (l ++ [x])[i + 1]? = some b → b.prev = a.blockHash H) →
    (∀ (i : Nat) (a b : Header), (m ++ [y])[i]? = some a → (m ++ [y])[i + 1]? = some b → b.prev = a.blockHash H) →
    (l ++ [x]).head? = some g → (m ++ [y]).head? = some g → x.blockHash H = y.blockHash H →
    l ++ [x] = m ++ [y] ∨ Collision H (((l ++ [x]) ++ (m ++ [y])).map headerBytes) ∨ ∃ h ∈ (l ++ [x]) ++ (m ++ [y]), h.blockHash H = g.prev := by
  intro k
  induction k with
  | zero =>
    intro l m x y hk hl hm gl gm ht
    cases List.length_eq_zero_iff.mp hk
    cases gl
    rcases (C16_block_hash H _ y).2 ht with rfl | hc
    · rcases List.eq_nil_or_concat m with rfl | ⟨m, z, rfl⟩
      · exact .inl rfl
      · rw [List.concat_eq_append] at *
        refine .inr (.inr ⟨z, by simp, ?_⟩)
        have := ((concat_pairs (l := m ++ [z]) (last := z) (h := _) (by simp) (R := fun _ a b => b.prev = a.blockHash H)).mp hm).2
        exact this.symm
    · exact .inr (.inl (hc.mono fun z hz => by simp at hz ⊢; exact hz.imp id .inr))
  | succ k ih =>
    intro l m x y hk hl hm gl gm ht
    rcases List.eq_nil_or_concat l with rfl | ⟨l, u, rfl⟩
    · cases hk
    rw [List.concat_eq_append] at *
    obtain ⟨l1, l2⟩ := (concat_pairs (l := l ++ [u]) (last := u) (h := x) (by simp) (R := fun _ a b => b.prev = a.blockHash H)).mp hl
    rcases (C16_block_hash H x y).2 ht with rfl | hc
    · rcases List.eq_nil_or_concat m with rfl | ⟨m, z, rfl⟩
      · cases gm
        exact .inr (.inr ⟨u, by simp, l2.symm⟩)
      · rw [List.concat_eq_append] at *
        obtain ⟨m1, m2⟩ := (concat_pairs (l := m ++ [z]) (last := z) (h := _) (by simp) (R := fun _ a b => b.prev = a.blockHash H)).mp hm
        have e : ∀ (a : List Header) (v : Header), ∀ w : Header, (a ++ [v] ++ [w]).head? = (a ++ [v]).head? := fun a v w => by cases a <;> rfl
        rcases ih l m u z (by simpa using hk) l1 m1 ((e l u _).symm.trans gl) ((e m z _).symm.trans gm) (l2.symm.trans m2) with h | h | ⟨w, hw, h⟩
        · exact .inl (by rw [h])
        · refine .inr (.inl (h.mono fun v hv => ?_))
          simp only [List.map_append, List.mem_append] at hv ⊢
          exact hv.imp .inl .inl
        · refine .inr (.inr ⟨w, ?_, h⟩)
          simp only [List.mem_append] at hw ⊢
          exact hw.imp .inl .inl
    · refine .inr (.inl (hc.mono fun z hz => ?_))
      simp only [List.map_append, List.map_cons, List.map_nil, List.mem_append, List.mem_cons, List.not_mem_nil, or_false] at hz ⊢
      exact hz.imp .inr .inr

/-- Two chains from one start with one tip hash, of whatever lengths, are equal, or two of their headers have one hash, or one has the hash the start
names as the one before it (all zeroes for the first block of a network). -/
theorem C115_tip (H : Bytes → Arr 32) (n : Network) (R R' : UInt32 → UInt32 → Prop) (g x y : Header) (l m : List Header)
    (hl : Chain H n R (g :: l)) (hm : Chain H n R' (g :: m)) (hx : (g :: l).getLast? = some x) (hy : (g :: m).getLast? = some y)
    (ht : x.blockHash H = y.blockHash H) :
    l = m ∨ Collision H (((g :: l) ++ (g :: m)).map headerBytes) ∨ ∃ h ∈ (g :: l) ++ (g :: m), h.blockHash H = g.prev := by
  obtain ⟨l', el⟩ := List.getLast?_eq_some_iff.mp hx
  obtain ⟨m', em⟩ := List.getLast?_eq_some_iff.mp hy
  have h1 := hl.linked
  have h2 := hm.linked
  rw [el] at h1
  rw [em] at h2
  have := tip_core H g l'.length l' m' x y rfl h1 h2 (by rw [← el]; rfl) (by rw [← em]; rfl) ht
  rw [← el, ← em] at this
  exact this.imp (fun h => (List.cons.inj h).2) id

/-! ## Examples: a hash of the time and the bits, small enough for the first target -/

def exH (b : Bytes) : Arr 32 := ⟨((b.drop 68).take 8 ++ 1 :: List.replicate 31 0).take 32, by simp⟩
def exStart : Header := ⟨1, ⟨List.replicate 32 0, by simp⟩, ⟨List.replicate 32 7, by simp⟩, 1231006505, 0x1d00ffff, 2083236893⟩
def exNext (h : Header) : Header := { h with prev := h.blockHash exH, time := h.time + 600, nonce := h.nonce + 1 }

/-- Two headers are kept; one with another predecessor and one with other bits are not. -/
example : (follow exH (Network.params .bitcoin) true [exStart]
    [exNext exStart, exNext exStart, { exNext (exNext exStart) with bits := 0x1d00fffe }, exNext (exNext exStart)]) =
      some [exStart, exNext exStart, exNext (exNext exStart)] := by decide +kernel
example : target exStart ≤ limit .bitcoin ∧ 2 ^ 64 ≤ target exStart ∧ ∀ h ∈ [exNext exStart, exNext (exNext exStart)], 2 ^ 64 ≤ leNat (h.blockHash exH).1 := by
  decide +kernel
example : Valid exH .bitcoin [exStart, exNext exStart, exNext (exNext exStart)] ∧ TargetValid exH .bitcoin [exStart, exNext exStart, exNext (exNext exStart)] :=
  ⟨(C115_strict exH .bitcoin (.inl rfl) exStart (by decide +kernel) [exNext exStart, exNext (exNext exStart)] (by decide)).2.mp (by decide +kernel),
    (C115_targets exH .bitcoin (.inl rfl) exStart (by decide +kernel) [exNext exStart, exNext (exNext exStart)] (by decide)).2.mp (by decide +kernel)⟩
example : follow exH (Network.params .bitcoin) true [exStart] [] = some [exStart] ∧ ¬ Valid exH .bitcoin ([exStart] ++ [exNext (exNext exStart)]) :=
  ⟨rfl, fun h => absurd ((C115_strict exH .bitcoin (.inl rfl) exStart (by decide +kernel) [exNext (exNext exStart)] (by decide)).2.mpr h) (by decide +kernel)⟩
example : totalWork U256.zero [exStart, exNext exStart, exNext (exNext exStart)] = some ⟨0, BitVec.ofNat 128 (3 * 0x100010001)⟩ := by decide +kernel

/-- At height 2016: half of the time, half of the target. -/
def exPeriod : List Header := List.replicate 2015 exStart ++ [{ exStart with time := exStart.time + 604800 }]
example : (required (Network.params .bitcoin) exPeriod 0).map Except.toOption = some (some 0x1c7fff80) := by decide +kernel

end HeaderSync
end Btc
