import Verif.Verification.Kani
import Verif.Props.C40
import Verif.Props.C43
import Verif.Props.C57
/-!
# C123: what the model-checking harnesses assert holds for every input
-/
namespace Btc
namespace Kani
open Amt Amt.NumOp AVec

theorem fromSat_ok {n : Nat} (h : n ≤ 2100000000000000) : fromSat n = .ok n := by
  unfold fromSat MAX; rw [if_neg (by omega)]
theorem fromSat_error {n : Nat} (h : 2100000000000000 < n) : fromSat n = .error ⟨false, true⟩ := by
  unfold fromSat MAX; rw [if_pos (by omega)]
theorem good_iff (n : Nat) : good (fromSat n) = true ↔ n ≤ 2100000000000000 := by
  by_cases h : n ≤ 2100000000000000
  · rw [fromSat_ok h]; exact ⟨fun _ => h, fun _ => rfl⟩
  · rw [fromSat_error (by omega)]; exact ⟨(fun h => by cases h), fun e => absurd e h⟩
theorem sFromSat_ok {n : Int} (h : -2100000000000000 ≤ n) (h' : n ≤ 2100000000000000) : sFromSat n = .ok n := by
  unfold sFromSat SMIN SMAX; rw [if_neg (by omega), if_neg (by omega)]
theorem sgood_iff (n : Int) : good (sFromSat n) = true ↔ -2100000000000000 ≤ n ∧ n ≤ 2100000000000000 := by
  by_cases h : -2100000000000000 ≤ n ∧ n ≤ 2100000000000000
  · rw [sFromSat_ok h.1 h.2]; exact ⟨fun _ => h, fun _ => rfl⟩
  · refine ⟨fun hg => ?_, fun e => absurd e h⟩
    have := (C40_signed_from_sat n)
    cases hs : sFromSat n with
    | error e => rw [hs] at hg; cases hg
    | ok m =>
      have := (this m).1 hs
      unfold SValid at this
      omega

/-- The harness for unsigned amounts: the assertions hold whenever the sum is an amount, and otherwise an assumption fails. -/
theorem C123_amount (n1 n2 : Nat) : uAmount n1 n2 = if n1 + n2 ≤ 2100000000000000 then .passed else .skipped := by
  unfold uAmount assume
  by_cases h1 : n1 ≤ 2100000000000000
  · rw [if_pos ((good_iff _).2 h1)]
    by_cases h2 : n2 ≤ 2100000000000000
    · rw [if_pos ((good_iff _).2 h2)]
      simp only [fromSat_ok h1, fromSat_ok h2, expect, step]
      have e1 : u64Add n1 n2 = some (n1 + n2) := if_pos (by omega)
      by_cases h : n1 + n2 ≤ 2100000000000000
      · have e2 : checkedAdd n1 n2 = some (some (n1 + n2)) := by simp [checkedAdd, e1, okSat, fromSat_ok h]
        have e3 : u64Sub (max n1 n2) (min n1 n2) = some (max n1 n2 - min n1 n2) := if_pos (by omega)
        have e4 : checkedSub (max n1 n2) (min n1 n2) = some (max n1 n2 - min n1 n2) := by
          simp only [checkedSub, e3, Option.bind_some, okSat]
          rw [fromSat_ok (by omega)]
        simp only [e2, addTT, subTT, kind, e1, Option.map_some, fromSat_ok h, validOr, isOk, assert, e3, e4,
          fromSat_ok (show max n1 n2 ≤ 2100000000000000 by omega), fromSat_ok (show min n1 n2 ≤ 2100000000000000 by omega),
          fromSat_ok (show max n1 n2 - min n1 n2 ≤ 2100000000000000 by omega)]
        simp [h]
      · have e2 : checkedAdd n1 n2 = some none := by
          simp only [checkedAdd, e1, Option.map_some, okSat]
          rw [fromSat_error (by omega)]
        simp only [e2]
        rw [if_neg h]; rfl
    · rw [if_neg (fun h => h2 ((good_iff _).1 h)), if_neg (by omega)]
  · rw [if_neg (fun h => h1 ((good_iff _).1 h)), if_neg (by omega)]

/-- The range of signed amounts. -/
def InRange (n : Int) : Prop := -2100000000000000 ≤ n ∧ n ≤ 2100000000000000
instance (n : Int) : Decidable (InRange n) := by unfold InRange; exact inferInstance

theorem sAdd_eq (a b : Int) (ha : InRange a) (hb : InRange b) : (sCheckedAdd a b = if InRange (a + b) then some (a + b) else none) ∧
    (sCheckedSub a b = if InRange (a - b) then some (a - b) else none) := by
  have key : ∀ z : Int, -4200000000000000 ≤ z → z ≤ 4200000000000000 → (i64 z).bind sOkSat = if InRange z then some z else none := by
    intro z h1 h2
    have e : i64 z = some z := if_pos (by constructor <;> omega)
    rw [e, Option.bind_some]
    unfold sOkSat
    by_cases h : InRange z
    · rw [sFromSat_ok h.1 h.2, if_pos h]
    · rw [if_neg h]
      have hg : ¬ good (sFromSat z) = true := fun hg => h ((sgood_iff z).1 hg)
      cases hz : sFromSat z with
      | ok x => rw [hz] at hg; exact absurd rfl hg
      | error e => rfl
  unfold InRange at ha hb
  exact ⟨key _ (by omega) (by omega), key _ (by omega) (by omega)⟩

/-- The harness for signed amounts. -/
theorem C123_signed_amount (n1 n2 : Int) :
    sAmount n1 n2 = if InRange n1 ∧ InRange n2 ∧ InRange (n1 + n2) ∧ InRange (n1 - n2) then .passed else .skipped := by
  unfold sAmount assume
  by_cases h1 : InRange n1
  · rw [if_pos ((sgood_iff _).2 h1)]
    by_cases h2 : InRange n2
    · rw [if_pos ((sgood_iff _).2 h2)]
      obtain ⟨ea, es⟩ := sAdd_eq n1 n2 h1 h2
      simp only [sFromSat_ok h1.1 h1.2, sFromSat_ok h2.1 h2.2, expect, step, ea, es]
      by_cases h3 : InRange (n1 + n2)
      · rw [if_pos h3] at ea ⊢
        by_cases h4 : InRange (n1 - n2)
        · rw [if_pos h4] at es ⊢
          have e1 : i64 (n1 + n2) = some (n1 + n2) := if_pos (by unfold InRange at h3; constructor <;> omega)
          have e2 : i64 (n1 - n2) = some (n1 - n2) := if_pos (by unfold InRange at h4; constructor <;> omega)
          simp only [addTT, subTT, kind, e1, e2, ea, es, validOr, Option.map_some, sFromSat_ok h3.1 h3.2, sFromSat_ok h4.1 h4.2, isOk, assert]
          simp [h1, h2, h3, h4]
        · rw [if_neg h4]; simp [h4]
      · rw [if_neg h3]; simp [h3]
    · rw [if_neg (fun h => h2 ((sgood_iff _).1 h)), if_neg (fun h => h2 h.2.1)]
  · rw [if_neg (fun h => h1 ((sgood_iff _).1 h)), if_neg (fun h => h1 h.1)]

theorem pushAll_eq {T : Type} {cap : Nat} (x : T) : ∀ (k : Nat) (v : AV T cap) (l : List T), v.Holds l →
    if l.length + k ≤ cap then ∃ v', pushAll x k v = some v' ∧ v'.Holds (l ++ List.replicate k x) else pushAll x k v = none := by
  intro k
  induction k with
  | zero => intro v l h; rw [if_pos (by have := h.le; omega)]; exact ⟨v, rfl, by simpa using h⟩
  | succ k ih =>
    intro v l h
    obtain ⟨b, e, hb⟩ := h.tryPush x
    by_cases hc : l.length < cap
    · rw [if_pos hc] at e hb
      have e' : pushAll x (k + 1) v = pushAll x k b := by simp only [pushAll, AV.push, e, Option.map_some]
      have := ih b _ hb
      rw [List.length_append, List.length_singleton, List.append_assoc] at this
      rw [e', show l.length + (k + 1) = l.length + 1 + k by omega]
      exact this
    · rw [if_neg hc] at e
      rw [if_neg (by omega)]
      simp only [pushAll, AV.push, e, Option.map_some]

theorem readAll_eq {T : Type} [DecidableEq T] {cap : Nat} (x : T) (v : AV T cap) (n : Nat) (h : v.asSlice = some (List.replicate n x)) :
    ∀ k i, k + i ≤ n → readAll x v k i = .passed := by
  intro k
  induction k with
  | zero => intro i _; rfl
  | succ k ih =>
    intro i hi
    have e : (List.replicate n x)[i]? = some x := by rw [List.getElem?_replicate, if_pos (by omega)]
    simp only [readAll, h, step, e, assert]
    simpa using ih (i + 1) (by omega)

/-- The harnesses for arrays, for every capacity and number of elements: they pass exactly if the elements fit. -/
theorem C123_array (cap elements : Nat) (val : UInt32) : array cap elements val = if elements ≤ cap then .passed else .failed := by
  have h := pushAll_eq val elements (new : AV UInt32 cap) [] new_holds
  unfold array
  by_cases he : elements ≤ cap
  · rw [if_pos (by simpa using he)] at h
    obtain ⟨v', e, hv⟩ := h
    rw [if_pos he, e]
    exact readAll_eq val v' elements (by simpa using hv.asSlice) elements 0 (by omega)
  · rw [if_neg (by simpa using he)] at h
    rw [if_neg he, h]; rfl

/-- In particular the two harnesses as they are written. -/
theorem C123_array_harnesses (n val : UInt32) : array 32 (n &&& 0x0F).toNat val = .passed ∧ array 15 15 val = .passed := by
  rw [C123_array, C123_array]
  refine ⟨if_pos ?_, rfl⟩
  have : (n &&& 0x0F).toNat ≤ 15 := by rw [UInt32.toNat_and]; exact Nat.and_le_right
  omega

theorem mulStepChecked_eq (y : BitVec 64) (carry : BitVec 128) (w : BitVec 64) (h : carry.toNat < 2 ^ 64) :
    mulStepChecked y carry w = some (U256.mulStep y carry w) ∧ (U256.mulStep y carry w).2.toNat < 2 ^ 64 := by
  obtain ⟨_, _, h1, h2⟩ := U256.C43_no_overflow ⟨0, 0⟩ 1 (by omega) (by omega) y w carry h
  exact ⟨by unfold mulStepChecked; rw [if_pos (by omega), if_pos h1], h2⟩

/-- The harness for the product with a word: no sum or product in the loop overflows. -/
theorem C123_mul_u64 (x : U256) (y : BitVec 64) : mulU64 x y = .passed := by
  unfold mulU64
  obtain ⟨e0, h0⟩ := mulStepChecked_eq y 0 (x.lo.setWidth 64) (by decide)
  rw [e0]; simp only [step]
  obtain ⟨e1, h1⟩ := mulStepChecked_eq y _ ((x.lo >>> 64).setWidth 64) h0
  rw [e1]; simp only []
  obtain ⟨e2, h2⟩ := mulStepChecked_eq y _ (x.hi.setWidth 64) h1
  rw [e2]; simp only []
  obtain ⟨e3, _⟩ := mulStepChecked_eq y _ ((x.hi >>> 64).setWidth 64) h2
  rw [e3]

example : uAmount 2100000000000000 0 = .passed ∧ uAmount 2100000000000000 1 = .skipped ∧ sAmount (-5) 7 = .passed ∧
    sAmount 2100000000000000 (-1) = .skipped := by
  rw [C123_amount, C123_amount, C123_signed_amount, C123_signed_amount]; decide
example : array 3 3 9 = .passed ∧ array 3 4 9 = .failed := by rw [C123_array, C123_array]; decide

end Kani
end Btc
