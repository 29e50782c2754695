import Verif.Hashes.Cmp
/-!
# C70: `fixed_time_eq` is equality
-/
namespace Btc
namespace Cmp

theorem collapse_eq (r : UInt8) : collapse r = decide (r = 0) := by
  have h : ∀ n : Fin 256, collapse (UInt8.ofNat n) = decide (UInt8.ofNat n = 0) := by decide +kernel
  have := h ⟨r.toNat, r.toNat_lt⟩
  simpa using this

theorem or_zero_iff (a b : UInt8) : a ||| b = 0 ↔ a = 0 ∧ b = 0 := by
  constructor
  · intro h
    have h1 := congrArg UInt8.toBitVec h
    simp only [UInt8.toBitVec_or, UInt8.toBitVec_ofNat] at h1
    have hb : ∀ i, (a.toBitVec.getLsbD i || b.toBitVec.getLsbD i) = false := by
      intro i
      rw [← BitVec.getLsbD_or, h1]
      simp
    constructor <;> apply UInt8.toBitVec_inj.mp <;> apply BitVec.eq_of_getLsbD_eq <;> intro i hi <;> have := hb i <;> simp_all
  · rintro ⟨rfl, rfl⟩; rfl

theorem accumulate_zero (a b : Bytes) : ∀ (n : Nat) (r : UInt8), n ≤ a.length →
    (accumulate a b n r = 0 ↔ r = 0 ∧ ∀ i, a.length - n ≤ i → i < a.length → a[i]! = b[i]!)
  | 0, r, _ => by
    simp only [accumulate, Nat.sub_zero]
    exact ⟨fun h => ⟨h, fun i h1 h2 => by omega⟩, fun h => h.1⟩
  | n + 1, r, h => by
    simp only [accumulate]
    rw [accumulate_zero a b n _ (by omega), or_zero_iff, UInt8.xor_eq_zero_iff, and_assoc]
    refine and_congr_right fun _ => ⟨fun ⟨h1, h2⟩ i hi hi' => ?_, fun h2 => ⟨h2 _ (by omega) (by omega), fun i hi hi' => h2 i (by omega) hi'⟩⟩
    by_cases e : i = a.length - (n + 1)
    · rw [e]; exact h1
    · exact h2 i (by omega) hi'

/-- The comparison answers whether the slices are equal, and panics exactly for different lengths. -/
theorem C70_fixed_time_eq (a b : Bytes) : fixedTimeEq a b = if a.length = b.length then some (decide (a = b)) else none := by
  unfold fixedTimeEq
  by_cases h : a.length = b.length
  · rw [if_pos h, if_pos h, collapse_eq]
    congr 2
    apply propext
    rw [accumulate_zero a b _ _ (Nat.le_refl _)]
    constructor
    · rintro ⟨-, h2⟩
      apply List.ext_getElem h
      intro i h3 h4
      have := h2 i (by omega) h3
      rwa [getElem!_pos a i h3, getElem!_pos b i h4] at this
    · rintro rfl
      exact ⟨rfl, fun _ _ _ => rfl⟩
  · rw [if_neg h, if_neg h]

example : fixedTimeEq [1, 2, 3] [1, 2, 3] = some true := by rw [C70_fixed_time_eq]; decide
example : fixedTimeEq [1, 0x82, 3] [1, 2, 3] = some false := by decide +kernel
example : fixedTimeEq [1, 2] [1, 2, 3] = none := by decide

end Cmp
end Btc
