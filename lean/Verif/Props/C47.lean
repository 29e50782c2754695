import Verif.Props.C44
/-!
# C47: version bits
-/

namespace Btc
namespace Pow
open U256

/-! ## C47 -/

/-- Signalling: the bit index is at most 28, the top three bits are `001` and the bit is set. -/
theorem C47_signalling (v : BitVec 32) (bit : Nat) :
    isSignalling v bit = true ↔ bit ≤ 28 ∧ v.toNat / 2 ^ 29 = 1 ∧ v.toNat.testBit bit = true := by
  have hv := v.isLt
  unfold isSignalling
  by_cases hb : bit > 28
  · rw [if_pos hb]
    constructor
    · intro h; cases h
    · rintro ⟨h, -⟩; omega
  rw [if_neg hb]
  have htop : (v &&& ~~~(0x1FFFFFFF : BitVec 32)) = (0x20000000 : BitVec 32) ↔ v.toNat / 2 ^ 29 = 1 := by
    have h1 : (v &&& ~~~(0x1FFFFFFF : BitVec 32)) = (v >>> 29) <<< 29 := by
      apply BitVec.eq_of_getLsbD_eq
      intro i hi
      simp only [BitVec.getLsbD_and, BitVec.getLsbD_not, BitVec.getLsbD_shiftLeft, BitVec.getLsbD_ushiftRight,
        hi, decide_true, Bool.true_and]
      have hm : (0x1FFFFFFF : BitVec 32).getLsbD i = decide (i < 29) := by
        have h := Nat.testBit_two_pow_sub_one 29 i
        rw [show (0x1FFFFFFF : BitVec 32) = BitVec.ofNat 32 (2 ^ 29 - 1) from rfl, BitVec.getLsbD_ofNat]
        simp only [hi, decide_true, Bool.true_and]
        exact h
      rw [hm]
      by_cases h29 : i < 29
      · simp [h29]
      · simp only [h29, decide_false, Bool.not_false, Bool.and_true, Bool.true_and]
        rw [show 29 + (i - 29) = i by omega]
    rw [h1]
    constructor
    · intro h
      have := congrArg BitVec.toNat h
      rw [BitVec.toNat_shiftLeft, BitVec.toNat_ushiftRight, Nat.shiftLeft_eq, Nat.shiftRight_eq_div_pow] at this
      have e : (0x20000000 : BitVec 32).toNat = 2 ^ 29 := rfl
      rw [e] at this
      omega
    · intro h
      apply BitVec.eq_of_toNat_eq
      rw [BitVec.toNat_shiftLeft, BitVec.toNat_ushiftRight, Nat.shiftLeft_eq, Nat.shiftRight_eq_div_pow, h]
      rfl
  by_cases ht : (v &&& ~~~(0x1FFFFFFF : BitVec 32)) ≠ (0x20000000 : BitVec 32)
  · rw [if_pos ht]
    constructor
    · intro h; cases h
    · rintro ⟨-, h, -⟩; exact absurd (htop.2 h) ht
  · rw [if_neg ht]
    have ht' := htop.1 (Classical.not_not.1 ht)
    have hbit : ((v &&& 0x1FFFFFFF) &&& ((1 : BitVec 32) <<< bit) > 0) ↔ v.toNat.testBit bit = true := by
      have hg : ∀ i, ((v &&& 0x1FFFFFFF) &&& ((1 : BitVec 32) <<< bit)).getLsbD i =
          (decide (i = bit) && v.toNat.testBit bit) := by
        intro i
        have hm : (0x1FFFFFFF : BitVec 32).getLsbD i = (decide (i < 32) && decide (i < 29)) := by
          have h := Nat.testBit_two_pow_sub_one 29 i
          rw [show (0x1FFFFFFF : BitVec 32) = BitVec.ofNat 32 (2 ^ 29 - 1) from rfl, BitVec.getLsbD_ofNat]
          by_cases hi : i < 32
          · simp only [hi, decide_true, Bool.true_and]; exact h
          · simp [hi]
        have h1 : ((1 : BitVec 32) <<< bit).getLsbD i = decide (i = bit) := by
          rw [BitVec.getLsbD_shiftLeft]
          by_cases hib : i = bit
          · subst hib
            simp only [Nat.lt_irrefl, decide_false, Bool.not_false, Nat.sub_self]
            rw [decide_eq_true (show i < 32 by omega)]
            simp
          · rw [decide_eq_false hib]
            by_cases hlt : i < bit
            · simp [hlt]
            · have : (1 : BitVec 32).getLsbD (i - bit) = false := by
                rw [show (1 : BitVec 32) = BitVec.ofNat 32 1 from rfl, BitVec.getLsbD_ofNat]
                have : Nat.testBit 1 (i - bit) = false := by
                  rw [show (1 : Nat) = 2 ^ 0 from rfl, Nat.testBit_two_pow]
                  simp only [decide_eq_false_iff_not]
                  omega
                rw [this, Bool.and_false]
              rw [this, Bool.and_false]
        rw [BitVec.getLsbD_and, BitVec.getLsbD_and, hm, h1]
        by_cases hib : i = bit
        · subst hib
          rw [decide_eq_true (show i < 32 by omega), decide_eq_true (show i < 29 by omega), decide_eq_true rfl]
          simp [BitVec.getLsbD]
        · rw [decide_eq_false hib, Bool.and_false, Bool.false_and]
      constructor
      · intro h
        refine Classical.byContradiction fun hn => ?_
        have hz : ((v &&& 0x1FFFFFFF) &&& ((1 : BitVec 32) <<< bit)) = 0 := by
          apply BitVec.eq_of_getLsbD_eq
          intro i _
          rw [hg i, Bool.not_eq_true _ |>.mp hn, Bool.and_false]
          simp
        rw [hz] at h
        exact absurd h (by decide)
      · intro h
        have hne : ((v &&& 0x1FFFFFFF) &&& ((1 : BitVec 32) <<< bit)) ≠ 0 := by
          intro e
          have := hg bit
          rw [e, h] at this
          simp at this
        show (0 : BitVec 32).toNat < _
        have : ((v &&& 0x1FFFFFFF) &&& ((1 : BitVec 32) <<< bit)).toNat ≠ 0 :=
          fun e => hne (BitVec.eq_of_toNat_eq (by rw [e]; rfl))
        have z : (0 : BitVec 32).toNat = 0 := rfl
        omega
    rw [decide_eq_true_eq, hbit]
    exact ⟨fun h => ⟨by omega, ht', h⟩, fun h => h.2.2⟩

example : isSignalling 0x20000002 1 = true ∧ isSignalling 0x20000002 0 = false ∧
    isSignalling 0x60000002 1 = false ∧ isSignalling 0x30000000 28 = true := by decide

end Pow
end Btc
