import Verif.Props.C44
/-!
# C45: work and targets
-/

namespace Btc
namespace Pow
open U256

/-! ## C45 -/

/-- The work of a target as consensus defines it: `2^256 / (target + 1)`, at most `2^256 - 1`. -/
def consensusWork (t : Nat) : Nat := min (2 ^ 256 - 1) (2 ^ 256 / (t + 1))

/-- `to_work` never panics and is the consensus work of every target but one. -/
theorem C45_work_partial (t : U256) (h : t.val ≠ 1) :
    ∃ w, toWork t = some w ∧ w.val = consensusWork t.val := by
  obtain ⟨w, h1, h2⟩ := inverse_spec t
  refine ⟨w, h1, ?_⟩
  rw [h2]
  unfold consensusWork
  by_cases h0 : t.val = 0
  · rw [h0]; decide
  · rw [if_neg (by omega)]
    have : 2 ^ 256 / (t.val + 1) ≤ 2 ^ 256 / 2 := Nat.div_le_div_left (by omega) (by omega)
    omega

/-- The missing case: the work of target 1 is defined as the maximum, about twice the consensus value. -/
theorem C45_work_of_one (t : U256) (h : t.val = 1) :
    (∃ w, toWork t = some w ∧ w.val = 2 ^ 256 - 1) ∧ consensusWork t.val = 2 ^ 255 := by
  obtain ⟨w, h1, h2⟩ := inverse_spec t
  refine ⟨⟨w, h1, by rw [h2, if_pos (by omega)]⟩, ?_⟩
  rw [h]
  decide

/-- More target, less work. -/
theorem C45_antitone (t t' w w' : U256) (hle : t.val ≤ t'.val) (h : toWork t = some w)
    (h' : toWork t' = some w') : w'.val ≤ w.val := by
  obtain ⟨x, h1, h2⟩ := inverse_spec t
  obtain ⟨x', h1', h2'⟩ := inverse_spec t'
  unfold toWork at h h'
  rw [h1] at h
  rw [h1'] at h'
  cases h
  cases h'
  rw [h2, h2']
  have hx := w'.val_lt
  by_cases a : t.val ≤ 1
  · rw [if_pos a, ← h2']; omega
  · rw [if_neg a, if_neg (by omega)]
    exact Nat.div_le_div_left (by omega) (by omega)

/-- Going to work and back never increases a target (below `2^255`; there the work is one), and the work
of the result is the same. -/
theorem C45_galois (t : U256) (h0 : 1 ≤ t.val) (h1 : t.val < 2 ^ 255) :
    ∃ w t', toWork t = some w ∧ toTarget w = some t' ∧ t'.val ≤ t.val ∧ toWork t' = some w := by
  obtain ⟨w, e1, v1⟩ := inverse_spec t
  obtain ⟨t', e2, v2⟩ := inverse_spec w
  obtain ⟨w', e3, v3⟩ := inverse_spec t'
  refine ⟨w, t', e1, e2, ?_⟩
  by_cases a : t.val ≤ 1
  · rw [if_pos a] at v1
    rw [if_neg (by omega), v1] at v2
    have e : (2 : Nat) ^ 256 / (2 ^ 256 - 1 + 1) = 1 := by decide
    rw [e] at v2
    refine ⟨by omega, ?_⟩
    unfold toWork
    rw [e3]
    congr 1
    apply val_inj
    rw [v3, if_pos (by omega), v1]
  · rw [if_neg a] at v1
    have w2 : 2 ≤ w.val := by
      rw [v1, Nat.le_div_iff_mul_le (by omega)]
      omega
    rw [if_neg (by omega)] at v2
    have hle : t'.val ≤ t.val := by
      rw [v2]
      apply Nat.le_of_lt_succ
      rw [Nat.div_lt_iff_lt_mul (by omega)]
      have := Nat.lt_mul_div_succ (2 ^ 256) (show 0 < t.val + 1 by omega)
      rw [← v1] at this
      exact this
    refine ⟨hle, ?_⟩
    have hw3 : w.val ≤ 2 ^ 256 / 3 := by
      rw [v1]; exact Nat.div_le_div_left (by omega) (by omega)
    have t2 : 2 ≤ t'.val := by
      rw [v2, Nat.le_div_iff_mul_le (by omega)]
      omega
    rw [if_neg (by omega)] at v3
    unfold toWork
    rw [e3]
    congr 1
    apply val_inj
    apply Nat.le_antisymm
    · rw [v3]
      apply Nat.le_of_lt_succ
      rw [Nat.div_lt_iff_lt_mul (by omega)]
      have := Nat.lt_mul_div_succ (2 ^ 256) (show 0 < w.val + 1 by omega)
      rw [← v2] at this
      exact this
    · rw [v3, v1]
      exact Nat.div_le_div_left (by omega) (by omega)

/-- A hash meets a target exactly if, read as a little-endian number, it is not larger. -/
theorem C45_is_met_by (t : U256) (hash : Arr 32) : isMetBy t hash = true ↔ leNat hash.1 ≤ t.val := by
  unfold isMetBy
  rw [le_iff, val_ofLeBytes]

/-- The difficulty is the (saturated) quotient of the maximum and the target; zero targets panic. -/
theorem C45_difficulty (t max : U256) :
    difficultyWithMax t max = if t.val = 0 then none else some (min (max.val / t.val) (2 ^ 128 - 1)) := by
  unfold difficultyWithMax
  by_cases h : t.val = 0
  · rw [if_pos h, if_pos (val_inj h)]
  · rw [if_neg h, if_neg (fun e => h (by rw [e]; exact val_zero))]
    obtain ⟨q, e, hq⟩ := div_spec max t h
    rw [e, Option.map_some, ← hq]
    congr 1
    have hv : (ofU128 (BitVec.allOnes 128)).val = 2 ^ 128 - 1 := by
      unfold ofU128 val
      simp only [BitVec.toNat_allOnes]
      rw [show (0 : BitVec 128).toNat = 0 from rfl]
    unfold saturatingToU128
    by_cases hl : lt (ofU128 (BitVec.allOnes 128)) q = true
    · rw [if_pos hl]
      have := (lt_iff _ _).1 hl
      rw [hv] at this
      rw [BitVec.toNat_allOnes]
      omega
    · rw [if_neg hl]
      have h' : ¬ (2 ^ 128 - 1 < q.val) := fun e => hl ((lt_iff _ _).2 (by rw [hv]; exact e))
      have hlo := q.lo.isLt
      unfold val at *
      omega

example : (1 ≤ (⟨0, 7⟩ : U256).val ∧ (⟨0, 7⟩ : U256).val < 2 ^ 255) ∧
    ∃ w, toWork ⟨0, 7⟩ = some w ∧ w.val = 2 ^ 253 := by
  have h7 : (⟨0, 7⟩ : U256).val = 7 := rfl
  obtain ⟨w, h1, h2⟩ := C45_work_partial ⟨0, 7⟩ (by rw [h7]; omega)
  refine ⟨by rw [h7]; omega, w, h1, ?_⟩
  rw [h2, h7]
  decide

end Pow
end Btc
