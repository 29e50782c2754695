import Verif.Props.C40
/-!
# C42: fee computation rounds as documented

Fee rates are satoshi per million virtual bytes, that is per four million weight units; the code first
rounds them up to satoshi per thousand weight units.
-/
namespace Btc
namespace Amt

/-- Rounded-up quotient. -/
def cdiv (a b : Nat) : Nat := (a + b - 1) / b

theorem cdiv_le_iff {a b : Nat} (hb : 0 < b) (q : Nat) : cdiv a b ≤ q ↔ a ≤ q * b := by
  unfold cdiv
  rw [← Nat.lt_succ_iff, Nat.div_lt_iff_lt_mul hb, Nat.succ_mul]
  omega

theorem le_cdiv_mul {a b : Nat} (hb : 0 < b) : a ≤ cdiv a b * b := (cdiv_le_iff hb _).1 (Nat.le_refl _)

theorem divCeil_eq (a b : Nat) (hb : 0 < b) : divCeil a b = cdiv a b := by
  unfold divCeil cdiv
  have h := Nat.div_add_mod a b
  have hm := Nat.mod_lt a hb
  by_cases h0 : a % b > 0
  · rw [if_pos h0]
    have : a + b - 1 = (a % b - 1) + b * (a / b + 1) := by rw [Nat.mul_add]; omega
    have hlt : a % b - 1 < b := by omega
    rw [this, Nat.add_mul_div_left _ _ hb, Nat.div_eq_of_lt hlt, Nat.zero_add]
  · rw [if_neg h0]
    have : a + b - 1 = (b - 1) + b * (a / b) := by omega
    have hlt : b - 1 < b := by omega
    rw [this, Nat.add_mul_div_left _ _ hb, Nat.div_eq_of_lt hlt, Nat.zero_add]

/-- The rate in satoshi per thousand weight units, rounded up. -/
def perKwu (rate : Nat) : Nat := cdiv rate 4000

/-- The fee of a transaction of weight `wu`: rate (per thousand weight units) times weight, rounded up. -/
def feeOf (rate wu : Nat) : Nat := cdiv (perKwu rate * wu) 1000

/-- `mul_by_weight` is the rounded-up product with the rounded-up rate if that is a valid amount, and an
error otherwise. -/
theorem C42_mul_by_weight (rate wu : Nat) :
    mulByWeight rate wu = if Valid (feeOf rate wu) then .ok (feeOf rate wu) else .error .mul := by
  unfold mulByWeight u64Mul kwuCeil feeOf perKwu
  rw [divCeil_eq _ _ (by omega)]
  generalize cdiv rate 4000 * wu = p
  by_cases h : p < 2 ^ 64
  · rw [if_pos h]
    simp only []
    rw [divCeil_eq _ _ (by omega)]
    generalize cdiv p 1000 = f
    by_cases hv : Valid f
    · rw [(C40_from_sat f f).2 ⟨rfl, hv⟩, if_pos hv]
    · rw [if_neg hv]
      cases hf : fromSat f with
      | error e => rfl
      | ok m => exact absurd ((C40_from_sat f m).1 hf).2 hv
  · rw [if_neg h, if_neg]
    intro hv
    unfold Valid at hv
    have := (cdiv_le_iff (by omega : 0 < 1000) _).1 hv
    omega

/-- `to_fee` is the same with saturation. -/
theorem C42_to_fee (rate wu : Nat) : toFee rate wu = min (feeOf rate wu) 2100000000000000 := by
  unfold toFee
  rw [C42_mul_by_weight]
  by_cases h : Valid (feeOf rate wu)
  · rw [if_pos h]
    unfold Valid at h
    simp only []
    omega
  · rw [if_neg h]
    unfold Valid at h
    simp only [MAX]
    omega

/-- The exact ceiling of rate times weight, for rates that are whole satoshi per thousand weight units.  (All
rates built by `from_sat_per_kwu`, `from_sat_per_vb` and `from_sat_per_kvb` of multiples of 4.)  Missing:
other rates, see `C42_not_exact`. -/
theorem C42_exact_partial (rate wu : Nat) (h : 4000 ∣ rate) : feeOf rate wu = cdiv (rate * wu) 4000000 := by
  obtain ⟨k, rfl⟩ := h
  have hk : perKwu (4000 * k) = k := by
    unfold perKwu cdiv
    omega
  have key : ∀ q, feeOf (4000 * k) wu ≤ q ↔ cdiv (4000 * k * wu) 4000000 ≤ q := by
    intro q
    unfold feeOf
    rw [hk, cdiv_le_iff (by omega), cdiv_le_iff (by omega), Nat.mul_assoc]
    generalize k * wu = p
    omega
  exact Nat.le_antisymm ((key _).2 (Nat.le_refl _)) ((key _).1 (Nat.le_refl _))

/-- For other rates the fee can be far above the exact ceiling: one satoshi per million virtual bytes and
a weight of one million cost 1000 satoshi instead of 1. -/
theorem C42_not_exact : mulByWeight 1 1000000 = .ok 1000 ∧ cdiv (1 * 1000000) 4000000 = 1 := by
  constructor
  · rw [C42_mul_by_weight]; rfl
  · decide

/-- In every case the fee is at least the exact one, and at most one rate unit per weight more. -/
theorem C42_enough (rate wu : Nat) :
    rate * wu ≤ 4000000 * feeOf rate wu ∧ 4000000 * feeOf rate wu ≤ (rate + 3999) * wu + 3999999 := by
  have h1 := le_cdiv_mul (a := rate) (b := 4000) (by omega)
  have h2 := le_cdiv_mul (a := perKwu rate * wu) (b := 1000) (by omega)
  have h3 : perKwu rate * 4000 ≤ rate + 3999 := by unfold perKwu cdiv; omega
  constructor
  · have : rate * wu ≤ perKwu rate * 4000 * wu := by
      unfold perKwu
      exact Nat.mul_le_mul_right _ h1
    rw [Nat.mul_right_comm] at this
    unfold feeOf
    omega
  · have : perKwu rate * 4000 * wu ≤ (rate + 3999) * wu := Nat.mul_le_mul_right _ h3
    rw [Nat.mul_right_comm] at this
    have : feeOf rate wu * 1000 ≤ perKwu rate * wu + 999 := by
      exact Nat.div_mul_le_self _ _
    generalize feeOf rate wu = f at *
    generalize (rate + 3999) * wu = g at *
    omega

theorem fee_le_iff (rate wu a : Nat) : feeOf rate wu ≤ a ↔ perKwu rate * wu ≤ 1000 * a := by
  unfold feeOf
  rw [cdiv_le_iff (by omega), Nat.mul_comm a]

theorem u64Mul_thousand (a : Nat) (ha : Valid a) : u64Mul a 1000 = some (a * 1000) := by
  unfold u64Mul
  unfold Valid at ha
  rw [if_pos (by omega)]

theorem affordable_iff (rate wu a : Nat) (ha : Valid a) :
    (∃ fee, mulByWeight rate wu = .ok fee ∧ fee ≤ a) ↔ perKwu rate * wu ≤ 1000 * a := by
  rw [← fee_le_iff, C42_mul_by_weight]
  constructor
  · rintro ⟨fee, h1, h2⟩
    by_cases hv : Valid (feeOf rate wu)
    · rw [if_pos hv] at h1
      cases h1
      exact h2
    · rw [if_neg hv] at h1
      cases h1
  · intro h
    have hv : Valid (feeOf rate wu) := by unfold Valid at *; omega
    exact ⟨_, by rw [if_pos hv], h⟩

theorem rateFromKwu_eq (x : Nat) (hx : Valid x) :
    rateFromKwu x = if Valid (x * 4000) then .ok (x * 4000) else .error .mul := by
  unfold rateFromKwu
  rw [(C40_unsigned x 0 4000 hx (Nat.zero_le _)).2.2.1, exactly]
  by_cases h : Valid (x * 4000)
  · rw [if_pos h, if_pos h]; rfl
  · rw [if_neg h, if_neg h]; rfl

/-- `div_by_weight_floor` is the largest fee rate whose fee for that weight does not exceed the amount.
It fails only for weight zero and for rates above the maximum amount. -/
theorem C42_div_by_weight_floor (a wu : Nat) (ha : Valid a) :
    (∀ r, divByWeightFloor a wu = .ok r →
      ∀ rate, (∃ fee, mulByWeight rate wu = .ok fee ∧ fee ≤ a) ↔ rate ≤ r) ∧
    (divByWeightFloor a wu = .error .div ↔ wu = 0) ∧
    (divByWeightFloor a wu = .error .mul ↔ wu ≠ 0 ∧ ¬ Valid (1000 * a / wu * 4000)) := by
  unfold divByWeightFloor
  rw [u64Mul_thousand a ha]
  simp only []
  unfold u64Div
  by_cases hw : wu = 0
  · rw [if_pos hw]
    simp only [Except.error.injEq, reduceCtorEq, false_implies, implies_true, true_and, hw,
      not_true_eq_false, ne_eq, false_and]
  · rw [if_neg hw]
    simp only []
    rw [Nat.mul_comm a 1000]
    have hdiv : ∀ rate, perKwu rate * wu ≤ 1000 * a ↔ rate ≤ 1000 * a / wu * 4000 := fun rate => by
      rw [← Nat.le_div_iff_mul_le (by omega), perKwu, cdiv_le_iff (by omega)]
    generalize 1000 * a / wu = q at *
    by_cases hq : Valid q
    · rw [(C40_from_sat q q).2 ⟨rfl, hq⟩]
      simp only []
      rw [rateFromKwu_eq q hq]
      by_cases h4 : Valid (q * 4000)
      · rw [if_pos h4]
        refine ⟨fun r hr rate => ?_, ⟨(fun h => by cases h), fun h => absurd h hw⟩,
          ⟨(fun h => by cases h), fun h => absurd h4 h.2⟩⟩
        cases hr
        rw [affordable_iff _ _ _ ha]
        exact hdiv rate
      · rw [if_neg h4]
        exact ⟨(fun r hr => by cases hr), ⟨(fun h => by cases h), fun h => absurd h hw⟩,
          ⟨fun _ => ⟨hw, h4⟩, fun _ => rfl⟩⟩
    · have h4 : ¬ Valid (q * 4000) := by unfold Valid at *; omega
      cases hf : fromSat q with
      | ok m => exact absurd ((C40_from_sat q m).1 hf).2 hq
      | error e =>
        exact ⟨(fun r hr => by cases hr), ⟨(fun h => by cases h), fun h => absurd h hw⟩,
          ⟨fun _ => ⟨hw, h4⟩, fun _ => rfl⟩⟩

/-- `div_by_weight_ceil` is the smallest rate in whole satoshi per thousand weight units with which the
(unrounded) fee covers the amount. -/
theorem C42_div_by_weight_ceil (a wu : Nat) (ha : Valid a) :
    (∀ r, divByWeightCeil a wu = .ok r →
      (∀ k, 1000 * a ≤ k * wu ↔ r ≤ 4000 * k) ∧ a ≤ feeOf r wu) ∧
    (divByWeightCeil a wu = .error .div ↔ wu = 0) ∧
    (divByWeightCeil a wu = .error .mul ↔ wu ≠ 0 ∧ ¬ Valid (cdiv (1000 * a) wu * 4000)) := by
  unfold divByWeightCeil
  by_cases hw : wu = 0
  · rw [if_pos hw]
    simp only [Except.error.injEq, reduceCtorEq, false_implies, implies_true, true_and, hw,
      not_true_eq_false, ne_eq, false_and]
  · rw [if_neg hw, u64Mul_thousand a ha]
    simp only []
    rw [divCeil_eq _ _ (by omega), Nat.mul_comm a 1000]
    have hdiv : ∀ k, cdiv (1000 * a) wu ≤ k ↔ 1000 * a ≤ k * wu := fun k => cdiv_le_iff (by omega) k
    generalize cdiv (1000 * a) wu = q at *
    by_cases hq : Valid q
    · rw [(C40_from_sat q q).2 ⟨rfl, hq⟩]
      simp only []
      rw [rateFromKwu_eq q hq]
      by_cases h4 : Valid (q * 4000)
      · rw [if_pos h4]
        refine ⟨fun r hr => ?_, ⟨(fun h => by cases h), fun h => absurd h hw⟩,
          ⟨(fun h => by cases h), fun h => absurd h4 h.2⟩⟩
        cases hr
        refine ⟨fun k => by rw [← hdiv k]; omega, ?_⟩
        have hk : perKwu (q * 4000) = q := by unfold perKwu cdiv; omega
        unfold feeOf
        rw [hk]
        have h1 := (hdiv q).1 (Nat.le_refl _)
        have h2 := le_cdiv_mul (a := q * wu) (b := 1000) (by omega)
        omega
      · rw [if_neg h4]
        exact ⟨(fun r hr => by cases hr), ⟨(fun h => by cases h), fun h => absurd h hw⟩,
          ⟨fun _ => ⟨hw, h4⟩, fun _ => rfl⟩⟩
    · have h4 : ¬ Valid (q * 4000) := by unfold Valid at *; omega
      cases hf : fromSat q with
      | ok m => exact absurd ((C40_from_sat q m).1 hf).2 hq
      | error e =>
        exact ⟨(fun r hr => by cases hr), ⟨(fun h => by cases h), fun h => absurd h hw⟩,
          ⟨fun _ => ⟨hw, h4⟩, fun _ => rfl⟩⟩

/-- `div_by_fee_rate_floor` is the largest weight whose fee does not exceed the amount; it fails exactly
for rate zero and never panics. -/
theorem C42_div_by_fee_rate_floor (a rate : Nat) (ha : Valid a) :
    (rate = 0 → divByFeeRateFloor a rate = some (.error .div)) ∧
    (rate ≠ 0 → ∃ w, divByFeeRateFloor a rate = some (.ok w) ∧
      ∀ wu, (∃ fee, mulByWeight rate wu = .ok fee ∧ fee ≤ a) ↔ wu ≤ w) := by
  unfold divByFeeRateFloor kwuCeil u64Div
  rw [u64Mul_thousand a ha, divCeil_eq _ _ (by omega)]
  simp only []
  constructor
  · rintro rfl
    rfl
  · intro h
    have hk : perKwu rate ≠ 0 := by unfold perKwu cdiv; omega
    refine ⟨a * 1000 / perKwu rate, ?_, fun wu => ?_⟩
    · show some (validOr _ (if perKwu rate = 0 then _ else _)) = _
      rw [if_neg hk]; rfl
    · rw [affordable_iff _ _ _ ha, Nat.le_div_iff_mul_le (by omega), Nat.mul_comm wu, Nat.mul_comm a]

/-- `div_by_fee_rate_ceil` is the smallest weight whose (unrounded) fee covers the amount. -/
theorem C42_div_by_fee_rate_ceil (a rate : Nat) (ha : Valid a) :
    (rate = 0 → divByFeeRateCeil a rate = some (.error .div)) ∧
    (rate ≠ 0 → ∃ w, divByFeeRateCeil a rate = some (.ok w) ∧
      (∀ wu, 1000 * a ≤ perKwu rate * wu ↔ w ≤ wu) ∧ a ≤ feeOf rate w) := by
  unfold divByFeeRateCeil kwuCeil
  rw [u64Mul_thousand a ha, divCeil_eq _ _ (by omega)]
  constructor
  · rintro rfl
    rfl
  · intro h
    have hk : perKwu rate ≠ 0 := by unfold perKwu cdiv; omega
    have hd : ∀ wu, 1000 * a ≤ perKwu rate * wu ↔ cdiv (a * 1000) (perKwu rate) ≤ wu := fun wu => by
      rw [cdiv_le_iff (by omega), Nat.mul_comm a, Nat.mul_comm wu]
    refine ⟨cdiv (a * 1000) (perKwu rate), ?_, hd, ?_⟩
    · show (if perKwu rate = 0 then _ else _) = _
      rw [if_neg hk]
      simp only []
      rw [show cdiv rate 4000 = perKwu rate from rfl, divCeil_eq _ _ (by omega)]
    · have h1 := (hd _).2 (Nat.le_refl _)
      have h2 := le_cdiv_mul (a := perKwu rate * cdiv (a * 1000) (perKwu rate)) (b := 1000) (by omega)
      unfold feeOf
      omega

/-- Building a rate from whole units and reading it back. -/
theorem C42_units (n : UInt32) :
    (∃ r, rateFromKwuU32 n = some r ∧ kwuFloor r = n.toNat ∧ kwuCeil r = n.toNat) ∧
    (∃ r, rateFromVbU32 n = some r ∧ vbFloor r = n.toNat ∧ vbCeil r = n.toNat) ∧
    (∃ r, rateFromKvbU32 n = some r ∧ kvbFloor r = n.toNat ∧ kvbCeil r = n.toNat) := by
  have hn := n.toNat_lt
  unfold rateFromKwuU32 rateFromVbU32 rateFromKvbU32 u64Mul kwuFloor kwuCeil vbFloor vbCeil kvbFloor kvbCeil
  refine ⟨⟨n.toNat * 4000, if_pos (by omega), by omega, ?_⟩, ⟨n.toNat * 1000000, if_pos (by omega), by omega, ?_⟩,
    ⟨n.toNat * 1000, if_pos (by omega), by omega, ?_⟩⟩ <;>
  · rw [divCeil_eq _ _ (by omega)]; unfold cdiv; omega

/-- Rates built from amounts per thousand weight units, per virtual byte and per thousand virtual bytes are the exact rates per million virtual
bytes, or an error when that many satoshis cannot exist. -/
theorem C42_from_amounts (x : Nat) (hx : Valid x) :
    rateFromKwu x = (if Valid (x * 4000) then .ok (x * 4000) else .error .mul) ∧
    rateFromVb x = (if Valid (x * 1000000) then .ok (x * 1000000) else .error .mul) ∧
    rateFromKvb x = if Valid (x * 1000) then .ok (x * 1000) else .error .mul := by
  have key : ∀ m : Nat, (validOr .mul (checkedMul x m) : Res Nat) = if Valid (x * m) then .ok (x * m) else .error .mul := by
    intro m
    rw [(C40_unsigned x 0 m hx (Nat.zero_le _)).2.2.1, exactly]
    by_cases h : Valid (x * m)
    · rw [if_pos h, if_pos h]; rfl
    · rw [if_neg h, if_neg h]; rfl
  exact ⟨key 4000, key 1000000, key 1000⟩

/-- Reading a rate in another unit rounds down or up to it. -/
theorem C42_readers (rate k : Nat) :
    (kwuFloor rate = k ↔ 4000 * k ≤ rate ∧ rate < 4000 * k + 4000) ∧ (kwuCeil rate = k ↔ rate ≤ 4000 * k ∧ 4000 * k < rate + 4000) ∧
    (vbFloor rate = k ↔ 1000000 * k ≤ rate ∧ rate < 1000000 * k + 1000000) ∧ (vbCeil rate = k ↔ rate ≤ 1000000 * k ∧ 1000000 * k < rate + 1000000) ∧
    (kvbFloor rate = k ↔ 1000 * k ≤ rate ∧ rate < 1000 * k + 1000) ∧ (kvbCeil rate = k ↔ rate ≤ 1000 * k ∧ 1000 * k < rate + 1000) := by
  unfold kwuFloor kwuCeil vbFloor vbCeil kvbFloor kvbCeil
  rw [divCeil_eq _ _ (by omega), divCeil_eq _ _ (by omega), divCeil_eq _ _ (by omega)]
  unfold cdiv
  omega

example : rateFromKvb 7 = .ok 7000 ∧ rateFromVb 2100000001 = .error .mul ∧ kvbCeil 7001 = 8 ∧ vbFloor 7999999 = 7 := ⟨rfl, rfl, by decide, by decide⟩
example : divByWeightFloor 1000 400 = .ok (2500 * 4000) ∧ Valid 1000 := ⟨rfl, by decide⟩
example : mulByWeight (2500 * 4000) 400 = .ok 1000 ∧ (2500 * 4000 ≠ 0) := ⟨rfl, by decide⟩

end Amt
end Btc
