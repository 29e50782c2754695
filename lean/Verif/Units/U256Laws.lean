import Verif.Units.U256
/-! # `U256` agrees with the integers -/
namespace Btc
namespace U256

/-- The integer represented. -/
def val (x : U256) : Nat := x.hi.toNat * 2 ^ 128 + x.lo.toNat

theorem val_lt (x : U256) : x.val < 2 ^ 256 := by
  have h1 := x.hi.isLt
  have h2 := x.lo.isLt
  unfold val
  omega

theorem val_inj {x y : U256} (h : x.val = y.val) : x = y := by
  obtain ⟨a, b⟩ := x
  obtain ⟨c, d⟩ := y
  have h1 := a.isLt
  have h2 := b.isLt
  have h3 := c.isLt
  have h4 := d.isLt
  unfold val at h
  simp only at h
  have e1 : a = c := BitVec.eq_of_toNat_eq (by omega)
  have e2 : b = d := BitVec.eq_of_toNat_eq (by omega)
  rw [e1, e2]

/-- Every number below `2^256` is represented. -/
def ofNat (n : Nat) : U256 := ⟨BitVec.ofNat 128 (n / 2 ^ 128), BitVec.ofNat 128 n⟩

theorem val_ofNat (n : Nat) : (ofNat n).val = n % 2 ^ 256 := by
  unfold val ofNat
  simp only [BitVec.toNat_ofNat]
  omega

theorem ofNat_val (x : U256) : ofNat x.val = x :=
  val_inj (by rw [val_ofNat, Nat.mod_eq_of_lt x.val_lt])

theorem val_zero : zero.val = 0 := rfl
theorem val_one : one.val = 1 := rfl
theorem val_max : max.val = 2 ^ 256 - 1 := by decide

theorem lt_iff (x y : U256) : lt x y = true ↔ x.val < y.val := by
  have h1 := x.lo.isLt
  have h2 := y.lo.isLt
  unfold lt val
  simp only [Bool.or_eq_true, Bool.and_eq_true, decide_eq_true_eq, beq_iff_eq, BitVec.lt_def]
  constructor
  · rintro (h | ⟨h, h'⟩)
    · omega
    · rw [h]; omega
  · intro h
    by_cases hh : x.hi.toNat < y.hi.toNat
    · exact Or.inl hh
    · have : x.hi.toNat = y.hi.toNat := by omega
      exact Or.inr ⟨BitVec.eq_of_toNat_eq this, by omega⟩

theorem le_iff (x y : U256) : le x y = true ↔ x.val ≤ y.val := by
  unfold le
  rw [Bool.not_eq_true', ← Bool.not_eq_true, lt_iff]
  omega

theorem uaddOverflow_iff {w : Nat} (a b : BitVec w) :
    BitVec.uaddOverflow a b = true ↔ 2 ^ w ≤ a.toNat + b.toNat := by
  simp [BitVec.uaddOverflow]

theorem overflowingAdd_spec (x y : U256) :
    (overflowingAdd x y).1.val = (x.val + y.val) % 2 ^ 256 ∧
    ((overflowingAdd x y).2 = true ↔ 2 ^ 256 ≤ x.val + y.val) := by
  have h1 := x.lo.isLt
  have h2 := y.lo.isLt
  have h3 := x.hi.isLt
  have h4 := y.hi.isLt
  unfold overflowingAdd
  by_cases h : BitVec.uaddOverflow x.lo y.lo = true
  · simp only [h, if_true]
    rw [uaddOverflow_iff] at h
    unfold val
    simp only [Bool.or_eq_true, uaddOverflow_iff, BitVec.toNat_add]
    have : (1 : BitVec 128).toNat = 1 := rfl
    rw [this]
    omega
  · simp only [h]
    rw [uaddOverflow_iff] at h
    unfold val
    simp only [uaddOverflow_iff, BitVec.toNat_add, Bool.false_eq_true, if_false]
    omega

theorem val_wrappingAdd (x y : U256) : (wrappingAdd x y).val = (x.val + y.val) % 2 ^ 256 :=
  (overflowingAdd_spec x y).1

theorem val_not (x : U256) : (not x).val = 2 ^ 256 - 1 - x.val := by
  have h1 := x.lo.isLt
  have h3 := x.hi.isLt
  unfold not val
  simp only [BitVec.toNat_not]
  omega

theorem overflowingSub_spec (x y : U256) :
    (overflowingSub x y).1.val = (2 ^ 256 + x.val - y.val) % 2 ^ 256 ∧
    ((overflowingSub x y).2 = true ↔ x.val < y.val) := by
  have h1 := x.val_lt
  have h2 := y.val_lt
  unfold overflowingSub
  refine ⟨?_, lt_iff x y⟩
  rw [val_wrappingAdd, val_wrappingAdd, val_not, val_one]
  omega

theorem val_wrappingSub (x y : U256) (h : y.val ≤ x.val) : (wrappingSub x y).val = x.val - y.val := by
  have h1 := x.val_lt
  unfold wrappingSub
  rw [(overflowingSub_spec x y).1]
  omega

theorem val_wrappingInc (x : U256) : (wrappingInc x).val = (x.val + 1) % 2 ^ 256 := by
  have h1 := x.lo.isLt
  have h3 := x.hi.isLt
  unfold wrappingInc val
  have one_toNat : (1 : BitVec 128).toNat = 1 := rfl
  by_cases h : x.lo + 1 = 0
  · have h' : (x.lo + 1).toNat = 0 := by rw [h]; rfl
    rw [BitVec.toNat_add, one_toNat] at h'
    simp only [h, if_true, BitVec.toNat_add, one_toNat]
    have : (0 : BitVec 128).toNat = 0 := rfl
    rw [this]
    omega
  · have h' : (x.lo + 1).toNat ≠ 0 := fun e => h (BitVec.eq_of_toNat_eq (by rw [e]; rfl))
    rw [BitVec.toNat_add, one_toNat] at h'
    simp only [h, if_false, BitVec.toNat_add, one_toNat]
    omega

theorem isZero_iff (x : U256) : x.isZero = true ↔ x.val = 0 := by
  constructor
  · intro h
    simp only [isZero, Bool.and_eq_true, beq_iff_eq] at h
    unfold val; rw [h.1, h.2]; rfl
  · intro h
    have : x = zero := val_inj h
    subst this
    rfl

theorem isOne_iff (x : U256) : x.isOne = true ↔ x.val = 1 := by
  constructor
  · intro h
    simp only [isOne, Bool.and_eq_true, beq_iff_eq] at h
    unfold val; rw [h.1, h.2]; rfl
  · intro h
    have : x = one := val_inj h
    subst this
    rfl

theorem isMax_iff (x : U256) : x.isMax = true ↔ x.val = 2 ^ 256 - 1 := by
  constructor
  · intro h
    simp only [isMax, Bool.and_eq_true, beq_iff_eq] at h
    have : x = max := by obtain ⟨a, b⟩ := x; simp only at h; rw [h.1, h.2]; rfl
    rw [this, val_max]
  · intro h
    have : x = max := val_inj (by rw [h, val_max])
    subst this
    decide

/-! ### Shifts -/

theorem split_pow {a b : Nat} (h : b ≤ a) : 2 ^ a = 2 ^ b * 2 ^ (a - b) := by
  rw [← Nat.pow_add]; congr 1; omega

theorem val_shl (x : U256) (n : Nat) (h : n < 256) : (shl x n).val = x.val * 2 ^ n % 2 ^ 256 := by
  have h1 := x.lo.isLt
  have h2 := x.hi.isLt
  unfold shl
  rw [Nat.mod_eq_of_lt h]
  by_cases hn : n ≥ 128
  · simp only [hn, if_true]
    unfold val
    simp only [BitVec.toNat_shiftLeft, Nat.shiftLeft_eq]
    obtain ⟨k, rfl⟩ : ∃ k, n = 128 + k := ⟨n - 128, by omega⟩
    rw [show (128 + k) % 128 = k by omega, Nat.pow_add]
    have : (0 : BitVec 128).toNat = 0 := rfl
    rw [this]
    generalize x.hi.toNat = a
    generalize x.lo.toNat = b
    rw [show (a * 2 ^ 128 + b) * (2 ^ 128 * 2 ^ k) = a * 2 ^ k * 2 ^ 256 + (b * 2 ^ k) * 2 ^ 128 by
      rw [show (2 : Nat) ^ 256 = 2 ^ 128 * 2 ^ 128 by decide, Nat.add_mul]
      congr 1 <;> ac_rfl]
    generalize b * 2 ^ k = q
    generalize a * 2 ^ k = p
    omega
  · simp only [hn, if_false]
    rw [Nat.mod_eq_of_lt (show n < 128 by omega)]
    unfold val
    simp only [BitVec.toNat_add, BitVec.toNat_shiftLeft, Nat.shiftLeft_eq]
    by_cases h0 : n > 0
    · simp only [h0, if_true, BitVec.toNat_ushiftRight, Nat.shiftRight_eq_div_pow]
      generalize x.hi.toNat = a at *
      generalize x.lo.toNat = b at *
      have e1 := split_pow (show n ≤ 128 by omega)
      have e2 : b * 2 ^ n / 2 ^ 128 = b / 2 ^ (128 - n) := by
        rw [e1, Nat.mul_comm b, Nat.mul_div_mul_left _ _ (Nat.two_pow_pos n)]
      have e3 : (a * 2 ^ 128 + b) * 2 ^ n = (a * 2 ^ n) * 2 ^ 128 + b * 2 ^ n := by
        rw [Nat.add_mul]; congr 1; ac_rfl
      rw [e3, ← e2]
      generalize b * 2 ^ n = q
      generalize a * 2 ^ n = p
      omega
    · have : n = 0 := by omega
      subst this
      have : (0 : BitVec 128).toNat = 0 := rfl
      simp only [Nat.pow_zero, Nat.mul_one, gt_iff_lt, Nat.lt_irrefl, if_false, this]
      omega

theorem val_shr (x : U256) (n : Nat) (h : n < 256) : (shr x n).val = x.val / 2 ^ n := by
  have h1 := x.lo.isLt
  have h2 := x.hi.isLt
  unfold shr
  rw [Nat.mod_eq_of_lt h]
  by_cases hn : n ≥ 128
  · simp only [hn, if_true]
    unfold val
    simp only [BitVec.toNat_ushiftRight, Nat.shiftRight_eq_div_pow]
    obtain ⟨k, rfl⟩ : ∃ k, n = 128 + k := ⟨n - 128, by omega⟩
    rw [show (128 + k) % 128 = k by omega, Nat.pow_add, ← Nat.div_div_eq_div_mul]
    have : (0 : BitVec 128).toNat = 0 := rfl
    rw [this]
    rw [show (x.hi.toNat * 2 ^ 128 + x.lo.toNat) / 2 ^ 128 = x.hi.toNat by omega]
    omega
  · simp only [hn, if_false]
    rw [Nat.mod_eq_of_lt (show n < 128 by omega)]
    unfold val
    by_cases h0 : n > 0
    · simp only [h0, if_true, BitVec.toNat_add, BitVec.toNat_shiftLeft, Nat.shiftLeft_eq,
        BitVec.toNat_ushiftRight, Nat.shiftRight_eq_div_pow]
      generalize x.hi.toNat = a at *
      generalize x.lo.toNat = b at *
      have e1 := split_pow (show n ≤ 128 by omega)
      have hp := Nat.two_pow_pos n
      have hq := Nat.two_pow_pos (128 - n)
      have e4 : a * 2 ^ (128 - n) % 2 ^ 128 = a % 2 ^ n * 2 ^ (128 - n) := by
        rw [e1, Nat.mul_mod_mul_right]
      have e5 : b / 2 ^ n < 2 ^ (128 - n) := by
        rw [Nat.div_lt_iff_lt_mul hp, Nat.mul_comm, ← e1]; exact h1
      have e6 : a % 2 ^ n < 2 ^ n := Nat.mod_lt _ hp
      have e7 : a % 2 ^ n * 2 ^ (128 - n) + b / 2 ^ n < 2 ^ 128 := by
        have : (a % 2 ^ n + 1) * 2 ^ (128 - n) ≤ 2 ^ n * 2 ^ (128 - n) := Nat.mul_le_mul_right _ e6
        rw [← e1, Nat.add_mul] at this
        omega
      rw [e4, Nat.add_comm (b / 2 ^ n), Nat.mod_eq_of_lt e7]
      have e8 : (a * 2 ^ 128 + b) / 2 ^ n = a * 2 ^ (128 - n) + b / 2 ^ n := by
        rw [e1, show a * (2 ^ n * 2 ^ (128 - n)) + b = b + (a * 2 ^ (128 - n)) * 2 ^ n by
          rw [Nat.add_comm]; congr 1; ac_rfl, Nat.add_mul_div_right _ _ hp, Nat.add_comm]
      rw [e8, ← Nat.add_assoc]
      congr 1
      rw [e1, ← Nat.mul_assoc, ← Nat.add_mul]
      congr 1
      rw [Nat.mul_comm]
      exact Nat.div_add_mod a (2 ^ n)
    · have : n = 0 := by omega
      subst this
      simp

/-! ### Multiplication -/

theorem mulStep_spec (rhs word : BitVec 64) (carry : BitVec 128) (hc : carry.toNat < 2 ^ 64) :
    carry.toNat + rhs.toNat * word.toNat < 2 ^ 128 ∧
    (mulStep rhs carry word).2.toNat < 2 ^ 64 ∧
    (mulStep rhs carry word).1.toNat + 2 ^ 64 * (mulStep rhs carry word).2.toNat =
      carry.toNat + rhs.toNat * word.toNat := by
  have h1 := rhs.isLt
  have h2 := word.isLt
  have h3 : rhs.toNat * word.toNat ≤ (2 ^ 64 - 1) * (2 ^ 64 - 1) := Nat.mul_le_mul (by omega) (by omega)
  have h4 : (2 ^ 64 - 1) * (2 ^ 64 - 1) + 2 ^ 64 < 2 ^ 128 := by decide
  have h5 : carry.toNat + rhs.toNat * word.toNat < 2 ^ 128 := by omega
  have e : (carry + rhs.setWidth 128 * word.setWidth 128).toNat = carry.toNat + rhs.toNat * word.toNat := by
    rw [BitVec.toNat_add, BitVec.toNat_mul, BitVec.toNat_setWidth, BitVec.toNat_setWidth,
      Nat.mod_eq_of_lt (show rhs.toNat < 2 ^ 128 by omega),
      Nat.mod_eq_of_lt (show word.toNat < 2 ^ 128 by omega),
      Nat.mod_eq_of_lt (show rhs.toNat * word.toNat < 2 ^ 128 by omega), Nat.mod_eq_of_lt h5]
  refine ⟨h5, ?_⟩
  unfold mulStep
  simp only [BitVec.toNat_setWidth, BitVec.toNat_ushiftRight, Nat.shiftRight_eq_div_pow, e]
  generalize carry.toNat + rhs.toNat * word.toNat = n at *
  omega

theorem or_shl64 (a b : BitVec 64) :
    (a.setWidth 128 ||| (b.setWidth 128 <<< 64)).toNat = b.toNat * 2 ^ 64 + a.toNat := by
  have h1 := a.isLt
  have h2 := b.isLt
  rw [BitVec.toNat_or, BitVec.toNat_shiftLeft, BitVec.toNat_setWidth, BitVec.toNat_setWidth,
    Nat.mod_eq_of_lt (show a.toNat < 2 ^ 128 by omega), Nat.mod_eq_of_lt (show b.toNat < 2 ^ 128 by omega),
    Nat.shiftLeft_eq, Nat.mod_eq_of_lt (show b.toNat * 2 ^ 64 < 2 ^ 128 by omega), Nat.or_comm,
    ← Nat.shiftLeft_eq]
  exact (Nat.shiftLeft_add_eq_or_of_lt h1 b.toNat).symm

theorem mulU64_spec (x : U256) (r : BitVec 64) :
    (mulU64 x r).1.val = x.val * r.toNat % 2 ^ 256 ∧
    ((mulU64 x r).2 = true ↔ 2 ^ 256 ≤ x.val * r.toNat) := by
  have h1 := x.lo.isLt
  have h2 := x.hi.isLt
  unfold mulU64
  simp only []
  have z : (0 : BitVec 128).toNat = 0 := rfl
  obtain ⟨-, c0, e0⟩ := mulStep_spec r (x.lo.setWidth 64) 0 (by decide)
  generalize mulStep r 0 (x.lo.setWidth 64) = s0 at *
  obtain ⟨-, c1, e1⟩ := mulStep_spec r ((x.lo >>> 64).setWidth 64) s0.2 c0
  generalize mulStep r s0.2 ((x.lo >>> 64).setWidth 64) = s1 at *
  obtain ⟨-, c2, e2⟩ := mulStep_spec r (x.hi.setWidth 64) s1.2 c1
  generalize mulStep r s1.2 (x.hi.setWidth 64) = s2 at *
  obtain ⟨-, c3, e3⟩ := mulStep_spec r ((x.hi >>> 64).setWidth 64) s2.2 c2
  generalize mulStep r s2.2 ((x.hi >>> 64).setWidth 64) = s3 at *
  unfold val
  simp only [or_shl64]
  rw [BitVec.toNat_setWidth] at e0 e1 e2 e3
  rw [BitVec.toNat_ushiftRight, Nat.shiftRight_eq_div_pow] at e1 e3
  rw [z, Nat.zero_add] at e0
  have d1 : x.lo.toNat = x.lo.toNat % 2 ^ 64 + 2 ^ 64 * (x.lo.toNat / 2 ^ 64 % 2 ^ 64) := by omega
  have d2 : x.hi.toNat = x.hi.toNat % 2 ^ 64 + 2 ^ 64 * (x.hi.toNat / 2 ^ 64 % 2 ^ 64) := by omega
  have q0 := s0.1.isLt
  have q1 := s1.1.isLt
  have q2 := s2.1.isLt
  have q3 := s3.1.isLt
  have key : (x.hi.toNat * 2 ^ 128 + x.lo.toNat) * r.toNat =
      s0.1.toNat + 2 ^ 64 * s1.1.toNat + 2 ^ 128 * s2.1.toNat + 2 ^ 192 * s3.1.toNat + 2 ^ 256 * s3.2.toNat := by
    rw [d1, d2]
    generalize x.lo.toNat % 2 ^ 64 = w0 at *
    generalize x.lo.toNat / 2 ^ 64 % 2 ^ 64 = w1 at *
    generalize x.hi.toNat % 2 ^ 64 = w2 at *
    generalize x.hi.toNat / 2 ^ 64 % 2 ^ 64 = w3 at *
    have : ((w2 + 2 ^ 64 * w3) * 2 ^ 128 + (w0 + 2 ^ 64 * w1)) * r.toNat =
        r.toNat * w0 + 2 ^ 64 * (r.toNat * w1) + 2 ^ 128 * (r.toNat * w2) + 2 ^ 192 * (r.toNat * w3) := by
      rw [show (2 : Nat) ^ 192 = 2 ^ 128 * 2 ^ 64 by decide]
      simp only [Nat.add_mul]
      have a1 : w2 * 2 ^ 128 * r.toNat = 2 ^ 128 * (r.toNat * w2) := by ac_rfl
      have a2 : 2 ^ 64 * w3 * 2 ^ 128 * r.toNat = 2 ^ 128 * 2 ^ 64 * (r.toNat * w3) := by ac_rfl
      have a3 : w0 * r.toNat = r.toNat * w0 := by ac_rfl
      have a4 : 2 ^ 64 * w1 * r.toNat = 2 ^ 64 * (r.toNat * w1) := by ac_rfl
      rw [a1, a2, a3, a4]
      omega
    rw [this]
    generalize r.toNat * w0 = p0 at *
    generalize r.toNat * w1 = p1 at *
    generalize r.toNat * w2 = p2 at *
    generalize r.toNat * w3 = p3 at *
    omega
  rw [key]
  refine ⟨by omega, ?_⟩
  have ne : (s3.2 != 0) = true ↔ s3.2.toNat ≠ 0 := by
    rw [bne_iff_ne]
    constructor
    · intro h e; exact h (BitVec.eq_of_toNat_eq (by rw [e]; rfl))
    · intro h e; rw [e] at h; exact h rfl
  rw [ne]
  omega

/-- The invariant of the loop of `overflowing_mul`. -/
def MulInv (x y : U256) (i : Nat) (acc : U256 × Bool) : Prop :=
  acc.1.val = x.val * (y.val % 2 ^ (64 * i)) % 2 ^ 256 ∧
  (acc.2 = true ↔ 2 ^ 256 ≤ x.val * (y.val % 2 ^ (64 * i)))

theorem mulLoopStep_spec (x y : U256) (i : Nat) (hi : i < 4) (acc : U256 × Bool) (h : MulInv x y i acc) :
    MulInv x y (i + 1) (mulLoopStep x y i acc) := by
  obtain ⟨ha, hf⟩ := h
  have hx := x.val_lt
  unfold mulLoopStep
  simp only []
  have hw : (lowU64 (shr y (64 * i))).toNat = y.val / 2 ^ (64 * i) % 2 ^ 64 := by
    unfold lowU64
    rw [BitVec.toNat_setWidth, ← val_shr y (64 * i) (by omega)]
    unfold val
    omega
  obtain ⟨m1, m2⟩ := mulU64_spec x (lowU64 (shr y (64 * i)))
  rw [hw] at m1 m2
  generalize mulU64 x (lowU64 (shr y (64 * i))) = m at *
  -- the next partial product
  have hnext : x.val * (y.val % 2 ^ (64 * (i + 1))) =
      x.val * (y.val % 2 ^ (64 * i)) + x.val * (y.val / 2 ^ (64 * i) % 2 ^ 64) * 2 ^ (64 * i) := by
    rw [show 64 * (i + 1) = 64 * i + 64 by omega, Nat.pow_add, Nat.mod_mul, Nat.mul_add]
    congr 1
    ac_rfl
  have hob : (lt zero (if i > 0 then shr m.1 (256 - 64 * i) else zero)) = true ↔
      2 ^ 256 ≤ m.1.val * 2 ^ (64 * i) := by
    rw [lt_iff, val_zero]
    have hm := m.1.val_lt
    by_cases h0 : i > 0
    · rw [if_pos h0, val_shr _ _ (by omega), Nat.div_pos_iff]
      have e := split_pow (show 64 * i ≤ 256 by omega)
      have hp := Nat.two_pow_pos (64 * i)
      have hq := Nat.two_pow_pos (256 - 64 * i)
      constructor
      · rintro ⟨-, h⟩
        rw [e, Nat.mul_comm]
        exact Nat.mul_le_mul_right _ h
      · intro h
        refine ⟨hq, ?_⟩
        rw [e, Nat.mul_comm] at h
        exact Nat.le_of_mul_le_mul_right h hp
    · have : i = 0 := by omega
      subst this
      rw [if_neg (by omega), val_zero, Nat.mul_zero, Nat.pow_zero, Nat.mul_one]
      omega
  obtain ⟨s1, s2⟩ := overflowingAdd_spec acc.1 (shl m.1 (64 * i))
  rw [val_shl _ _ (by omega)] at s1 s2
  have hp := Nat.two_pow_pos (64 * i)
  unfold MulInv
  rw [hnext]
  generalize x.val * (y.val / 2 ^ (64 * i) % 2 ^ 64) = p at *
  generalize x.val * (y.val % 2 ^ (64 * i)) = r at *
  constructor
  · rw [s1, ha, m1, Nat.add_mod r]
    congr 2
    rw [Nat.mod_mul_mod]
  · simp only [Bool.or_eq_true]
    rw [hf, m2, hob, s2, ha]
    have hle : p ≤ p * 2 ^ (64 * i) := Nat.le_mul_of_pos_right _ hp
    by_cases c1 : 2 ^ 256 ≤ p
    · exact ⟨fun _ => by omega, fun _ => Or.inl (Or.inl (Or.inr c1))⟩
    · rw [Nat.mod_eq_of_lt (by omega)] at m1
      rw [m1]
      generalize p * 2 ^ (64 * i) = t at *
      by_cases c2 : 2 ^ 256 ≤ t
      · exact ⟨fun _ => by omega, fun _ => Or.inl (Or.inr c2)⟩
      · omega

theorem overflowingMul_spec (x y : U256) :
    (overflowingMul x y).1.val = x.val * y.val % 2 ^ 256 ∧
    ((overflowingMul x y).2 = true ↔ 2 ^ 256 ≤ x.val * y.val) := by
  have h0 : MulInv x y 0 (zero, false) := by
    constructor
    · rw [show 64 * 0 = 0 from rfl, Nat.pow_zero, Nat.mod_one, Nat.mul_zero]
      exact val_zero
    · rw [show 64 * 0 = 0 from rfl, Nat.pow_zero, Nat.mod_one, Nat.mul_zero]
      exact ⟨fun h => (by cases h), fun h => absurd h (by decide)⟩
  have h := mulLoopStep_spec x y 3 (by omega) _ (mulLoopStep_spec x y 2 (by omega) _
    (mulLoopStep_spec x y 1 (by omega) _ (mulLoopStep_spec x y 0 (by omega) _ h0)))
  unfold MulInv at h
  rw [show 64 * (3 + 1) = 256 from rfl, Nat.mod_eq_of_lt y.val_lt] at h
  exact h

/-! ### Division -/

theorem leadingZeros_spec (x : BitVec 128) (h : x ≠ 0) :
    leadingZeros x = 127 - Nat.log2 x.toNat ∧ Nat.log2 x.toNat < 128 ∧
    2 ^ Nat.log2 x.toNat ≤ x.toNat ∧ x.toNat < 2 ^ (Nat.log2 x.toNat + 1) := by
  have hn : x.toNat ≠ 0 := fun e => h (BitVec.eq_of_toNat_eq (by rw [e]; rfl))
  refine ⟨by unfold leadingZeros; rw [if_neg h], ?_, Nat.log2_self_le hn, Nat.lt_log2_self⟩
  exact (Nat.log2_lt hn).2 x.isLt

theorem bits_spec (x : U256) : bits x ≤ 256 ∧ x.val < 2 ^ bits x ∧ (x.val ≠ 0 → bits x ≠ 0) ∧
    (bits x ≠ 0 → 2 ^ (bits x - 1) ≤ x.val) := by
  have hlo := x.lo.isLt
  have z : (0 : BitVec 128).toNat = 0 := rfl
  unfold bits
  by_cases h : x.hi > 0
  · have hne : x.hi ≠ 0 := by
      intro e; rw [e] at h; exact absurd h (by decide)
    obtain ⟨e, h1, h2, h3⟩ := leadingZeros_spec x.hi hne
    rw [if_pos h, e]
    generalize Nat.log2 x.hi.toNat = k at *
    rw [show 256 - (127 - k) = 128 + (k + 1) by omega, show 128 + (k + 1) - 1 = 128 + k by omega,
      Nat.pow_add, Nat.pow_add 2 128 k]
    unfold val
    generalize 2 ^ (k + 1) = a at *
    generalize 2 ^ k = b at *
    refine ⟨by omega, by omega, by omega, by omega⟩
  · have h0 : x.hi = 0 := by
      apply BitVec.eq_of_toNat_eq
      have : ¬ (0 : BitVec 128).toNat < x.hi.toNat := h
      omega
    rw [if_neg h]
    unfold val
    rw [h0, z, Nat.zero_mul, Nat.zero_add]
    by_cases hz : x.lo = 0
    · rw [hz]
      unfold leadingZeros
      rw [if_pos rfl, z]
      refine ⟨by omega, by omega, by omega, by omega⟩
    · obtain ⟨e, h1, h2, h3⟩ := leadingZeros_spec x.lo hz
      rw [e]
      generalize Nat.log2 x.lo.toNat = k at *
      rw [show 128 - (127 - k) = k + 1 by omega, show k + 1 - 1 = k by omega]
      exact ⟨by omega, h3, by omega, fun _ => h2⟩

theorem bits_zero_iff (x : U256) : bits x = 0 ↔ x.val = 0 := by
  obtain ⟨-, h1, h2, -⟩ := bits_spec x
  constructor
  · intro h
    rw [h] at h1
    omega
  · intro h
    by_cases hb : bits x = 0
    · exact hb
    · have := (bits_spec x).2.2.2 hb
      have := Nat.two_pow_pos (bits x - 1)
      omega

theorem bits_mono {x y : U256} (h : x.val ≤ y.val) : bits x ≤ bits y := by
  obtain ⟨-, -, -, h4⟩ := bits_spec x
  obtain ⟨-, h2, -, -⟩ := bits_spec y
  by_cases h0 : bits x = 0
  · omega
  · have := h4 h0
    have h5 : 2 ^ (bits x - 1) < 2 ^ bits y := by omega
    have := (Nat.pow_lt_pow_iff_right (by omega)).1 h5
    omega

theorem or_bit (a k : Nat) (h : 2 ^ (k + 1) ∣ a) : a ||| 2 ^ k = a + 2 ^ k := by
  obtain ⟨m, rfl⟩ := h
  have hlt : 2 ^ k < 2 ^ (k + 1) := Nat.pow_lt_pow_right (by omega) (by omega)
  have := Nat.shiftLeft_add_eq_or_of_lt hlt m
  rw [Nat.shiftLeft_eq, Nat.mul_comm] at this
  exact this.symm

theorem shl_one_toNat (k : Nat) (h : k < 128) : ((1 : BitVec 128) <<< k).toNat = 2 ^ k := by
  have one_toNat : (1 : BitVec 128).toNat = 1 := rfl
  rw [BitVec.toNat_shiftLeft, one_toNat, Nat.shiftLeft_eq, Nat.one_mul]
  exact Nat.mod_eq_of_lt (Nat.pow_lt_pow_right (by omega) h)

/-- Setting bit `s` above which everything is set already. -/
theorem setBit (ret : U256) (s : Nat) (hs : s < 256) (h : 2 ^ (s + 1) ∣ ret.val) :
    (if s / 128 = 0 then ⟨ret.hi, ret.lo ||| ((1 : BitVec 128) <<< (s % 128))⟩
      else ⟨ret.hi ||| ((1 : BitVec 128) <<< (s % 128)), ret.lo⟩ : U256).val = ret.val + 2 ^ s := by
  have hlo := ret.lo.isLt
  by_cases h1 : s / 128 = 0
  · rw [if_pos h1]
    have hs' : s % 128 = s := by omega
    unfold val at *
    simp only [BitVec.toNat_or]
    rw [shl_one_toNat _ (by omega), hs', or_bit, Nat.add_assoc]
    have hd : 2 ^ (s + 1) ∣ ret.hi.toNat * 2 ^ 128 :=
      Nat.dvd_trans (Nat.pow_dvd_pow 2 (by omega)) (Nat.dvd_mul_left _ _)
    exact (Nat.dvd_add_right hd).1 h
  · rw [if_neg h1]
    obtain ⟨k, rfl⟩ : ∃ k, s = 128 + k := ⟨s - 128, by omega⟩
    rw [show (128 + k) % 128 = k by omega]
    unfold val at *
    simp only [BitVec.toNat_or]
    rw [show 128 + k + 1 = 128 + (k + 1) by omega, Nat.pow_add] at h
    rw [shl_one_toNat _ (by omega), or_bit, Nat.pow_add 2 128 k, Nat.add_mul]
    · rw [Nat.mul_comm (2 ^ k)]; omega
    · obtain ⟨m, hm⟩ := h
      refine ⟨m, ?_⟩
      have hm' : ret.hi.toNat * 2 ^ 128 + ret.lo.toNat = 2 ^ 128 * (2 ^ (k + 1) * m) := by
        rw [hm, Nat.mul_assoc]
      generalize 2 ^ (k + 1) * m = t at *
      omega

theorem divLoop_spec (d : Nat) (hd : 0 < d) : ∀ (s : Nat) (sub shc ret : U256), s < 256 →
    shc.val = d * 2 ^ s → sub.val < d * 2 ^ (s + 1) → 2 ^ (s + 1) ∣ ret.val →
    (divLoop s sub shc ret).1.val = ret.val + sub.val / d ∧ (divLoop s sub shc ret).2.val = sub.val % d := by
  intro s
  induction s with
  | zero =>
    intro sub shc ret hs h1 h2 h3
    rw [Nat.pow_zero, Nat.mul_one] at h1
    have e1 : 2 ^ (0 + 1) = 2 := rfl
    rw [e1] at h2
    unfold divLoop
    simp only []
    by_cases hh : le shc sub = true
    · have hle := (le_iff _ _).1 hh
      rw [h1] at hle
      have hq : sub.val / d = 1 := by
        rw [Nat.div_eq_iff hd]
        omega
      have hr : sub.val % d = sub.val - d := by
        rw [Nat.mod_eq_sub_mod hle, Nat.mod_eq_of_lt (by omega)]
      rw [if_pos hh, if_pos hh]
      refine ⟨?_, ?_⟩
      · have := setBit ret 0 hs h3
        rw [if_pos rfl] at this
        rw [hq, ← this]
        rfl
      · rw [val_wrappingSub _ _ (by omega), hr, h1]
    · have hle : ¬ shc.val ≤ sub.val := fun h => hh ((le_iff _ _).2 h)
      rw [if_neg hh, if_neg hh, Nat.div_eq_of_lt (by omega), Nat.mod_eq_of_lt (by omega), Nat.add_zero]
      exact ⟨rfl, rfl⟩
  | succ s ih =>
    intro sub shc ret hs h1 h2 h3
    unfold divLoop
    simp only []
    have hsh : (shr shc 1).val = d * 2 ^ s := by
      rw [val_shr _ _ (by omega), h1, Nat.pow_succ, ← Nat.mul_assoc, Nat.pow_one, Nat.mul_div_cancel _ (by omega)]
    have hp : 2 ^ (s + 1 + 1) = 2 ^ (s + 1) * 2 := Nat.pow_succ 2 (s + 1)
    by_cases hh : le shc sub = true
    · have hle := (le_iff _ _).1 hh
      rw [if_pos hh, if_pos hh]
      have hb := setBit ret (s + 1) hs h3
      generalize (if (s + 1) / 128 = 0 then ⟨ret.hi, ret.lo ||| ((1 : BitVec 128) <<< ((s + 1) % 128))⟩
        else ⟨ret.hi ||| ((1 : BitVec 128) <<< ((s + 1) % 128)), ret.lo⟩ : U256) = ret' at *
      have hsub := val_wrappingSub _ _ hle
      obtain ⟨i1, i2⟩ := ih (wrappingSub sub shc) (shr shc 1) ret' (by omega) hsh
        (by rw [hsub, h1]; rw [hp, ← Nat.mul_assoc] at h2; omega)
        (by rw [hb]; exact Nat.dvd_add (Nat.dvd_trans (Nat.pow_dvd_pow 2 (by omega)) h3) (Nat.dvd_refl _))
      rw [i1, i2, hb, hsub, h1]
      rw [h1] at hle
      obtain ⟨t, ht⟩ : ∃ t, sub.val = d * 2 ^ (s + 1) + t := ⟨sub.val - d * 2 ^ (s + 1), by omega⟩
      rw [ht, Nat.add_sub_cancel_left, Nat.mul_add_div hd, Nat.mul_add_mod]
      exact ⟨by omega, rfl⟩
    · have hle : ¬ shc.val ≤ sub.val := fun h => hh ((le_iff _ _).2 h)
      rw [if_neg hh, if_neg hh]
      exact ih sub (shr shc 1) ret (by omega) hsh (by omega)
        (Nat.dvd_trans (Nat.pow_dvd_pow 2 (by omega)) h3)

theorem divRem_spec (x y : U256) : (y.val = 0 → divRem x y = none) ∧
    (y.val ≠ 0 → ∃ q r, divRem x y = some (q, r) ∧ q.val = x.val / y.val ∧ r.val = x.val % y.val) := by
  constructor
  · intro h
    unfold divRem
    rw [if_pos ((bits_zero_iff y).2 h)]
  · intro h
    have hb : bits y ≠ 0 := fun e => h ((bits_zero_iff y).1 e)
    obtain ⟨x1, x2, -, -⟩ := bits_spec x
    obtain ⟨y1, y2, -, y4⟩ := bits_spec y
    have y4 := y4 hb
    unfold divRem
    rw [if_neg hb]
    by_cases hlt : bits x < bits y
    · rw [if_pos hlt]
      have : x.val < y.val := by
        have : 2 ^ bits x ≤ 2 ^ (bits y - 1) := Nat.pow_le_pow_right (by omega) (by omega)
        omega
      exact ⟨_, _, rfl, by rw [Nat.div_eq_of_lt this]; exact val_zero, by rw [Nat.mod_eq_of_lt this]⟩
    · rw [if_neg hlt]
      have hs : y.val * 2 ^ (bits x - bits y) < 2 ^ 256 := by
        have h1 : y.val * 2 ^ (bits x - bits y) < 2 ^ bits y * 2 ^ (bits x - bits y) :=
          Nat.mul_lt_mul_of_pos_right y2 (Nat.two_pow_pos _)
        rw [← split_pow (by omega)] at h1
        have h2 : 2 ^ bits x ≤ 2 ^ 256 := Nat.pow_le_pow_right (by omega) x1
        omega
      have hshl : (shl y (bits x - bits y)).val = y.val * 2 ^ (bits x - bits y) := by
        rw [val_shl _ _ (by omega), Nat.mod_eq_of_lt hs]
      obtain ⟨q1, q2⟩ := divLoop_spec y.val (by omega) (bits x - bits y) x _ zero (by omega) hshl (by
        have h1 : 2 ^ bits x = 2 ^ (bits y - 1) * 2 ^ (bits x - bits y + 1) := by
          rw [← Nat.pow_add]; congr 1; omega
        have h2 : 2 ^ (bits y - 1) * 2 ^ (bits x - bits y + 1) ≤ y.val * 2 ^ (bits x - bits y + 1) :=
          Nat.mul_le_mul_right _ y4
        omega) (by rw [val_zero]; exact Nat.dvd_zero _)
      rw [val_zero, Nat.zero_add] at q1
      exact ⟨_, _, rfl, q1, q2⟩

theorem div_spec (x y : U256) (h : y.val ≠ 0) : ∃ q, div x y = some q ∧ q.val = x.val / y.val := by
  obtain ⟨q, r, e, h1, h2⟩ := (divRem_spec x y).2 h
  exact ⟨q, by unfold div; rw [e]; rfl, h1⟩

theorem rem_spec (x y : U256) (h : y.val ≠ 0) : ∃ r, rem x y = some r ∧ r.val = x.val % y.val := by
  obtain ⟨q, r, e, h1, h2⟩ := (divRem_spec x y).2 h
  exact ⟨r, by unfold rem; rw [e]; rfl, h2⟩

/-! ### Inverse -/

/-- `inverse` computes `2^256 / (x + 1)`, except for the two values set by definition. -/
theorem inverse_spec (x : U256) : ∃ r, inverse x = some r ∧
    r.val = if x.val ≤ 1 then 2 ^ 256 - 1 else 2 ^ 256 / (x.val + 1) := by
  have hx := x.val_lt
  unfold inverse
  by_cases h0 : x.isZero = true
  · rw [if_pos h0]
    exact ⟨max, rfl, by rw [if_pos (by rw [(isZero_iff x).1 h0]; omega)]; exact val_max⟩
  rw [if_neg h0]
  by_cases h1 : x.isOne = true
  · rw [if_pos h1]
    exact ⟨max, rfl, by rw [if_pos (by rw [(isOne_iff x).1 h1]; omega)]; exact val_max⟩
  rw [if_neg h1]
  have n0 : x.val ≠ 0 := fun e => h0 ((isZero_iff x).2 e)
  have n1 : x.val ≠ 1 := fun e => h1 ((isOne_iff x).2 e)
  have n01 : ¬ x.val ≤ 1 := by omega
  rw [if_neg n01]
  by_cases h2 : x.isMax = true
  · rw [if_pos h2]
    refine ⟨one, rfl, ?_⟩
    rw [(isMax_iff x).1 h2, val_one]
  · rw [if_neg h2]
    have n2 : x.val ≠ 2 ^ 256 - 1 := fun e => h2 ((isMax_iff x).2 e)
    have hinc : (wrappingInc x).val = x.val + 1 := by
      rw [val_wrappingInc, Nat.mod_eq_of_lt (by omega)]
    obtain ⟨q, e, hq⟩ := div_spec (not x) (wrappingInc x) (by omega)
    rw [e]
    refine ⟨wrappingInc q, rfl, ?_⟩
    rw [val_wrappingInc, hq, val_not, hinc]
    have hdiv : 2 ^ 256 / (x.val + 1) = (2 ^ 256 - 1 - x.val) / (x.val + 1) + 1 := by
      rw [show 2 ^ 256 = (2 ^ 256 - 1 - x.val) + (x.val + 1) by omega,
        Nat.add_div_right _ (by omega)]
      congr 2
      omega
    rw [hdiv]
    have : (2 ^ 256 - 1 - x.val) / (x.val + 1) ≤ 2 ^ 256 - 1 - x.val := Nat.div_le_self _ _
    exact Nat.mod_eq_of_lt (by omega)

/-! ### Bytes -/

theorem val_ofLeBytes (a : Arr 32) : (ofLeBytes a).val = leNat a.1 := by
  have h := a.2
  have h1 : leNat (a.1.take 16) < 256 ^ 16 := by
    have := leNat_lt (a.1.take 16); rwa [List.length_take, h] at this
  have h2 : leNat (a.1.drop 16) < 256 ^ 16 := by
    have := leNat_lt (a.1.drop 16); rwa [List.length_drop, h] at this
  have h3 := leNat_append (a.1.take 16) (a.1.drop 16)
  rw [List.take_append_drop, List.length_take, h] at h3
  unfold ofLeBytes val
  simp only [BitVec.toNat_ofNat]
  rw [h3]
  have : 256 ^ 16 = 2 ^ 128 := by decide
  have h4 : 256 ^ min 16 32 = 2 ^ 128 := by decide
  rw [h4]
  rw [this] at h1 h2
  rw [Nat.mod_eq_of_lt h1, Nat.mod_eq_of_lt h2]
  omega

theorem val_ofBeBytes (a : Arr 32) : (ofBeBytes a).val = beNat a.1 := by
  have h := a.2
  have h1 : beNat (a.1.take 16) < 256 ^ 16 := by
    have := beNat_lt (a.1.take 16); rwa [List.length_take, h] at this
  have h2 : beNat (a.1.drop 16) < 256 ^ 16 := by
    have := beNat_lt (a.1.drop 16); rwa [List.length_drop, h] at this
  have h3 := leNat_append (a.1.drop 16).reverse (a.1.take 16).reverse
  rw [← List.reverse_append, List.take_append_drop, List.length_reverse, List.length_drop, h] at h3
  unfold ofBeBytes val
  simp only [BitVec.toNat_ofNat]
  show _ = leNat a.1.reverse
  rw [h3]
  have : 256 ^ 16 = 2 ^ 128 := by decide
  have h4 : 256 ^ (32 - 16) = 2 ^ 128 := by decide
  rw [h4]
  rw [this] at h1 h2
  rw [Nat.mod_eq_of_lt h1, Nat.mod_eq_of_lt h2]
  unfold beNat
  omega

theorem leBytes_split (a b n : Nat) : leBytes (a + b) n = leBytes a n ++ leBytes b (n / 256 ^ a) := by
  induction a generalizing n with
  | zero => simp [leBytes]
  | succ a ih =>
    rw [show a + 1 + b = a + b + 1 by omega]
    simp only [leBytes, List.cons_append]
    rw [ih, Nat.div_div_eq_div_mul, Nat.pow_succ, Nat.mul_comm 256]

theorem leBytes_mod (a n : Nat) : leBytes a (n % 256 ^ a) = leBytes a n := by
  have h := leNat_leBytes a (n % 256 ^ a) (Nat.mod_lt _ (Nat.pow_pos (by omega)))
  induction a generalizing n with
  | zero => rfl
  | succ a ih =>
    simp only [leBytes]
    have e1 : n % 256 ^ (a + 1) % 256 = n % 256 := by
      rw [Nat.pow_succ, Nat.mul_comm, Nat.mod_mul, Nat.add_mul_mod_self_left, Nat.mod_mod]
    have e2 : n % 256 ^ (a + 1) / 256 = n / 256 % 256 ^ a := by
      rw [Nat.pow_succ, Nat.mul_comm, Nat.mod_mul, Nat.add_mul_div_left _ _ (by omega)]
      omega
    rw [e2, ih]
    · congr 1
      apply UInt8.toNat.inj
      simp only [UInt8.toNat_ofNat']
      omega
    · exact leNat_leBytes a _ (Nat.mod_lt _ (Nat.pow_pos (by omega)))

theorem toLeBytes_eq (x : U256) : toLeBytes x = leBytes 32 x.val := by
  have h1 := x.lo.isLt
  have e : (256 : Nat) ^ 16 = 2 ^ 128 := by decide
  unfold toLeBytes
  rw [show (32 : Nat) = 16 + 16 from rfl, leBytes_split, e]
  have e1 : x.val / 2 ^ 128 = x.hi.toNat := by unfold val; omega
  have e2 : x.val % 2 ^ 128 = x.lo.toNat := by unfold val; omega
  rw [e1, ← leBytes_mod 16 x.val, e, e2]

theorem toBeBytes_eq (x : U256) : toBeBytes x = beBytes 32 x.val := by
  have := toLeBytes_eq x
  unfold toLeBytes at this
  unfold toBeBytes beBytes
  rw [← this, List.reverse_append]

end U256
end Btc
