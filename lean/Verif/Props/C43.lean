import Verif.Units.U256Text
/-! # C43: 256-bit arithmetic is arithmetic modulo `2^256` -/
namespace Btc
namespace U256

/-- Values and numbers below `2^256` correspond one to one. -/
theorem C43_bijection : (∀ x : U256, x.val < 2 ^ 256) ∧ (∀ x y : U256, x.val = y.val → x = y) ∧
    (∀ n, n < 2 ^ 256 → ∃ x : U256, x.val = n) :=
  ⟨val_lt, fun _ _ => val_inj, fun n h => ⟨ofNat n, by rw [val_ofNat, Nat.mod_eq_of_lt h]⟩⟩

/-- Addition, subtraction and multiplication: the wrapped result and an exact overflow flag. -/
theorem C43_arith (x y : U256) :
    ((overflowingAdd x y).1.val = (x.val + y.val) % 2 ^ 256 ∧
      ((overflowingAdd x y).2 = true ↔ 2 ^ 256 ≤ x.val + y.val)) ∧
    (((overflowingSub x y).1.val : Int) = ((x.val : Int) - (y.val : Int)) % 2 ^ 256 ∧
      ((overflowingSub x y).2 = true ↔ x.val < y.val)) ∧
    ((overflowingMul x y).1.val = x.val * y.val % 2 ^ 256 ∧
      ((overflowingMul x y).2 = true ↔ 2 ^ 256 ≤ x.val * y.val)) := by
  refine ⟨overflowingAdd_spec x y, ⟨?_, (overflowingSub_spec x y).2⟩, overflowingMul_spec x y⟩
  have h1 := x.val_lt
  have h2 := y.val_lt
  rw [(overflowingSub_spec x y).1]
  omega

/-- The operators `+`, `-`, `*` panic (debug assertion) exactly on overflow and are exact otherwise. -/
theorem C43_operators (x y z : U256) :
    (add x y = some z ↔ x.val + y.val = z.val) ∧
    (sub x y = some z ↔ y.val ≤ x.val ∧ x.val - y.val = z.val) ∧
    (mul x y = some z ↔ x.val * y.val = z.val) := by
  have hx := x.val_lt
  have hz := z.val_lt
  obtain ⟨a1, a2⟩ := overflowingAdd_spec x y
  obtain ⟨s1, s2⟩ := overflowingSub_spec x y
  obtain ⟨m1, m2⟩ := overflowingMul_spec x y
  refine ⟨?_, ?_, ?_⟩
  · unfold add
    by_cases h : (overflowingAdd x y).2 = true
    · simp only [h, if_true, reduceCtorEq, false_iff]
      have := a2.1 h
      omega
    · have h' : ¬ 2 ^ 256 ≤ x.val + y.val := fun e => h (a2.2 e)
      rw [Nat.mod_eq_of_lt (by omega)] at a1
      simp only [h, Bool.false_eq_true, if_false, Option.some.injEq]
      exact ⟨fun e => by rw [← e]; exact a1.symm, fun e => val_inj (by omega)⟩
  · unfold sub
    by_cases h : (overflowingSub x y).2 = true
    · simp only [h, if_true, reduceCtorEq, false_iff]
      have := s2.1 h
      omega
    · have h' : ¬ x.val < y.val := fun e => h (s2.2 e)
      have s1' : (overflowingSub x y).1.val = x.val - y.val := by rw [s1]; omega
      simp only [h, Bool.false_eq_true, if_false, Option.some.injEq]
      exact ⟨fun e => ⟨by omega, by rw [← e]; exact s1'.symm⟩,
        fun e => val_inj (by omega)⟩
  · unfold mul
    by_cases h : (overflowingMul x y).2 = true
    · simp only [h, if_true, reduceCtorEq, false_iff]
      have := m2.1 h
      omega
    · have h' : ¬ 2 ^ 256 ≤ x.val * y.val := fun e => h (m2.2 e)
      rw [Nat.mod_eq_of_lt (by omega)] at m1
      simp only [h, Bool.false_eq_true, if_false, Option.some.injEq]
      exact ⟨fun e => by rw [← e]; exact m1.symm, fun e => val_inj (by omega)⟩

/-- Multiplication by a `u64`. -/
theorem C43_mul_u64 (x : U256) (r : BitVec 64) :
    (mulU64 x r).1.val = x.val * r.toNat % 2 ^ 256 ∧
      ((mulU64 x r).2 = true ↔ 2 ^ 256 ≤ x.val * r.toNat) := mulU64_spec x r

/-- Division and remainder; a panic exactly for a zero divisor. -/
theorem C43_div_rem (x y : U256) : (divRem x y = none ↔ y.val = 0) ∧
    ∀ q r, divRem x y = some (q, r) → q.val = x.val / y.val ∧ r.val = x.val % y.val := by
  obtain ⟨h1, h2⟩ := divRem_spec x y
  by_cases h : y.val = 0
  · rw [h1 h]
    exact ⟨⟨fun _ => h, fun _ => rfl⟩, fun _ _ e => by cases e⟩
  · obtain ⟨q, r, e, hq, hr⟩ := h2 h
    rw [e]
    refine ⟨⟨fun e => (by cases e), fun e => absurd e h⟩, fun q' r' e' => ?_⟩
    cases e'
    exact ⟨hq, hr⟩

/-- Shifts by less than 256 (the amount is reduced modulo 256), complement, increment. -/
theorem C43_bits (x : U256) (n : Nat) :
    (shl x n).val = x.val * 2 ^ (n % 256) % 2 ^ 256 ∧
    (shr x n).val = x.val / 2 ^ (n % 256) ∧
    (not x).val = 2 ^ 256 - 1 - x.val ∧
    (wrappingInc x).val = (x.val + 1) % 2 ^ 256 := by
  have e1 : shl x n = shl x (n % 256) := by unfold shl; rw [Nat.mod_mod]
  have e2 : shr x n = shr x (n % 256) := by unfold shr; rw [Nat.mod_mod]
  rw [e1, e2]
  exact ⟨val_shl _ _ (Nat.mod_lt _ (by omega)), val_shr _ _ (Nat.mod_lt _ (by omega)), val_not x,
    val_wrappingInc x⟩

/-- `bits` is the length of the binary representation. -/
theorem C43_bit_length (x : U256) (n : Nat) : x.val < 2 ^ n ↔ bits x ≤ n := by
  obtain ⟨-, h2, -, h4⟩ := bits_spec x
  constructor
  · intro h
    by_cases h0 : bits x = 0
    · omega
    · have h5 := h4 h0
      have h6 : 2 ^ (bits x - 1) < 2 ^ n := by omega
      have := (Nat.pow_lt_pow_iff_right (by omega)).1 h6
      omega
  · intro h
    have : 2 ^ bits x ≤ 2 ^ n := Nat.pow_le_pow_right (by omega) h
    omega

/-- Comparison and the saturating conversion. -/
theorem C43_order (x y : U256) : (lt x y = true ↔ x.val < y.val) ∧ (le x y = true ↔ x.val ≤ y.val) ∧
    (saturatingToU128 x).toNat = min x.val (2 ^ 128 - 1) := by
  refine ⟨lt_iff x y, le_iff x y, ?_⟩
  have hv : (ofU128 (BitVec.allOnes 128)).val = 2 ^ 128 - 1 := by decide
  unfold saturatingToU128
  by_cases h : lt (ofU128 (BitVec.allOnes 128)) x = true
  · rw [if_pos h]
    have := (lt_iff _ _).1 h
    rw [hv] at this
    rw [BitVec.toNat_allOnes]
    omega
  · rw [if_neg h]
    have h' : ¬ (2 ^ 128 - 1 < x.val) := fun e => h ((lt_iff _ _).2 (by rw [hv]; exact e))
    have hlo := x.lo.isLt
    unfold val at *
    omega

/-- Byte conversions in both orders are the base-256 representation and are mutually inverse. -/
theorem C43_bytes (x : U256) (a : Arr 32) :
    toLeBytes x = leBytes 32 x.val ∧ toBeBytes x = beBytes 32 x.val ∧
    (ofLeBytes a).val = leNat a.1 ∧ (ofBeBytes a).val = beNat a.1 ∧
    (toLeBytes (ofLeBytes a) = a.1 ∧ toBeBytes (ofBeBytes a) = a.1) := by
  refine ⟨toLeBytes_eq x, toBeBytes_eq x, val_ofLeBytes a, val_ofBeBytes a, ?_, ?_⟩
  · rw [toLeBytes_eq, val_ofLeBytes]; exact leBytes_leNat' 32 a.1 a.2
  · rw [toBeBytes_eq, val_ofBeBytes]; exact beBytes_beNat 32 a.1 a.2

/-- The sums inside the shifts and `mul_u64` stay below `2^128`, so overflow checks never fire. -/
theorem C43_no_overflow (x : U256) (n : Nat) (h0 : 0 < n) (h : n < 128) (rhs word : BitVec 64)
    (carry : BitVec 128) (hc : carry.toNat < 2 ^ 64) :
    (x.hi <<< n).toNat + (x.lo >>> (128 - n)).toNat < 2 ^ 128 ∧
    (x.lo >>> n).toNat + (x.hi <<< (128 - n)).toNat < 2 ^ 128 ∧
    (carry.toNat + rhs.toNat * word.toNat < 2 ^ 128 ∧ (mulStep rhs carry word).2.toNat < 2 ^ 64) := by
  have key : ∀ (a b : BitVec 128) (k : Nat), 0 < k → k < 128 →
      (a <<< k).toNat + (b >>> (128 - k)).toNat < 2 ^ 128 := by
    intro a b k k0 k1
    have hb := b.isLt
    rw [BitVec.toNat_shiftLeft, BitVec.toNat_ushiftRight, Nat.shiftLeft_eq, Nat.shiftRight_eq_div_pow]
    have e1 := split_pow (show k ≤ 128 by omega)
    have hp := Nat.two_pow_pos k
    have hq := Nat.two_pow_pos (128 - k)
    have e4 : a.toNat * 2 ^ k % 2 ^ 128 = a.toNat % 2 ^ (128 - k) * 2 ^ k := by
      rw [e1, Nat.mul_comm (2 ^ k), Nat.mul_mod_mul_right]
    have e5 : b.toNat / 2 ^ (128 - k) < 2 ^ k := by
      rw [Nat.div_lt_iff_lt_mul hq, ← e1]; exact hb
    have e6 : a.toNat % 2 ^ (128 - k) < 2 ^ (128 - k) := Nat.mod_lt _ hq
    have : (a.toNat % 2 ^ (128 - k) + 1) * 2 ^ k ≤ 2 ^ (128 - k) * 2 ^ k := Nat.mul_le_mul_right _ e6
    rw [Nat.mul_comm (2 ^ (128 - k)), ← e1, Nat.add_mul] at this
    rw [e4]
    omega
  refine ⟨key _ _ n h0 h, ?_, (mulStep_spec rhs word carry hc).1, (mulStep_spec rhs word carry hc).2.1⟩
  have := key x.hi x.lo (128 - n) (by omega) (by omega)
  rw [show 128 - (128 - n) = n by omega] at this
  omega

/-- `Display` prints the shortest decimal form (and never overruns its 78-byte buffer); parsing it gives
the value back. -/
theorem C43_display (x : U256) : display x = some (decBytes x.val) ∧ fromStr (decBytes x.val) = .ok x := by
  refine ⟨display_eq x, ?_⟩
  obtain ⟨y, h1, h2⟩ := (fromStr_digits (decBytes x.val) x.val (decBytes_ne_nil _) (digitsVal_decBytes _)).1
    x.val_lt
  rw [h1, val_inj h2]

/-- Parsing a string of decimal digits of any length gives its value, or the overflow error exactly if
the value does not fit. -/
theorem C43_from_str (s : Bytes) (n : Nat) (hne : s ≠ []) (h : digitsVal 10 0 s = some n) :
    (n < 2 ^ 256 ↔ ∃ x, fromStr s = .ok x ∧ x.val = n) ∧
    (2 ^ 256 ≤ n ↔ fromStr s = .error .overflow) := by
  obtain ⟨h1, h2⟩ := fromStr_digits s n hne h
  refine ⟨⟨h1, fun ⟨x, _, hx⟩ => by have := x.val_lt; omega⟩, ⟨h2, fun e => ?_⟩⟩
  by_cases hn : n < 2 ^ 256
  · obtain ⟨x, hx, _⟩ := h1 hn
    rw [hx] at e
    cases e
  · omega

/-- Contrary to what a user of `FromStr` expects, a plus sign is also accepted in the middle of a
number: `"1+" ++ 37 × "0"` parses as `10^38`, because every chunk of 38 characters is parsed by
`u128::from_str`. -/
theorem C43_from_str_inner_plus : ∃ x, fromStr (49 :: 43 :: List.replicate 37 48) = .ok x ∧ x.val = 10 ^ 38 := by
  refine ⟨⟨0, BitVec.ofNat 128 (10 ^ 38)⟩, ?_, by decide⟩
  have e : rchunks38 (49 :: 43 :: List.replicate 37 48) = [[49], 43 :: List.replicate 37 48] := by decide
  have e1 : fromStr (49 :: 43 :: List.replicate 37 48) =
      fromStrLoop [[49], 43 :: List.replicate 37 48] zero := by
    unfold fromStr
    rw [e, if_neg (by decide)]
  rw [e1]
  have p1 : parseUInt (2 ^ 128 - 1) 10 [49] = .ok 1 :=
    (parseUInt_ok_iff (by omega) _ _).2 ⟨[49], Or.inl rfl, by decide, by decide, by omega⟩
  have p2 : parseUInt (2 ^ 128 - 1) 10 (43 :: List.replicate 37 48) = .ok 0 := by
    refine (parseUInt_ok_iff (by omega) _ _).2 ⟨List.replicate 37 48, Or.inr rfl, by decide, by decide, by omega⟩
  have m1 := overflowingMul_spec zero (ofU128 (BitVec.ofNat 128 (10 ^ 38)))
  rw [val_zero, Nat.zero_mul] at m1
  unfold fromStrLoop
  rw [p1]
  simp only []
  have a1 := overflowingAdd_spec (overflowingMul zero (ofU128 (BitVec.ofNat 128 (10 ^ 38)))).1
    (ofU128 (BitVec.ofNat 128 1))
  rw [m1.1, val_ofU128 1 (by omega)] at a1
  generalize overflowingMul zero (ofU128 (BitVec.ofNat 128 (10 ^ 38))) = r1 at *
  generalize overflowingAdd r1.1 (ofU128 (BitVec.ofNat 128 1)) = r2 at *
  have f1 : ¬ (r1.2 || r2.2) = true := by rw [Bool.or_eq_true, m1.2, a1.2]; omega
  rw [if_neg f1]
  have v2 : r2.1.val = 1 := by rw [a1.1]
  unfold fromStrLoop
  rw [p2]
  simp only []
  have m2 := overflowingMul_spec r2.1 (ofU128 (BitVec.ofNat 128 (10 ^ 38)))
  rw [v2, val_pow38] at m2
  have a2 := overflowingAdd_spec (overflowingMul r2.1 (ofU128 (BitVec.ofNat 128 (10 ^ 38)))).1
    (ofU128 (BitVec.ofNat 128 0))
  rw [m2.1, val_ofU128 0 (by omega)] at a2
  generalize overflowingMul r2.1 (ofU128 (BitVec.ofNat 128 (10 ^ 38))) = r3 at *
  generalize overflowingAdd r3.1 (ofU128 (BitVec.ofNat 128 0)) = r4 at *
  have f2 : ¬ (r3.2 || r4.2) = true := by rw [Bool.or_eq_true, m2.2, a2.2]; omega
  rw [if_neg f2]
  unfold fromStrLoop
  congr 1
  apply val_inj
  rw [a2.1]
  decide

/-! Sample: the hypotheses of the theorems above on concrete values. -/
example : ((overflowingMul ⟨1, 0⟩ ⟨0, 12345⟩).1.val = 12345 * 2 ^ 128) ∧
    (overflowingMul ⟨1, 0⟩ ⟨1, 0⟩).2 = true := by decide
example : (divRem ⟨0, 100⟩ ⟨0, 7⟩) = some (⟨0, 14⟩, ⟨0, 2⟩) := by decide
example : digitsVal 10 0 [49, 50, 51] = some 123 ∧ ([49, 50, 51] : Bytes) ≠ [] := by decide
example : (0 < 5 ∧ 5 < 128) ∧ (7 : BitVec 128).toNat < 2 ^ 64 := by decide

end U256
end Btc
