import Verif.ChaCha.Poly1305
import Verif.Props.C59
/-!
# C68: Poly1305 computes the authenticator of RFC 8439
-/
namespace Btc
namespace ChaCha

/-! ## RFC 8439, 2.5 -/
namespace Rfc

/-- The prime 2^130 - 5. -/
def P : Nat := 2 ^ 130 - 5

/-- `clamp`. -/
def clamp (r : Nat) : Nat := r &&& 0x0ffffffc0ffffffc0ffffffc0fffffff

/-- The loop over 16-byte pieces: `a = (r * (a + le_bytes_to_num(piece | [0x01]))) % p`. -/
def polyLoop (r : Nat) (a : Nat) (msg : Bytes) : Nat :=
  if h : msg = [] then a else polyLoop r (r * (a + leNat (msg.take 16 ++ [0x01])) % P) (msg.drop 16)
termination_by msg.length
decreasing_by
  have : msg.length ≠ 0 := fun h0 => h (List.length_eq_zero_iff.mp h0)
  simp only [List.length_drop]
  omega

/-- `poly1305_mac`: the last addition is kept to its low 16 bytes. -/
def poly1305 (key : Arr 32) (msg : Bytes) : Bytes :=
  leBytes 16 (polyLoop (clamp (leNat (key.1.take 16))) 0 msg + leNat (key.1.drop 16))

end Rfc

/-! ## Numbers -/

/-- The number of five 26-bit limbs. -/
def L5.val (a : L5) : Nat := a.l0 + 67108864 * a.l1 + 67108864 ^ 2 * a.l2 + 67108864 ^ 3 * a.l3 + 67108864 ^ 4 * a.l4

theorem chk32_eq {n : Nat} (h : n < 2 ^ 32) : chk32 n = some n := if_pos h
theorem chk64_eq {n : Nat} (h : n < 2 ^ 64) : chk64 n = some n := if_pos h

theorem bitmask (n : Nat) : n &&& BITMASK = n % 67108864 := by
  have := Nat.and_two_pow_sub_one_eq_mod n 26
  simpa [BITMASK] using this

/-- Bounds of the accumulator between pieces. -/
structure Acc (a : L5) : Prop where
  b0 : a.l0 < 2 ^ 26
  b1 : a.l1 < 2 ^ 26 + 64
  b2 : a.l2 < 2 ^ 26
  b3 : a.l3 < 2 ^ 26
  b4 : a.l4 < 2 ^ 26

/-- Bounds of the multiplier. -/
structure Rb (r : L5) : Prop where
  b0 : r.l0 < 2 ^ 26
  b1 : r.l1 < 2 ^ 26
  b2 : r.l2 < 2 ^ 26
  b3 : r.l3 < 2 ^ 26
  b4 : r.l4 < 2 ^ 20

/-- Bounds of the accumulator after adding a piece. -/
structure Sum (a : L5) : Prop where
  b0 : a.l0 < 2 ^ 27
  b1 : a.l1 < 2 ^ 27 + 64
  b2 : a.l2 < 2 ^ 27
  b3 : a.l3 < 2 ^ 27
  b4 : a.l4 < 2 ^ 26 + 2 ^ 25

theorem rTimesA_eq (r a : L5) (hr : Rb r) (ha : Sum a) : ∃ b, rTimesA r a = some b ∧ Acc b ∧ ∃ k, r.val * a.val = b.val + k * Rfc.P := by
  obtain ⟨r0, r1, r2, r3, r4⟩ := r
  obtain ⟨a0, a1, a2, a3, a4⟩ := a
  obtain ⟨hr0, hr1, hr2, hr3, hr4⟩ := hr
  obtain ⟨ha0, ha1, ha2, ha3, ha4⟩ := ha
  simp only at hr0 hr1 hr2 hr3 hr4 ha0 ha1 ha2 ha3 ha4
  have mul : ∀ {x y X Y : Nat}, x < X → y < Y → x * y ≤ X * Y := fun h1 h2 => Nat.mul_le_mul (Nat.le_of_lt h1) (Nat.le_of_lt h2)
  have p00 := mul hr0 ha0; have p01 := mul hr0 ha1; have p02 := mul hr0 ha2; have p03 := mul hr0 ha3; have p04 := mul hr0 ha4
  have p10 := mul hr1 ha0; have p11 := mul hr1 ha1; have p12 := mul hr1 ha2; have p13 := mul hr1 ha3; have p14 := mul hr1 ha4
  have p20 := mul hr2 ha0; have p21 := mul hr2 ha1; have p22 := mul hr2 ha2; have p23 := mul hr2 ha3; have p24 := mul hr2 ha4
  have p30 := mul hr3 ha0; have p31 := mul hr3 ha1; have p32 := mul hr3 ha2; have p33 := mul hr3 ha3; have p34 := mul hr3 ha4
  have p40 := mul hr4 ha0; have p41 := mul hr4 ha1; have p42 := mul hr4 ha2; have p43 := mul hr4 ha3; have p44 := mul hr4 ha4
  have val : (⟨r0, r1, r2, r3, r4⟩ : L5).val * (⟨a0, a1, a2, a3, a4⟩ : L5).val =
      ((r0 * a0 + 5 * (r1 * a4) + 5 * (r2 * a3) + 5 * (r3 * a2) + 5 * (r4 * a1)) +
        67108864 * (r0 * a1 + r1 * a0 + 5 * (r2 * a4) + 5 * (r3 * a3) + 5 * (r4 * a2)) +
        67108864 ^ 2 * (r0 * a2 + r1 * a1 + r2 * a0 + 5 * (r3 * a4) + 5 * (r4 * a3)) +
        67108864 ^ 3 * (r0 * a3 + r1 * a2 + r2 * a1 + r3 * a0 + 5 * (r4 * a4)) +
        67108864 ^ 4 * (r0 * a4 + r1 * a3 + r2 * a2 + r3 * a1 + r4 * a0)) +
      Rfc.P * ((r1 * a4 + r2 * a3 + r3 * a2 + r4 * a1) + 67108864 * (r2 * a4 + r3 * a3 + r4 * a2) +
        67108864 ^ 2 * (r3 * a4 + r4 * a3) + 67108864 ^ 3 * (r4 * a4)) := by
    have hP : Rfc.P = 67108864 ^ 5 - 5 := by decide
    rw [hP]
    unfold L5.val
    grind
  generalize hq : (r1 * a4 + r2 * a3 + r3 * a2 + r4 * a1) + 67108864 * (r2 * a4 + r3 * a3 + r4 * a2) +
        67108864 ^ 2 * (r3 * a4 + r4 * a3) + 67108864 ^ 3 * (r4 * a4) = q at val
  have s0 : mulSum ⟨r0, r1, r2, r3, r4⟩ ⟨a0, a1, a2, a3, a4⟩ 0 = some (r0 * a0 + 5 * (r1 * a4) + 5 * (r2 * a3) + 5 * (r3 * a2) + 5 * (r4 * a1)) := by
    unfold mulSum
    have : ((List.range 5).map fun i => (if i > 0 then 5 else 1) * L5.get ⟨r0, r1, r2, r3, r4⟩ i * L5.get ⟨a0, a1, a2, a3, a4⟩ (((5 - i) % 5 + 0) % 5)).sum =
        r0 * a0 + 5 * (r1 * a4) + 5 * (r2 * a3) + 5 * (r3 * a2) + 5 * (r4 * a1) := by
      show 1 * r0 * a0 + (5 * r1 * a4 + (5 * r2 * a3 + (5 * r3 * a2 + (5 * r4 * a1 + 0)))) = _
      simp only [Nat.one_mul, Nat.mul_assoc, Nat.add_assoc, Nat.add_zero]
    rw [this, chk64_eq (by omega)]
  have s1 : mulSum ⟨r0, r1, r2, r3, r4⟩ ⟨a0, a1, a2, a3, a4⟩ 1 = some (r0 * a1 + r1 * a0 + 5 * (r2 * a4) + 5 * (r3 * a3) + 5 * (r4 * a2)) := by
    unfold mulSum
    have : ((List.range 5).map fun i => (if i > 1 then 5 else 1) * L5.get ⟨r0, r1, r2, r3, r4⟩ i * L5.get ⟨a0, a1, a2, a3, a4⟩ (((5 - i) % 5 + 1) % 5)).sum =
        r0 * a1 + r1 * a0 + 5 * (r2 * a4) + 5 * (r3 * a3) + 5 * (r4 * a2) := by
      show 1 * r0 * a1 + (1 * r1 * a0 + (5 * r2 * a4 + (5 * r3 * a3 + (5 * r4 * a2 + 0)))) = _
      simp only [Nat.one_mul, Nat.mul_assoc, Nat.add_assoc, Nat.add_zero]
    rw [this, chk64_eq (by omega)]
  have s2 : mulSum ⟨r0, r1, r2, r3, r4⟩ ⟨a0, a1, a2, a3, a4⟩ 2 = some (r0 * a2 + r1 * a1 + r2 * a0 + 5 * (r3 * a4) + 5 * (r4 * a3)) := by
    unfold mulSum
    have : ((List.range 5).map fun i => (if i > 2 then 5 else 1) * L5.get ⟨r0, r1, r2, r3, r4⟩ i * L5.get ⟨a0, a1, a2, a3, a4⟩ (((5 - i) % 5 + 2) % 5)).sum =
        r0 * a2 + r1 * a1 + r2 * a0 + 5 * (r3 * a4) + 5 * (r4 * a3) := by
      show 1 * r0 * a2 + (1 * r1 * a1 + (1 * r2 * a0 + (5 * r3 * a4 + (5 * r4 * a3 + 0)))) = _
      simp only [Nat.one_mul, Nat.mul_assoc, Nat.add_assoc, Nat.add_zero]
    rw [this, chk64_eq (by omega)]
  have s3 : mulSum ⟨r0, r1, r2, r3, r4⟩ ⟨a0, a1, a2, a3, a4⟩ 3 = some (r0 * a3 + r1 * a2 + r2 * a1 + r3 * a0 + 5 * (r4 * a4)) := by
    unfold mulSum
    have : ((List.range 5).map fun i => (if i > 3 then 5 else 1) * L5.get ⟨r0, r1, r2, r3, r4⟩ i * L5.get ⟨a0, a1, a2, a3, a4⟩ (((5 - i) % 5 + 3) % 5)).sum =
        r0 * a3 + r1 * a2 + r2 * a1 + r3 * a0 + 5 * (r4 * a4) := by
      show 1 * r0 * a3 + (1 * r1 * a2 + (1 * r2 * a1 + (1 * r3 * a0 + (5 * r4 * a4 + 0)))) = _
      simp only [Nat.one_mul, Nat.mul_assoc, Nat.add_assoc, Nat.add_zero]
    rw [this, chk64_eq (by omega)]
  have s4 : mulSum ⟨r0, r1, r2, r3, r4⟩ ⟨a0, a1, a2, a3, a4⟩ 4 = some (r0 * a4 + r1 * a3 + r2 * a2 + r3 * a1 + r4 * a0) := by
    unfold mulSum
    have : ((List.range 5).map fun i => (if i > 4 then 5 else 1) * L5.get ⟨r0, r1, r2, r3, r4⟩ i * L5.get ⟨a0, a1, a2, a3, a4⟩ (((5 - i) % 5 + 4) % 5)).sum =
        r0 * a4 + r1 * a3 + r2 * a2 + r3 * a1 + r4 * a0 := by
      show 1 * r0 * a4 + (1 * r1 * a3 + (1 * r2 * a2 + (1 * r3 * a1 + (1 * r4 * a0 + 0)))) = _
      simp only [Nat.one_mul, Nat.add_assoc, Nat.add_zero]
    rw [this, chk64_eq (by omega)]
  have b0 : r0 * a0 + 5 * (r1 * a4) + 5 * (r2 * a3) + 5 * (r3 * a2) + 5 * (r4 * a1) < 2 ^ 58 := by omega
  have b1 : r0 * a1 + r1 * a0 + 5 * (r2 * a4) + 5 * (r3 * a3) + 5 * (r4 * a2) < 2 ^ 58 := by omega
  have b2 : r0 * a2 + r1 * a1 + r2 * a0 + 5 * (r3 * a4) + 5 * (r4 * a3) < 2 ^ 58 := by omega
  have b3 : r0 * a3 + r1 * a2 + r2 * a1 + r3 * a0 + 5 * (r4 * a4) < 2 ^ 58 := by omega
  have b4 : r0 * a4 + r1 * a3 + r2 * a2 + r3 * a1 + r4 * a0 < 8 * 2 ^ 52 := by omega
  unfold rTimesA
  rw [s0, s1, s2, s3, s4]
  rw [val]
  clear s0 s1 s2 s3 s4 val
  generalize r0 * a0 + 5 * (r1 * a4) + 5 * (r2 * a3) + 5 * (r3 * a2) + 5 * (r4 * a1) = t0 at *
  generalize r0 * a1 + r1 * a0 + 5 * (r2 * a4) + 5 * (r3 * a3) + 5 * (r4 * a2) = t1 at *
  generalize r0 * a2 + r1 * a1 + r2 * a0 + 5 * (r3 * a4) + 5 * (r4 * a3) = t2 at *
  generalize r0 * a3 + r1 * a2 + r2 * a1 + r3 * a0 + 5 * (r4 * a4) = t3 at *
  generalize r0 * a4 + r1 * a3 + r2 * a2 + r3 * a1 + r4 * a0 = t4 at *
  clear p00 p01 p02 p03 p04 p10 p11 p12 p13 p14 p20 p21 p22 p23 p24 p30 p31 p32 p33 p34 p40 p41 p42 p43 p44 hq mul
  simp only [Option.bind_eq_bind, Option.bind_some, bitmask, Nat.shiftRight_eq_div_pow]
  rw [chk64_eq (by omega)]
  simp only [Option.bind_some]
  rw [chk64_eq (by omega)]
  simp only [Option.bind_some]
  rw [chk64_eq (by omega)]
  simp only [Option.bind_some]
  rw [chk64_eq (by omega)]
  simp only [Option.bind_some]
  obtain ⟨u1, hu1⟩ : ∃ u, u = t1 + t0 / 2 ^ 26 := ⟨_, rfl⟩
  rw [← hu1]
  obtain ⟨u2, hu2⟩ : ∃ u, u = t2 + u1 / 2 ^ 26 := ⟨_, rfl⟩
  rw [← hu2]
  obtain ⟨u3, hu3⟩ : ∃ u, u = t3 + u2 / 2 ^ 26 := ⟨_, rfl⟩
  rw [← hu3]
  obtain ⟨u4, hu4⟩ : ∃ u, u = t4 + u3 / 2 ^ 26 := ⟨_, rfl⟩
  rw [← hu4]
  have hu4b : u4 < 9 * 2 ^ 52 := by omega
  obtain ⟨v, hv⟩ : ∃ v, v = u4 / 2 ^ 26 := ⟨_, rfl⟩
  have hv1 : v < 9 * 2 ^ 26 := by omega
  have hm : ∀ t, t % 2 ^ 32 % 67108864 = t % 67108864 := fun t => by omega
  rw [← hv, Nat.mod_eq_of_lt (show v < 2 ^ 32 by omega)]
  simp only [hm]
  have hm1 : ∀ t, t % 67108864 < 67108864 := fun t => Nat.mod_lt _ (by decide)
  have := hm1 t0
  have := hm1 u1
  rw [chk32_eq (by omega)]
  simp only [Option.bind_some]
  rw [chk32_eq (by omega)]
  simp only [Option.bind_some]
  rw [chk32_eq (by omega)]
  simp only [Option.bind_some]
  refine ⟨_, rfl, ⟨?_, ?_, ?_, ?_, ?_⟩, q + v, ?_⟩
  · simp only; omega
  · simp only; omega
  · simp only; omega
  · simp only; omega
  · simp only; omega
  · unfold L5.val Rfc.P
    simp only
    omega

/-! ## Pieces of the message -/

theorem leNat_drop (bs : Bytes) (k : Nat) : leNat (bs.drop k) = leNat bs / 256 ^ k := by
  by_cases h : k ≤ bs.length
  · have h1 := leNat_append (bs.take k) (bs.drop k)
    rw [List.take_append_drop] at h1
    have hl : (bs.take k).length = k := by simp; omega
    have h2 := leNat_lt (bs.take k)
    rw [hl] at h1 h2
    rw [h1, Nat.add_mul_div_left _ _ (Nat.pow_pos (by decide)), Nat.div_eq_of_lt h2, Nat.zero_add]
  · rw [List.drop_eq_nil_of_le (by omega), Nat.div_eq_of_lt]
    · rfl
    · exact Nat.lt_of_lt_of_le (leNat_lt bs) (Nat.pow_le_pow_right (by decide) (by omega))

theorem leNat_take (bs : Bytes) (k : Nat) : leNat (bs.take k) = leNat bs % 256 ^ k := by
  by_cases h : k ≤ bs.length
  · have h1 := leNat_append (bs.take k) (bs.drop k)
    rw [List.take_append_drop] at h1
    have hl : (bs.take k).length = k := by simp; omega
    have h2 := leNat_lt (bs.take k)
    rw [hl] at h1 h2
    rw [h1, Nat.add_mul_mod_self_left, Nat.mod_eq_of_lt h2]
  · rw [List.take_of_length_le (by omega), Nat.mod_eq_of_lt]
    exact Nat.lt_of_lt_of_le (leNat_lt bs) (Nat.pow_le_pow_right (by decide) (by omega))

theorem le32_eq (bs : Bytes) (i : Nat) : le32 bs i = leNat bs / 256 ^ i % 2 ^ 32 := by
  unfold le32
  rw [leNat_take, leNat_drop]

theorem leNat_zeros (n : Nat) : leNat (List.replicate n 0) = 0 := by
  induction n with
  | zero => rfl
  | succ n ih => simp [List.replicate_succ, leNat, ih]

/-- The limbs of a piece hold the number of the piece followed by a 1. -/
theorem prepare_eq (msg : Bytes) (isLast : Bool) (h : if isLast then msg.length < 16 else msg.length = 16) :
    (prepare msg isLast).val = leNat (msg ++ [0x01]) ∧ (prepare msg isLast).l0 < 2 ^ 26 ∧ (prepare msg isLast).l1 < 2 ^ 26 ∧
    (prepare msg isLast).l2 < 2 ^ 26 ∧ (prepare msg isLast).l3 < 2 ^ 26 ∧ (prepare msg isLast).l4 < 2 ^ 25 := by
  have hN : leNat (msg ++ [0x01] ++ List.replicate (16 - msg.length) 0) = leNat (msg ++ [0x01]) := by
    rw [leNat_append, leNat_zeros]; simp
  have h1 : leNat (msg ++ [0x01]) = leNat msg + 256 ^ msg.length := by
    rw [leNat_append]; simp [leNat]
  have hlt := leNat_lt msg
  unfold prepare L5.val
  simp only [le32_eq, bitmask, Nat.shiftRight_eq_div_pow, hN]
  cases isLast with
  | true =>
    rw [if_pos rfl] at h
    have hb : leNat (msg ++ [0x01]) < 256 ^ 16 := by
      have := leNat_lt (msg ++ [0x01])
      exact Nat.lt_of_lt_of_le this (Nat.pow_le_pow_right (by decide) (by simp; omega))
    generalize leNat (msg ++ [0x01]) = N at *
    simp only [if_true, Nat.or_zero]
    clear hlt h1 hN
    refine ⟨?_, ?_, ?_, ?_, ?_, ?_⟩ <;> omega
  | false =>
    rw [if_neg (by simp)] at h
    rw [h] at h1 hlt
    rw [h1]
    generalize leNat msg = N at *
    clear hN
    simp only [Bool.false_eq_true, if_false]
    have hq : (N + 256 ^ 16) / 256 ^ 12 % 2 ^ 32 / 2 ^ 8 < 2 ^ 24 := by omega
    have hor : (N + 256 ^ 16) / 256 ^ 12 % 2 ^ 32 / 2 ^ 8 ||| 1 <<< 24 = 2 ^ 24 + (N + 256 ^ 16) / 256 ^ 12 % 2 ^ 32 / 2 ^ 8 := by
      have := Nat.two_pow_add_eq_or_of_lt hq 1
      rw [Nat.mul_one] at this
      rw [this, Nat.or_comm]
      rfl
    rw [hor]
    refine ⟨?_, ?_, ?_, ?_, ?_, ?_⟩ <;> omega

theorem addLimbs_eq (a m : L5) (ha : Acc a) (h0 : m.l0 < 2 ^ 26) (h1 : m.l1 < 2 ^ 26) (h2 : m.l2 < 2 ^ 26) (h3 : m.l3 < 2 ^ 26) (h4 : m.l4 < 2 ^ 25) :
    ∃ b, addLimbs a m = some b ∧ Sum b ∧ b.val = a.val + m.val := by
  obtain ⟨b0, b1, b2, b3, b4⟩ := ha
  refine ⟨⟨a.l0 + m.l0, a.l1 + m.l1, a.l2 + m.l2, a.l3 + m.l3, a.l4 + m.l4⟩, ?_, ⟨?_, ?_, ?_, ?_, ?_⟩, ?_⟩
  · unfold addLimbs
    rw [chk32_eq (by omega), chk32_eq (by omega), chk32_eq (by omega), chk32_eq (by omega), chk32_eq (by omega)]
    rfl
  · simp only; omega
  · simp only; omega
  · simp only; omega
  · simp only; omega
  · simp only; omega
  · unfold L5.val
    simp only
    omega

theorem absorb_eq (r acc : L5) (piece : Bytes) (isLast : Bool) (hr : Rb r) (ha : Acc acc) (h : if isLast then piece.length < 16 else piece.length = 16) :
    ∃ b, absorb r acc piece isLast = some b ∧ Acc b ∧ b.val % Rfc.P = r.val * (acc.val % Rfc.P + leNat (piece ++ [0x01])) % Rfc.P := by
  obtain ⟨hv, m0, m1, m2, m3, m4⟩ := prepare_eq piece isLast h
  obtain ⟨s, e1, hs, vs⟩ := addLimbs_eq acc (prepare piece isLast) ha m0 m1 m2 m3 m4
  obtain ⟨b, e2, hb, k, hk⟩ := rTimesA_eq r s hr hs
  refine ⟨b, ?_, hb, ?_⟩
  · unfold absorb
    rw [e1]
    exact e2
  · rw [vs, hv] at hk
    have h1 : b.val % Rfc.P = (b.val + k * Rfc.P) % Rfc.P := (Nat.add_mul_mod_self_right _ _ _).symm
    rw [h1, ← hk, Nat.mul_mod, Nat.mul_mod r.val (acc.val % Rfc.P + _), Nat.mod_add_mod]

/-! ## The loop -/

theorem polyLoop_nil (r a : Nat) : Rfc.polyLoop r a [] = a := by rw [Rfc.polyLoop]; simp
theorem polyLoop_cons (r a : Nat) (msg : Bytes) (h : msg ≠ []) :
    Rfc.polyLoop r a msg = Rfc.polyLoop r (r * (a + leNat (msg.take 16 ++ [0x01])) % Rfc.P) (msg.drop 16) := by rw [Rfc.polyLoop]; simp [h]

theorem polyLoop_append (r : Nat) (m : Bytes) : ∀ (n : Nat) (a : Nat) (l : Bytes), l.length = 16 * n →
    Rfc.polyLoop r a (l ++ m) = Rfc.polyLoop r (Rfc.polyLoop r a l) m
  | 0, a, l, h => by
    have : l = [] := List.length_eq_zero_iff.mp (by omega)
    subst this
    rw [polyLoop_nil, List.nil_append]
  | n + 1, a, l, h => by
    have hne : l ≠ [] := fun h0 => by rw [h0] at h; simp at h
    rw [polyLoop_cons r a (l ++ m) (by simp [hne]), polyLoop_cons r a l hne, List.take_append_of_le_length (by omega), List.drop_append_of_le_length (by omega)]
    exact polyLoop_append r m n _ _ (by simp; omega)

theorem absorbAll_eq (r : L5) (hr : Rb r) : ∀ (n : Nat) (acc : L5) (msg : Bytes), Acc acc → 16 * n ≤ msg.length →
    ∃ b, absorbAll r n acc msg = some b ∧ Acc b ∧ b.val % Rfc.P = Rfc.polyLoop r.val (acc.val % Rfc.P) (msg.take (16 * n))
  | 0, acc, msg, ha, _ => ⟨acc, rfl, ha, by rw [Nat.mul_zero, List.take_zero, polyLoop_nil]⟩
  | n + 1, acc, msg, ha, h => by
    obtain ⟨b, e1, hb, hv⟩ := absorb_eq r acc (msg.take 16) false hr ha (by simp; omega)
    obtain ⟨c, e2, hc, hw⟩ := absorbAll_eq r hr n b (msg.drop 16) hb (by simp; omega)
    refine ⟨c, ?_, hc, ?_⟩
    · unfold absorbAll
      rw [e1]
      exact e2
    · rw [hw, hv]
      have hne : msg.take (16 * (n + 1)) ≠ [] := fun h0 => by
        have := congrArg List.length h0
        simp only [List.length_take, List.length_nil] at this
        omega
      rw [polyLoop_cons r.val _ _ hne, List.take_take, Nat.min_eq_left (by omega), List.drop_take, show 16 * (n + 1) - 16 = 16 * n by omega]

/-! ## The state after a message -/

/-- How long the whole pieces of a message are. -/
def whole (m : Bytes) : Nat := 16 * (m.length / 16)

structure Holds (r : L5) (s : Nat × Nat × Nat × Nat) (p : Poly) (m : Bytes) : Prop where
  hr : p.r = r
  hs : p.s = s
  acc : Acc p.acc
  val : p.acc.val % Rfc.P = Rfc.polyLoop r.val 0 (m.take (whole m))
  size : p.leftovers.length = 16
  len : p.leftoversLen = m.length % 16
  left : p.leftovers.take p.leftoversLen = m.drop (whole m)

theorem input_holds {r : L5} (hr : Rb r) {s : Nat × Nat × Nat × Nat} {p : Poly} {m : Bytes} (h : Holds r s p m) (msg : Bytes) :
    ∃ q, p.input msg = some q ∧ Holds r s q (m ++ msg) := by
  obtain ⟨h1, h2, h3, h4, h5, h6, h7⟩ := h
  subst h1 h2
  have hlen : p.leftoversLen < 16 := by omega
  have htake : (p.leftovers.take p.leftoversLen).length = p.leftoversLen := by simp; omega
  unfold Poly.input
  by_cases hf : p.leftoversLen + msg.length ≥ 16
  · -- the leftovers are filled up
    simp only [if_pos hf]
    unfold Poly.fillUp
    rw [if_pos (by omega)]
    obtain ⟨b, e1, hb, hv⟩ := absorb_eq p.r p.acc (p.leftovers.take p.leftoversLen ++ msg.take (16 - p.leftoversLen)) false hr h3
      (by simp only [Bool.false_eq_true, if_false, List.length_append, htake, List.length_take]; omega)
    simp only [e1, Option.map_some, Option.bind_some]
    generalize hrest : msg.drop (16 - p.leftoversLen) = rest
    have hrl : rest.length = msg.length - (16 - p.leftoversLen) := by rw [← hrest]; simp
    obtain ⟨c, e2, hc, hw⟩ := absorbAll_eq p.r hr (rest.length / 16) b rest hb (by omega)
    rw [e2]
    simp only [Option.bind_some]
    have hmod : (m ++ msg).length % 16 = rest.length % 16 := by rw [List.length_append, hrl]; omega
    have hwhole : whole (m ++ msg) = whole m + 16 + 16 * (rest.length / 16) := by
      unfold whole
      rw [List.length_append, hrl]; omega
    have hm : m.take (whole m) ++ (p.leftovers.take p.leftoversLen ++ msg.take (16 - p.leftoversLen)) ++ rest = m ++ msg := by
      rw [h7, ← List.append_assoc, List.take_append_drop, List.append_assoc, ← hrest, List.take_append_drop]
    have hpre : (m.take (whole m) ++ (p.leftovers.take p.leftoversLen ++ msg.take (16 - p.leftoversLen))).length = whole m + 16 := by
      have : (m.take (whole m)).length = whole m := by rw [List.length_take]; unfold whole; omega
      rw [List.length_append, this, List.length_append, htake, List.length_take]; omega
    have hval : c.val % Rfc.P = Rfc.polyLoop p.r.val 0 ((m ++ msg).take (whole (m ++ msg))) := by
      rw [hwhole, ← hm, List.take_append, hpre, List.take_of_length_le (by rw [hpre]; omega), show whole m + 16 + 16 * (rest.length / 16) - (whole m + 16) = 16 * (rest.length / 16) by omega]
      rw [polyLoop_append p.r.val _ (m.length / 16 + 1) 0 _ (by rw [hpre]; unfold whole; omega)]
      rw [polyLoop_append p.r.val _ (m.length / 16) 0 _ (by rw [List.length_take]; unfold whole; omega), ← h4, hw, hv]
      have hne : p.leftovers.take p.leftoversLen ++ msg.take (16 - p.leftoversLen) ≠ [] := fun h0 => by
        have := congrArg List.length h0
        simp only [List.length_append, htake, List.length_take, List.length_nil] at this
        omega
      have hl16 : (p.leftovers.take p.leftoversLen ++ msg.take (16 - p.leftoversLen)).length = 16 := by
        rw [List.length_append, htake, List.length_take]; omega
      have ht : (p.leftovers.take p.leftoversLen ++ msg.take (16 - p.leftoversLen)).take 16 = p.leftovers.take p.leftoversLen ++ msg.take (16 - p.leftoversLen) :=
        List.take_of_length_le (by omega)
      have hd : (p.leftovers.take p.leftoversLen ++ msg.take (16 - p.leftoversLen)).drop 16 = [] := List.drop_eq_nil_of_le (by omega)
      rw [polyLoop_cons p.r.val _ (p.leftovers.take p.leftoversLen ++ msg.take (16 - p.leftoversLen)) hne, ht, hd, polyLoop_nil]
    have hdrop : (m ++ msg).drop (whole (m ++ msg)) = rest.drop (16 * (rest.length / 16)) := by
      rw [hwhole, ← hm, List.drop_append, hpre, List.drop_eq_nil_of_le (by rw [hpre]; omega), List.nil_append,
        show whole m + 16 + 16 * (rest.length / 16) - (whole m + 16) = 16 * (rest.length / 16) by omega]
    have hl16 : (p.leftovers.take p.leftoversLen ++ msg.take (16 - p.leftoversLen)).length = 16 := by
      rw [List.length_append, htake, List.length_take]; omega
    unfold Poly.save
    by_cases hz : rest.length % 16 > 0
    · rw [if_pos hz]
      simp only
      rw [if_pos (by omega)]
      refine ⟨_, rfl, rfl, rfl, hc, hval, ?_, ?_, ?_⟩
      · simp only [List.length_append, List.length_take, List.length_drop] at hl16 ⊢
        omega
      · simp only; omega
      · simp only [List.take_zero, List.nil_append, Nat.zero_add]
        rw [hdrop, List.take_append_of_le_length (by rw [List.length_drop]; omega), List.take_of_length_le (by rw [List.length_drop]; omega)]
        rw [show rest.length - rest.length % 16 = 16 * (rest.length / 16) by omega]
    · rw [if_neg hz]
      refine ⟨_, rfl, rfl, rfl, hc, hval, hl16, by simp only; omega, ?_⟩
      simp only [List.take_zero]
      rw [hdrop, List.drop_eq_nil_of_le (by omega)]
  · -- they stay short of a piece
    simp only [if_neg hf]
    unfold Poly.fillUp
    rw [if_neg (by omega)]
    simp only [Option.bind_some, List.drop_zero]
    rw [show msg.length / 16 = 0 by omega]
    simp only [absorbAll, Option.bind_some]
    have hwhole : whole (m ++ msg) = whole m := by
      unfold whole
      rw [List.length_append]; omega
    have hwl : whole m ≤ m.length := by unfold whole; omega
    have hval : p.acc.val % Rfc.P = Rfc.polyLoop p.r.val 0 ((m ++ msg).take (whole (m ++ msg))) := by
      rw [hwhole, List.take_append_of_le_length hwl, h4]
    unfold Poly.save
    by_cases hz : msg.length % 16 > 0
    · rw [if_pos hz]
      simp only
      rw [if_pos (by omega)]
      refine ⟨_, rfl, rfl, rfl, h3, hval, ?_, ?_, ?_⟩
      · simp only [List.length_append, List.length_take, List.length_drop]
        omega
      · simp only [List.length_append]; omega
      · simp only
        rw [hwhole, List.drop_append_of_le_length hwl, ← h7, show msg.length - msg.length % 16 = 0 by omega, List.drop_zero]
        rw [List.take_append_of_le_length (by rw [List.length_append, htake]; omega), List.take_of_length_le (by rw [List.length_append, htake]; omega)]
    · rw [if_neg hz]
      have hnil : msg = [] := List.length_eq_zero_iff.mp (by omega)
      subst hnil
      rw [List.append_nil]
      exact ⟨_, rfl, rfl, rfl, h3, h4, h5, h6, h7⟩

/-! ## The tag -/

theorem carryMask_eq (a : L5) (ha : Acc a) : ∃ b, carryMask a = some b ∧ b.l0 < 2 ^ 26 ∧ b.l1 < 2 ^ 26 ∧ b.l2 < 2 ^ 26 ∧ b.l3 < 2 ^ 26 ∧ b.l4 < 2 ^ 26 ∧
    b.val % Rfc.P = a.val % Rfc.P := by
  obtain ⟨a0, a1, a2, a3, a4⟩ := a
  obtain ⟨b0, b1, b2, b3, b4⟩ := ha
  simp only at b0 b1 b2 b3 b4
  unfold carryMask
  simp only [bitmask, Nat.shiftRight_eq_div_pow]
  obtain ⟨c2, h2⟩ : ∃ c, c = a2 + a1 / 2 ^ 26 := ⟨_, rfl⟩
  obtain ⟨c3, h3⟩ : ∃ c, c = a3 + c2 / 2 ^ 26 := ⟨_, rfl⟩
  obtain ⟨c4, h4⟩ : ∃ c, c = a4 + c3 / 2 ^ 26 := ⟨_, rfl⟩
  have k2 : c2 ≤ 2 ^ 26 := by omega
  have k3 : c3 ≤ 2 ^ 26 := by omega
  have k4 : c4 ≤ 2 ^ 26 := by omega
  rw [← h2, chk32_eq (by omega)]
  simp only [Option.bind_eq_bind, Option.bind_some]
  rw [← h3, chk32_eq (by omega)]
  simp only [Option.bind_some]
  rw [← h4, chk32_eq (by omega)]
  simp only [Option.bind_some]
  rw [chk32_eq (by omega)]
  simp only [Option.bind_some]
  rw [chk32_eq (by omega)]
  simp only [Option.bind_some]
  rw [chk32_eq (by omega)]
  simp only [Option.bind_some]
  refine ⟨_, rfl, by simp only; omega, by simp only; omega, by simp only; omega, by simp only; omega, by simp only; omega, ?_⟩
  have key : (⟨a0, a1, a2, a3, a4⟩ : L5).val = (⟨(a0 + c4 / 2 ^ 26 * 5) % 67108864, (a1 + (a0 + c4 / 2 ^ 26 * 5) / 2 ^ 26) % 67108864, c2 % 67108864, c3 % 67108864, c4 % 67108864⟩ : L5).val +
      (c4 / 2 ^ 26) * Rfc.P := by
    unfold L5.val Rfc.P
    simp only
    omega
  rw [key, Nat.add_mul_mod_self_right]

theorem and_full (t : Nat) (h : t < 2 ^ 32) : t &&& (2 ^ 32 - 1) = t := by
  rw [Nat.and_two_pow_sub_one_eq_mod, Nat.mod_eq_of_lt h]

theorem reduce_eq (a : L5) (h0 : a.l0 < 2 ^ 26) (h1 : a.l1 < 2 ^ 26) (h2 : a.l2 < 2 ^ 26) (h3 : a.l3 < 2 ^ 26) (h4 : a.l4 < 2 ^ 26) :
    ∃ b, reduce a = some b ∧ b.l0 < 2 ^ 26 ∧ b.l1 < 2 ^ 26 ∧ b.l2 < 2 ^ 26 ∧ b.l3 < 2 ^ 26 ∧ b.l4 < 2 ^ 26 ∧ b.val = a.val % Rfc.P := by
  obtain ⟨a0, a1, a2, a3, a4⟩ := a
  simp only at h0 h1 h2 h3 h4
  unfold reduce
  simp only [bitmask, Nat.shiftRight_eq_div_pow]
  obtain ⟨t1, e1⟩ : ∃ c, c = a1 + (a0 + 5) / 2 ^ 26 := ⟨_, rfl⟩
  obtain ⟨t2, e2⟩ : ∃ c, c = a2 + t1 / 2 ^ 26 := ⟨_, rfl⟩
  obtain ⟨t3, e3⟩ : ∃ c, c = a3 + t2 / 2 ^ 26 := ⟨_, rfl⟩
  have k1 : t1 ≤ 2 ^ 26 := by omega
  have k2 : t2 ≤ 2 ^ 26 := by omega
  have k3 : t3 ≤ 2 ^ 26 := by omega
  rw [chk32_eq (by omega)]
  simp only [Option.bind_eq_bind, Option.bind_some]
  rw [← e1, chk32_eq (by omega)]
  simp only [Option.bind_some]
  rw [← e2, chk32_eq (by omega)]
  simp only [Option.bind_some]
  rw [← e3, chk32_eq (by omega)]
  simp only [Option.bind_some]
  have hsh : 1 <<< 26 = 67108864 := rfl
  rw [hsh]
  by_cases hc : a4 + t3 / 2 ^ 26 < 2 ^ 26
  · -- below the modulus
    have ht : ((a4 + 2 ^ 32 - 67108864) % 2 ^ 32 + t3 / 2 ^ 26) % 2 ^ 32 / 2 ^ 31 = 1 := by omega
    rw [ht]
    have hm : (1 + 2 ^ 32 - 1) % 2 ^ 32 = 0 := by decide
    rw [hm]
    simp only [Nat.and_zero, Nat.zero_or, Nat.sub_zero]
    rw [and_full _ (by omega), and_full _ (by omega), and_full _ (by omega), and_full _ (by omega), and_full _ (by omega)]
    refine ⟨_, rfl, h0, h1, h2, h3, h4, ?_⟩
    rw [Nat.mod_eq_of_lt]
    unfold L5.val Rfc.P
    simp only
    omega
  · have ht : ((a4 + 2 ^ 32 - 67108864) % 2 ^ 32 + t3 / 2 ^ 26) % 2 ^ 32 = 0 := by omega
    rw [ht]
    have hm : (0 / 2 ^ 31 + 2 ^ 32 - 1) % 2 ^ 32 = 2 ^ 32 - 1 := by decide
    rw [hm]
    simp only [Nat.sub_self, Nat.and_zero, Nat.or_zero, Nat.zero_and]
    rw [and_full _ (by omega), and_full _ (by omega), and_full _ (by omega), and_full _ (by omega)]
    refine ⟨_, rfl, by simp only; omega, by simp only; omega, by simp only; omega, by simp only; omega, by simp only; omega, ?_⟩
    have key : (⟨a0, a1, a2, a3, a4⟩ : L5).val = (⟨(a0 + 5) % 67108864, t1 % 67108864, t2 % 67108864, t3 % 67108864, 0⟩ : L5).val + Rfc.P := by
      unfold L5.val Rfc.P
      simp only
      omega
    have hlt : (⟨(a0 + 5) % 67108864, t1 % 67108864, t2 % 67108864, t3 % 67108864, 0⟩ : L5).val < Rfc.P := by
      unfold L5.val Rfc.P
      simp only
      omega
    rw [key, Nat.add_mod_right, Nat.mod_eq_of_lt hlt]

theorem leBytes_split (k : Nat) : ∀ (j n : Nat), leBytes (j + k) n = leBytes j n ++ leBytes k (n / 256 ^ j)
  | 0, n => by simp [leBytes]
  | j + 1, n => by
    rw [show j + 1 + k = (j + k) + 1 by omega]
    simp only [leBytes, List.cons_append]
    rw [leBytes_split k j, Nat.div_div_eq_div_mul, show 256 ^ (j + 1) = 256 * 256 ^ j by rw [Nat.pow_succ, Nat.mul_comm]]

theorem leBytes_mod (k : Nat) : ∀ n, leBytes k (n % 256 ^ k) = leBytes k n := by
  induction k with
  | zero => intro n; rfl
  | succ k ih =>
    intro n
    simp only [leBytes]
    rw [← ih (n / 256), Nat.pow_succ, Nat.mul_comm, Nat.mod_mul_right_div_self]
    congr 1
    apply UInt8.toNat_inj.mp
    simp only [UInt8.toNat_ofNat']
    rw [Nat.mod_mul_right_mod]

theorem or_low (a b k : Nat) (ha : a < 2 ^ k) (hk : k ≤ 32) : a ||| (b <<< k) % 2 ^ 32 = a + (b * 2 ^ k) % 2 ^ 32 := by
  rw [Nat.shiftLeft_eq]
  have h32 : (2 : Nat) ^ 32 = 2 ^ (32 - k) * 2 ^ k := by rw [← Nat.pow_add, Nat.sub_add_cancel hk]
  rw [h32, Nat.mul_mod_mul_right, Nat.mul_comm _ (2 ^ k), Nat.or_comm, ← Nat.two_pow_add_eq_or_of_lt ha, Nat.add_comm]

theorem finish_eq (a : L5) (s : Nat) (h0 : a.l0 < 2 ^ 26) (h1 : a.l1 < 2 ^ 26) (h2 : a.l2 < 2 ^ 26) (h3 : a.l3 < 2 ^ 26) (h4 : a.l4 < 2 ^ 26) (hs : s < 2 ^ 128) :
    finish a (s % 2 ^ 32, s / 2 ^ 32 % 2 ^ 32, s / 2 ^ 64 % 2 ^ 32, s / 2 ^ 96 % 2 ^ 32) = leBytes 16 (a.val + s) := by
  obtain ⟨a0, a1, a2, a3, a4⟩ := a
  simp only at h0 h1 h2 h3 h4
  unfold finish
  simp only [Nat.shiftRight_eq_div_pow]
  rw [or_low a0 a1 26 h0 (by decide), or_low (a1 / 2 ^ 6) a2 20 (by omega) (by decide), or_low (a2 / 2 ^ 12) a3 14 (by omega) (by decide),
    or_low (a3 / 2 ^ 18) a4 8 (by omega) (by decide)]
  have hv : (⟨a0, a1, a2, a3, a4⟩ : L5).val = a0 + 67108864 * a1 + 67108864 ^ 2 * a2 + 67108864 ^ 3 * a3 + 67108864 ^ 4 * a4 := rfl
  generalize (⟨a0, a1, a2, a3, a4⟩ : L5).val = v at hv
  obtain ⟨q1, r1, e1, f1⟩ : ∃ q r, a1 = 64 * q + r ∧ r < 64 := ⟨a1 / 64, a1 % 64, by omega, by omega⟩
  obtain ⟨q2, r2, e2, f2⟩ : ∃ q r, a2 = 4096 * q + r ∧ r < 4096 := ⟨a2 / 4096, a2 % 4096, by omega, by omega⟩
  obtain ⟨q3, r3, e3, f3⟩ : ∃ q r, a3 = 262144 * q + r ∧ r < 262144 := ⟨a3 / 262144, a3 % 262144, by omega, by omega⟩
  obtain ⟨q4, r4, e4, f4⟩ : ∃ q r, a4 = 16777216 * q + r ∧ r < 16777216 := ⟨a4 / 16777216, a4 % 16777216, by omega, by omega⟩
  have y0 : a0 + a1 * 2 ^ 26 % 2 ^ 32 = a0 + 67108864 * r1 := by clear hv e2 e3 e4 f2 f3 f4; omega
  have y1 : a1 / 2 ^ 6 + a2 * 2 ^ 20 % 2 ^ 32 = q1 + 1048576 * r2 := by clear hv e3 e4 f3 f4; omega
  have y2 : a2 / 2 ^ 12 + a3 * 2 ^ 14 % 2 ^ 32 = q2 + 16384 * r3 := by clear hv e1 e4 f1 f4; omega
  have y3 : a3 / 2 ^ 18 + a4 * 2 ^ 8 % 2 ^ 32 = q3 + 256 * r4 := by clear hv e1 e2 f1 f2; omega
  rw [y0, y1, y2, y3]
  clear y0 y1 y2 y3
  have hv' : v = (a0 + 67108864 * r1) + 2 ^ 32 * ((q1 + 1048576 * r2) + 2 ^ 32 * ((q2 + 16384 * r3) + 2 ^ 32 * ((q3 + 256 * r4) + 2 ^ 32 * q4))) := by
    rw [hv, e1, e2, e3, e4]; omega
  have j0 : a0 + 67108864 * r1 < 2 ^ 32 := by clear hv hv' e2 e3 e4; omega
  have j1 : q1 + 1048576 * r2 < 2 ^ 32 := by clear hv hv' e3 e4; omega
  have j2 : q2 + 16384 * r3 < 2 ^ 32 := by clear hv hv' e4; omega
  have j3 : q3 + 256 * r4 < 2 ^ 32 := by clear hv hv'; omega
  clear hv e1 e2 e3 e4 f1 f2 f3 f4 h0 h1 h2 h3 h4
  generalize a0 + 67108864 * r1 = z0 at *
  generalize q1 + 1048576 * r2 = z1 at *
  generalize q2 + 16384 * r3 = z2 at *
  generalize q3 + 256 * r4 = z3 at *
  have div : ∀ x y : Nat, x < 2 ^ 32 → (x + 2 ^ 32 * y) / 2 ^ 32 = y ∧ (x + 2 ^ 32 * y) % 2 ^ 32 = x := fun x y h => by omega
  have w0 : v % 2 ^ 32 = z0 := by rw [hv']; exact (div _ _ j0).2
  have k1 : v / 2 ^ 32 = z1 + 2 ^ 32 * (z2 + 2 ^ 32 * (z3 + 2 ^ 32 * q4)) := by rw [hv']; exact (div _ _ j0).1
  have w1 : v / 2 ^ 32 % 2 ^ 32 = z1 := by rw [k1]; exact (div _ _ j1).2
  have k2 : v / 2 ^ 32 / 2 ^ 32 = z2 + 2 ^ 32 * (z3 + 2 ^ 32 * q4) := by rw [k1]; exact (div _ _ j1).1
  have w2 : v / 2 ^ 32 / 2 ^ 32 % 2 ^ 32 = z2 := by rw [k2]; exact (div _ _ j2).2
  have k3 : v / 2 ^ 32 / 2 ^ 32 / 2 ^ 32 = z3 + 2 ^ 32 * q4 := by rw [k2]; exact (div _ _ j2).1
  have w3 : v / 2 ^ 32 / 2 ^ 32 / 2 ^ 32 % 2 ^ 32 = z3 := by rw [k3]; exact (div _ _ j3).2
  rw [← w0, ← w1, ← w2, ← w3]
  clear w0 w1 w2 w3 k1 k2 k3 hv' j0 j1 j2 j3 div hs
  have d64 : ∀ x, x / 2 ^ 64 = x / 2 ^ 32 / 2 ^ 32 := fun x => by rw [Nat.div_div_eq_div_mul]
  have d96 : ∀ x, x / 2 ^ 96 = x / 2 ^ 32 / 2 ^ 32 / 2 ^ 32 := fun x => by rw [Nat.div_div_eq_div_mul, Nat.div_div_eq_div_mul]
  have hsplit : leBytes 16 (v + s) = leBytes 4 (v + s) ++ leBytes 4 ((v + s) / 2 ^ 32) ++ leBytes 4 ((v + s) / 2 ^ 32 / 2 ^ 32) ++ leBytes 4 ((v + s) / 2 ^ 32 / 2 ^ 32 / 2 ^ 32) := by
    rw [leBytes_split 12 4, leBytes_split 8 4, leBytes_split 4 4]
    simp only [List.append_assoc]
  have l4 : ∀ x y, x % 2 ^ 32 = y % 2 ^ 32 → leBytes 4 (x % 2 ^ 32) = leBytes 4 y := by
    intro x y h
    rw [h]
    exact leBytes_mod 4 y
  have carry : ∀ X Y C, (X + Y + C) / 2 ^ 32 = X / 2 ^ 32 + Y / 2 ^ 32 + (X % 2 ^ 32 + Y % 2 ^ 32 + C) / 2 ^ 32 := fun X Y C => by omega
  have word : ∀ X Y C, (X % 2 ^ 32 + Y % 2 ^ 32 + C) % 2 ^ 32 = (X + Y + C) % 2 ^ 32 := fun X Y C => by omega
  have c1 := carry v s 0
  simp only [Nat.add_zero] at c1
  have c2 := carry (v / 2 ^ 32) (s / 2 ^ 32) ((v % 2 ^ 32 + s % 2 ^ 32) / 2 ^ 32)
  rw [← c1] at c2
  have c3 := carry (v / 2 ^ 32 / 2 ^ 32) (s / 2 ^ 32 / 2 ^ 32) ((v / 2 ^ 32 % 2 ^ 32 + s / 2 ^ 32 % 2 ^ 32 + (v % 2 ^ 32 + s % 2 ^ 32) / 2 ^ 32) / 2 ^ 32)
  rw [← c2] at c3
  rw [hsplit, d64, d96]
  refine congr (congrArg _ (congr (congrArg _ (congr (congrArg _ ?_) ?_)) ?_)) ?_
  · exact l4 _ _ (word v s 0)
  · exact l4 _ _ (by rw [word, ← c1])
  · exact l4 _ _ (by rw [word, ← c2])
  · exact l4 _ _ (by rw [word, ← c3])

theorem clamp_eq (n : Nat) (h : n < 2 ^ 128) :
    (⟨n % 2 ^ 32 &&& 0x03ffffff, ((n / 256 ^ 3 % 2 ^ 32) >>> 2) &&& 0x03ffff03, ((n / 256 ^ 6 % 2 ^ 32) >>> 4) &&& 0x03ffc0ff,
      ((n / 256 ^ 9 % 2 ^ 32) >>> 6) &&& 0x03f03fff, ((n / 256 ^ 12 % 2 ^ 32) >>> 8) &&& 0x000fffff⟩ : L5).val = Rfc.clamp n := by
  have low : ∀ x m, m < 2 ^ 26 → x &&& m = x % 2 ^ 26 &&& m := by
    intro x m hm
    have := Nat.and_mod_two_pow (a := x) (b := m) (n := 26)
    rw [Nat.mod_eq_of_lt hm, Nat.mod_eq_of_lt (Nat.lt_of_le_of_lt Nat.and_le_right hm)] at this
    exact this
  have split : ∀ x c, x &&& c = (x % 2 ^ 26 &&& c % 2 ^ 26) + 2 ^ 26 * (x / 2 ^ 26 &&& c / 2 ^ 26) := by
    intro x c
    rw [← Nat.and_mod_two_pow, ← Nat.and_div_two_pow, Nat.mod_add_div]
  unfold Rfc.clamp L5.val
  simp only [Nat.shiftRight_eq_div_pow]
  rw [split n, split (n / 2 ^ 26), split (n / 2 ^ 26 / 2 ^ 26), split (n / 2 ^ 26 / 2 ^ 26 / 2 ^ 26)]
  rw [low (n % 2 ^ 32) _ (by decide), low (n / 256 ^ 3 % 2 ^ 32 / 2 ^ 2) _ (by decide), low (n / 256 ^ 6 % 2 ^ 32 / 2 ^ 4) _ (by decide),
    low (n / 256 ^ 9 % 2 ^ 32 / 2 ^ 6) _ (by decide), low (n / 256 ^ 12 % 2 ^ 32 / 2 ^ 8) _ (by decide)]
  rw [show n % 2 ^ 32 % 2 ^ 26 = n % 2 ^ 26 by omega, show n / 256 ^ 3 % 2 ^ 32 / 2 ^ 2 % 2 ^ 26 = n / 2 ^ 26 % 2 ^ 26 by omega,
    show n / 256 ^ 6 % 2 ^ 32 / 2 ^ 4 % 2 ^ 26 = n / 2 ^ 26 / 2 ^ 26 % 2 ^ 26 by omega,
    show n / 256 ^ 9 % 2 ^ 32 / 2 ^ 6 % 2 ^ 26 = n / 2 ^ 26 / 2 ^ 26 / 2 ^ 26 % 2 ^ 26 by omega,
    show n / 256 ^ 12 % 2 ^ 32 / 2 ^ 8 % 2 ^ 26 = n / 2 ^ 26 / 2 ^ 26 / 2 ^ 26 / 2 ^ 26 by omega]
  have m0 : 0x0ffffffc0ffffffc0ffffffc0fffffff % 2 ^ 26 = 0x03ffffff := by decide
  have m1 : 0x0ffffffc0ffffffc0ffffffc0fffffff / 2 ^ 26 % 2 ^ 26 = 0x03ffff03 := by decide
  have m2 : 0x0ffffffc0ffffffc0ffffffc0fffffff / 2 ^ 26 / 2 ^ 26 % 2 ^ 26 = 0x03ffc0ff := by decide
  have m3 : 0x0ffffffc0ffffffc0ffffffc0fffffff / 2 ^ 26 / 2 ^ 26 / 2 ^ 26 % 2 ^ 26 = 0x03f03fff := by decide
  have m4 : 0x0ffffffc0ffffffc0ffffffc0fffffff / 2 ^ 26 / 2 ^ 26 / 2 ^ 26 / 2 ^ 26 = 0x000fffff := by decide
  rw [m0, m1, m2, m3, m4]
  omega

/-! ## Theorems -/

theorem new_holds (key : Arr 32) : Rb (Poly.new key).r ∧ (Poly.new key).r.val = Rfc.clamp (leNat (key.1.take 16)) ∧
    (Poly.new key).s = (leNat (key.1.drop 16) % 2 ^ 32, leNat (key.1.drop 16) / 2 ^ 32 % 2 ^ 32, leNat (key.1.drop 16) / 2 ^ 64 % 2 ^ 32,
      leNat (key.1.drop 16) / 2 ^ 96 % 2 ^ 32) ∧ Holds (Poly.new key).r (Poly.new key).s (Poly.new key) [] := by
  have and_lt : ∀ x m k, m < k → x &&& m < k := fun x m k h => Nat.lt_of_le_of_lt Nat.and_le_right h
  have hk := leNat_lt (key.1.take 16)
  have hlen : (key.1.take 16).length = 16 := by simp [key.2]
  rw [hlen] at hk
  refine ⟨⟨and_lt _ _ _ (by decide), and_lt _ _ _ (by decide), and_lt _ _ _ (by decide), and_lt _ _ _ (by decide), and_lt _ _ _ (by decide)⟩, ?_, ?_, ?_⟩
  · rw [← clamp_eq _ hk]
    have e : ∀ i, i ≤ 12 → le32 key.1 i = leNat (key.1.take 16) / 256 ^ i % 2 ^ 32 := by
      intro i hi
      rw [← le32_eq]
      unfold le32
      rw [List.drop_take, List.take_take, Nat.min_eq_left (by omega)]
    unfold Poly.new
    simp only
    rw [e 0 (by decide), e 3 (by decide), e 6 (by decide), e 9 (by decide), e 12 (by decide), Nat.pow_zero, Nat.div_one]
  · have e : ∀ i, le32 key.1 (16 + i) = leNat (key.1.drop 16) / 256 ^ i % 2 ^ 32 := by
      intro i
      rw [← le32_eq]
      unfold le32
      rw [List.drop_drop]
    unfold Poly.new
    simp only
    have e0 := e 0; have e4 := e 4; have e8 := e 8; have e12 := e 12
    simp only [Nat.reduceAdd] at e0 e4 e8 e12
    rw [e0, e4, e8, e12]
    simp
  · exact ⟨rfl, rfl, ⟨by simp [Poly.new], by simp [Poly.new], by simp [Poly.new], by simp [Poly.new], by simp [Poly.new]⟩, by simp [whole, polyLoop_nil, Poly.new, L5.val], by simp [Poly.new], rfl, rfl⟩

/-- A message in pieces. -/
def Poly.inputs (p : Poly) : List Bytes → Option Poly
  | [] => some p
  | m :: ms => (p.input m).bind fun p => p.inputs ms

theorem inputs_holds {r : L5} (hr : Rb r) {s : Nat × Nat × Nat × Nat} : ∀ (ms : List Bytes) {p : Poly} {m : Bytes}, Holds r s p m →
    ∃ q, p.inputs ms = some q ∧ Holds r s q (m ++ ms.flatten)
  | [], p, m, h => ⟨p, rfl, by simpa using h⟩
  | x :: ms, p, m, h => by
    obtain ⟨q, e, hq⟩ := input_holds hr h x
    obtain ⟨q', e', hq'⟩ := inputs_holds hr ms hq
    refine ⟨q', ?_, by simpa using hq'⟩
    unfold Poly.inputs
    rw [e]
    exact e'

theorem tag_holds {key : Arr 32} {p : Poly} {m : Bytes} (h : Holds (Poly.new key).r (Poly.new key).s p m) : p.tag = some (Rfc.poly1305 key m) := by
  obtain ⟨hr, hrv, hs, -⟩ := new_holds key
  obtain ⟨h1, h2, h3, h4, h5, h6, h7⟩ := h
  rw [← h1] at hr hrv h4
  have hlast : ∃ b, (if p.leftoversLen > 0 then absorb p.r p.acc (p.leftovers.take p.leftoversLen) true else some p.acc) = some b ∧ Acc b ∧
      b.val % Rfc.P = Rfc.polyLoop p.r.val 0 m := by
    have hsplit : Rfc.polyLoop p.r.val 0 m = Rfc.polyLoop p.r.val (p.acc.val % Rfc.P) (p.leftovers.take p.leftoversLen) := by
      rw [h4, h7, ← polyLoop_append p.r.val _ (m.length / 16) 0 _ (by rw [List.length_take]; unfold whole; omega), List.take_append_drop]
    by_cases hz : p.leftoversLen > 0
    · rw [if_pos hz]
      have hl : (p.leftovers.take p.leftoversLen).length = p.leftoversLen := by rw [List.length_take]; omega
      obtain ⟨b, e, hb, hv⟩ := absorb_eq p.r p.acc (p.leftovers.take p.leftoversLen) true hr h3 (by rw [if_pos rfl, hl]; omega)
      refine ⟨b, e, hb, ?_⟩
      have hne : p.leftovers.take p.leftoversLen ≠ [] := fun h0 => by
        rw [h0] at hl
        simp at hl
        omega
      have ht : (p.leftovers.take p.leftoversLen).take 16 = p.leftovers.take p.leftoversLen := List.take_of_length_le (by omega)
      have hd : (p.leftovers.take p.leftoversLen).drop 16 = [] := List.drop_eq_nil_of_le (by omega)
      rw [hv, hsplit, polyLoop_cons _ _ _ hne, ht, hd, polyLoop_nil]
    · rw [if_neg hz]
      refine ⟨_, rfl, h3, ?_⟩
      rw [hsplit, show p.leftoversLen = 0 by omega, List.take_zero, polyLoop_nil]
  obtain ⟨b, e, hb, hv⟩ := hlast
  obtain ⟨c, e2, c0, c1, c2, c3, c4, hcv⟩ := carryMask_eq b hb
  obtain ⟨d, e3, d0, d1, d2, d3, d4, hdv⟩ := reduce_eq c c0 c1 c2 c3 c4
  unfold Poly.tag
  rw [e]
  simp only [Option.bind_some]
  rw [e2]
  simp only [Option.bind_some]
  rw [e3]
  simp only [Option.map_some]
  have hsl : leNat (key.1.drop 16) < 2 ^ 128 := by
    have := leNat_lt (key.1.drop 16)
    have hl : (key.1.drop 16).length = 16 := by simp [key.2]
    rw [hl] at this
    exact this
  rw [h2, hs, finish_eq d _ d0 d1 d2 d3 d4 hsl, hdv, hcv, hv, hrv]
  rfl

/-- However a message is divided, the tag is the RFC's, and nothing overflows on the way. -/
theorem C68_poly1305 (key : Arr 32) (ms : List Bytes) :
    ∃ p, (Poly.new key).inputs ms = some p ∧ p.tag = some (Rfc.poly1305 key ms.flatten) := by
  obtain ⟨hr, -, -, h⟩ := new_holds key
  obtain ⟨p, e, hp⟩ := inputs_holds hr ms h
  exact ⟨p, e, tag_holds hp⟩

/-- Sixteen bytes. -/
theorem poly1305_length (key : Arr 32) (m : Bytes) : (Rfc.poly1305 key m).length = 16 := by simp [Rfc.poly1305]

/-! ## Examples -/

/-- RFC 8439, 2.5.2, in three pieces. -/
def key1 : Arr 32 := ⟨[0x85, 0xd6, 0xbe, 0x78, 0x57, 0x55, 0x6d, 0x33, 0x7f, 0x44, 0x52, 0xfe, 0x42, 0xd5, 0x06, 0xa8,
  0x01, 0x03, 0x80, 0x8a, 0xfb, 0x0d, 0xb2, 0xfd, 0x4a, 0xbf, 0xf6, 0xaf, 0x41, 0x49, 0xf5, 0x1b], by decide⟩
example : ((Poly.new key1).inputs ["Crypto".toUTF8.toList, "graphic Forum Research".toUTF8.toList, " Group".toUTF8.toList]).bind Poly.tag =
    some [0xa8, 0x06, 0x1d, 0xc1, 0x30, 0x51, 0x36, 0xc6, 0xc2, 0x2b, 0x8b, 0xaf, 0x0c, 0x01, 0x27, 0xa9] := by decide +kernel
/-- RFC 8439, A.3, test vector 7: the sum wraps past the modulus. -/
example : ((Poly.new ⟨1 :: List.replicate 31 0, by decide⟩).inputs [List.replicate 16 0xff, 0xf0 :: List.replicate 15 0xff, 0x11 :: List.replicate 15 0]).bind Poly.tag =
    some (5 :: List.replicate 15 0) := by decide +kernel
example : ∃ p, (Poly.new key1).inputs [[1, 2, 3], List.replicate 40 7, []] = some p ∧
    p.tag = some (Rfc.poly1305 key1 ([1, 2, 3] ++ List.replicate 40 7)) := C68_poly1305 key1 [[1, 2, 3], List.replicate 40 7, []]

end ChaCha
end Btc
