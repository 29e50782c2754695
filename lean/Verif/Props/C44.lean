import Verif.Units.Pow
import Verif.Units.U256Laws
/-!
# C44: compact targets
-/
namespace Btc
namespace Pow
open U256

/-! ## C44 -/

/-- The mantissa and the exponent of a compact value. -/
def mantissa (c : UInt32) : Nat := c.toNat % 2 ^ 24
def exponent (c : UInt32) : Nat := c.toNat / 2 ^ 24

/-- The number written by a compact value, ignoring the sign bit: `mantissa * 256^(exponent - 3)`, rounded
down. -/
def magnitude (c : UInt32) : Nat := mantissa c * 256 ^ exponent c / 256 ^ 3

/-- The target consensus code uses (`arith_uint256::SetCompact` and the checks around it): zero if the
sign bit is set or the number does not fit in 256 bits. -/
def consensusTarget (c : UInt32) : Nat :=
  if 2 ^ 23 ≤ mantissa c ∨ 2 ^ 256 ≤ magnitude c then 0 else magnitude c

theorem magnitude_small (m e : Nat) (h : e ≤ 3) : m * 256 ^ e / 256 ^ 3 = m / 2 ^ (8 * (3 - e)) := by
  have e1 : (256 : Nat) ^ 3 = 2 ^ (8 * (3 - e)) * 256 ^ e := by
    rw [show (256 : Nat) = 2 ^ 8 from rfl, ← Nat.pow_mul, ← Nat.pow_mul, ← Nat.pow_add]
    congr 1
    omega
  rw [e1, Nat.mul_div_mul_right _ _ (Nat.pow_pos (by omega))]

theorem magnitude_large (m e : Nat) (h : 3 ≤ e) : m * 256 ^ e / 256 ^ 3 = m * 2 ^ (8 * (e - 3)) := by
  have e1 : (256 : Nat) ^ e = 2 ^ (8 * (e - 3)) * 256 ^ 3 := by
    rw [show (256 : Nat) = 2 ^ 8 from rfl, ← Nat.pow_mul, ← Nat.pow_mul, ← Nat.pow_add]
    congr 1
    omega
  rw [e1, ← Nat.mul_assoc, Nat.mul_div_cancel _ (by decide)]

theorem val_ofU128' (n : Nat) (h : n < 2 ^ 128) : (ofU128 (BitVec.ofNat 128 n)).val = n := by
  unfold ofU128 val
  have : (0 : BitVec 128).toNat = 0 := rfl
  simp only [this, BitVec.toNat_ofNat]
  omega

/-- What `from_compact` computes, exactly: zero if the number does not fit or if the sign bit is set and
the exponent is at least three, the magnitude otherwise. -/
theorem C44_from_compact (c : UInt32) :
    (fromCompact c).val =
      if (2 ^ 23 ≤ mantissa c ∧ 3 ≤ exponent c) ∨ 2 ^ 256 ≤ magnitude c then 0 else magnitude c := by
  have hc : c.toNat < 2 ^ 32 := c.toNat_lt
  have hand : c.toNat &&& 0xFFFFFF = mantissa c := Nat.and_two_pow_sub_one_eq_mod c.toNat 24
  have hsh : c.toNat >>> 24 = exponent c := Nat.shiftRight_eq_div_pow _ _
  have hm : mantissa c < 2 ^ 24 := Nat.mod_lt _ (by omega)
  have he : exponent c < 256 := by unfold exponent; omega
  unfold fromCompact magnitude
  simp only [hand, hsh, Nat.shiftRight_eq_div_pow]
  generalize mantissa c = m at *
  generalize exponent c = e at *
  by_cases h3 : e ≤ 3
  · simp only [h3, if_true]
    rw [magnitude_small m e h3]
    have hle : m / 2 ^ (8 * (3 - e)) ≤ m := Nat.div_le_self _ _
    by_cases he3 : e = 3
    · subst he3
      simp only [Nat.sub_self, Nat.mul_zero, Nat.pow_zero, Nat.div_one]
      by_cases hs : 2 ^ 23 ≤ m
      · rw [if_pos (Or.inl (by omega)), if_pos (Or.inl ⟨hs, by omega⟩)]
        exact val_zero
      · rw [if_neg (by omega), if_neg (by omega), val_shl _ _ (by omega), val_ofU128' _ (by omega)]
        rw [Nat.pow_zero, Nat.mul_one, Nat.mod_eq_of_lt (by omega)]
    · have hk : m / 2 ^ (8 * (3 - e)) < 2 ^ 16 := by
        have : 2 ^ (8 * 1) ≤ 2 ^ (8 * (3 - e)) := Nat.pow_le_pow_right (by omega) (by omega)
        rw [Nat.div_lt_iff_lt_mul (Nat.two_pow_pos _)]
        have h2 : 2 ^ 16 * 2 ^ (8 * 1) ≤ 2 ^ 16 * 2 ^ (8 * (3 - e)) := Nat.mul_le_mul_left _ this
        omega
      generalize m / 2 ^ (8 * (3 - e)) = q at *
      rw [if_neg (by omega), if_neg (by omega), val_shl _ _ (by omega), val_ofU128' _ (by omega)]
      rw [Nat.pow_zero, Nat.mul_one, Nat.mod_eq_of_lt (by omega)]
  · simp only [h3, if_false]
    rw [magnitude_large m e (by omega)]
    have hov : 2 ^ 256 ≤ m * 2 ^ (8 * (e - 3)) ↔
        m ≠ 0 ∧ (e > 34 ∨ (m > 0xFF ∧ e > 33) ∨ (m > 0xFFFF ∧ e > 32)) := by
      constructor
      · intro h
        refine ⟨fun h0 => by rw [h0] at h; omega, ?_⟩
        refine Classical.byContradiction fun hc => ?_
        have c1 : ¬ e > 34 := fun x => hc (Or.inl x)
        have c2 : ¬ (m > 0xFF ∧ e > 33) := fun x => hc (Or.inr (Or.inl x))
        have c3 : ¬ (m > 0xFFFF ∧ e > 32) := fun x => hc (Or.inr (Or.inr x))
        have hlt : ∀ a b : Nat, m < 2 ^ a → 8 * (e - 3) ≤ b → a + b ≤ 256 → False := by
          intro a b h1 h2 h3
          have k1 : m * 2 ^ (8 * (e - 3)) < 2 ^ a * 2 ^ (8 * (e - 3)) :=
            Nat.mul_lt_mul_of_pos_right h1 (Nat.two_pow_pos _)
          have k2 : 2 ^ a * 2 ^ (8 * (e - 3)) ≤ 2 ^ 256 := by
            rw [← Nat.pow_add]; exact Nat.pow_le_pow_right (by omega) (by omega)
          omega
        by_cases d1 : e = 34
        · exact hlt 8 248 (by omega) (by omega) (by omega)
        · by_cases d2 : e = 33
          · exact hlt 16 240 (by omega) (by omega) (by omega)
          · exact hlt 24 232 (by omega) (by omega) (by omega)
      · rintro ⟨h0, h⟩
        have hge : ∀ a b : Nat, 2 ^ a ≤ m → b ≤ 8 * (e - 3) → 256 ≤ a + b →
            2 ^ 256 ≤ m * 2 ^ (8 * (e - 3)) := by
          intro a b h1 h2 h3
          have k1 : 2 ^ a * 2 ^ b ≤ m * 2 ^ (8 * (e - 3)) :=
            Nat.mul_le_mul h1 (Nat.pow_le_pow_right (by omega) h2)
          have k2 : 2 ^ 256 ≤ 2 ^ a * 2 ^ b := by
            rw [← Nat.pow_add]; exact Nat.pow_le_pow_right (by omega) h3
          omega
        rcases h with h | ⟨h, h'⟩ | ⟨h, h'⟩
        · exact hge 0 256 (by omega) (by omega) (by omega)
        · exact hge 8 248 (by omega) (by omega) (by omega)
        · exact hge 16 240 (by omega) (by omega) (by omega)
    by_cases hz : m > 0x7FFFFF ∨ 2 ^ 256 ≤ m * 2 ^ (8 * (e - 3))
    · rw [if_pos (hz.imp id hov.1), if_pos (hz.imp (fun h => ⟨by omega, by omega⟩) id)]
      exact val_zero
    · have n1 : ¬ m > 0x7FFFFF := fun h => hz (Or.inl h)
      have n2 : ¬ 2 ^ 256 ≤ m * 2 ^ (8 * (e - 3)) := fun h => hz (Or.inr h)
      rw [if_neg (fun h => h.elim n1 fun h => n2 (hov.2 h)),
        if_neg (fun h => h.elim (fun h => n1 (by omega)) n2)]
      by_cases hsh : 8 * (e - 3) < 256
      · rw [val_shl _ _ hsh, val_ofU128' _ (by omega), Nat.mod_eq_of_lt (by omega)]
      · -- only a zero mantissa is left
        have h0 : m = 0 := by
          refine Classical.byContradiction fun h0 => n2 (hov.2 ⟨h0, Or.inl (by omega)⟩)
        subst h0
        rw [Nat.zero_mul]
        have hzero : ∀ n, (shl (ofU128 (BitVec.ofNat 128 0)) n).val = 0 := by
          intro n
          have e1 : shl (ofU128 (BitVec.ofNat 128 0)) n = shl (ofU128 (BitVec.ofNat 128 0)) (n % 256) := by
            unfold shl; rw [Nat.mod_mod]
          rw [e1, val_shl _ _ (Nat.mod_lt _ (by omega)), val_ofU128' _ (by omega), Nat.zero_mul]
        exact hzero _

/-- For exponents of at least three, and whenever the sign bit is clear, this is the consensus target. -/
theorem C44_consensus_partial (c : UInt32) (h : 3 ≤ exponent c ∨ mantissa c < 2 ^ 23) :
    (fromCompact c).val = consensusTarget c := by
  rw [C44_from_compact]
  unfold consensusTarget
  by_cases h1 : 2 ^ 23 ≤ mantissa c
  · rw [if_pos (Or.inl ⟨h1, by omega⟩), if_pos (Or.inl h1)]
  · by_cases h2 : 2 ^ 256 ≤ magnitude c
    · rw [if_pos (Or.inr h2), if_pos (Or.inr h2)]
    · rw [if_neg (fun h => h.elim (fun h => h1 h.1) h2), if_neg (fun h => h.elim h1 h2)]

/-- What is missing for the full statement: with exponent one or two the sign bit is shifted into the
value before it is tested, so the negative number `0x02800000` is accepted as the target `0x8000`, which
consensus code treats as invalid. -/
theorem C44_sign_ignored : (fromCompact 0x02800000).val = 0x8000 ∧ consensusTarget 0x02800000 = 0 := by
  constructor
  · rw [C44_from_compact]; decide
  · decide

/-- The normal form of a target: mantissa `m` of 16 to 23 bits and exponent `e`. -/
structure Canonical (t m e : Nat) : Prop where
  value : m = t * 256 ^ 3 / 256 ^ e
  upper : m < 2 ^ 23
  lower : t ≠ 0 → 2 ^ 15 ≤ m
  zero : t = 0 → e = 0

theorem canonical_unique {t m e m' e' : Nat} (h : Canonical t m e) (h' : Canonical t m' e') :
    m = m' ∧ e = e' := by
  by_cases h0 : t = 0
  · rw [h.value, h'.value, h.zero h0, h'.zero h0]
    exact ⟨rfl, rfl⟩
  · have key : ∀ {m e m' e' : Nat}, Canonical t m e → Canonical t m' e' → e ≤ e' := by
      intro m e m' e' h h'
      have p := Nat.pow_pos (n := e) (show 0 < 256 by omega)
      have p' := Nat.pow_pos (n := e') (show 0 < 256 by omega)
      have h1 : 2 ^ 15 * 256 ^ e ≤ t * 256 ^ 3 := (Nat.le_div_iff_mul_le p).1 (h.value ▸ h.lower h0)
      have h2 : t * 256 ^ 3 < 2 ^ 23 * 256 ^ e' := (Nat.div_lt_iff_lt_mul p').1 (h'.value ▸ h'.upper)
      have h3 : 2 ^ 15 * 256 ^ e < 2 ^ 15 * 256 ^ (e' + 1) := by
        rw [Nat.pow_succ]; omega
      have h4 := Nat.lt_of_mul_lt_mul_left h3
      have := (Nat.pow_lt_pow_iff_right (by omega)).1 h4
      omega
    have he : e = e' := Nat.le_antisymm (key h h') (key h' h)
    subst he
    rw [h.value, h'.value]
    exact ⟨rfl, rfl⟩

theorem or_shl24 (a b : Nat) (h : a < 2 ^ 24) : a ||| (b <<< 24) = b * 2 ^ 24 + a := by
  rw [Nat.or_comm, ← Nat.shiftLeft_add_eq_or_of_lt h, Nat.shiftLeft_eq]

theorem and_bit23 (n : Nat) (h : n < 2 ^ 24) : (n &&& 0x00800000 ≠ 0) ↔ 2 ^ 23 ≤ n := by
  rw [show (0x00800000 : Nat) = 2 ^ 23 from rfl]
  constructor
  · intro h1
    refine Classical.byContradiction fun h2 => h1 ?_
    apply Nat.eq_of_testBit_eq
    intro i
    rw [Nat.testBit_and, Nat.testBit_two_pow, Nat.zero_testBit]
    by_cases hi : 23 = i
    · subst hi
      rw [Nat.testBit_lt_two_pow (by omega)]
      rfl
    · simp [hi]
  · intro h1 h0
    have h2 := congrArg (fun x => x.testBit 23) h0
    simp only [Nat.testBit_and, Nat.zero_testBit] at h2
    have hb : n.testBit 23 = true := by
      rw [Nat.testBit_eq_decide_div_mod_eq, decide_eq_true_eq]
      omega
    rw [Nat.testBit_two_pow, hb] at h2
    exact absurd h2 (by decide)

/-- `to_compact_lossy` produces the normal form. -/
theorem C44_to_compact (t : U256) :
    Canonical t.val (mantissa (toCompactLossy t)) (exponent (toCompactLossy t)) := by
  obtain ⟨b1, b2, b3, b4⟩ := bits_spec t
  have ht := t.val_lt
  unfold toCompactLossy
  simp only []
  -- the size in bytes
  generalize hs : (t.bits + 7) / 8 = s
  have hs1 : t.val < 256 ^ s := by
    rw [show (256 : Nat) = 2 ^ 8 from rfl, ← Nat.pow_mul]
    exact Nat.lt_of_lt_of_le b2 (Nat.pow_le_pow_right (by omega) (by omega))
  have hs2 : t.val ≠ 0 → 1 ≤ s ∧ 256 ^ (s - 1) ≤ t.val := by
    intro h0
    have h1 := b3 h0
    refine ⟨by omega, Nat.le_trans ?_ (b4 h1)⟩
    rw [show (256 : Nat) = 2 ^ 8 from rfl, ← Nat.pow_mul]
    exact Nat.pow_le_pow_right (by omega) (by omega)
  have hs0 : t.val = 0 → s = 0 := by
    intro h0
    have := (bits_zero_iff t).2 h0
    omega
  have hs32 : s ≤ 32 := by omega
  -- the unadjusted mantissa
  generalize hcp : (if s ≤ 3 then ((lowU64 t).toNat <<< (8 * (3 - s))) % 2 ^ 64 % 2 ^ 32
    else (lowU32 (shr t (8 * (s - 3)))).toNat) = cp
  have hcv : cp = t.val * 256 ^ 3 / 256 ^ s := by
    rw [← hcp]
    by_cases h3 : s ≤ 3
    · rw [if_pos h3]
      have hlow : (lowU64 t).toNat = t.val := by
        unfold lowU64
        rw [BitVec.toNat_setWidth]
        have : (256 : Nat) ^ s ≤ 256 ^ 3 := Nat.pow_le_pow_right (by omega) h3
        unfold val at *
        omega
      have hp : (256 : Nat) ^ 3 = 2 ^ (8 * (3 - s)) * 256 ^ s := by
        rw [show (256 : Nat) = 2 ^ 8 from rfl, ← Nat.pow_mul, ← Nat.pow_mul, ← Nat.pow_add]
        congr 1
        omega
      have hb : t.val * 2 ^ (8 * (3 - s)) < 256 ^ 3 := by
        rw [hp, Nat.mul_comm t.val]
        exact Nat.mul_lt_mul_of_pos_left hs1 (Nat.two_pow_pos _)
      rw [hlow, Nat.shiftLeft_eq, Nat.mod_eq_of_lt (show t.val * 2 ^ (8 * (3 - s)) < 2 ^ 64 by omega),
        Nat.mod_eq_of_lt (show t.val * 2 ^ (8 * (3 - s)) < 2 ^ 32 by omega), hp, ← Nat.mul_assoc,
        Nat.mul_div_cancel _ (Nat.pow_pos (by omega))]
    · rw [if_neg h3]
      have hp : (256 : Nat) ^ s = 2 ^ (8 * (s - 3)) * 256 ^ 3 := by
        rw [show (256 : Nat) = 2 ^ 8 from rfl, ← Nat.pow_mul, ← Nat.pow_mul, ← Nat.pow_add]
        congr 1
        omega
      have hv := val_shr t (8 * (s - 3)) (by omega)
      have hq : t.val / 2 ^ (8 * (s - 3)) < 256 ^ 3 := by
        rw [Nat.div_lt_iff_lt_mul (Nat.two_pow_pos _), Nat.mul_comm, ← hp]
        exact hs1
      rw [hp, Nat.mul_div_mul_right _ _ (by decide), ← hv]
      rw [← hv] at hq
      unfold lowU32
      rw [BitVec.toNat_setWidth]
      unfold val at *
      omega
  have hcu : cp < 2 ^ 24 := by
    rw [hcv, Nat.div_lt_iff_lt_mul (Nat.pow_pos (by omega)), Nat.mul_comm]
    exact Nat.mul_lt_mul_of_pos_left hs1 (by decide)
  have hcl : t.val ≠ 0 → 2 ^ 16 ≤ cp := by
    intro h0
    obtain ⟨k1, k2⟩ := hs2 h0
    rw [hcv, Nat.le_div_iff_mul_le (Nat.pow_pos (by omega))]
    obtain ⟨j, rfl⟩ : ∃ j, s = j + 1 := ⟨s - 1, by omega⟩
    rw [Nat.add_sub_cancel] at k2
    rw [Nat.pow_succ]
    omega
  have hc0 : t.val = 0 → cp = 0 := by
    intro h0
    rw [hcv, h0, Nat.zero_mul, Nat.zero_div]
  have split : ∀ a b, a < 2 ^ 24 → b < 256 →
      mantissa (UInt32.ofNat (a ||| (b <<< 24))) = a ∧ exponent (UInt32.ofNat (a ||| (b <<< 24))) = b := by
    intro a b ha hb
    unfold mantissa exponent
    rw [or_shl24 a b ha, UInt32.toNat_ofNat']
    omega
  by_cases hbit : cp &&& 0x00800000 ≠ 0
  · rw [if_pos hbit]
    have h23 := (and_bit23 cp hcu).1 hbit
    rw [Nat.shiftRight_eq_div_pow]
    obtain ⟨q1, q2⟩ := split (cp / 2 ^ 8) (s + 1) (by omega) (by omega)
    rw [q1, q2]
    refine ⟨?_, by omega, fun _ => by omega, fun h0 => ?_⟩
    · rw [hcv, Nat.pow_succ 256 s, Nat.div_div_eq_div_mul]
    · have := hc0 h0
      omega
  · rw [if_neg hbit]
    have h23 : ¬ 2 ^ 23 ≤ cp := fun h => hbit ((and_bit23 cp hcu).2 h)
    obtain ⟨q1, q2⟩ := split cp s hcu (by omega)
    rw [q1, q2]
    exact ⟨hcv, by omega, fun h0 => by have := hcl h0; omega, hs0⟩

/-- Decoding the compact form of a target gives the target rounded down to 16 to 23 significant bits. -/
theorem compact_roundtrip_val (t : U256) (m e : Nat) (h : Canonical t.val m e)
    (hm : mantissa (toCompactLossy t) = m) (he : exponent (toCompactLossy t) = e) :
    (fromCompact (toCompactLossy t)).val = m * 256 ^ e / 256 ^ 3 := by
  rw [C44_from_compact]
  unfold magnitude
  rw [hm, he]
  have h1 := h.upper
  have hle : m * 256 ^ e / 256 ^ 3 ≤ t.val := by
    apply Nat.div_le_of_le_mul
    have := Nat.div_mul_le_self (t.val * 256 ^ 3) (256 ^ e)
    rw [← h.value] at this
    rw [Nat.mul_comm (256 ^ 3)]
    exact this
  have ht := t.val_lt
  rw [if_neg (fun hc => hc.elim (fun hc => by omega) (fun hc => by omega))]

/-- The compact form never increases the target and loses less than one part in `2^15`. -/
theorem C44_lossy (t : U256) :
    (fromCompact (toCompactLossy t)).val ≤ t.val ∧
    (t.val - (fromCompact (toCompactLossy t)).val) * 2 ^ 15 ≤ t.val := by
  have h := C44_to_compact t
  rw [compact_roundtrip_val t _ _ h rfl rfl]
  generalize mantissa (toCompactLossy t) = m at *
  generalize exponent (toCompactLossy t) = e at *
  by_cases h0 : t.val = 0
  · have : m = 0 := by rw [h.value, h0, Nat.zero_mul, Nat.zero_div]
    rw [this, Nat.zero_mul, Nat.zero_div, h0]
    omega
  · have hl := h.lower h0
    have hp := Nat.pow_pos (n := e) (show 0 < 256 by omega)
    by_cases h3 : e ≤ 3
    · have hd : 256 ^ e ∣ t.val * 256 ^ 3 := Nat.dvd_trans (Nat.pow_dvd_pow _ h3) (Nat.dvd_mul_left _ _)
      rw [h.value, Nat.div_mul_cancel hd, Nat.mul_div_cancel _ (by decide)]
      omega
    · have hmv : m = t.val / 2 ^ (8 * (e - 3)) := by
        rw [h.value]
        have e1 : (256 : Nat) ^ e = 2 ^ (8 * (e - 3)) * 256 ^ 3 := by
          rw [show (256 : Nat) = 2 ^ 8 from rfl, ← Nat.pow_mul, ← Nat.pow_mul, ← Nat.pow_add]
          congr 1
          omega
        rw [e1, Nat.mul_div_mul_right _ _ (by decide)]
      rw [magnitude_large m e (by omega)]
      have hdm := Nat.div_add_mod t.val (2 ^ (8 * (e - 3)))
      have hml := Nat.mod_lt t.val (Nat.two_pow_pos (8 * (e - 3)))
      rw [← hmv, Nat.mul_comm] at hdm
      have hge : 2 ^ 15 * 2 ^ (8 * (e - 3)) ≤ m * 2 ^ (8 * (e - 3)) := Nat.mul_le_mul_right _ hl
      generalize m * 2 ^ (8 * (e - 3)) = q at *
      omega

/-- Encoding, decoding and encoding again changes nothing. -/
theorem C44_idempotent (t : U256) :
    toCompactLossy (fromCompact (toCompactLossy t)) = toCompactLossy t := by
  have h := C44_to_compact t
  have h' := C44_to_compact (fromCompact (toCompactLossy t))
  have hv := compact_roundtrip_val t _ _ h rfl rfl
  have hc : Canonical (fromCompact (toCompactLossy t)).val (mantissa (toCompactLossy t))
      (exponent (toCompactLossy t)) := by
    rw [hv]
    generalize mantissa (toCompactLossy t) = m at *
    generalize exponent (toCompactLossy t) = e at *
    have hp := Nat.pow_pos (n := e) (show 0 < 256 by omega)
    have hd : 256 ^ 3 ∣ m * 256 ^ e := by
      by_cases h3 : e ≤ 3
      · have hd : 256 ^ e ∣ t.val * 256 ^ 3 := Nat.dvd_trans (Nat.pow_dvd_pow _ h3) (Nat.dvd_mul_left _ _)
        rw [h.value, Nat.div_mul_cancel hd]
        exact Nat.dvd_mul_left _ _
      · exact Nat.dvd_trans (Nat.pow_dvd_pow _ (by omega)) (Nat.dvd_mul_left _ _)
    refine ⟨?_, h.upper, fun hne => ?_, fun hz => ?_⟩
    · rw [Nat.div_mul_cancel hd, Nat.mul_div_cancel _ hp]
    · refine h.lower fun h0 => hne ?_
      have : m = 0 := by rw [h.value, h0, Nat.zero_mul, Nat.zero_div]
      rw [this, Nat.zero_mul, Nat.zero_div]
    · refine h.zero (Classical.byContradiction fun h0 => ?_)
      have hl := h.lower h0
      have h1 : m * 256 ^ e / 256 ^ 3 * 256 ^ 3 = m * 256 ^ e := Nat.div_mul_cancel hd
      rw [hz, Nat.zero_mul] at h1
      have : 0 < m * 256 ^ e := Nat.mul_pos (by omega) hp
      omega
  obtain ⟨e1, e2⟩ := canonical_unique h' hc
  apply UInt32.toNat.inj
  unfold mantissa at e1
  unfold exponent at e2
  omega

/-- A target that came from any compact value is represented exactly. -/
theorem C44_exact (c : UInt32) : fromCompact (toCompactLossy (fromCompact c)) = fromCompact c := by
  apply val_inj
  have h := C44_to_compact (fromCompact c)
  rw [compact_roundtrip_val _ _ _ h rfl rfl]
  have hc := C44_from_compact c
  generalize fromCompact c = t at *
  generalize mantissa (toCompactLossy t) = m at *
  generalize exponent (toCompactLossy t) = e at *
  by_cases h0 : t.val = 0
  · have : m = 0 := by rw [h.value, h0, Nat.zero_mul, Nat.zero_div]
    rw [this, Nat.zero_mul, Nat.zero_div, h0]
  · have hl := h.lower h0
    have hp := Nat.pow_pos (n := e) (show 0 < 256 by omega)
    -- the power of 256 lost divides the target
    have hd : 256 ^ e ∣ t.val * 256 ^ 3 := by
      by_cases h3 : e ≤ 3
      · exact Nat.dvd_trans (Nat.pow_dvd_pow _ h3) (Nat.dvd_mul_left _ _)
      · -- t is `M * 256^E / 256^3` with `M < 2^23`, or `M < 2^24` and `E < 3`
        have hq1 : 2 ^ 15 * 256 ^ e ≤ t.val * 256 ^ 3 := (Nat.le_div_iff_mul_le hp).1 (h.value ▸ hl)
        have hM : mantissa c < 2 ^ 24 := Nat.mod_lt _ (by omega)
        by_cases hcond : (2 ^ 23 ≤ mantissa c ∧ 3 ≤ exponent c) ∨ 2 ^ 256 ≤ magnitude c
        · rw [if_pos hcond] at hc; exact absurd hc h0
        · rw [if_neg hcond] at hc
          by_cases hE : exponent c < 3
          · -- then the target is below 2^16: impossible
            exfalso
            have hle : t.val ≤ mantissa c / 2 ^ (8 * (3 - exponent c)) := by
              rw [hc]; unfold magnitude; rw [magnitude_small _ _ (by omega)]; exact Nat.le_refl _
            have h8 : 2 ^ 8 ≤ 2 ^ (8 * (3 - exponent c)) := Nat.pow_le_pow_right (by omega) (by omega)
            have hlt : mantissa c / 2 ^ (8 * (3 - exponent c)) < 2 ^ 16 := by
              rw [Nat.div_lt_iff_lt_mul (Nat.two_pow_pos _)]
              have : 2 ^ 16 * 2 ^ 8 ≤ 2 ^ 16 * 2 ^ (8 * (3 - exponent c)) := Nat.mul_le_mul_left _ h8
              omega
            have h256 : (256 : Nat) ^ 4 ≤ 256 ^ e := Nat.pow_le_pow_right (by omega) (by omega)
            omega
          · have hMs : mantissa c < 2 ^ 23 := by
              refine Classical.byContradiction fun hM' => hcond (Or.inl ⟨by omega, by omega⟩)
            have hv : t.val * 256 ^ 3 = mantissa c * 256 ^ exponent c := by
              rw [hc]; unfold magnitude
              exact Nat.div_mul_cancel (Nat.dvd_trans (Nat.pow_dvd_pow _ (by omega)) (Nat.dvd_mul_left _ _))
            rw [hv] at hq1 ⊢
            have h4 : mantissa c * 256 ^ exponent c < 2 ^ 23 * 256 ^ exponent c :=
              Nat.mul_lt_mul_of_pos_right hMs (Nat.pow_pos (by omega))
            have h5 : 2 ^ 15 * 256 ^ e < 2 ^ 15 * 256 ^ (exponent c + 1) := by
              rw [Nat.pow_succ]; omega
            have h6 := (Nat.pow_lt_pow_iff_right (by omega)).1 (Nat.lt_of_mul_lt_mul_left h5)
            exact Nat.dvd_trans (Nat.pow_dvd_pow _ (by omega)) (Nat.dvd_mul_left _ _)
    rw [h.value, Nat.div_mul_cancel hd, Nat.mul_div_cancel _ (by decide)]

example : mantissa 0x1d00ffff = 0xffff ∧ exponent 0x1d00ffff = 29 ∧
    (fromCompact 0x1d00ffff).val = 0xffff * 2 ^ 208 := by decide
example : toCompactLossy (fromCompact 0x1d00ffff) = 0x1d00ffff := by decide

end Pow
end Btc
