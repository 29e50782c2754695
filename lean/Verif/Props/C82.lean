import Verif.Units.U256Float
import Verif.Units.U256Laws
/-!
# C82: the double of a 256-bit integer is the correctly rounded one

IEEE 754 round to nearest, ties to even, stated against every finite double.  A non-negative finite double with bits `b` has the value
`scaled b * 2^-1074`.
-/
namespace Btc
namespace U256

/-- IEEE 754 binary64, sign bit zero, exponent field below 2047: the value times `2^1074`. -/
def scaled (b : Nat) : Nat :=
  if b / 2 ^ 52 = 0 then b % 2 ^ 52 else (2 ^ 52 + b % 2 ^ 52) * 2 ^ (b / 2 ^ 52 - 1)

/-- Sign bit zero, neither infinite nor NaN. -/
def Finite (b : Nat) : Prop := b < 2047 * 2 ^ 52

/-- `b` is the double nearest to the integer `v`, and in case of a tie the one with an even last bit. -/
def Nearest (v b : Nat) : Prop :=
  Finite b ∧ ∀ c, Finite c →
    ((scaled b : Int) - v * 2 ^ 1074).natAbs ≤ ((scaled c : Int) - v * 2 ^ 1074).natAbs ∧
    (scaled c ≠ scaled b → ((scaled b : Int) - v * 2 ^ 1074).natAbs = ((scaled c : Int) - v * 2 ^ 1074).natAbs → b % 2 = 0)

/-! ## The function in arithmetic -/

/-- Rounding `L = M * 2^203 + D`. -/
def roundM (L : Nat) : Nat :=
  let M := L / 2 ^ 203
  let D := L % 2 ^ 203
  if D < 2 ^ 202 then M else if D > 2 ^ 202 then M + 1 else if M % 2 = 0 then M else M + 1

theorem mask75 (a : BitVec 128) : (a &&& 0x7FFFFFFFFFFFFFFFFFF).toNat = a.toNat % 2 ^ 75 := by
  rw [BitVec.toNat_and]
  have : (0x7FFFFFFFFFFFFFFFFFF : BitVec 128).toNat = 2 ^ 75 - 1 := by decide
  rw [this, Nat.and_two_pow_sub_one_eq_mod]

theorem or_zero_iff (a b : Nat) : a ||| b = 0 ↔ a = 0 ∧ b = 0 := Nat.or_eq_zero_iff

/-- The dropped bits, condensed: top bit kept, the rest zero exactly if all other dropped bits are. -/
theorem condensed (L : Nat) (a b : Nat) (ha : a = L / 2 ^ 75 % 2 ^ 128) (hb : b = L % 2 ^ 75) :
    ((a ||| b) / 2 ^ 127 = 1 ↔ 2 ^ 202 ≤ L % 2 ^ 203) ∧ ((a ||| b) = 2 ^ 127 ↔ L % 2 ^ 203 = 2 ^ 202) ∧ (a ||| b) < 2 ^ 128 := by
  have hd : L % 2 ^ 203 = a * 2 ^ 75 + b := by
    have := Nat.mod_mul (x := L) (a := 2 ^ 75) (b := 2 ^ 128)
    rw [show (2 : Nat) ^ 75 * 2 ^ 128 = 2 ^ 203 from by rw [← Nat.pow_add]] at this
    rw [this, ha, hb, Nat.mul_comm]; omega
  have ha' : a < 2 ^ 128 := by rw [ha]; exact Nat.mod_lt _ (by decide)
  have hb' : b < 2 ^ 75 := by rw [hb]; exact Nat.mod_lt _ (by decide)
  have hlt : a ||| b < 2 ^ 128 := Nat.or_lt_two_pow ha' (by omega)
  have hdiv : (a ||| b) / 2 ^ 127 = a / 2 ^ 127 := by
    rw [← Nat.shiftRight_eq_div_pow, Nat.shiftRight_or_distrib, Nat.shiftRight_eq_div_pow, Nat.shiftRight_eq_div_pow,
      Nat.div_eq_of_lt (show b < 2 ^ 127 by omega), Nat.or_zero]
  have hmod : (a ||| b) % 2 ^ 127 = a % 2 ^ 127 ||| b := by
    rw [Nat.or_mod_two_pow, Nat.mod_eq_of_lt (show b < 2 ^ 127 by omega)]
  refine ⟨?_, ?_, hlt⟩
  · rw [hdiv, hd]; omega
  · have h0 := or_zero_iff (a % 2 ^ 127) b
    rw [hd]
    constructor
    · intro h
      rw [h] at hdiv hmod
      have hz := h0.mp (by rw [← hmod])
      omega
    · intro h
      have hz : a % 2 ^ 127 ||| b = 0 := h0.mpr ⟨by omega, by omega⟩
      have h3 := Nat.div_add_mod (a ||| b) (2 ^ 127)
      rw [hmod, hz, hdiv] at h3
      omega

theorem bv1_and (q : BitVec 128) (m : BitVec 128) (hq : q.toNat ≤ 1) : (q &&& ~~~m).toNat = if q.toNat = 1 ∧ m.toNat % 2 = 0 then 1 else 0 := by
  have h : (q &&& ~~~m) = if q.toNat = 1 ∧ m.toNat % 2 = 0 then 1 else 0 := by
    apply BitVec.eq_of_getLsbD_eq
    intro i hi
    have hq' : q = 0 ∨ q = 1 := by
      rcases Nat.le_one_iff_eq_zero_or_eq_one.mp hq with h | h
      · left; exact BitVec.eq_of_toNat_eq h
      · right; exact BitVec.eq_of_toNat_eq h
    have hm : m.getLsbD 0 = decide (m.toNat % 2 = 1) := by
      rw [BitVec.getLsbD, Nat.testBit_zero]
    rcases hq' with rfl | rfl
    · simp
    · rw [BitVec.getLsbD_and, BitVec.getLsbD_not]
      by_cases h0 : i = 0
      · subst h0
        rw [hm]
        by_cases hm2 : m.toNat % 2 = 0
        · rw [if_pos ⟨rfl, hm2⟩]; simp [hm2]
        · rw [if_neg (fun hh => hm2 hh.2)]
          have : m.toNat % 2 = 1 := by omega
          simp [this]
      · have : (1 : BitVec 128).getLsbD i = false := by
          rw [show (1 : BitVec 128) = 1#128 from rfl, BitVec.getLsbD_one]; simp [h0]
        rw [this]
        split
        · rw [this]; rfl
        · simp
  rw [h]
  split <;> rfl

theorem toF64_eq (x : U256) (hx : x.val ≠ 0) : ∃ r, toF64 x = some r ∧
    r.toNat = (1277 - (256 - x.bits)) * 2 ^ 52 + roundM (x.val * 2 ^ (256 - x.bits)) ∧
    2 ^ 52 ≤ x.val * 2 ^ (256 - x.bits) / 2 ^ 203 ∧ x.val * 2 ^ (256 - x.bits) / 2 ^ 203 < 2 ^ 53 ∧ 256 - x.bits < 256 := by
  obtain ⟨hb1, hb2, hb3, hb4⟩ := bits_spec x
  have hbp := hb3 hx
  generalize hlz : 256 - x.bits = lz
  have hlz' : lz < 256 := by omega
  have hL2 : x.val * 2 ^ lz < 2 ^ 256 := by
    have : 2 ^ 256 = 2 ^ x.bits * 2 ^ lz := by rw [← Nat.pow_add]; congr 1; omega
    rw [this]
    exact Nat.mul_lt_mul_of_pos_right hb2 (Nat.two_pow_pos _)
  have hL1 : 2 ^ 255 ≤ x.val * 2 ^ lz := by
    have : 2 ^ 255 = 2 ^ (x.bits - 1) * 2 ^ lz := by rw [← Nat.pow_add]; congr 1; omega
    rw [this]
    exact Nat.mul_le_mul_right _ (hb4 hbp)
  have hleft : (shl x lz).val = x.val * 2 ^ lz := by rw [val_shl x lz hlz', Nat.mod_eq_of_lt hL2]
  have hmid : (shr (shl x lz) 75).val = x.val * 2 ^ lz / 2 ^ 75 := by rw [val_shr _ 75 (by decide), hleft]
  generalize hLdef : x.val * 2 ^ lz = L at *
  have hhi : (shr (shl x lz) 75).hi.toNat = L / 2 ^ 203 := by
    have h1 := (shr (shl x lz) 75).lo.isLt
    unfold val at hmid
    rw [show (2 : Nat) ^ 203 = 2 ^ 75 * 2 ^ 128 from by rw [← Nat.pow_add], ← Nat.div_div_eq_div_mul, ← hmid]
    omega
  have hlo : (shr (shl x lz) 75).lo.toNat = L / 2 ^ 75 % 2 ^ 128 := by
    have h1 := (shr (shl x lz) 75).lo.isLt
    unfold val at hmid
    rw [← hmid]
    omega
  have hll : (shl x lz).lo.toNat % 2 ^ 75 = L % 2 ^ 75 := by
    rw [← hleft]
    unfold val
    omega
  have hM1 : 2 ^ 52 ≤ L / 2 ^ 203 := by omega
  have hM2 : L / 2 ^ 203 < 2 ^ 53 := by omega
  have hcon := condensed L _ _ hlo ((mask75 (shl x lz).lo).trans hll)
  rw [← BitVec.toNat_or] at hcon
  unfold toF64
  simp only [hlz]
  generalize hdr : (shr (shl x lz) 75).lo ||| ((shl x lz).lo &&& 0x7FFFFFFFFFFFFFFFFFF) = dr at *
  generalize hmm : (shr (shl x lz) 75).hi = mm at *
  obtain ⟨c1, c2, c3⟩ := hcon
  have hq : (dr >>> 127).toNat = dr.toNat / 2 ^ 127 := by rw [BitVec.toNat_ushiftRight, Nat.shiftRight_eq_div_pow]
  have hqle : (dr >>> 127).toNat ≤ 1 := by rw [hq]; omega
  have hand := bv1_and (dr >>> 127) mm hqle
  rw [hq] at hand
  have hsub : ∃ d, subU128 dr ((dr >>> 127) &&& ~~~mm) = some d ∧ d.toNat = dr.toNat - (if dr.toNat / 2 ^ 127 = 1 ∧ mm.toNat % 2 = 0 then 1 else 0) := by
    have hle : ((dr >>> 127) &&& ~~~mm) ≤ dr := by
      rw [BitVec.le_def, hand]; split <;> omega
    refine ⟨dr - ((dr >>> 127) &&& ~~~mm), ?_, ?_⟩
    · unfold subU128; rw [if_pos hle]
    · rw [BitVec.toNat_sub_of_le hle, hand]
  obtain ⟨d, hd1, hd2⟩ := hsub
  have hround : mm.toNat + d.toNat / 2 ^ 127 = roundM L := by
    unfold roundM
    simp only []
    rw [hd2, hhi]
    by_cases h1 : L % 2 ^ 203 < 2 ^ 202
    · rw [if_pos h1]
      have : ¬ dr.toNat / 2 ^ 127 = 1 := fun h => by have := c1.mp h; omega
      rw [if_neg (fun h => this h.1)]
      omega
    · rw [if_neg h1]
      have ht : dr.toNat / 2 ^ 127 = 1 := c1.mpr (by omega)
      by_cases h2 : L % 2 ^ 203 > 2 ^ 202
      · rw [if_pos h2]
        have : dr.toNat ≠ 2 ^ 127 := fun h => by have := c2.mp h; omega
        split <;> omega
      · rw [if_neg h2]
        have he : dr.toNat = 2 ^ 127 := c2.mpr (by omega)
        by_cases h3 : L / 2 ^ 203 % 2 = 0
        · rw [if_pos h3, if_pos ⟨ht, h3⟩]; omega
        · rw [if_neg h3, if_neg (fun h => h3 h.2)]; omega
  have hrb : roundM L ≤ 2 ^ 53 := by
    rw [← hround, hhi]
    have := d.isLt
    omega
  have hadd : ∃ m, addU128 mm (d >>> 127) = some m ∧ m.toNat = roundM L := by
    have hs : (d >>> 127).toNat = d.toNat / 2 ^ 127 := by rw [BitVec.toNat_ushiftRight, Nat.shiftRight_eq_div_pow]
    have ho : ¬ BitVec.uaddOverflow mm (d >>> 127) = true := by
      rw [uaddOverflow_iff, hs, hround]; omega
    refine ⟨_, by unfold addU128; rw [if_neg ho], ?_⟩
    rw [BitVec.toNat_add, hs, hround]; omega
  obtain ⟨m, hm1, hm2⟩ := hadd
  rw [hd1]
  simp only [Option.bind_some]
  rw [hm1]
  simp only [Option.bind_some]
  have hxz : x ≠ zero := fun h => hx (by rw [h]; rfl)
  rw [if_neg hxz]
  have he1 : ((1277 - BitVec.ofNat 64 lz : BitVec 64)).toNat = 1277 - lz := by
    rw [BitVec.toNat_sub, BitVec.toNat_ofNat, show (1277 : BitVec 64).toNat = 1277 from rfl]
    omega
  have he2 : ((1277 - BitVec.ofNat 64 lz : BitVec 64) <<< 52).toNat = (1277 - lz) * 2 ^ 52 := by
    rw [BitVec.toNat_shiftLeft, he1, Nat.shiftLeft_eq]; omega
  have hm3 : (m.setWidth 64).toNat = roundM L := by
    rw [BitVec.toNat_setWidth, hm2]; omega
  have ho : ¬ BitVec.uaddOverflow ((1277 - BitVec.ofNat 64 lz : BitVec 64) <<< 52) (m.setWidth 64) = true := by
    rw [uaddOverflow_iff, he2, hm3]; omega
  refine ⟨_, by unfold addU64; rw [if_neg ho], ?_, hM1, hM2, hlz'⟩
  rw [BitVec.toNat_add, he2, hm3]; omega

/-! ## Nearest -/

/-- No double lies strictly between two neighbours of exponent `E`. -/
theorem lattice (E M c : Nat) (hM : 2 ^ 52 ≤ M) : scaled c ≤ M * 2 ^ E ∨ (M + 1) * 2 ^ E ≤ scaled c := by
  have hbig : 2 ^ 52 * 2 ^ E ≤ M * 2 ^ E := Nat.mul_le_mul_right _ hM
  have hone : 1 ≤ 2 ^ E := Nat.two_pow_pos E
  have hf : c % 2 ^ 52 < 2 ^ 52 := Nat.mod_lt _ (by decide)
  unfold scaled
  by_cases h0 : c / 2 ^ 52 = 0
  · rw [if_pos h0]
    left
    omega
  · rw [if_neg h0]
    generalize hg : 2 ^ 52 + c % 2 ^ 52 = g
    generalize he : c / 2 ^ 52 - 1 = e
    by_cases hE : E ≤ e
    · obtain ⟨k, rfl⟩ := Nat.exists_eq_add_of_le hE
      rw [Nat.pow_add, Nat.mul_comm (2 ^ E) (2 ^ k), ← Nat.mul_assoc]
      by_cases hq : g * 2 ^ k ≤ M
      · left; exact Nat.mul_le_mul_right _ hq
      · right; exact Nat.mul_le_mul_right _ (by omega)
    · left
      obtain ⟨k, rfl⟩ := Nat.exists_eq_add_of_le (show e + 1 ≤ E by omega)
      have h1 : g * 2 ^ e ≤ 2 ^ 53 * 2 ^ e := Nat.mul_le_mul_right _ (by omega)
      have h2 : 2 ^ 53 * 2 ^ e ≤ 2 ^ 52 * 2 ^ (e + 1 + k) := by
        rw [show e + 1 + k = e + (1 + k) by omega, Nat.pow_add 2 e, Nat.pow_add 2 1 k]
        have : 1 ≤ 2 ^ k := Nat.two_pow_pos k
        calc 2 ^ 53 * 2 ^ e = 2 ^ 52 * (2 ^ e * (2 ^ 1 * 1)) := by omega
          _ ≤ 2 ^ 52 * (2 ^ e * (2 ^ 1 * 2 ^ k)) := by
            apply Nat.mul_le_mul_left
            apply Nat.mul_le_mul_left
            apply Nat.mul_le_mul_left
            exact this
      omega

theorem scaled_result (E m : Nat) (h1 : 2 ^ 52 ≤ m) (h2 : m ≤ 2 ^ 53) : scaled (E * 2 ^ 52 + m) = m * 2 ^ E := by
  unfold scaled
  by_cases h : m = 2 ^ 53
  · subst h
    rw [show (E * 2 ^ 52 + 2 ^ 53) / 2 ^ 52 = E + 2 by omega, show (E * 2 ^ 52 + 2 ^ 53) % 2 ^ 52 = 0 by omega, if_neg (by omega)]
    rw [show E + 2 - 1 = E + 1 by omega, Nat.pow_succ]
    omega
  · rw [show (E * 2 ^ 52 + m) / 2 ^ 52 = E + 1 by omega, show (E * 2 ^ 52 + m) % 2 ^ 52 = m - 2 ^ 52 by omega, if_neg (by omega)]
    rw [show E + 1 - 1 = E by omega, show 2 ^ 52 + (m - 2 ^ 52) = m by omega]

theorem roundM_bounds (L : Nat) (h1 : 2 ^ 52 ≤ L / 2 ^ 203) (h2 : L / 2 ^ 203 < 2 ^ 53) : 2 ^ 52 ≤ roundM L ∧ roundM L ≤ 2 ^ 53 := by
  unfold roundM
  simp only []
  split
  · omega
  · split
    · omega
    · split <;> omega

/-- The comparison, with the sizes named: `V = A + D` lies in the interval `[A, A + 2 * H]` whose ends are neighbours; `S` is the end chosen. -/
theorem choose (A H D S C : Nat) (hD : D < 2 * H) (hC : C ≤ A ∨ A + 2 * H ≤ C)
    (hS : (D < H ∧ S = A) ∨ (D > H ∧ S = A + 2 * H) ∨ (D = H ∧ (S = A ∨ S = A + 2 * H))) :
    ((S : Int) - (A + D : Nat)).natAbs ≤ ((C : Int) - (A + D : Nat)).natAbs ∧
    (C ≠ S → ((S : Int) - (A + D : Nat)).natAbs = ((C : Int) - (A + D : Nat)).natAbs → D = H) := by
  omega

/-- `to_f64` never panics and returns the IEEE 754 double nearest to the value, ties to even. -/
theorem C82_nearest (x : U256) : ∃ r, toF64 x = some r ∧ Nearest x.val r.toNat := by
  by_cases hx : x.val = 0
  · have hz : x = zero := val_inj (by rw [hx]; rfl)
    subst hz
    refine ⟨0, by decide +kernel, by unfold Finite; decide, ?_⟩
    intro c _
    have : scaled (BitVec.toNat (0 : BitVec 64)) = 0 := by decide
    rw [this, val_zero]
    exact ⟨by simp, fun _ _ => by decide⟩
  · obtain ⟨r, h1, h2, hM1, hM2, hlz⟩ := toF64_eq x hx
    refine ⟨r, h1, ?_⟩
    generalize 256 - x.bits = lz at *
    have hb := roundM_bounds (x.val * 2 ^ lz) hM1 hM2
    have hfin : Finite r.toNat := by unfold Finite; rw [h2]; omega
    refine ⟨hfin, ?_⟩
    intro c _
    have hS : scaled r.toNat = roundM (x.val * 2 ^ lz) * 2 ^ (1277 - lz) := by rw [h2]; exact scaled_result _ _ hb.1 hb.2
    -- the value in units
    have hV : x.val * 2 ^ 1074 = x.val * 2 ^ lz / 2 ^ 203 * 2 ^ (1277 - lz) + x.val * 2 ^ lz % 2 ^ 203 * 2 ^ (1074 - lz) := by
      have e1 : 2 ^ (1277 - lz) = 2 ^ 203 * 2 ^ (1074 - lz) := by rw [← Nat.pow_add]; congr 1; omega
      have e2 : x.val * 2 ^ 1074 = x.val * 2 ^ lz * 2 ^ (1074 - lz) := by
        rw [Nat.mul_assoc, ← Nat.pow_add]; congr 2; omega
      rw [e2, e1, ← Nat.mul_assoc, ← Nat.add_mul, Nat.mul_comm _ (2 ^ 203), Nat.div_add_mod]
    have hH : 2 ^ (1277 - lz) = 2 * (2 ^ 202 * 2 ^ (1074 - lz)) := by
      rw [show 1277 - lz = 1 + (202 + (1074 - lz)) by omega, Nat.pow_add 2 1, Nat.pow_add 2 202]
    have hU : 0 < 2 ^ (1074 - lz) := Nat.two_pow_pos _
    have hlat := lattice (1277 - lz) (x.val * 2 ^ lz / 2 ^ 203) c hM1
    have hVi : ((x.val : Int) * 2 ^ 1074) = ((x.val * 2 ^ 1074 : Nat) : Int) := by rw [Int.natCast_mul, Int.natCast_pow]; rfl
    rw [hVi, hV, hS]
    rw [Nat.add_mul, Nat.one_mul, hH] at hlat
    rw [hH]
    rw [h2]
    have hDlt : x.val * 2 ^ lz % 2 ^ 203 < 2 ^ 203 := Nat.mod_lt _ (by decide)
    unfold roundM at *
    simp only [] at *
    generalize x.val * 2 ^ lz / 2 ^ 203 = M at *
    generalize x.val * 2 ^ lz % 2 ^ 203 = D at *
    generalize 2 ^ (1074 - lz) = U at *
    have hDU : D * U < 2 * (2 ^ 202 * U) := by
      rw [← Nat.mul_assoc]
      exact Nat.mul_lt_mul_of_pos_right (by omega) hU
    have hm1 : (M + 1) * (2 * (2 ^ 202 * U)) = M * (2 * (2 ^ 202 * U)) + 2 * (2 ^ 202 * U) := by rw [Nat.add_mul, Nat.one_mul]
    by_cases c1 : D < 2 ^ 202
    · rw [if_pos c1]
      have hlt : D * U < 2 ^ 202 * U := Nat.mul_lt_mul_of_pos_right c1 hU
      have key := choose (M * (2 * (2 ^ 202 * U))) (2 ^ 202 * U) (D * U) (M * (2 * (2 ^ 202 * U))) (scaled c) hDU hlat (.inl ⟨hlt, rfl⟩)
      refine ⟨key.1, fun hne he => ?_⟩
      have := key.2 hne he
      omega
    · rw [if_neg c1]
      by_cases c2 : D > 2 ^ 202
      · rw [if_pos c2, hm1]
        have hlt : 2 ^ 202 * U < D * U := Nat.mul_lt_mul_of_pos_right c2 hU
        have key := choose (M * (2 * (2 ^ 202 * U))) (2 ^ 202 * U) (D * U) _ (scaled c) hDU hlat (.inr (.inl ⟨hlt, rfl⟩))
        refine ⟨key.1, fun hne he => ?_⟩
        have := key.2 hne he
        omega
      · rw [if_neg c2]
        have hDe : D = 2 ^ 202 := by omega
        subst hDe
        by_cases c3 : M % 2 = 0
        · rw [if_pos c3]
          have key := choose (M * (2 * (2 ^ 202 * U))) (2 ^ 202 * U) (2 ^ 202 * U) _ (scaled c) hDU hlat (.inr (.inr ⟨rfl, .inl rfl⟩))
          exact ⟨key.1, fun _ _ => by omega⟩
        · rw [if_neg c3, hm1]
          have key := choose (M * (2 * (2 ^ 202 * U))) (2 ^ 202 * U) (2 ^ 202 * U) _ (scaled c) hDU hlat (.inr (.inr ⟨rfl, .inr rfl⟩))
          exact ⟨key.1, fun _ _ => by omega⟩

/-- Larger numbers have larger or equal doubles. -/
theorem C82_monotone (x y : U256) (h : x.val ≤ y.val) : ∃ r s, toF64 x = some r ∧ toF64 y = some s ∧ scaled r.toNat ≤ scaled s.toNat := by
  obtain ⟨r, hr, fr, nr⟩ := C82_nearest x
  obtain ⟨s, hs, fs, ns⟩ := C82_nearest y
  refine ⟨r, s, hr, hs, ?_⟩
  by_cases he : x.val = y.val
  · obtain rfl := val_inj he
    rw [hr] at hs
    obtain rfl := Option.some.inj hs
    exact Nat.le_refl _
  · have h1 := (nr _ fs).1
    have h2 := (ns _ fr).1
    have hlt : (x.val : Int) * 2 ^ 1074 < y.val * 2 ^ 1074 := by
      apply Int.mul_lt_mul_of_pos_right (by omega)
      exact Int.pow_pos (by decide)
    generalize (x.val : Int) * 2 ^ 1074 = V at *
    generalize (y.val : Int) * 2 ^ 1074 = W at *
    omega

/-- A number that is the value of a double is converted exactly. -/
theorem C82_exact (x : U256) (c : Nat) (hc : Finite c) (h : scaled c = x.val * 2 ^ 1074) : ∃ r, toF64 x = some r ∧ scaled r.toNat = x.val * 2 ^ 1074 := by
  obtain ⟨r, hr, _, nr⟩ := C82_nearest x
  refine ⟨r, hr, ?_⟩
  have h1 := (nr c hc).1
  have hV : ((x.val : Int) * 2 ^ 1074) = ((x.val * 2 ^ 1074 : Nat) : Int) := by rw [Int.natCast_mul, Int.natCast_pow]; rfl
  rw [hV, ← h] at h1
  rw [← h]
  omega

/-- In particular every number below `2^53`. -/
theorem C82_exact_small (x : U256) (h : x.val < 2 ^ 53) : ∃ r, toF64 x = some r ∧ scaled r.toNat = x.val * 2 ^ 1074 := by
  by_cases hx : x.val = 0
  · exact C82_exact x 0 (by unfold Finite; decide) (by rw [hx, Nat.zero_mul]; decide)
  · obtain ⟨r, h1, h2, hM1, hM2, hlz⟩ := toF64_eq x hx
    refine ⟨r, h1, ?_⟩
    obtain ⟨hb1, hb2, hb3, hb4⟩ := bits_spec x
    have hbits : x.bits ≤ 53 := by
      apply Nat.le_of_not_lt
      intro hh
      have h3 := hb4 (hb3 hx)
      have h4 : 2 ^ 53 ≤ 2 ^ (x.bits - 1) := Nat.pow_le_pow_right (by decide) (by omega)
      omega
    generalize hg : 256 - x.bits = lz at *
    have hb := roundM_bounds (x.val * 2 ^ lz) hM1 hM2
    rw [h2, scaled_result _ _ hb.1 hb.2]
    have e : x.val * 2 ^ lz = x.val * 2 ^ (lz - 203) * 2 ^ 203 := by
      rw [Nat.mul_assoc, ← Nat.pow_add]; congr 2; omega
    have hr : roundM (x.val * 2 ^ lz) = x.val * 2 ^ (lz - 203) := by
      unfold roundM
      simp only []
      rw [e, Nat.mul_mod_left, if_pos (by decide), Nat.mul_div_cancel _ (by decide)]
    rw [hr, Nat.mul_assoc, ← Nat.pow_add]
    congr 2
    omega

/-! ## Examples -/

/-- Two to the 53 plus one is a tie; the even neighbour is taken. -/
example : toF64 ⟨0, 9007199254740993⟩ = some 0x4340000000000000#64 := by decide +kernel
/-- Rounding up into the next power of two. -/
example : toF64 max = some 0x4FF0000000000000#64 := by decide +kernel
example : Finite 0x4340000000000000 ∧ scaled 0x4340000000000000 = 2 ^ 53 * 2 ^ 1074 := by
  constructor
  · unfold Finite; decide
  · decide +kernel

end U256
end Btc
