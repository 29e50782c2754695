import Verif.Units.Weight
import Verif.Props.C80
import Verif.Props.C37_C38
/-!
# C96: weights, and arithmetic with weights, fee rates, heights and intervals
-/
namespace Btc
namespace Wt

/-! ### Checked operations -/

/-- The operations that report: the exact result when it is a `u64`, nothing otherwise. -/
theorem C96_checked (a b c : Nat) (ha : a < 2 ^ 64) (hb : b < 2 ^ 64) :
    (checkedAdd a b = some c ↔ c = a + b ∧ c < 2 ^ 64) ∧
    (checkedSub a b = some c ↔ a = b + c) ∧
    (checkedMul a b = some c ↔ c = a * b ∧ c < 2 ^ 64) ∧
    (checkedDiv a b = some c ↔ b * c ≤ a ∧ a < b * (c + 1)) := by
  unfold checkedAdd checkedSub checkedMul checkedDiv Amt.u64Add Amt.u64Sub Amt.u64Mul Amt.u64Div
  refine ⟨?_, ?_, ?_, ?_⟩
  · constructor
    · intro h; split at h <;> simp at h; omega
    · rintro ⟨rfl, h⟩; rw [if_pos h]
  · constructor
    · intro h; split at h <;> simp at h; omega
    · intro h; rw [if_pos (by omega)]; congr 1; omega
  · constructor
    · intro h; split at h <;> simp at h; exact ⟨h.symm, by omega⟩
    · rintro ⟨rfl, h⟩; rw [if_pos h]
  · by_cases h0 : b = 0
    · subst h0; simp
    · rw [if_neg h0]
      constructor
      · intro h; simp at h; subst h
        refine ⟨Nat.mul_div_le a b, ?_⟩
        have := Nat.lt_mul_div_succ a (Nat.pos_of_ne_zero h0)
        simpa using this
      · rintro ⟨h1, h2⟩
        congr 1
        exact Nat.div_eq_of_lt_le (by rw [Nat.mul_comm]; exact h1) (by rw [Nat.mul_comm]; exact h2)

example : checkedAdd (2 ^ 64 - 1) 1 = none ∧ checkedSub 3 4 = none ∧ checkedMul (2 ^ 63) 2 = none ∧ checkedDiv 7 0 = none ∧
    checkedDiv 7 2 = some 3 := by decide

/-! ### Conversions -/

theorem divCeil_spec (a b c : Nat) (hb : 0 < b) : Amt.divCeil a b = c ↔ a ≤ b * c ∧ ∀ d, a ≤ b * d → c ≤ d := by
  have key : ∀ d, Amt.divCeil a b ≤ d ↔ a ≤ b * d := by
    intro d
    unfold Amt.divCeil
    have h1 := Nat.div_add_mod a b
    have h2 := Nat.mod_lt a hb
    by_cases hm : a % b > 0
    · rw [if_pos hm]
      constructor
      · intro h
        have := Nat.mul_le_mul_left b h
        rw [Nat.mul_add] at this; omega
      · intro h
        apply Nat.lt_of_not_le; intro hd
        have := Nat.mul_le_mul_left b hd; omega
    · rw [if_neg hm]
      constructor
      · intro h
        have := Nat.mul_le_mul_left b h; omega
      · intro h
        exact Nat.le_of_mul_le_mul_left (by omega) hb
  constructor
  · rintro rfl
    exact ⟨(key _).1 (Nat.le_refl _), fun d h => (key d).2 h⟩
  · rintro ⟨h1, h2⟩
    exact Nat.le_antisymm ((key c).2 h1) (h2 _ ((key _).1 (Nat.le_refl _)))

/-- A weight in virtual bytes or kilo weight units: the floor is the largest number of units not exceeding the weight, the
ceiling the smallest number of units not below it. -/
theorem C96_units (w v : Nat) :
    (toVbFloor w = v ↔ 4 * v ≤ w ∧ ∀ u, 4 * u ≤ w → u ≤ v) ∧
    (toVbCeil w = v ↔ w ≤ 4 * v ∧ ∀ u, w ≤ 4 * u → v ≤ u) ∧
    (toKwuFloor w = v ↔ 1000 * v ≤ w ∧ ∀ u, 1000 * u ≤ w → u ≤ v) ∧
    (toKwuCeil w = v ↔ w ≤ 1000 * v ∧ ∀ u, w ≤ 1000 * u → v ≤ u) := by
  refine ⟨?_, divCeil_spec w 4 v (by omega), ?_, divCeil_spec w 1000 v (by omega)⟩
  · unfold toVbFloor SCALE
    constructor
    · rintro rfl; exact ⟨by omega, fun u h => by omega⟩
    · rintro ⟨h1, h2⟩; have := h2 (w / 4) (by omega); omega
  · unfold toKwuFloor
    constructor
    · rintro rfl; exact ⟨by omega, fun u h => by omega⟩
    · rintro ⟨h1, h2⟩; have := h2 (w / 1000) (by omega); omega

/-- Making a weight from virtual bytes or kilo weight units fails exactly when it would not be a `u64`, and otherwise both
roundings give the number back. -/
theorem C96_from (n w : Nat) :
    (fromVb n = some w ↔ w = 4 * n ∧ 4 * n < 2 ^ 64) ∧ (fromKwu n = some w ↔ w = 1000 * n ∧ 1000 * n < 2 ^ 64) ∧
    (fromVb n = some w → toVbFloor w = n ∧ toVbCeil w = n) ∧ (fromKwu n = some w → toKwuFloor w = n ∧ toKwuCeil w = n) ∧
    (∀ oc, fromVb n = some w → fromVbUnchecked oc n = some w) := by
  have h1 : fromVb n = some w ↔ w = 4 * n ∧ 4 * n < 2 ^ 64 := by
    unfold fromVb Amt.u64Mul SCALE
    constructor
    · intro h; split at h <;> simp at h; omega
    · rintro ⟨rfl, h⟩; rw [if_pos (by omega)]; congr 1; omega
  have h2 : fromKwu n = some w ↔ w = 1000 * n ∧ 1000 * n < 2 ^ 64 := by
    unfold fromKwu Amt.u64Mul
    constructor
    · intro h; split at h <;> simp at h; omega
    · rintro ⟨rfl, h⟩; rw [if_pos (by omega)]; congr 1; omega
  refine ⟨h1, h2, fun h => ?_, fun h => ?_, fun oc h => ?_⟩
  · obtain ⟨rfl, _⟩ := h1.1 h
    exact ⟨((C96_units _ _).1).2 ⟨by omega, fun u h => by omega⟩, ((C96_units _ _).2.1).2 ⟨by omega, fun u h => by omega⟩⟩
  · obtain ⟨rfl, _⟩ := h2.1 h
    exact ⟨((C96_units _ _).2.2.1).2 ⟨by omega, fun u h => by omega⟩,
      ((C96_units _ _).2.2.2).2 ⟨by omega, fun u h => by omega⟩⟩
  · obtain ⟨rfl, h'⟩ := h1.1 h
    unfold fromVbUnchecked opMul SCALE
    rw [if_pos (by omega)]; congr 1; omega

example : fromVb 250 = some 1000 ∧ toVbCeil 1001 = 251 ∧ toVbFloor 1003 = 250 ∧ fromVb (2 ^ 62) = none ∧
    fromVbUnchecked true (2 ^ 62) = none ∧ fromVbUnchecked false (2 ^ 62) = some 0 := by decide

/-- A median-time interval in units of 512 seconds: rounding down and up brackets the interval by less than a unit, each
fails exactly when the rounded number of units exceeds `u16`, and whole numbers of units survive. -/
theorem C96_mtp (s : UInt32) (n : UInt16) :
    (mtpIntervalFloor s = some n ↔ 512 * n.toNat ≤ s.toNat ∧ s.toNat < 512 * n.toNat + 512) ∧
    (mtpIntervalCeil s = some n ↔ s.toNat ≤ 512 * n.toNat ∧ 512 * n.toNat < s.toNat + 512) ∧
    (mtpIntervalFrom n).toNat = 512 * n.toNat ∧
    mtpIntervalFloor (mtpIntervalFrom n) = some n ∧ mtpIntervalCeil (mtpIntervalFrom n) = some n := by
  have hn := n.toNat_lt
  have hs := s.toNat_lt
  have hq : (s / 512).toNat = s.toNat / 512 := by rw [UInt32.toNat_div]; rfl
  have hr : (s % 512).toNat = s.toNat % 512 := by rw [UInt32.toNat_mod]; rfl
  have hF : ∀ (s : UInt32) (n : UInt16), mtpIntervalFloor s = some n ↔ 512 * n.toNat ≤ s.toNat ∧ s.toNat < 512 * n.toNat + 512 := by
    intro s n
    have hn := n.toNat_lt
    have hs := s.toNat_lt
    have hq : (s / 512).toNat = s.toNat / 512 := by rw [UInt32.toNat_div]; rfl
    unfold mtpIntervalFloor Lock.secondsFloor
    simp only []
    by_cases h : s / 512 ≤ 65535
    · rw [if_pos h, Option.some.injEq, ← UInt16.toNat_inj, UInt32.toNat_toUInt16, hq]
      have : (s / 512).toNat ≤ 65535 := h
      omega
    · rw [if_neg h]
      have : ¬ (s / 512).toNat ≤ 65535 := h
      simp only [reduceCtorEq, false_iff]
      omega
  have hC : ∀ (s : UInt32) (n : UInt16), mtpIntervalCeil s = some n ↔ s.toNat ≤ 512 * n.toNat ∧ 512 * n.toNat < s.toNat + 512 := by
    intro s n
    have hn := n.toNat_lt
    have hs := s.toNat_lt
    have hq : (s / 512).toNat = s.toNat / 512 := by rw [UInt32.toNat_div]; rfl
    have hr : (s % 512).toNat = s.toNat % 512 := by rw [UInt32.toNat_mod]; rfl
    unfold mtpIntervalCeil Lock.secondsCeil
    by_cases h : s ≤ 65535 * 512
    · have h' : s.toNat ≤ 33553920 := h
      rw [if_pos h]
      simp only []
      rw [Option.some.injEq, ← UInt16.toNat_inj, UInt32.toNat_toUInt16]
      by_cases hm : s % 512 > 0
      · have hm' : 0 < (s % 512).toNat := hm
        rw [if_pos hm, UInt32.toNat_add, hq]
        have : (1 : UInt32).toNat = 1 := rfl
        omega
      · have hm' : ¬ 0 < (s % 512).toNat := hm
        rw [if_neg hm, hq]
        omega
    · have h' : ¬ s.toNat ≤ 33553920 := h
      rw [if_neg h]
      simp only [reduceCtorEq, false_iff]
      omega
  have h3 : (mtpIntervalFrom n).toNat = 512 * n.toNat := by
    unfold mtpIntervalFrom Lock.toSeconds
    rw [UInt32.toNat_mul, UInt16.toNat_toUInt32]
    rw [show (512 : UInt32).toNat = 512 from rfl]
    omega
  exact ⟨hF s n, hC s n, h3, (hF _ n).2 (by omega), (hC _ n).2 (by omega)⟩

example : mtpIntervalFloor 1000 = some 1 ∧ mtpIntervalCeil 1000 = some 2 ∧ mtpIntervalFloor 33554431 = some 65535 ∧
    mtpIntervalCeil 33553921 = none := by decide

/-! ### Text -/

/-- Displaying and parsing, in decimal and in both hex forms. -/
theorem C96_text (w : Nat) (h : w < 2 ^ 64) :
    fromStr (display false w) = .ok w ∧ display true w = display false w ++ " wu".toUTF8.toList ∧
    fromHex (48 :: 120 :: radixBytes 16 w) = .ok w ∧ fromUnprefixedHex (radixBytes 16 w) = .ok w := by
  have hh := HexInt.C80_print 64 w h
  refine ⟨?_, ?_, hh.2.1, hh.1⟩
  · exact parse_decBytes _ _ (by omega)
  · unfold display
    rw [if_pos rfl, if_neg (by decide)]
    exact congrArg _ (by decide +kernel)

example : display true 4000000 = "4000000 wu".toUTF8.toList := by decide +kernel

/-! ### Programs -/

/-- The value of a program over the integers; dividing by zero has none. -/
def Prog.value : Prog → Option Int
  | .lit n => some n
  | .add l r => l.value.bind fun a => r.value.map fun b => a + b
  | .sub l r => l.value.bind fun a => r.value.map fun b => a - b
  | .mul l r => l.value.bind fun a => r.value.map fun b => a * b
  | .div l r => l.value.bind fun a => r.value.bind fun b => if b = 0 then none else some (a / b)
  | .rem l r => l.value.bind fun a => r.value.bind fun b => if b = 0 then none else some (a % b)

/-- The operands of the outermost operator. -/
def Prog.operands : Prog → List Prog
  | .lit _ => []
  | .add l r | .sub l r | .mul l r | .div l r | .rem l r => [l, r]

/-- `q` occurs in `p`. -/
inductive Occurs : Prog → Prog → Prop
  | here (p : Prog) : Occurs p p
  | under {q o p : Prog} : o ∈ p.operands → Occurs q o → Occurs q p

/-- A value that the integer type can hold. -/
def Fits (bits : Nat) (p : Prog) : Prop := ∃ v : Int, p.value = some v ∧ 0 ≤ v ∧ v < 2 ^ bits

theorem occurs_iff (q p : Prog) : Occurs q p ↔ q = p ∨ ∃ o ∈ p.operands, Occurs q o := by
  constructor
  · rintro (_ | ⟨ho, h⟩)
    · exact .inl rfl
    · exact .inr ⟨_, ho, h⟩
  · rintro (rfl | ⟨o, ho, h⟩)
    · exact .here _
    · exact .under ho h

/-- All that occurs fits. -/
theorem allFit_iff (bits : Nat) (p : Prog) :
    (∀ q, Occurs q p → Fits bits q) ↔ Fits bits p ∧ ∀ o ∈ p.operands, ∀ q, Occurs q o → Fits bits q := by
  constructor
  · intro h
    exact ⟨h p (.here p), fun o ho q hq => h q (.under ho hq)⟩
  · rintro ⟨h1, h2⟩ q hq
    rcases (occurs_iff q p).1 hq with rfl | ⟨o, ho, h⟩
    · exact h1
    · exact h2 o ho q h

theorem fits_val {bits : Nat} {p : Prog} (h : Fits bits p) : ∃ n : Nat, p.value = some (n : Int) ∧ n < 2 ^ bits := by
  obtain ⟨v, h1, h2, h3⟩ := h
  refine ⟨v.toNat, by rw [h1]; congr 1; omega, ?_⟩
  have : ((v.toNat : Nat) : Int) < ((2 ^ bits : Nat) : Int) := by
    rw [Int.toNat_of_nonneg h2, Int.natCast_pow]; exact h3
  omega

theorem val_fits {bits : Nat} {p : Prog} {n : Nat} (h : p.value = some (n : Int)) (hn : n < 2 ^ bits) : Fits bits p := by
  refine ⟨n, h, by omega, ?_⟩
  have : ((n : Nat) : Int) < ((2 ^ bits : Nat) : Int) := by omega
  rwa [Int.natCast_pow] at this

/-- The operator at the root: `run` and `value` of a program from those of its operands. -/
def rootRun (bits : Nat) (oc : Bool) : Prog → Nat → Nat → Option Nat
  | .lit n, _, _ => some n
  | .add _ _, a, b => opAdd bits oc a b
  | .sub _ _, a, b => opSub bits oc a b
  | .mul _ _, a, b => opMul bits oc a b
  | .div _ _, a, b => opDiv a b
  | .rem _ _, a, b => opRem a b

def rootValue : Prog → Int → Int → Option Int
  | .lit n, _, _ => some n
  | .add _ _, a, b => some (a + b)
  | .sub _ _, a, b => some (a - b)
  | .mul _ _, a, b => some (a * b)
  | .div _ _, a, b => if b = 0 then none else some (a / b)
  | .rem _ _, a, b => if b = 0 then none else some (a % b)

theorem root_exact (bits : Nat) (p : Prog) (a b v : Nat) (ha : a < 2 ^ bits) (hb : b < 2 ^ bits)
    (hl : ∀ n, p = .lit n → n < 2 ^ bits) :
    rootRun bits true p a b = some v ↔ rootValue p a b = some (v : Int) ∧ v < 2 ^ bits := by
  cases p with
  | lit n =>
    simp only [rootRun, rootValue, Option.some.injEq]
    have := hl n rfl
    omega
  | add l r =>
    simp only [rootRun, rootValue, opAdd, Option.some.injEq, if_true]
    split <;> simp only [Option.some.injEq, reduceCtorEq, false_iff] <;> omega
  | sub l r =>
    simp only [rootRun, rootValue, opSub, Option.some.injEq, if_true]
    split <;> simp only [Option.some.injEq, reduceCtorEq, false_iff] <;> omega
  | mul l r =>
    simp only [rootRun, rootValue, opMul, Option.some.injEq, if_true]
    rw [← Int.natCast_mul]
    generalize a * b = c
    split <;> simp only [Option.some.injEq, reduceCtorEq, false_iff] <;> omega
  | div l r =>
    simp only [rootRun, rootValue, opDiv]
    by_cases h0 : b = 0
    · simp [h0]
    · rw [if_neg h0, if_neg (by omega), ← Int.natCast_ediv]
      have := Nat.div_le_self a b
      simp only [Option.some.injEq]
      generalize a / b = c at *
      omega
  | rem l r =>
    simp only [rootRun, rootValue, opRem]
    by_cases h0 : b = 0
    · simp [h0]
    · rw [if_neg h0, if_neg (by omega), ← Int.natCast_emod]
      have := Nat.mod_le a b
      simp only [Option.some.injEq]
      generalize a % b = c at *
      omega

theorem root_agree (bits : Nat) (p : Prog) (a b v : Nat) (h : rootRun bits true p a b = some v) :
    rootRun bits false p a b = some v := by
  cases p <;> simp only [rootRun, opAdd, opSub, opMul, if_true] at h ⊢ <;> first | exact h | (split at h <;> first | exact (if_pos ‹_›).trans h | simp at h)

theorem root_wrap (bits : Nat) (p : Prog) (a b : Nat) (x y : Int) (ha : a < 2 ^ bits) (hb : b < 2 ^ bits)
    (hx : (a : Int) = x % 2 ^ bits) (hy : (b : Int) = y % 2 ^ bits) (hl : ∀ n, p = .lit n → n < 2 ^ bits)
    (hd : ∀ l r, p ≠ .div l r ∧ p ≠ .rem l r) :
    ∃ (v : Nat) (z : Int), rootRun bits false p a b = some v ∧ rootValue p x y = some z ∧ v < 2 ^ bits ∧
      (v : Int) = z % 2 ^ bits := by
  have hpos : 0 < 2 ^ bits := Nat.two_pow_pos bits
  have hcast : ((2 ^ bits : Nat) : Int) = 2 ^ bits := Int.natCast_pow 2 bits
  rw [← hcast] at hx hy ⊢
  cases p with
  | lit n =>
    refine ⟨n, n, rfl, rfl, hl n rfl, ?_⟩
    rw [← Int.natCast_emod, Nat.mod_eq_of_lt (hl n rfl)]
  | add l r =>
    refine ⟨(a + b) % 2 ^ bits, x + y, ?_, rfl, Nat.mod_lt _ hpos, ?_⟩
    · simp only [rootRun, opAdd]
      split
      · rw [Nat.mod_eq_of_lt ‹_›]
      · rfl
    · rw [Int.natCast_emod, Int.natCast_add, hx, hy, ← Int.add_emod]
  | sub l r =>
    refine ⟨(a + 2 ^ bits - b) % 2 ^ bits, x - y, ?_, rfl, Nat.mod_lt _ hpos, ?_⟩
    · simp only [rootRun, opSub]
      split
      · congr 1
        rw [show a + 2 ^ bits - b = (a - b) + 2 ^ bits from by omega, Nat.add_mod_right, Nat.mod_eq_of_lt (by omega)]
      · simp only [Bool.false_eq_true, if_false]
        rw [Nat.mod_eq_of_lt (by omega)]
    · rw [Int.natCast_emod, Int.natCast_sub (by omega), Int.natCast_add,
        show (a : Int) + ((2 ^ bits : Nat) : Int) - (b : Int) = (a - b) + ((2 ^ bits : Nat) : Int) from by omega,
        Int.add_emod_right, hx, hy, ← Int.sub_emod]
  | mul l r =>
    refine ⟨(a * b) % 2 ^ bits, x * y, ?_, rfl, Nat.mod_lt _ hpos, ?_⟩
    · simp only [rootRun, opMul]
      split
      · rw [Nat.mod_eq_of_lt ‹_›]
      · rfl
    · rw [Int.natCast_emod, Int.natCast_mul, hx, hy, ← Int.mul_emod]
  | div l r => exact absurd rfl (hd l r).1
  | rem l r => exact absurd rfl (hd l r).2

/-- A program is a literal or has two operands. -/
theorem shape (p : Prog) : (∃ n, p = .lit n) ∨ ∃ l r, p.operands = [l, r] ∧ sizeOf l < sizeOf p ∧ sizeOf r < sizeOf p ∧
    (∀ bits oc, p.run bits oc = (l.run bits oc).bind fun a => (r.run bits oc).bind fun b => rootRun bits oc p a b) ∧
    (p.value = l.value.bind fun a => r.value.bind fun b => rootValue p a b) := by
  cases p with
  | lit n => exact .inl ⟨n, rfl⟩
  | add l r | sub l r | mul l r | div l r | rem l r =>
    exact .inr ⟨l, r, rfl, by simp +arith, by simp +arith, fun _ _ => by simp only [Prog.run, rootRun], by
      simp only [Prog.value, rootValue] <;> first | rfl | (cases l.value <;> cases r.value <;> rfl)⟩

/-- With overflow checks a program returns its exact value if every intermediate value can be held, and panics otherwise. -/
theorem C96_checked_build (bits : Nat) (p : Prog) (v : Nat) (hl : ∀ n, Occurs (.lit n) p → n < 2 ^ bits) :
    p.run bits true = some v ↔ p.value = some (v : Int) ∧ ∀ q, Occurs q p → Fits bits q := by
  rcases shape p with ⟨n, rfl⟩ | ⟨l, r, ho, h1, h2, hrun, hval⟩
  · have hn := hl n (.here _)
    constructor
    · intro h
      simp only [Prog.run, Option.some.injEq] at h
      subst h
      refine ⟨rfl, (allFit_iff _ _).2 ⟨val_fits rfl hn, ?_⟩⟩
      intro o ho; cases ho
    · rintro ⟨h, _⟩
      simp only [Prog.value, Prog.run, Option.some.injEq] at h ⊢
      omega
  · have hml : l ∈ p.operands := by rw [ho]; exact List.mem_cons_self
    have hmr : r ∈ p.operands := by rw [ho]; exact List.mem_cons_of_mem _ List.mem_cons_self
    have ihl := fun v => C96_checked_build bits l v fun n h => hl n (.under hml h)
    have ihr := fun v => C96_checked_build bits r v fun n h => hl n (.under hmr h)
    have hlit : ∀ n, p = .lit n → n < 2 ^ bits := fun n e => hl n (e ▸ .here _)
    rw [hrun]
    constructor
    · intro h
      obtain ⟨a, ha, h⟩ := Option.bind_eq_some_iff.1 h
      obtain ⟨b, hb, h⟩ := Option.bind_eq_some_iff.1 h
      obtain ⟨va, fa⟩ := (ihl a).1 ha
      obtain ⟨vb, fb⟩ := (ihr b).1 hb
      obtain ⟨a', va', la⟩ := fits_val (fa l (.here l))
      obtain ⟨b', vb', lb⟩ := fits_val (fb r (.here r))
      have ea : a = a' := by rw [va] at va'; simp only [Option.some.injEq] at va'; omega
      have eb : b = b' := by rw [vb] at vb'; simp only [Option.some.injEq] at vb'; omega
      subst ea; subst eb
      obtain ⟨hv, hlt⟩ := (root_exact bits p a b v la lb hlit).1 h
      have hpv : p.value = some (v : Int) := by rw [hval, va, vb]; exact hv
      refine ⟨hpv, (allFit_iff _ _).2 ⟨val_fits hpv hlt, ?_⟩⟩
      intro o hm
      rw [ho] at hm
      rcases List.mem_cons.1 hm with rfl | hm
      · exact fa
      · rw [List.mem_singleton.1 hm]; exact fb
    · rintro ⟨hv, hf⟩
      obtain ⟨fp, hf'⟩ := (allFit_iff _ _).1 hf
      obtain ⟨a, va, la⟩ := fits_val (hf' l hml l (.here l))
      obtain ⟨b, vb, lb⟩ := fits_val (hf' r hmr r (.here r))
      obtain ⟨v', hv', lv⟩ := fits_val fp
      have ev : v' = v := by rw [hv] at hv'; simp only [Option.some.injEq] at hv'; omega
      subst ev
      rw [(ihl a).2 ⟨va, hf' l hml⟩, (ihr b).2 ⟨vb, hf' r hmr⟩]
      refine (root_exact bits p a b v' la lb hlit).2 ⟨?_, lv⟩
      rw [hval, va, vb] at hv; exact hv
termination_by sizeOf p

/-- Where every intermediate value can be held, builds with and without overflow checks agree. -/
theorem C96_builds_agree (bits : Nat) (p : Prog) (h : ∀ q, Occurs q p → Fits bits q) :
    ∃ v : Nat, p.value = some (v : Int) ∧ ∀ oc, p.run bits oc = some v := by
  have hlit : ∀ n, Occurs (.lit n) p → n < 2 ^ bits := by
    intro n hn
    obtain ⟨m, hm, hlt⟩ := fits_val (h _ hn)
    simp only [Prog.value, Option.some.injEq] at hm
    omega
  obtain ⟨v, hv, _⟩ := fits_val (h p (.here p))
  have ht := (C96_checked_build bits p v hlit).2 ⟨hv, h⟩
  refine ⟨v, hv, fun oc => ?_⟩
  cases oc with
  | true => exact ht
  | false =>
    have key : ∀ (p : Prog) (v : Nat), p.run bits true = some v → p.run bits false = some v := by
      intro p
      induction p with
      | lit n => exact fun v h => h
      | add l r ihl ihr | sub l r ihl ihr | mul l r ihl ihr | div l r ihl ihr | rem l r ihl ihr =>
        intro v h
        simp only [Prog.run] at h ⊢
        obtain ⟨a, ha, h⟩ := Option.bind_eq_some_iff.1 h
        obtain ⟨b, hb, h⟩ := Option.bind_eq_some_iff.1 h
        rw [ihl a ha, ihr b hb]
        first
          | exact root_agree bits (.add l r) a b v h
          | exact root_agree bits (.sub l r) a b v h
          | exact root_agree bits (.mul l r) a b v h
          | exact h
    exact key p v ht

/-- Without overflow checks, additions, subtractions and multiplications never panic and give the exact value modulo the size
of the type, whatever overflowed on the way. -/
theorem C96_wrapping_build (bits : Nat) (p : Prog) (hl : ∀ n, Occurs (.lit n) p → n < 2 ^ bits)
    (hd : ∀ l r, ¬ Occurs (.div l r) p ∧ ¬ Occurs (.rem l r) p) :
    ∃ (v : Nat) (x : Int), p.run bits false = some v ∧ p.value = some x ∧ v < 2 ^ bits ∧ (v : Int) = x % 2 ^ bits := by
  have hlit : ∀ n, p = .lit n → n < 2 ^ bits := fun n e => hl n (e ▸ .here _)
  have hdp : ∀ l r, p ≠ .div l r ∧ p ≠ .rem l r := fun l r => ⟨fun e => (hd l r).1 (e ▸ .here _), fun e => (hd l r).2 (e ▸ .here _)⟩
  rcases shape p with ⟨n, rfl⟩ | ⟨l, r, ho, h1, h2, hrun, hval⟩
  · obtain ⟨v, z, h⟩ := root_wrap bits (.lit n) 0 0 0 0 (Nat.two_pow_pos _) (Nat.two_pow_pos _) (by simp) (by simp) hlit hdp
    exact ⟨v, z, h⟩
  · have hml : l ∈ p.operands := by rw [ho]; exact List.mem_cons_self
    have hmr : r ∈ p.operands := by rw [ho]; exact List.mem_cons_of_mem _ List.mem_cons_self
    obtain ⟨a, x, ra, va, la, ca⟩ := C96_wrapping_build bits l (fun n h => hl n (.under hml h))
      fun s t => ⟨fun h => (hd s t).1 (.under hml h), fun h => (hd s t).2 (.under hml h)⟩
    obtain ⟨b, y, rb, vb, lb, cb⟩ := C96_wrapping_build bits r (fun n h => hl n (.under hmr h))
      fun s t => ⟨fun h => (hd s t).1 (.under hmr h), fun h => (hd s t).2 (.under hmr h)⟩
    rw [hrun, hval, ra, rb, va, vb]
    exact root_wrap bits p a b x y la lb ca cb hlit hdp
termination_by sizeOf p

/-- Two blocks' worth of weight less a transaction, over eight: exact in both builds. -/
example : (Prog.div (.sub (.mul (.lit MAX_BLOCK) (.lit 2)) (.lit MIN_TRANSACTION)) (.lit 8)).run 64 true = some 999970 ∧
    (Prog.div (.sub (.mul (.lit MAX_BLOCK) (.lit 2)) (.lit MIN_TRANSACTION)) (.lit 8)).value = some 999970 := by decide

/-- A height before an interval: a panic, or a wrapped height that comes back when the interval is added. -/
example : (Prog.sub (.lit 5) (.lit 6)).run 32 true = none ∧ (Prog.sub (.lit 5) (.lit 6)).run 32 false = some (2 ^ 32 - 1) ∧
    (Prog.add (.sub (.lit 5) (.lit 6)) (.lit 6)).run 32 false = some 5 := by decide

/-- Summing: the exact total or a panic with overflow checks, the total modulo the size of the type without. -/
theorem C96_sum (bits : Nat) (ws : List Nat) :
    sum bits true ws = (if ws.sum < 2 ^ bits then some ws.sum else none) ∧ sum bits false ws = some (ws.sum % 2 ^ bits) := by
  have hnone : ∀ (oc : Bool) (ws : List Nat),
      ws.foldl (fun acc w => acc.bind fun a => opAdd bits oc a w) none = none := by
    intro oc ws
    induction ws with
    | nil => rfl
    | cons w ws ih => exact ih
  have key : ∀ (ws : List Nat) (a : Nat), a < 2 ^ bits →
      ws.foldl (fun acc w => acc.bind fun a => opAdd bits true a w) (some a) =
        (if a + ws.sum < 2 ^ bits then some (a + ws.sum) else none) ∧
      ws.foldl (fun acc w => acc.bind fun a => opAdd bits false a w) (some a) = some ((a + ws.sum) % 2 ^ bits) := by
    intro ws
    induction ws with
    | nil => intro a ha; simp [ha, Nat.mod_eq_of_lt ha]
    | cons w ws ih =>
      intro a ha
      have hs : (w :: ws).sum = w + ws.sum := List.sum_cons
      rw [List.foldl_cons, List.foldl_cons, hs, Option.bind_some, Option.bind_some]
      constructor
      · by_cases h : a + w < 2 ^ bits
        · rw [show opAdd bits true a w = some (a + w) from if_pos h, (ih (a + w) h).1, Nat.add_assoc]
        · rw [show opAdd bits true a w = none from by unfold opAdd; rw [if_neg h, if_pos rfl], hnone,
            if_neg (by omega)]
      · have he : opAdd bits false a w = some ((a + w) % 2 ^ bits) := by
          unfold opAdd
          split
          · rw [Nat.mod_eq_of_lt ‹_›]
          · rfl
        rw [he, (ih _ (Nat.mod_lt _ (Nat.two_pow_pos bits))).2, Nat.mod_add_mod, Nat.add_assoc]
  have h0 := key ws 0 (Nat.two_pow_pos bits)
  simpa [sum] using h0

example : sum 64 true [400, 220, 1000] = some 1620 ∧ sum 32 true [2 ^ 31, 2 ^ 31] = none ∧
    sum 32 false [2 ^ 31, 2 ^ 31, 7] = some 7 := by decide

end Wt
end Btc
