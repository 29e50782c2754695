import Verif.Units.NumOp
import Verif.Props.C42

/-!
# C87: expressions over amounts compute the exact value or report an error
-/

namespace Btc
namespace Amt
namespace NumOp

/-! ### What an expression means: exact integers, one range per type -/

/-- The mathematical value. -/
def z : {t : Ty} → Val t → Int
  | .amt false, (x : Nat) => (x : Int)
  | .amt true, (x : Int) => x
  | .wt, (x : Nat) => (x : Int)
  | .rate, (x : Nat) => (x : Int)

/-- The values a type holds. -/
def In : Ty → Int → Prop
  | .amt false, x => 0 ≤ x ∧ x ≤ 2100000000000000
  | .amt true, x => -2100000000000000 ≤ x ∧ x ≤ 2100000000000000
  | .wt, x => 0 ≤ x ∧ x < 2 ^ 64
  | .rate, x => 0 ≤ x ∧ x < 2 ^ 64

instance (t : Ty) (x : Int) : Decidable (In t x) := by
  cases t with
  | amt s => cases s <;> exact inferInstanceAs (Decidable (_ ∧ _))
  | wt => exact inferInstanceAs (Decidable (_ ∧ _))
  | rate => exact inferInstanceAs (Decidable (_ ∧ _))

/-- Why an exact operation has no result. -/
inductive Fault where
  | overflow
  | divZero
deriving DecidableEq

/-- The exact result if the type holds it. -/
def fit (t : Ty) (x : Int) : Except Fault Int := if In t x then .ok x else .error .overflow

/-- Division (towards zero) and remainder by an integer. -/
def xDiv (x n : Int) : Except Fault Int := if n = 0 then .error .divZero else .ok (x.tdiv n)
def xRem (x n : Int) : Except Fault Int := if n = 0 then .error .divZero else .ok (x.tmod n)

/-- The fee of a weight at a rate, rounded up (see C42). -/
def xFee (w f : Int) : Except Fault Int := fit (.amt false) (feeOf f.toNat w.toNat : Nat)

/-- The rate a fee buys for a weight: whole satoshi per thousand weight units, rounded down; a rate of more than 21
million bitcoin per million virtual bytes is refused. -/
def xRate (a w : Int) : Except Fault Int :=
  if w = 0 then .error .divZero else fit (.amt false) (1000 * a / w * 4000)

/-- The weight a fee buys at a rate, rounded down. -/
def xWeight (a f : Int) : Except Fault Int :=
  if f = 0 then .error .divZero else .ok (1000 * a / ((f + 3999) / 4000))

/-- Exact operands give an exact result or a fault; no operand, no result. -/
def on1 (d : Option Int) (f : Int → Except Fault Int) : Option Int :=
  d.bind fun x => (f x).toOption
def on2 (d e : Option Int) (f : Int → Int → Except Fault Int) : Option Int :=
  d.bind fun x => e.bind fun y => (f x y).toOption

/-- The exact value of an expression, if every operation in it has one. -/
def den {t : Ty} : Ex t → Option Int
  | .lit x => some (z x)
  | .valid x => some (z x)
  | @Ex.add s l r => on2 (den l) (den r) fun x y => fit (.amt s) (x + y)
  | @Ex.sub s l r => on2 (den l) (den r) fun x y => fit (.amt s) (x - y)
  | @Ex.addAssign s l r => on2 (den l) (den r) fun x y => fit (.amt s) (x + y)
  | @Ex.subAssign s l r => on2 (den l) (den r) fun x y => fit (.amt s) (x - y)
  | @Ex.mul s e n => on1 (den e) fun x => fit (.amt s) (x * z (t := .amt s) n)
  | @Ex.nMul s n e => on1 (den e) fun x => fit (.amt s) (z (t := .amt s) n * x)
  | @Ex.div s e n => on1 (den e) fun x => xDiv x (z (t := .amt s) n)
  | @Ex.divZ s e n => on1 (den e) fun x => xDiv x (z (t := .amt s) n)
  | @Ex.rem s e n => on1 (den e) fun x => xRem x (z (t := .amt s) n)
  | .neg e => on1 (den e) fun x => .ok (-x)
  | .sNeg e => on1 (den e) fun x => .ok (-x)
  | .mulWF w f => on2 (den w) (den f) xFee
  | .mulFW f w => on2 (den f) (den w) fun f w => xFee w f
  | .divAW a w => on2 (den a) (den w) xRate
  | .divAF a f => on2 (den a) (den f) xWeight

/-- The fault of one operation with exact operands. -/
def why1 (d : Option Int) (f : Int → Except Fault Int) : List Fault :=
  match d with
  | some x => match f x with
    | .error k => [k]
    | .ok _ => []
  | none => []
def why2 (d e : Option Int) (f : Int → Int → Except Fault Int) : List Fault :=
  match d with
  | some x => why1 e (f x)
  | none => []

/-- All faults that occur in an expression. -/
def faults {t : Ty} : Ex t → List Fault
  | .lit _ => []
  | .valid _ => []
  | @Ex.add s l r => faults l ++ faults r ++ why2 (den l) (den r) fun x y => fit (.amt s) (x + y)
  | @Ex.sub s l r => faults l ++ faults r ++ why2 (den l) (den r) fun x y => fit (.amt s) (x - y)
  | @Ex.addAssign s l r => faults l ++ faults r ++ why2 (den l) (den r) fun x y => fit (.amt s) (x + y)
  | @Ex.subAssign s l r => faults l ++ faults r ++ why2 (den l) (den r) fun x y => fit (.amt s) (x - y)
  | @Ex.mul s e n => faults e ++ why1 (den e) fun x => fit (.amt s) (x * z (t := .amt s) n)
  | @Ex.nMul s n e => faults e ++ why1 (den e) fun x => fit (.amt s) (z (t := .amt s) n * x)
  | @Ex.div s e n => faults e ++ why1 (den e) fun x => xDiv x (z (t := .amt s) n)
  | @Ex.divZ s e n => faults e ++ why1 (den e) fun x => xDiv x (z (t := .amt s) n)
  | @Ex.rem s e n => faults e ++ why1 (den e) fun x => xRem x (z (t := .amt s) n)
  | .neg e => faults e
  | .sNeg e => faults e
  | .mulWF w f => faults w ++ faults f ++ why2 (den w) (den f) xFee
  | .mulFW f w => faults f ++ faults w ++ why2 (den f) (den w) fun f w => xFee w f
  | .divAW a w => faults a ++ faults w ++ why2 (den a) (den w) xRate
  | .divAF a f => faults a ++ faults f ++ why2 (den a) (den f) xWeight

/-- A program can write the expression: the plain values in it are values of their types, a `NonZero` is not zero. -/
def Ok {t : Ty} : Ex t → Prop
  | @Ex.lit t x => In t (z x)
  | @Ex.valid t x => In t (z x)
  | .add l r => Ok l ∧ Ok r
  | .sub l r => Ok l ∧ Ok r
  | .addAssign l r => Ok l ∧ Ok r
  | .subAssign l r => Ok l ∧ Ok r
  | .mul e _ => Ok e
  | .nMul _ e => Ok e
  | .div e _ => Ok e
  | @Ex.divZ s e n => Ok e ∧ z (t := .amt s) n ≠ 0
  | .rem e _ => Ok e
  | .neg e => Ok e
  | .sNeg e => Ok e
  | .mulWF w f => Ok w ∧ Ok f
  | .mulFW f w => Ok f ∧ Ok w
  | .divAW a w => Ok a ∧ Ok w
  | .divAF a f => Ok a ∧ Ok f

/-- No sum or difference of two results and no assignment: at least one operand of every sum and difference is a
plain value. -/
def Linear {t : Ty} : Ex t → Prop
  | .lit _ => True
  | .valid _ => True
  | .add l r => Linear l ∧ Linear r ∧ ((plain l).isSome ∨ (plain r).isSome)
  | .sub l r => Linear l ∧ Linear r ∧ ((plain l).isSome ∨ (plain r).isSome)
  | .addAssign _ _ => False
  | .subAssign _ _ => False
  | .mul e _ => Linear e
  | .nMul _ e => Linear e
  | .div e _ => Linear e
  | .divZ e _ => Linear e
  | .rem e _ => Linear e
  | .neg e => Linear e
  | .sNeg e => Linear e
  | .mulWF w f => Linear w ∧ Linear f
  | .mulFW f w => Linear f ∧ Linear w
  | .divAW a w => Linear a ∧ Linear w
  | .divAF a f => Linear a ∧ Linear f

/-! ### One operation -/

/-- The code's result `r` is the exact outcome `f`. -/
def Meets (t : Ty) (r : Res (Val t)) (f : Except Fault Int) : Prop :=
  match r with
  | .ok x => f = .ok (z x) ∧ In t (z x)
  | .error op => ∃ k, f = .error k ∧ (isDivByZero op = true ↔ k = .divZero)

/-- Likewise under a panic monad: no panic. -/
def Does (t : Ty) (o : Option (Res (Val t))) (f : Except Fault Int) : Prop := ∃ r, o = some r ∧ Meets t r f

theorem meets_fit {t : Ty} {op : MathOp} (hop : isOverflow op = true) (o : Option (Val t)) (x : Int)
    (h1 : ∀ y, o = some y → z y = x ∧ In t x) (h2 : o = none → ¬ In t x) :
    Meets t (validOr op o) (fit t x) := by
  cases o with
  | some y =>
    obtain ⟨h, h'⟩ := h1 y rfl
    refine ⟨?_, ?_⟩
    · rw [h]; exact if_pos h'
    · rw [h]; exact h'
  | none =>
    refine ⟨.overflow, if_neg (h2 rfl), ?_⟩
    unfold isDivByZero
    rw [hop]
    exact ⟨fun h => (by cases h), fun h => (by cases h)⟩

theorem meets_div {t : Ty} {op : MathOp} (hop : isOverflow op = false) (o : Option (Val t)) (n x : Int)
    (h1 : n = 0 → o = none) (h2 : n ≠ 0 → ∃ y, o = some y ∧ z y = x ∧ In t x) :
    Meets t (validOr op o) (if n = 0 then .error .divZero else .ok x) := by
  by_cases h : n = 0
  · rw [h1 h, if_pos h]
    refine ⟨.divZero, rfl, ?_⟩
    unfold isDivByZero
    rw [hop]
    exact ⟨fun _ => rfl, fun _ => rfl⟩
  · obtain ⟨y, e, hy, hi⟩ := h2 h
    rw [e, if_neg h]
    exact ⟨by rw [hy], by rw [hy]; exact hi⟩

theorem valid_iff (a : Nat) : Valid a ↔ In (.amt false) (z (t := .amt false) a) := by
  show a ≤ _ ↔ 0 ≤ (a : Int) ∧ (a : Int) ≤ _
  omega

theorem does_add {s : Bool} (a b : V s) (ha : In (.amt s) (z (t := .amt s) a)) (hb : In (.amt s) (z (t := .amt s) b)) :
    Does (.amt s) (addTT a b) (fit (.amt s) (z (t := .amt s) a + z (t := .amt s) b)) := by
  cases s with
  | false =>
    have hh := (C40_unsigned a b 0 ((valid_iff _).2 ha) ((valid_iff _).2 hb)).1
    refine ⟨validOr .add (exactly (Nat.add a b)), ?_, ?_⟩
    · show Option.map _ (checkedAdd a b) = _
      rw [hh]; rfl
    · refine meets_fit (t := .amt false) rfl _ _ (fun y hy => ?_) (fun hn => ?_)
      · unfold exactly at hy
        by_cases hv : Valid (Nat.add a b)
        · rw [if_pos hv] at hy
          cases hy
          exact ⟨Int.natCast_add _ _, (valid_iff _).1 hv⟩
        · rw [if_neg hv] at hy; cases hy
      · unfold exactly at hn
        by_cases hv : Valid (Nat.add a b)
        · rw [if_pos hv] at hn; cases hn
        · exact fun h => hv ((valid_iff _).2 h)
  | true =>
    have hh := (C40_signed a b 0 ha hb).1
    refine ⟨validOr .add (sExactly (Int.add a b)), ?_, ?_⟩
    · show Option.map _ (some (sCheckedAdd a b)) = _
      rw [hh]; rfl
    · refine meets_fit (t := .amt true) rfl _ _ (fun y hy => ?_) (fun hn => ?_)
      · unfold sExactly at hy
        by_cases hv : SValid (Int.add a b)
        · rw [if_pos hv] at hy
          cases hy
          exact ⟨rfl, hv⟩
        · rw [if_neg hv] at hy; cases hy
      · unfold sExactly at hn
        by_cases hv : SValid (Int.add a b)
        · rw [if_pos hv] at hn; cases hn
        · exact hv

theorem does_sub {s : Bool} (a b : V s) (ha : In (.amt s) (z (t := .amt s) a)) (hb : In (.amt s) (z (t := .amt s) b)) :
    Does (.amt s) (subTT a b) (fit (.amt s) (z (t := .amt s) a - z (t := .amt s) b)) := by
  refine ⟨_, rfl, ?_⟩
  cases s with
  | false =>
    have hh := (C40_unsigned a b 0 ((valid_iff _).2 ha) ((valid_iff _).2 hb)).2.1
    show Meets (.amt false) (validOr .sub (checkedSub a b)) _
    rw [hh]
    change Nat at a b
    have ha' : 0 ≤ (a : Int) ∧ (a : Int) ≤ 2100000000000000 := ha
    refine meets_fit (t := .amt false) rfl _ _ (fun y hy => ?_) (fun hn => ?_)
    · by_cases hv : b ≤ a
      · rw [if_pos hv] at hy
        cases hy
        refine ⟨?_, ?_, ?_⟩
        · show ((a - b : Nat) : Int) = a - b
          omega
        · show (0 : Int) ≤ a - b
          omega
        · show (a : Int) - b ≤ _
          omega
      · rw [if_neg hv] at hy; cases hy
    · by_cases hv : b ≤ a
      · rw [if_pos hv] at hn; cases hn
      · rintro ⟨h, _⟩
        have h : (0 : Int) ≤ a - b := h
        omega
  | true =>
    have hh := (C40_signed a b 0 ha hb).2.1
    show Meets (.amt true) (validOr .sub (sCheckedSub a b)) _
    rw [hh]
    refine meets_fit (t := .amt true) rfl _ _ (fun y hy => ?_) (fun hn => ?_)
    · unfold sExactly at hy
      by_cases hv : SValid (Int.sub a b)
      · rw [show (Int.sub a b) = a - b from rfl] at hv
        rw [if_pos hv] at hy
        cases hy
        exact ⟨rfl, hv⟩
      · rw [show (Int.sub a b) = a - b from rfl] at hv
        rw [if_neg hv] at hy; cases hy
    · unfold sExactly at hn
      by_cases hv : SValid (Int.sub a b)
      · rw [show (Int.sub a b) = a - b from rfl] at hv
        rw [if_pos hv] at hn; cases hn
      · exact hv

theorem does_mul {s : Bool} (a n : V s) (ha : In (.amt s) (z (t := .amt s) a)) :
    Does (.amt s) (mulT a n) (fit (.amt s) (z (t := .amt s) a * z (t := .amt s) n)) := by
  refine ⟨_, rfl, ?_⟩
  cases s with
  | false =>
    have hh := (C40_unsigned a a n ((valid_iff _).2 ha) ((valid_iff _).2 ha)).2.2.1
    show Meets (.amt false) (validOr .mul (checkedMul a n)) _
    rw [hh]
    refine meets_fit (t := .amt false) rfl _ _ (fun y hy => ?_) (fun hn => ?_)
    · unfold exactly at hy
      by_cases hv : Valid (Nat.mul a n)
      · rw [show Nat.mul a n = a * n from rfl] at hv
        rw [if_pos hv] at hy
        cases hy
        have e : z (t := .amt false) (Nat.mul a n) = z (t := .amt false) a * z (t := .amt false) n := Int.natCast_mul _ _
        exact ⟨e, e ▸ (valid_iff _).1 hv⟩
      · rw [show Nat.mul a n = a * n from rfl] at hv
        rw [if_neg hv] at hy; cases hy
    · unfold exactly at hn
      by_cases hv : Valid (Nat.mul a n)
      · rw [show Nat.mul a n = a * n from rfl] at hv
        rw [if_pos hv] at hn; cases hn
      · have e : z (t := .amt false) (Nat.mul a n) = z (t := .amt false) a * z (t := .amt false) n := Int.natCast_mul _ _
        exact fun h => hv ((valid_iff _).2 (by rw [e]; exact h))
  | true =>
    have hh := (C40_signed a a n ha ha).2.2.1
    show Meets (.amt true) (validOr .mul (sCheckedMul a n)) _
    rw [hh]
    refine meets_fit (t := .amt true) rfl _ _ (fun y hy => ?_) (fun hn => ?_)
    · unfold sExactly at hy
      by_cases hv : SValid (Int.mul a n)
      · rw [show (Int.mul a n) = a * n from rfl] at hv
        rw [if_pos hv] at hy
        cases hy
        exact ⟨rfl, hv⟩
      · rw [show (Int.mul a n) = a * n from rfl] at hv
        rw [if_neg hv] at hy; cases hy
    · unfold sExactly at hn
      by_cases hv : SValid (Int.mul a n)
      · rw [show (Int.mul a n) = a * n from rfl] at hv
        rw [if_pos hv] at hn; cases hn
      · exact hv

theorem tdiv_valid (a n : Int) (h : SValid a) : SValid (a.tdiv n) := by
  rw [natAbs_valid] at *
  rw [Int.natAbs_tdiv]
  exact Nat.le_trans (Nat.div_le_self _ _) h

theorem tmod_valid (a n : Int) (h : SValid a) : SValid (a.tmod n) := by
  rw [natAbs_valid] at *
  rw [Int.natAbs_tmod]
  exact Nat.le_trans (Nat.mod_le _ _) h

theorem does_div {s : Bool} (a n : V s) (ha : In (.amt s) (z (t := .amt s) a)) :
    Does (.amt s) (divT a n) (xDiv (z (t := .amt s) a) (z (t := .amt s) n)) := by
  refine ⟨_, rfl, ?_⟩
  cases s with
  | false =>
    have hv := (valid_iff _).2 ha
    have hh := (C40_unsigned a a n hv hv).2.2.2.1
    show Meets (.amt false) (validOr .div (checkedDiv a n)) _
    rw [hh]
    change Nat at a n
    refine meets_div (t := .amt false) rfl _ _ _ (fun h => ?_) (fun h => ?_)
    · have h : (n : Int) = 0 := h
      exact if_pos (by omega)
    · have h : ¬ (n : Int) = 0 := h
      refine ⟨a / n, if_neg (by omega), Int.ofNat_tdiv a n, ?_⟩
      have e : ((a : Int).tdiv n) = z (t := .amt false) (a / n) := (Int.ofNat_tdiv a n).symm
      show In _ ((a : Int).tdiv n)
      rw [e]
      exact (valid_iff _).1 (Nat.le_trans (Nat.div_le_self _ _) hv)
  | true =>
    have hh := (C40_signed a a n ha ha).2.2.2.1
    show Meets (.amt true) (validOr .div (sCheckedDiv a n)) _
    rw [hh]
    exact meets_div (t := .amt true) rfl _ _ _ (fun h => if_pos h)
      (fun h => ⟨_, if_neg h, rfl, tdiv_valid _ _ ha⟩)

theorem does_rem {s : Bool} (a n : V s) (ha : In (.amt s) (z (t := .amt s) a)) :
    Does (.amt s) (remT a n) (xRem (z (t := .amt s) a) (z (t := .amt s) n)) := by
  refine ⟨_, rfl, ?_⟩
  cases s with
  | false =>
    have hv := (valid_iff _).2 ha
    have hh := (C40_unsigned a a n hv hv).2.2.2.2
    show Meets (.amt false) (validOr .rem (checkedRem a n)) _
    rw [hh]
    change Nat at a n
    refine meets_div (t := .amt false) rfl _ _ _ (fun h => ?_) (fun h => ?_)
    · have h : (n : Int) = 0 := h
      exact if_pos (by omega)
    · have h : ¬ (n : Int) = 0 := h
      have e : ((a : Int).tmod n) = z (t := .amt false) (a % n) := rfl
      refine ⟨a % n, if_neg (by omega), e.symm, ?_⟩
      show In _ ((a : Int).tmod n)
      rw [e]
      exact (valid_iff _).1 (Nat.le_trans (Nat.mod_le _ _) hv)
  | true =>
    have hh := (C40_signed a a n ha ha).2.2.2.2
    show Meets (.amt true) (validOr .rem (sCheckedRem a n)) _
    rw [hh]
    exact meets_div (t := .amt true) rfl _ _ _ (fun h => if_pos h)
      (fun h => ⟨_, if_neg h, rfl, tmod_valid _ _ ha⟩)

theorem does_divZ {s : Bool} (a n : V s) (ha : In (.amt s) (z (t := .amt s) a)) (hn : z (t := .amt s) n ≠ 0) :
    Does (.amt s) (((kind s).divNZ a n).map .ok) (xDiv (z (t := .amt s) a) (z (t := .amt s) n)) := by
  unfold xDiv
  rw [if_neg hn]
  cases s with
  | false =>
    have hv := (valid_iff _).2 ha
    have hh := (C40_div_nonzero a n 0 1 hv (by decide) (by decide)).1
    refine ⟨.ok (Nat.div a n), ?_, ?_⟩
    · show Option.map _ (divNonZero a n) = _
      rw [hh]; rfl
    · have e : z (t := .amt false) (Nat.div a n) = (z (t := .amt false) a).tdiv (z (t := .amt false) n) :=
        Int.ofNat_tdiv a n
      exact ⟨by rw [e], (valid_iff _).1 (Nat.le_trans (Nat.div_le_self _ _) hv)⟩
  | true =>
    have hh := (C40_div_nonzero 0 0 a n (by decide) ha hn).2
    refine ⟨.ok (Int.tdiv a n), ?_, rfl, tdiv_valid _ _ ha⟩
    show Option.map _ (sDivNonZero a n) = _
    rw [hh]; rfl

theorem does_neg (a : Nat) (ha : In (.amt false) (z (t := .amt false) a)) :
    Does (.amt true) ((neg a).map .ok) (.ok (-(z (t := .amt false) a))) := by
  have hv := (valid_iff _).2 ha
  rw [(C40_conversions a a 0 0 hv hv (by decide) (by decide)).2.1]
  refine ⟨_, rfl, rfl, ?_⟩
  have ha : 0 ≤ (a : Int) ∧ (a : Int) ≤ 2100000000000000 := ha
  show _ ≤ -(a : Int) ∧ -(a : Int) ≤ _
  omega

theorem does_sNeg (a : Int) (ha : In (.amt true) (z (t := .amt true) a)) :
    Does (.amt true) ((sNeg a).map .ok) (.ok (-(z (t := .amt true) a))) := by
  rw [(C40_conversions 0 0 a a (by decide) (by decide) ha ha).2.2.2.1]
  refine ⟨_, rfl, rfl, ?_⟩
  have ha : -2100000000000000 ≤ (a : Int) ∧ (a : Int) ≤ 2100000000000000 := ha
  show _ ≤ -(a : Int) ∧ -(a : Int) ≤ _
  omega

theorem does_fee (w f : Nat) :
    Does (.amt false) (some (mulByWeight f w)) (xFee (z (t := .wt) w) (z (t := .rate) f)) := by
  refine ⟨_, rfl, ?_⟩
  rw [C42_mul_by_weight]
  unfold xFee
  show Meets _ _ (fit _ ((feeOf f w : Nat) : Int))
  by_cases h : Valid (feeOf f w)
  · rw [if_pos h]
    have := (valid_iff _).1 h
    exact ⟨if_pos this, this⟩
  · rw [if_neg h]
    exact ⟨.overflow, if_neg fun hh => h ((valid_iff _).2 hh), by decide⟩

theorem does_rate (a w : Nat) (ha : In (.amt false) (z (t := .amt false) a)) :
    Does .rate (some (divByWeightFloor a w)) (xRate (z (t := .amt false) a) (z (t := .wt) w)) := by
  refine ⟨_, rfl, ?_⟩
  have hv := (valid_iff _).2 ha
  have hfit : fit (.amt false) (1000 * (a : Int) / (w : Int) * 4000) =
      fit (.amt false) ((1000 * a / w * 4000 : Nat) : Int) := by
    rw [Int.natCast_mul, Int.natCast_ediv, Int.natCast_mul]; rfl
  unfold xRate divByWeightFloor
  rw [u64Mul_thousand a hv]
  show Meets _ (match u64Div (a * 1000) w with | some r => _ | none => _)
    (if (w : Int) = 0 then _ else fit (.amt false) (1000 * (a : Int) / (w : Int) * 4000))
  unfold u64Div
  by_cases hw : w = 0
  · rw [if_pos hw, if_pos (by omega)]
    exact ⟨.divZero, rfl, by decide⟩
  · rw [if_neg hw, if_neg (by omega), hfit, Nat.mul_comm 1000 a]
    generalize a * 1000 / w = q
    simp only []
    have hm := (C40_unsigned q q 4000)
    by_cases hq : Valid (q * 4000)
    · have hq' : Valid q := by unfold Valid at *; omega
      rw [(C40_from_sat q q).2 ⟨rfl, hq'⟩]
      show Meets .rate (validOr .mul (checkedMul q 4000)) _
      rw [(hm hq' hq').2.2.1, exactly, if_pos hq]
      refine ⟨if_pos ((valid_iff _).1 hq), ?_⟩
      unfold Valid at hq
      show 0 ≤ ((q * 4000 : Nat) : Int) ∧ ((q * 4000 : Nat) : Int) < 2 ^ 64
      omega
    · have hf : fit (.amt false) ((q * 4000 : Nat) : Int) = .error .overflow :=
        if_neg fun hh => hq ((valid_iff _).2 hh)
      rw [hf]
      by_cases hq' : Valid q
      · rw [(C40_from_sat q q).2 ⟨rfl, hq'⟩]
        show Meets .rate (validOr .mul (checkedMul q 4000)) _
        rw [(hm hq' hq').2.2.1, exactly, if_neg hq]
        exact ⟨.overflow, rfl, by decide⟩
      · cases hfs : fromSat q with
        | ok m => exact absurd ((C40_from_sat q m).1 hfs).2 hq'
        | error _ => exact ⟨.overflow, rfl, by decide⟩

theorem does_weight (a f : Nat) (ha : In (.amt false) (z (t := .amt false) a)) :
    Does .wt (divByFeeRateFloor a f) (xWeight (z (t := .amt false) a) (z (t := .rate) f)) := by
  have hv := (valid_iff _).2 ha
  unfold xWeight divByFeeRateFloor
  rw [u64Mul_thousand a hv]
  show Does .wt (some (validOr .div (u64Div (a * 1000) (kwuCeil f))))
    (if (f : Int) = 0 then _ else .ok (1000 * (a : Int) / (((f : Int) + 3999) / 4000)))
  have hk : kwuCeil f = (f + 3999) / 4000 := by
    unfold kwuCeil; rw [divCeil_eq _ _ (by omega)]; rfl
  refine ⟨_, rfl, ?_⟩
  rw [hk]
  refine meets_div (t := .wt) rfl _ _ _ (fun h => ?_) (fun h => ?_)
  · exact if_pos (by omega)
  · refine ⟨a * 1000 / ((f + 3999) / 4000), if_neg (by omega), ?_⟩
    have e : (1000 * (a : Int) / (((f : Int) + 3999) / 4000)) = ((a * 1000 / ((f + 3999) / 4000) : Nat) : Int) := by
      rw [Int.natCast_ediv, Int.natCast_mul, Int.natCast_ediv, Int.natCast_add, Int.mul_comm]; rfl
    rw [e]
    refine ⟨rfl, Int.natCast_nonneg _, ?_⟩
    have h1 := Nat.div_le_self (a * 1000) ((f + 3999) / 4000)
    generalize a * 1000 / ((f + 3999) / 4000) = q at *
    unfold Valid at hv
    omega

/-! ### Whole expressions -/

/-- What the code's result `o` says about exact value `d` with faults `fs`; `lin` says that errors are kept. -/
def Sound (t : Ty) (o : Option (Res (Val t))) (d : Option Int) (fs : List Fault) (lin : Prop) : Prop :=
  ∃ r, o = some r ∧
    match r with
    | .ok x => d = some (z x) ∧ In t (z x)
    | .error op => d = none ∧ fs ≠ [] ∧ (isDivByZero op = true → .divZero ∈ fs) ∧
        (lin → isOverflow op = true → .overflow ∈ fs)

theorem overflow_iff (op : MathOp) : isOverflow op = true ↔ ¬ isDivByZero op = true := by cases op <;> decide

/-- A unary operator whose lifting keeps the error. -/
theorem sound1 {t t' : Ty} {p : Option (Val t)} {o : Option (Res (Val t))} {d : Option Int} {fs : List Fault}
    {lin : Prop} {T : Val t → Option (Res (Val t'))} {R : Res (Val t) → Option (Res (Val t'))}
    {f : Int → Except Fault Int} (h : Sound t o d fs lin) (hp : ∀ a, p = some a → o = some (.ok a))
    (hT : ∀ a, In t (z a) → Does t' (T a) (f (z a))) (hR : ∀ a, R (.ok a) = T a)
    (hE : ∀ e, R (.error e) = some (.error e)) :
    Sound t' (pick1 p o T R) (on1 d f) (fs ++ why1 d f) lin := by
  obtain ⟨r, rfl, h⟩ := h
  have step : ∀ a, d = some (z a) → In t (z a) → Sound t' (T a) (on1 d f) (fs ++ why1 d f) lin := by
    intro a hd hi
    obtain ⟨r', e, hm⟩ := hT a hi
    refine ⟨r', e, ?_⟩
    subst hd
    unfold on1 why1
    cases r' with
    | ok x =>
      obtain ⟨h1, h2⟩ := hm
      simp only [Option.bind_some]
      rw [h1]
      exact ⟨rfl, h2⟩
    | error op =>
      obtain ⟨k, h1, h2⟩ := hm
      simp only [Option.bind_some]
      rw [h1]
      refine ⟨rfl, ?_, fun hz => ?_, fun _ ho => ?_⟩
      · intro e; exact absurd (List.append_eq_nil_iff.1 e).2 (List.cons_ne_nil _ _)
      · rw [h2.1 hz]
        exact List.mem_append_right _ (List.mem_singleton.2 rfl)
      · have : k ≠ .divZero := fun hk => (overflow_iff op).1 ho (h2.2 hk)
        cases k with
        | overflow => exact List.mem_append_right _ (List.mem_singleton.2 rfl)
        | divZero => exact absurd rfl this
  cases hpe : p with
  | some a =>
    have := hp a hpe
    cases this
    exact step a h.1 h.2
  | none =>
    cases r with
    | ok a =>
      show Sound t' (R (.ok a)) _ _ _
      rw [hR]
      exact step a h.1 h.2
    | error e =>
      show Sound t' (R (.error e)) _ _ _
      rw [hE]
      obtain ⟨h1, h2, h3, h4⟩ := h
      refine ⟨_, rfl, ?_, ?_, fun hz => List.mem_append_left _ (h3 hz), fun hl ho => List.mem_append_left _ (h4 hl ho)⟩
      · rw [h1]; rfl
      · intro e; exact h2 (List.append_eq_nil_iff.1 e).1

/-- What a lifting does with an error of an operand: it keeps it, or, if allowed, puts an overflow in its place. -/
def Keeps (c : Prop) (e e' : MathOp) : Prop := e' = e ∨ (c ∧ isOverflow e' = true)

/-- A binary operator with its four overloads. -/
theorem sound2 {t u t' : Ty} {pl : Option (Val t)} {pr : Option (Val u)} {ol : Option (Res (Val t))}
    {or' : Option (Res (Val u))} {dl dr : Option Int} {fl fr : List Fault} {ll lr lin c : Prop}
    {tt : Val t → Val u → Option (Res (Val t'))} {tr : Val t → Res (Val u) → Option (Res (Val t'))}
    {rt : Res (Val t) → Val u → Option (Res (Val t'))} {rr : Res (Val t) → Res (Val u) → Option (Res (Val t'))}
    {f : Int → Int → Except Fault Int} (hl : Sound t ol dl fl ll) (hr : Sound u or' dr fr lr)
    (hpl : ∀ a, pl = some a → ol = some (.ok a)) (hpr : ∀ a, pr = some a → or' = some (.ok a))
    (hlin : lin → ll ∧ lr ∧ (c → pl.isSome ∨ pr.isSome))
    (htt : ∀ a b, In t (z a) → In u (z b) → Does t' (tt a b) (f (z a) (z b)))
    (htr : ∀ a b, In t (z a) → In u (z b) → Does t' (tr a (.ok b)) (f (z a) (z b)))
    (htrE : ∀ a e, tr a (.error e) = some (.error e))
    (hrt : ∀ a b, In t (z a) → In u (z b) → Does t' (rt (.ok a) b) (f (z a) (z b)))
    (hrtE : ∀ e b, rt (.error e) b = some (.error e))
    (hrr : ∀ a b, rr (.ok a) (.ok b) = tt a b)
    (hrrL : ∀ e r, ∃ e', rr (.error e) r = some (.error e') ∧ Keeps c e e')
    (hrrR : ∀ a e, ∃ e', rr (.ok a) (.error e) = some (.error e') ∧ Keeps c e e') :
    Sound t' (pick2 pl pr ol or' tt tr rt rr) (on2 dl dr f) (fl ++ fr ++ why2 dl dr f) lin := by
  obtain ⟨l, rfl, hl⟩ := hl
  obtain ⟨r, rfl, hr⟩ := hr
  have step : ∀ (o : Option (Res (Val t'))) (a : Val t) (b : Val u), dl = some (z a) → dr = some (z b) → Does t' o (f (z a) (z b)) →
      Sound t' o (on2 dl dr f) (fl ++ fr ++ why2 dl dr f) lin := by
    intro o a b hd he hm
    obtain ⟨r', e, hm⟩ := hm
    refine ⟨r', e, ?_⟩
    subst hd he
    unfold on2 why2 why1
    cases r' with
    | ok x =>
      obtain ⟨h1, h2⟩ := hm
      simp only [Option.bind_some]
      rw [h1]
      exact ⟨rfl, h2⟩
    | error op =>
      obtain ⟨k, h1, h2⟩ := hm
      simp only [Option.bind_some]
      rw [h1]
      refine ⟨rfl, ?_, fun hz => ?_, fun _ ho => ?_⟩
      · intro e; exact absurd (List.append_eq_nil_iff.1 e).2 (List.cons_ne_nil _ _)
      · rw [h2.1 hz]
        exact List.mem_append_right _ (List.mem_singleton.2 rfl)
      · have : k ≠ .divZero := fun hk => (overflow_iff op).1 ho (h2.2 hk)
        cases k with
        | overflow => exact List.mem_append_right _ (List.mem_singleton.2 rfl)
        | divZero => exact absurd rfl this
  -- an error of the left operand
  have errL : ∀ (o : Option (Res (Val t'))) e e', l = .error e → o = some (.error e') →
      (e' = e ∨ (¬ lin ∧ isOverflow e' = true)) → Sound t' o (on2 dl dr f) (fl ++ fr ++ why2 dl dr f) lin := by
    intro o e e' hle ho hk
    subst hle
    obtain ⟨h1, h2, h3, h4⟩ := hl
    refine ⟨_, ho, ?_, ?_, fun hz => ?_, fun hlin' hov => ?_⟩
    · rw [h1]; rfl
    · intro e; exact h2 (List.append_eq_nil_iff.1 (List.append_eq_nil_iff.1 e).1).1
    · rcases hk with rfl | ⟨_, hk⟩
      · exact List.mem_append_left _ (List.mem_append_left _ (h3 hz))
      · exact absurd hz ((overflow_iff _).1 hk)
    · rcases hk with rfl | ⟨hk, _⟩
      · exact List.mem_append_left _ (List.mem_append_left _ (h4 (hlin hlin').1 hov))
      · exact absurd hlin' hk
  have errR : ∀ (o : Option (Res (Val t'))) e e', r = .error e → o = some (.error e') →
      (e' = e ∨ (¬ lin ∧ isOverflow e' = true)) → Sound t' o (on2 dl dr f) (fl ++ fr ++ why2 dl dr f) lin := by
    intro o e e' hle ho hk
    subst hle
    obtain ⟨h1, h2, h3, h4⟩ := hr
    refine ⟨_, ho, ?_, ?_, fun hz => ?_, fun hlin' hov => ?_⟩
    · rw [h1]; cases dl <;> rfl
    · intro e; exact h2 (List.append_eq_nil_iff.1 (List.append_eq_nil_iff.1 e).1).2
    · rcases hk with rfl | ⟨_, hk⟩
      · exact List.mem_append_left _ (List.mem_append_right _ (h3 hz))
      · exact absurd hz ((overflow_iff _).1 hk)
    · rcases hk with rfl | ⟨hk, _⟩
      · exact List.mem_append_left _ (List.mem_append_right _ (h4 (hlin hlin').2.1 hov))
      · exact absurd hlin' hk
  cases hple : pl with
  | some a =>
    have := hpl a hple
    cases this
    cases hpre : pr with
    | some b =>
      have := hpr b hpre
      cases this
      exact step _ a b hl.1 hr.1 (htt a b hl.2 hr.2)
    | none =>
      cases r with
      | ok b => exact step _ a b hl.1 hr.1 (htr a b hl.2 hr.2)
      | error e => exact errR _ e e rfl (htrE a e) (.inl rfl)
  | none =>
    cases hpre : pr with
    | some b =>
      have := hpr b hpre
      cases this
      cases l with
      | ok a => exact step _ a b hl.1 hr.1 (hrt a b hl.2 hr.2)
      | error e => exact errL _ e e rfl (hrtE e b) (.inl rfl)
    | none =>
      have hnl : c → ¬ lin := fun hc hlin' => by
        have := (hlin hlin').2.2 hc
        rw [hple, hpre] at this
        rcases this with h | h <;> cases h
      cases l with
      | error e =>
        obtain ⟨e', he, hk⟩ := hrrL e r
        exact errL _ e e' rfl he (hk.imp id fun h => ⟨hnl h.1, h.2⟩)
      | ok a =>
        cases r with
        | error e =>
          obtain ⟨e', he, hk⟩ := hrrR a e
          exact errR _ e e' rfl he (hk.imp id fun h => ⟨hnl h.1, h.2⟩)
        | ok b => exact step _ a b hl.1 hr.1 (by
            show Does t' (rr (.ok a) (.ok b)) _
            rw [hrr]; exact htt a b hl.2 hr.2)

/-- An assignment is the overload for two results, whatever the type of the right operand. -/
theorem pick1_assign {α γ : Type} (l : Option (Res α)) (p : Option α) (o : Option (Res α))
    (T : Res α → α → Option (Res γ)) (R : Res α → Res α → Option (Res γ))
    (hp : ∀ a, p = some a → o = some (.ok a)) (h : ∀ x a, T x a = R x (.ok a)) (hl : l ≠ none)
    (tt : α → α → Option (Res γ)) (tr : α → Res α → Option (Res γ)) (rt : Res α → α → Option (Res γ)) :
    (l.bind fun x => pick1 p o (T x) (R x)) = pick2 none none l o tt tr rt R := by
  cases l with
  | none => exact absurd rfl hl
  | some x =>
    cases hpe : p with
    | none => rfl
    | some a =>
      rw [hp a hpe]
      exact h x a

theorem plain_eval {t : Ty} (e : Ex t) (a : Val t) (h : plain e = some a) : eval e = some (.ok a) := by
  cases e <;> cases h
  rfl

theorem sound {t : Ty} (e : Ex t) (h : Ok e) : Sound t (eval e) (den e) (faults e) (Linear e) := by
  induction e with
  | lit x => exact ⟨_, rfl, rfl, h⟩
  | valid x => exact ⟨_, rfl, rfl, h⟩
  | add l r ihl ihr =>
    refine sound2 (c := True) (ihl h.1) (ihr h.2) (plain_eval l) (plain_eval r) (fun h => ⟨h.1, h.2.1, fun _ => h.2.2⟩)
      does_add (fun a b ha hb => ?_) (fun _ _ => rfl) (fun a b ha hb => ?_) (fun _ _ => rfl) (fun _ _ => rfl)
      (fun _ _ => ⟨.add, rfl, .inr ⟨trivial, rfl⟩⟩) (fun _ _ => ⟨.add, rfl, .inr ⟨trivial, rfl⟩⟩)
    · rw [Int.add_comm]; exact does_add b a hb ha
    · exact does_add a b ha hb
  | sub l r ihl ihr =>
    exact sound2 (c := True) (ihl h.1) (ihr h.2) (plain_eval l) (plain_eval r) (fun h => ⟨h.1, h.2.1, fun _ => h.2.2⟩)
      does_sub does_sub (fun _ _ => rfl) does_sub (fun _ _ => rfl) (fun _ _ => rfl)
      (fun _ _ => ⟨.sub, rfl, .inr ⟨trivial, rfl⟩⟩) (fun _ _ => ⟨.sub, rfl, .inr ⟨trivial, rfl⟩⟩)
  | addAssign l r ihl ihr =>
    have hne : eval l ≠ none := by
      obtain ⟨_, e, _⟩ := ihl h.1
      rw [e]; exact Option.some_ne_none _
    show Sound _ ((eval l).bind fun x => _) _ _ _
    rw [pick1_assign (eval l) (plain r) (eval r) addAssignT addAssignR (plain_eval r) (fun x a => by cases x <;> rfl) hne
      addTT addTR addRT]
    refine sound2 (c := True) (ihl h.1) (ihr h.2) (fun _ h => by cases h) (fun _ h => by cases h) (fun h => h.elim)
      does_add (fun a b ha hb => ?_) (fun _ _ => rfl) (fun a b ha hb => ?_) (fun _ _ => rfl) (fun _ _ => rfl)
      (fun _ _ => ⟨.add, rfl, .inr ⟨trivial, rfl⟩⟩) (fun _ _ => ⟨.add, rfl, .inr ⟨trivial, rfl⟩⟩)
    · rw [Int.add_comm]; exact does_add b a hb ha
    · exact does_add a b ha hb
  | subAssign l r ihl ihr =>
    have hne : eval l ≠ none := by
      obtain ⟨_, e, _⟩ := ihl h.1
      rw [e]; exact Option.some_ne_none _
    show Sound _ ((eval l).bind fun x => _) _ _ _
    rw [pick1_assign (eval l) (plain r) (eval r) subAssignT subAssignR (plain_eval r) (fun x a => by cases x <;> rfl) hne
      subTT subTR subRT]
    exact sound2 (c := True) (ihl h.1) (ihr h.2) (fun _ h => by cases h) (fun _ h => by cases h) (fun h => h.elim)
      does_sub does_sub (fun _ _ => rfl) does_sub (fun _ _ => rfl) (fun _ _ => rfl)
      (fun _ _ => ⟨.sub, rfl, .inr ⟨trivial, rfl⟩⟩) (fun _ _ => ⟨.sub, rfl, .inr ⟨trivial, rfl⟩⟩)
  | mul e n ih =>
    exact sound1 (ih h) (plain_eval e) (fun a ha => does_mul a n ha) (fun _ => rfl) (fun _ => rfl)
  | nMul n e ih =>
    refine sound1 (ih h) (plain_eval e) (fun a ha => ?_) (fun _ => rfl) (fun _ => rfl)
    rw [Int.mul_comm]
    exact does_mul a n ha
  | div e n ih =>
    exact sound1 (ih h) (plain_eval e) (fun a ha => does_div a n ha) (fun _ => rfl) (fun _ => rfl)
  | divZ e n ih =>
    exact sound1 (p := none) (ih h.1) (fun _ h => by cases h) (fun a ha => does_divZ a n ha h.2) (fun _ => rfl)
      (fun _ => rfl)
  | rem e n ih =>
    exact sound1 (ih h) (plain_eval e) (fun a ha => does_rem a n ha) (fun _ => rfl) (fun _ => rfl)
  | neg e ih =>
    have := sound1 (t := .amt false) (t' := .amt true) (p := none) (f := fun x => .ok (-x)) (R := negR) (ih h) (fun _ h => by cases h) does_neg (fun _ => rfl) (fun _ => rfl)
    rw [show why1 (den e) (fun x => .ok (-x)) = [] by cases den e <;> rfl, List.append_nil] at this
    exact this
  | sNeg e ih =>
    have := sound1 (t := .amt true) (t' := .amt true) (p := none) (f := fun x => .ok (-x)) (R := sNegR) (ih h) (fun _ h => by cases h) does_sNeg (fun _ => rfl) (fun _ => rfl)
    rw [show why1 (den e) (fun x => .ok (-x)) = [] by cases den e <;> rfl, List.append_nil] at this
    exact this
  | mulWF w f ihw ihf =>
    exact sound2 (c := False) (ihw h.1) (ihf h.2) (plain_eval w) (plain_eval f)
      (fun h => ⟨h.1, h.2, fun h => h.elim⟩)
      (fun a b _ _ => does_fee a b) (fun a b _ _ => does_fee a b) (fun _ _ => rfl) (fun a b _ _ => does_fee a b)
      (fun _ _ => rfl) (fun _ _ => rfl) (fun e _ => ⟨e, rfl, .inl rfl⟩) (fun _ e => ⟨e, rfl, .inl rfl⟩)
  | mulFW f w ihf ihw =>
    exact sound2 (c := False) (ihf h.1) (ihw h.2) (plain_eval f) (plain_eval w)
      (fun h => ⟨h.1, h.2, fun h => h.elim⟩)
      (fun a b _ _ => does_fee b a) (fun a b _ _ => does_fee b a) (fun _ _ => rfl) (fun a b _ _ => does_fee b a)
      (fun _ _ => rfl) (fun _ _ => rfl) (fun e _ => ⟨e, rfl, .inl rfl⟩) (fun _ e => ⟨e, rfl, .inl rfl⟩)
  | divAW a w iha ihw =>
    exact sound2 (c := False) (iha h.1) (ihw h.2) (plain_eval a) (plain_eval w)
      (fun h => ⟨h.1, h.2, fun h => h.elim⟩)
      (fun a b h _ => does_rate a b h) (fun a b h _ => does_rate a b h) (fun _ _ => rfl) (fun a b h _ => does_rate a b h)
      (fun _ _ => rfl) (fun _ _ => rfl) (fun e _ => ⟨e, rfl, .inl rfl⟩) (fun _ e => ⟨e, rfl, .inl rfl⟩)
  | divAF a f iha ihf =>
    exact sound2 (c := False) (iha h.1) (ihf h.2) (plain_eval a) (plain_eval f)
      (fun h => ⟨h.1, h.2, fun h => h.elim⟩)
      (fun a b h _ => does_weight a b h) (fun a b h _ => does_weight a b h) (fun _ _ => rfl)
      (fun a b h _ => does_weight a b h)
      (fun _ _ => rfl) (fun _ _ => rfl) (fun e _ => ⟨e, rfl, .inl rfl⟩) (fun _ e => ⟨e, rfl, .inl rfl⟩)

/-! ### The claims -/

/-- No expression panics; its result is valid exactly when every operation in it has an exact result its type can
hold, and then it is the exact value. -/
theorem C87_exact {t : Ty} (e : Ex t) (h : Ok e) :
    ∃ r, eval e = some r ∧ (isValid r = true ↔ (den e).isSome) ∧ (ok r).map z = den e ∧
      ∀ x, r = .ok x → In t (z x) := by
  obtain ⟨r, he, hs⟩ := sound e h
  refine ⟨r, he, ?_⟩
  cases r with
  | ok x =>
    rw [hs.1]
    exact ⟨⟨fun _ => rfl, fun _ => rfl⟩, rfl, fun y hy => by cases hy; exact hs.2⟩
  | error op =>
    rw [hs.1]
    exact ⟨⟨fun h => (by cases h), fun h => (by cases h)⟩, rfl, fun y hy => by cases hy⟩

/-- An error is never spurious; `is_div_by_zero` is only reported if a division by zero took place. -/
theorem C87_div_by_zero {t : Ty} (e : Ex t) (h : Ok e) (op : MathOp) (he : eval e = some (.error op)) :
    faults e ≠ [] ∧ (isDivByZero op = true → Fault.divZero ∈ faults e) := by
  obtain ⟨r, he', hs⟩ := sound e h
  rw [he] at he'
  cases he'
  exact ⟨hs.2.1, hs.2.2.1⟩

/-- `is_overflow` is only reported if something overflowed, in expressions that add and subtract plain values.
Missing: sums and differences of two results, and assignments, where the claim is false (`C87_overflow_refuted`). -/
theorem C87_overflow_partial {t : Ty} (e : Ex t) (h : Ok e) (hl : Linear e) (op : MathOp)
    (he : eval e = some (.error op)) (ho : isOverflow op = true) : Fault.overflow ∈ faults e := by
  obtain ⟨r, he', hs⟩ := sound e h
  rw [he] at he'
  cases he'
  exact hs.2.2.2 hl ho

/-- A division by zero under a sum of two results is reported as an overflow, although nothing overflowed; under a
sum with a plain value it is reported as what it is. -/
theorem C87_overflow_refuted :
    (∃ e : Ex (.amt false), Ok e ∧ eval e = some (.error .add) ∧ isOverflow .add = true ∧ faults e = [.divZero]) ∧
    (∃ e : Ex (.amt false), Ok e ∧ ∃ op, eval e = some (.error op) ∧ isDivByZero op = true ∧ faults e = [.divZero]) := by
  refine ⟨⟨.add (.div (.lit (5 : Nat)) (0 : Nat)) (.valid (3 : Nat)), ?_, rfl, rfl, rfl⟩,
    ⟨.add (.div (.lit (5 : Nat)) (0 : Nat)) (.lit (3 : Nat)), ?_, .div, rfl, rfl, rfl⟩⟩ <;>
  exact ⟨(by decide : In (.amt false) 5), (by decide : In (.amt false) 3)⟩

/-- Every error is an overflow or a division by zero, not both, the second for a quotient or a remainder and for
nothing else; the accessors agree. -/
theorem C87_accessors {α : Type} (r : Res α) (d : α) :
    (∀ op, (isOverflow op = true ↔ isDivByZero op = false) ∧
      (isDivByZero op = true ↔ op = .div ∨ op = .rem)) ∧
    (isValid r = true ↔ ∃ x, r = .ok x) ∧ (isError r = true ↔ ∃ op, r = .error op) ∧
    (∀ x, unwrap r = some x ↔ r = .ok x) ∧ (∀ op, unwrapErr r = some op ↔ r = .error op) ∧
    (∀ x, ok r = some x ↔ r = .ok x) ∧ unwrapOr r d = (ok r).getD d := by
  refine ⟨fun op => by cases op <;> simp [isOverflow, isDivByZero], ?_⟩
  cases r with
  | ok x =>
    refine ⟨⟨fun _ => ⟨x, rfl⟩, fun _ => rfl⟩, ⟨fun h => (by cases h), fun ⟨_, h⟩ => (by cases h)⟩,
      fun y => ⟨fun h => (by cases h; rfl), fun h => (by cases h; rfl)⟩,
      fun y => ⟨fun h => (by cases h), fun h => (by cases h)⟩,
      fun y => ⟨fun h => (by cases h; rfl), fun h => (by cases h; rfl)⟩, rfl⟩
  | error op =>
    refine ⟨⟨fun h => (by cases h), fun ⟨_, h⟩ => (by cases h)⟩, ⟨fun _ => ⟨op, rfl⟩, fun _ => rfl⟩,
      fun y => ⟨fun h => (by cases h), fun h => (by cases h)⟩,
      fun y => ⟨fun h => (by cases h; rfl), fun h => (by cases h; rfl)⟩,
      fun y => ⟨fun h => (by cases h), fun h => (by cases h)⟩, rfl⟩

/-- The ratio of two amounts: exact, no panic (`i64::MIN / -1` cannot be reached), an error only for a zero divisor. -/
theorem C87_ratio (a b : Nat) (x y : Int) (hx : SValid x) :
    divTT a b = (if b = 0 then .error .div else .ok (a / b)) ∧
    sDivTT x y = (if y = 0 then .error .div else .ok (x.tdiv y)) := by
  constructor
  · unfold divTT u64Div
    by_cases h : b = 0
    · rw [if_pos h, if_pos h]; rfl
    · rw [if_neg h, if_neg h]; rfl
  · unfold sDivTT i64Div
    by_cases h : y = 0
    · rw [if_pos h, if_pos h]; rfl
    · unfold SValid at hx
      rw [if_neg h, if_neg h, if_neg (by omega)]; rfl

/-- Results of weights and fee rates have assignments, but unchecked ones: they are exact when nothing overflows, and
panic (or wrap, without overflow checks) when something does, instead of becoming an error. -/
theorem C87_unchecked_assign (x b : Nat) :
    (x + b < 2 ^ 64 → wAddAssignT (.ok x) b = some (.ok (x + b)) ∧ wAddAssignR (.ok x) (.ok b) = some (.ok (x + b))) ∧
    (2 ^ 64 ≤ x + b → wAddAssignT (.ok x) b = none ∧ wAddAssignR (.ok x) (.ok b) = none) ∧
    (b ≤ x → wSubAssignT (.ok x) b = some (.ok (x - b)) ∧ wSubAssignR (.ok x) (.ok b) = some (.ok (x - b))) ∧
    (x < b → wSubAssignT (.ok x) b = none ∧ wSubAssignR (.ok x) (.ok b) = none) := by
  refine ⟨fun h => ?_, fun h => ?_, fun h => ?_, fun h => ?_⟩
  · have e : u64Add x b = some (x + b) := if_pos h
    exact ⟨congrArg (Option.map Except.ok) e, congrArg (Option.map Except.ok) e⟩
  · have e : u64Add x b = none := if_neg (by omega)
    exact ⟨congrArg (Option.map Except.ok) e, congrArg (Option.map Except.ok) e⟩
  · have e : u64Sub x b = some (x - b) := if_pos h
    exact ⟨congrArg (Option.map Except.ok) e, congrArg (Option.map Except.ok) e⟩
  · have e : u64Sub x b = none := if_neg (by omega)
    exact ⟨congrArg (Option.map Except.ok) e, congrArg (Option.map Except.ok) e⟩

/-! ### Examples -/

/-- `a1 + a2 - spend - fee` of the documentation (result.rs 35-55). -/
def change : Ex (.amt false) :=
  .sub (.sub (.add (.lit (1000000 : Nat)) (.lit (765432 : Nat))) (.lit (1200000 : Nat))) (.lit (100 : Nat))

theorem change_ok : Ok change :=
  ⟨⟨⟨(by decide : In (.amt false) 1000000), (by decide : In (.amt false) 765432)⟩,
    (by decide : In (.amt false) 1200000)⟩, (by decide : In (.amt false) 100)⟩

example : eval change = some (.ok (565332 : Nat)) ∧ den change = some 565332 ∧ Linear change :=
  ⟨rfl, rfl, ⟨⟨trivial, trivial, .inl rfl⟩, trivial, .inr rfl⟩, trivial, .inr rfl⟩

/-- A fee computed from a fee rate, itself computed from an amount and a weight; then a refund that is too large. -/
example : ∃ e : Ex (.amt false), Ok e ∧ Linear e ∧ eval e = some (.error .sub) ∧ faults e = [.overflow] :=
  ⟨.sub (.mulWF (.lit (400 : Nat)) (.divAW (.lit (1000 : Nat)) (.lit (800 : Nat)))) (.lit (501 : Nat)),
    ⟨⟨(by decide : In .wt 400), (by decide : In (.amt false) 1000), (by decide : In .wt 800)⟩,
      (by decide : In (.amt false) 501)⟩,
    ⟨⟨trivial, trivial, trivial⟩, trivial, .inr rfl⟩, rfl, rfl⟩

/-- Division by a zero fee rate. -/
example : ∃ e : Ex .wt, Ok e ∧ eval e = some (.error .div) ∧ isDivByZero .div = true :=
  ⟨.divAF (.add (.lit (123 : Nat)) (.lit (467 : Nat))) (.lit (0 : Nat)),
    ⟨⟨(by decide : In (.amt false) 123), (by decide : In (.amt false) 467)⟩, (by decide : In .rate 0)⟩, rfl, rfl⟩

/-- Signed arithmetic: `-(3 - 0) - 5`, truncating division and remainder. -/
example : ∃ e : Ex (.amt true), Ok e ∧ eval e = some (.ok (-8 : Int)) ∧ Linear e :=
  ⟨.sub (.neg (.sub (.lit (3 : Nat)) (.lit (0 : Nat)))) (.lit (5 : Int)),
    ⟨⟨(by decide : In (.amt false) 3), (by decide : In (.amt false) 0)⟩, (by decide : In (.amt true) 5)⟩, rfl,
    ⟨⟨trivial, trivial, .inl rfl⟩, trivial, .inr rfl⟩⟩

example : SValid (-7) ∧ sDivTT (-7) 2 = .ok (-3) := ⟨by decide, rfl⟩
example : wAddAssignT (.ok 18446744073709551615) 1 = none := rfl

end NumOp
end Amt
end Btc
