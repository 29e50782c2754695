import Verif.Units.Amount

/-!
# `NumOpResult`: operators on amounts, fee rates, weights and on results of such operators

`units/src/result.rs`, `units/src/amount/result.rs`, `units/src/fee.rs` and the macros of
`units/src/internal_macros.rs`.  `Valid x` is `.ok x`, `Error(NumOpError(op))` is `.error op`.  A function that may
panic returns an `Option` whose `none` is the panic.  The four by-value/by-reference variants that
`impl_op_for_references!` (internal_macros.rs 22-69) makes of every operator copy their operands and call the
by-value one; only that one is modelled.
-/

namespace Btc
namespace Amt
namespace NumOp

/-! ### `NumOpResult<T>` (result.rs 93-238) -/

/-- `map` (result.rs 106-111). -/
def map {α β : Type} (r : Res α) (f : α → β) : Res β :=
  match r with
  | .ok x => .ok (f x)
  | .error e => .error e

/-- `map` with a closure that may panic. -/
def mapP {α β : Type} (r : Res α) (f : α → Option β) : Option (Res β) :=
  match r with
  | .ok x => (f x).map .ok
  | .error e => some (.error e)

/-- `and_then` (result.rs 216-224); the closure may panic. -/
def andThen {α β : Type} (r : Res α) (f : α → Option (Res β)) : Option (Res β) :=
  match r with
  | .ok x => f x
  | .error e => some (.error e)

/-- `unwrap` and `expect` (124-145). -/
def unwrap {α : Type} : Res α → Option α
  | .ok x => some x
  | .error _ => none

/-- `unwrap_err` (154-159). -/
def unwrapErr {α : Type} : Res α → Option MathOp
  | .ok _ => none
  | .error e => some e

/-- `unwrap_or` (170-175), `unwrap_or_else` (181-189; the closure is its value). -/
def unwrapOr {α : Type} (r : Res α) (d : α) : α :=
  match r with
  | .ok x => x
  | .error _ => d

/-- `ok` (193-198). -/
def ok {α : Type} : Res α → Option α
  | .ok x => some x
  | .error _ => none

/-- `is_valid` (228-233). -/
def isValid {α : Type} : Res α → Bool
  | .ok _ => true
  | .error _ => false

/-- `is_error` (237). -/
def isError {α : Type} (r : Res α) : Bool := !isValid r

/-- `MathOp::is_overflow` (result.rs 379-381). -/
def isOverflow : MathOp → Bool
  | .add => true
  | .sub => true
  | .mul => true
  | .neg => true
  | _ => false

/-- `MathOp::is_div_by_zero` (385). -/
def isDivByZero (op : MathOp) : Bool := !isOverflow op

/-! ### The two amount types

The two halves of amount/result.rs (35-120 for `Amount` with `u64`, 122-206 for `SignedAmount` with `i64`) are the
same text over the checked functions of the type, so they are modelled once, over the type's functions. -/

/-- `Amount` (`false`) is a `Nat`, `SignedAmount` (`true`) an `Int`; `u64` and `i64` alike. -/
abbrev V : Bool → Type
  | false => Nat
  | true => Int

/-- The checked functions of the type: `checked_add` (its inner `u64` addition can panic),
`checked_sub`, `checked_mul`, `checked_div`, `checked_rem`, and division by `NonZero` (amount/result.rs 101-105,
187-191). -/
structure Kind (T : Type) where
  add : T → T → Option (Option T)
  sub : T → T → Option T
  mul : T → T → Option T
  div : T → T → Option T
  rem : T → T → Option T
  divNZ : T → T → Option T

/-- The functions of `Amount` (amount/unsigned.rs) and `SignedAmount` (amount/signed.rs). -/
def kind : (s : Bool) → Kind (V s)
  | false => ⟨checkedAdd, checkedSub, checkedMul, checkedDiv, checkedRem, divNonZero⟩
  | true => ⟨fun a b => some (sCheckedAdd a b), sCheckedSub, sCheckedMul, sCheckedDiv, sCheckedRem, sDivNonZero⟩

variable {s : Bool}

/-- `T + T` (amount/result.rs 36-40, 122-126). -/
def addTT (a b : V s) : Option (Res (V s)) := ((kind s).add a b).map (validOr .add)

/-- `T + R` (41-45, 127-131): `rhs.and_then(|a| a + self)`. -/
def addTR (a : V s) (r : Res (V s)) : Option (Res (V s)) := andThen r fun x => addTT x a

/-- `R + R` (result.rs 242-254). -/
def addRR (l r : Res (V s)) : Option (Res (V s)) :=
  match l, r with
  | .ok l, .ok r => addTT l r
  | _, _ => some (.error .add)

/-- `R + T` (result.rs 256-263): `rhs + self`. -/
def addRT (l : Res (V s)) (b : V s) : Option (Res (V s)) := addTR b l

/-- `T - T` (amount/result.rs 47-51, 133-137). -/
def subTT (a b : V s) : Option (Res (V s)) := some (validOr .sub ((kind s).sub a b))

/-- `T - R` (52-61, 138-147). -/
def subTR (a : V s) (r : Res (V s)) : Option (Res (V s)) :=
  match r with
  | .ok x => subTT a x
  | .error e => some (.error e)

/-- `R - R` (result.rs 265-277). -/
def subRR (l r : Res (V s)) : Option (Res (V s)) :=
  match l, r with
  | .ok l, .ok r => subTT l r
  | _, _ => some (.error .sub)

/-- `R - T` (result.rs 279-291). -/
def subRT (l : Res (V s)) (b : V s) : Option (Res (V s)) :=
  match l with
  | .ok l => subTT l b
  | .error e => some (.error e)

/-- `R += T` (internal_macros.rs 97-108, `impl_add_assign_for_results!`). -/
def addAssignT (l : Res (V s)) (b : V s) : Option (Res (V s)) :=
  match l with
  | .error _ => some (.error .add)
  | .ok l => addTT l b

/-- `R += R` (internal_macros.rs 110-119). -/
def addAssignR (l r : Res (V s)) : Option (Res (V s)) :=
  match l, r with
  | .ok x, .ok y => addAssignT (.ok x) y
  | _, _ => some (.error .add)

/-- `R -= T` (internal_macros.rs 131-142). -/
def subAssignT (l : Res (V s)) (b : V s) : Option (Res (V s)) :=
  match l with
  | .error _ => some (.error .sub)
  | .ok l => subTT l b

/-- `R -= R` (internal_macros.rs 144-153). -/
def subAssignR (l r : Res (V s)) : Option (Res (V s)) :=
  match l, r with
  | .ok x, .ok y => subAssignT (.ok x) y
  | _, _ => some (.error .sub)

/-- `T * n` (amount/result.rs 63-67, 149-153). -/
def mulT (a n : V s) : Option (Res (V s)) := some (validOr .mul ((kind s).mul a n))

/-- `R * n` (68-72, 154-158); `R *= n` is `*self = *self * n` (209-210). -/
def mulR (r : Res (V s)) (n : V s) : Option (Res (V s)) := andThen r fun l => mulT l n

/-- `n * T` (73-77, 159-163). -/
def nMulT (n a : V s) : Option (Res (V s)) := some (validOr .mul ((kind s).mul a n))

/-- `n * R` (78-82, 164-168). -/
def nMulR (n : V s) (r : Res (V s)) : Option (Res (V s)) := andThen r fun a => nMulT n a

/-- `T / n` (84-88, 170-174). -/
def divT (a n : V s) : Option (Res (V s)) := some (validOr .div ((kind s).div a n))

/-- `R / n` (89-93, 175-179); `R /= n` is `*self = *self / n` (211-212). -/
def divR (r : Res (V s)) (n : V s) : Option (Res (V s)) := andThen r fun l => divT l n

/-- `R / NonZero` (106-110, 192-196); `R /= NonZero` (215-216). -/
def divZR (r : Res (V s)) (n : V s) : Option (Res (V s)) := mapP r fun l => (kind s).divNZ l n

/-- `T % n` (111-115, 197-201). -/
def remT (a n : V s) : Option (Res (V s)) := some (validOr .rem ((kind s).rem a n))

/-- `R % n` (116-120, 202-206); `R %= n` is `*self = *self % n` (217-218). -/
def remR (r : Res (V s)) (n : V s) : Option (Res (V s)) := andThen r fun l => remT l n

/-- `Amount / Amount` (94-100). -/
def divTT (a b : Nat) : Res Nat := validOr .div (u64Div a b)

/-- `SignedAmount / SignedAmount` (180-186). -/
def sDivTT (a b : Int) : Res Int := validOr .div (i64Div a b)

/-- `-R` for `NumOpResult<Amount>` (240-244). -/
def negR (r : Res Nat) : Option (Res Int) := mapP r neg

/-- `-R` for `NumOpResult<SignedAmount>` (246-250). -/
def sNegR (r : Res Int) : Option (Res Int) := mapP r sNeg

/-! ### Fees (fee.rs 32-184) -/

/-- `Weight * FeeRate` (33-36), `NumOpResult<Weight> * FeeRate` (37-45), `Weight * NumOpResult<FeeRate>` (46-54),
`NumOpResult<Weight> * NumOpResult<FeeRate>` (55-66). -/
def mulWF (w f : Nat) : Option (Res Nat) := some (mulByWeight f w)
def mulWrF (w : Res Nat) (f : Nat) : Option (Res Nat) :=
  match w with
  | .ok w => mulWF w f
  | .error e => some (.error e)
def mulWFr (w : Nat) (f : Res Nat) : Option (Res Nat) :=
  match f with
  | .ok f => mulWF w f
  | .error e => some (.error e)
def mulWrFr (w f : Res Nat) : Option (Res Nat) :=
  match w with
  | .ok w =>
    match f with
    | .ok f => mulWF w f
    | .error e => some (.error e)
  | .error e => some (.error e)

/-- `FeeRate * Weight` and its three liftings (68-101). -/
def mulFW (f w : Nat) : Option (Res Nat) := some (mulByWeight f w)
def mulFrW (f : Res Nat) (w : Nat) : Option (Res Nat) :=
  match f with
  | .ok f => mulFW f w
  | .error e => some (.error e)
def mulFWr (f : Nat) (w : Res Nat) : Option (Res Nat) :=
  match w with
  | .ok w => mulFW f w
  | .error e => some (.error e)
def mulFrWr (f w : Res Nat) : Option (Res Nat) :=
  match f with
  | .ok f =>
    match w with
    | .ok w => mulFW f w
    | .error e => some (.error e)
  | .error e => some (.error e)

/-- `Amount / Weight` and its three liftings (103-142). -/
def divAW (a w : Nat) : Option (Res Nat) := some (divByWeightFloor a w)
def divArW (a : Res Nat) (w : Nat) : Option (Res Nat) :=
  match a with
  | .ok a => divAW a w
  | .error e => some (.error e)
def divAWr (a : Nat) (w : Res Nat) : Option (Res Nat) :=
  match w with
  | .ok w => divAW a w
  | .error e => some (.error e)
def divArWr (a w : Res Nat) : Option (Res Nat) :=
  match a with
  | .ok a =>
    match w with
    | .ok w => divAW a w
    | .error e => some (.error e)
  | .error e => some (.error e)

/-- `Amount / FeeRate` and its three liftings (144-183). -/
def divAF (a f : Nat) : Option (Res Nat) := divByFeeRateFloor a f
def divArF (a : Res Nat) (f : Nat) : Option (Res Nat) :=
  match a with
  | .ok a => divAF a f
  | .error e => some (.error e)
def divAFr (a : Nat) (f : Res Nat) : Option (Res Nat) :=
  match f with
  | .ok f => divAF a f
  | .error e => some (.error e)
def divArFr (a f : Res Nat) : Option (Res Nat) :=
  match a with
  | .ok a =>
    match f with
    | .ok f => divAF a f
    | .error e => some (.error e)
  | .error e => some (.error e)

/-! ### Assignment on results of weights and fee rates (result.rs 294-332)

`Weight`, `FeeRate` and the block intervals implement `AddAssign` with the plain `+` of `u64`/`u32` (weight.rs
213-217, 260-261; fee_rate/mod.rs 225-235, 243-244), so the generic assignments use that. -/

/-- `NumOpResult<Weight> += Weight` (result.rs 295-302); `none` is the overflow of `u64 +`. -/
def wAddAssignT (l : Res Nat) (b : Nat) : Option (Res Nat) :=
  match l with
  | .ok x => (u64Add x b).map .ok
  | .error e => some (.error e)

/-- `NumOpResult<Weight> += NumOpResult<Weight>` (304-312). -/
def wAddAssignR (l r : Res Nat) : Option (Res Nat) :=
  match l, r with
  | .ok x, .ok y => wAddAssignT (.ok x) y
  | _, _ => some (.error .add)

/-- `NumOpResult<Weight> -= Weight` (315-322). -/
def wSubAssignT (l : Res Nat) (b : Nat) : Option (Res Nat) :=
  match l with
  | .ok x => (u64Sub x b).map .ok
  | .error e => some (.error e)

/-- `NumOpResult<Weight> -= NumOpResult<Weight>` (324-332). -/
def wSubAssignR (l r : Res Nat) : Option (Res Nat) :=
  match l, r with
  | .ok x, .ok y => wSubAssignT (.ok x) y
  | _, _ => some (.error .sub)

/-! ### Expressions

A program's expression over these operators.  `lit` is a plain value (type `T`), `valid` a `NumOpResult::Valid`;
every operator yields a `NumOpResult`.  Rust picks the overload by the operands' types; `plain` is that choice. -/

inductive Ty where
  | amt (signed : Bool)
  | wt
  | rate
deriving DecidableEq

abbrev Val : Ty → Type
  | .amt s => V s
  | .wt => Nat
  | .rate => Nat

inductive Ex : Ty → Type where
  | lit {t : Ty} (x : Val t) : Ex t
  | valid {t : Ty} (x : Val t) : Ex t
  | add {s : Bool} (l r : Ex (.amt s)) : Ex (.amt s)
  | sub {s : Bool} (l r : Ex (.amt s)) : Ex (.amt s)
  | addAssign {s : Bool} (l r : Ex (.amt s)) : Ex (.amt s)
  | subAssign {s : Bool} (l r : Ex (.amt s)) : Ex (.amt s)
  | mul {s : Bool} (e : Ex (.amt s)) (n : V s) : Ex (.amt s)
  | nMul {s : Bool} (n : V s) (e : Ex (.amt s)) : Ex (.amt s)
  | div {s : Bool} (e : Ex (.amt s)) (n : V s) : Ex (.amt s)
  | divZ {s : Bool} (e : Ex (.amt s)) (n : V s) : Ex (.amt s)
  | rem {s : Bool} (e : Ex (.amt s)) (n : V s) : Ex (.amt s)
  | neg (e : Ex (.amt false)) : Ex (.amt true)
  | sNeg (e : Ex (.amt true)) : Ex (.amt true)
  | mulWF (w : Ex .wt) (f : Ex .rate) : Ex (.amt false)
  | mulFW (f : Ex .rate) (w : Ex .wt) : Ex (.amt false)
  | divAW (a : Ex (.amt false)) (w : Ex .wt) : Ex .rate
  | divAF (a : Ex (.amt false)) (f : Ex .rate) : Ex .wt

/-- The value of an expression of a plain type. -/
def plain {t : Ty} : Ex t → Option (Val t)
  | .lit x => some x
  | _ => none

/-- The overload chosen for a unary operator (or one with an integer operand). -/
def pick1 {α β : Type} (p : Option α) (e : Option (Res α)) (t : α → Option (Res β)) (r : Res α → Option (Res β)) :
    Option (Res β) :=
  match p with
  | some a => t a
  | none => e.bind r

/-- The overload chosen for a binary operator. -/
def pick2 {α β γ : Type} (pl : Option α) (pr : Option β) (el : Option (Res α)) (er : Option (Res β))
    (tt : α → β → Option (Res γ)) (tr : α → Res β → Option (Res γ)) (rt : Res α → β → Option (Res γ))
    (rr : Res α → Res β → Option (Res γ)) : Option (Res γ) :=
  match pl, pr with
  | some a, some b => tt a b
  | some a, none => er.bind fun y => tr a y
  | none, some b => el.bind fun x => rt x b
  | none, none => el.bind fun x => er.bind fun y => rr x y

/-- Evaluation by the operators above; `none` is a panic.  The left operand of an assignment is a place of type
`NumOpResult`. -/
def eval {t : Ty} : Ex t → Option (Res (Val t))
  | .lit x => some (.ok x)
  | .valid x => some (.ok x)
  | .add l r => pick2 (plain l) (plain r) (eval l) (eval r) addTT addTR addRT addRR
  | .sub l r => pick2 (plain l) (plain r) (eval l) (eval r) subTT subTR subRT subRR
  | .addAssign l r => (eval l).bind fun x => pick1 (plain r) (eval r) (addAssignT x) (addAssignR x)
  | .subAssign l r => (eval l).bind fun x => pick1 (plain r) (eval r) (subAssignT x) (subAssignR x)
  | .mul e n => pick1 (plain e) (eval e) (mulT · n) (mulR · n)
  | .nMul n e => pick1 (plain e) (eval e) (nMulT n) (nMulR n)
  | .div e n => pick1 (plain e) (eval e) (divT · n) (divR · n)
  | .divZ e n => (eval e).bind (divZR · n)
  | .rem e n => pick1 (plain e) (eval e) (remT · n) (remR · n)
  | .neg e => (eval e).bind negR
  | .sNeg e => (eval e).bind sNegR
  | .mulWF w f => pick2 (plain w) (plain f) (eval w) (eval f) mulWF mulWFr mulWrF mulWrFr
  | .mulFW f w => pick2 (plain f) (plain w) (eval f) (eval w) mulFW mulFWr mulFrW mulFrWr
  | .divAW a w => pick2 (plain a) (plain w) (eval a) (eval w) divAW divAWr divArW divArWr
  | .divAF a f => pick2 (plain a) (plain f) (eval a) (eval f) divAF divAFr divArF divArFr

end NumOp
end Amt
end Btc
