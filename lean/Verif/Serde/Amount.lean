import Verif.Serde.Data
import Verif.Units.AmountFloat
/-!
# Serde for amounts and fee rates

/repo/units/src/amount/serde.rs and /repo/units/src/fee_rate/serde.rs.  The doubles of the standard library are parameters as in C86: `parse` reads
one, `shw` prints one, `cast` converts an integer.
-/
namespace Btc.Serde
open Amt

/-- The modules `as_sat`, `as_btc`, `as_str`. -/
inductive Style where
  | sat
  | btc
  | str
deriving DecidableEq

/-- A type `A: Into<SignedAmount> + TryFrom<SignedAmount>`; `none` of `into` is a panic. -/
structure Conv (α : Type) where
  into : α → Option Int
  tryFrom : Int → R α

/-- `Amount` (signed amounts from amounts: signed.rs 561, unsigned.rs 651). -/
def unsigned : Conv Nat where
  into := toSigned
  tryFrom x :=
    match toUnsigned x with
    | none => .error .panic
    | some r => ofExcept r

/-- `SignedAmount`. -/
def signed : Conv Int := ⟨some, .ok⟩

/-- What is written for a signed amount (amount/serde.rs 72-73, 232-233, 401-402); `none` is a panic. -/
def serSigned (parse : Bytes → Option Nat) : Style → Int → Option SVal
  | .sat, x => some (.sint 64 x)
  | .btc, x => (sToFloatIn parse x .btc).map .f64
  | .str, x => (sToStringIn x .btc).map .str

/-- `serialize` (68-74, 228-234, 397-403). -/
def serAmount {α : Type} (C : Conv α) (parse : Bytes → Option Nat) (st : Style) (a : α) : Option SVal := (C.into a).bind (serSigned parse st)

/-- The first half of `deserialize` (82-83, 242-245, 411-414). -/
def deSigned (cast : Int → Nat) (shw : Nat → Bytes) (st : Style) (F : Fmt) (v : SVal) : R Int :=
  match st with
  | .sat =>
    match deSint 64 F v with
    | .error e => .error e
    | .ok z => ofExcept (sFromSat z)
  | .btc =>
    match deF64 cast F v with
    | .error e => .error e
    | .ok b => ofExcept (sFromBtc shw b)
  | .str =>
    match deString F v with
    | .error e => .error e
    | .ok s => ofExcept (sFromStrIn s .btc)

/-- `deserialize` (77-86, 237-248, 406-417). -/
def deAmount {α : Type} (C : Conv α) (cast : Int → Nat) (shw : Nat → Bytes) (st : Style) (F : Fmt) (v : SVal) : R α :=
  match deSigned cast shw st F v with
  | .error e => .error e
  | .ok x => C.tryFrom x

/-- `opt::serialize` (103-108, 265-273, 434-442): only `as_sat` uses the implementation for `Option`. -/
def serAmountOpt {α : Type} (C : Conv α) (parse : Bytes → Option Nat) (st : Style) : Option α → Option SVal
  | none => some .none
  | some a =>
    match st with
    | .sat => (serAmount C parse .sat a).map .some
    | .btc => serAmount C parse .btc a
    | .str => serAmount C parse .str a

/-- `opt::deserialize` (110-145, 275-310, 444-479). -/
def deAmountOpt {α : Type} (C : Conv α) (cast : Int → Nat) (shw : Nat → Bytes) (st : Style) (F : Fmt) (v : SVal) : R (Option α) :=
  deOption (deAmount C cast shw st F) F v

/-- `vec::serialize` (167-172, 331-339, 500-508). -/
def serAmountVec {α : Type} (C : Conv α) (parse : Bytes → Option Nat) (st : Style) (l : List α) : Option SVal :=
  (l.mapM (serAmount C parse st)).map .seq

/-- `vec::deserialize` (174-209, 341-376, 510-545); both kinds of amount have 8 bytes. -/
def deAmountVec {α : Type} (C : Conv α) (cast : Int → Nat) (shw : Nat → Bytes) (st : Style) (F : Fmt) (v : SVal) : R (List α) :=
  match F.visit .seq v with
  | some (.seq hint vs) => readVec 8 (deAmount C cast shw st F) hint vs
  | _ => .error .refused

/-! ### Fee rates -/

/-- The modules `as_sat_per_kwu_floor`, `as_sat_per_vb_floor`, `as_sat_per_vb_ceil`. -/
inductive RateStyle where
  | kwuFloor
  | vbFloor
  | vbCeil
deriving DecidableEq

/-- `serialize` (fee_rate/serde.rs 39-41, 161-163, 286-288). -/
def serRate (st : RateStyle) (rate : Nat) : SVal :=
  match st with
  | .kwuFloor => .uint 64 (Amt.kwuFloor rate)
  | .vbFloor => .uint 64 (Amt.vbFloor rate)
  | .vbCeil => .uint 64 (Amt.vbCeil rate)

/-- `deserialize` (44-51, 167-174, 292-299). -/
def deRate (st : RateStyle) (F : Fmt) (v : SVal) : R Nat :=
  match deUint 64 F v with
  | .error e => .error e
  | .ok n =>
    match fromSat n with
    | .error _ => .error .refused
    | .ok a =>
      match st with
      | .kwuFloor => ofExcept (rateFromKwu a)
      | .vbFloor => ofExcept (rateFromVb a)
      | .vbCeil => ofExcept (rateFromVb a)

/-- `opt` (66-97, 190-221, 315-346). -/
def serRateOpt (st : RateStyle) : Option Nat → SVal
  | none => .none
  | some r => .some (serRate st r)
def deRateOpt (st : RateStyle) (F : Fmt) (v : SVal) : R (Option Nat) := deOption (deRate st F) F v

/-- `vec` (114-146, 239-271, 364-396). -/
def serRateVec (st : RateStyle) (l : List Nat) : SVal := .seq (l.map (serRate st))
def deRateVec (st : RateStyle) (F : Fmt) (v : SVal) : R (List Nat) :=
  match F.visit .seq v with
  | some (.seq hint vs) => readVec 8 (deRate st F) hint vs
  | _ => .error .refused

end Btc.Serde
