import Verif.Units.AmountText
/-!
# Amounts and `f64`

/repo/units/src/amount/unsigned.rs 158-160, 241-279 and /repo/units/src/amount/signed.rs 168-170, 246-311.

A double is its 64-bit pattern, a natural number below `2^64`.  The two operations of the standard library
that the code calls, `f64::to_string` and `str::parse::<f64>`, are parameters; what is assumed of them is
stated with the theorems (C86).
-/
namespace Btc
namespace Amt

/-- The bits of `f64::INFINITY`. -/
def infBits : Nat := 2047 * 2 ^ 52

/-- `value < 0.0` on bit patterns: the sign bit is set, the value is not `-0.0` and not NaN. -/
def ltZero (v : Nat) : Bool := 2 ^ 63 < v && v ≤ 2 ^ 63 + infBits

/-- `Amount::to_float_in` (unsigned.rs 241-243); `none` is a panic of `unwrap`. -/
def toFloatIn (parse : Bytes → Option Nat) (a : Nat) (d : Denom) : Option Nat := parse (toStringIn a d)

/-- `Amount::to_btc` (unsigned.rs 259). -/
def toBtc (parse : Bytes → Option Nat) (a : Nat) : Option Nat := toFloatIn parse a .btc

/-- `Amount::from_float_in` (unsigned.rs 270-279). -/
def fromFloatIn (shw : Nat → Bytes) (v : Nat) (d : Denom) : Except PErr Nat :=
  if ltZero v then .error (.outOfRange ⟨false, false⟩) else fromStrIn (shw v) d

/-- `Amount::from_btc` (unsigned.rs 158-160). -/
def fromBtc (shw : Nat → Bytes) (v : Nat) : Except PErr Nat := fromFloatIn shw v .btc

/-- `SignedAmount::to_float_in` (signed.rs 246-248). -/
def sToFloatIn (parse : Bytes → Option Nat) (x : Int) (d : Denom) : Option Nat :=
  match sToStringIn x d with
  | none => none
  | some s => parse s

/-- `SignedAmount::to_btc` (signed.rs 296). -/
def sToBtc (parse : Bytes → Option Nat) (x : Int) : Option Nat := sToFloatIn parse x .btc

/-- `SignedAmount::from_float_in` (signed.rs 307-311): no check of the sign. -/
def sFromFloatIn (shw : Nat → Bytes) (v : Nat) (d : Denom) : Except PErr Int := sFromStrIn (shw v) d

/-- `SignedAmount::from_btc` (signed.rs 168-170). -/
def sFromBtc (shw : Nat → Bytes) (v : Nat) : Except PErr Int := sFromFloatIn shw v .btc

end Amt
end Btc
