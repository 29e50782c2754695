import Verif.Text
/-!
# Model of amounts (units/src/amount/{unsigned,signed,result}.rs) and fees (fee_rate/mod.rs, weight.rs)

An `Amount` is its satoshi count as a `Nat` (`u64` in the code), a `SignedAmount` is an `Int` (`i64`).
Machine limits are explicit: the checked `u64`/`i64` operations below return `none` outside the range of
the type, and plain `+`, `*` that would overflow are a panic (outer `none`).
-/
namespace Btc
namespace Amt

/-- Checked `u64` arithmetic (core library). -/
def u64Sub (a b : Nat) : Option Nat := if b ≤ a then some (a - b) else none
def u64Mul (a b : Nat) : Option Nat := if a * b < 2 ^ 64 then some (a * b) else none
def u64Add (a b : Nat) : Option Nat := if a + b < 2 ^ 64 then some (a + b) else none
def u64Div (a b : Nat) : Option Nat := if b = 0 then none else some (a / b)
def u64Rem (a b : Nat) : Option Nat := if b = 0 then none else some (a % b)
/-- `u64::div_ceil` for a nonzero divisor: quotient, plus one if there is a remainder. -/
def divCeil (a b : Nat) : Nat := if a % b > 0 then a / b + 1 else a / b

/-- Checked `i64` arithmetic (core library); division truncates towards zero, `MIN / -1` overflows. -/
def i64 (x : Int) : Option Int := if -(2 ^ 63) ≤ x ∧ x < 2 ^ 63 then some x else none
def i64Div (a b : Int) : Option Int :=
  if b = 0 then none else if a = -(2 ^ 63) ∧ b = -1 then none else some (a.tdiv b)
def i64Rem (a b : Int) : Option Int :=
  if b = 0 then none else if a = -(2 ^ 63) ∧ b = -1 then none else some (a.tmod b)

/-- `OutOfRangeError` (error.rs). -/
structure OutOfRange where
  isSigned : Bool
  greater : Bool
deriving DecidableEq, Repr

/-- `Amount::MAX` (unsigned.rs 62), `SignedAmount::MAX`, `MIN` (signed.rs 57, 60). -/
def MAX : Nat := 21000000 * 100000000
def SMAX : Int := 21000000 * 100000000
def SMIN : Int := -21000000 * 100000000

/-- `Amount::from_sat` (unsigned.rs 94-100). -/
def fromSat (sat : Nat) : Except OutOfRange Nat :=
  if sat > MAX then .error ⟨false, true⟩ else .ok sat

/-- `let Ok(x) = from_sat(..) else { return None }; Some(x)`. -/
def okSat (sat : Nat) : Option Nat := match fromSat sat with | .ok a => some a | .error _ => none

/-- `SignedAmount::from_sat` (signed.rs 89-97). -/
def sFromSat (sat : Int) : Except OutOfRange Int :=
  if sat < SMIN then .error ⟨true, false⟩ else if sat > SMAX then .error ⟨true, true⟩ else .ok sat
def sOkSat (sat : Int) : Option Int := match sFromSat sat with | .ok a => some a | .error _ => none

/-- `.expect(..)` on a `Result`: `none` is the panic. -/
def expect {ε α : Type} : Except ε α → Option α
  | .ok a => some a
  | .error _ => none

/-! ### `Amount` -/

/-- `from_sat_u32` (131-138), `from_btc_u16` (173-181). -/
def fromSatU32 (n : UInt32) : Option Nat := expect (fromSat n.toNat)
def fromBtcU16 (n : UInt16) : Option Nat :=
  (u64Mul n.toNat 100000000).bind fun sats => expect (fromSat sats)

/-- `checked_add` (387-391); the unchecked `+` panics on overflow (outer `none`). -/
def checkedAdd (a b : Nat) : Option (Option Nat) := (u64Add a b).map okSat
/-- `checked_sub` (398-402). -/
def checkedSub (a b : Nat) : Option Nat := (u64Sub a b).bind okSat
/-- `checked_mul` (409-413). -/
def checkedMul (a n : Nat) : Option Nat := (u64Mul a n).bind okSat
/-- `checked_div` (422-426). -/
def checkedDiv (a n : Nat) : Option Nat := (u64Div a n).bind okSat
/-- `checked_rem` (433-437). -/
def checkedRem (a n : Nat) : Option Nat := (u64Rem a n).bind okSat
/-- `Div<NonZeroU64>` (result.rs 101-105), `n ≠ 0`; outer `none` is the panic of `expect`. -/
def divNonZero (a n : Nat) : Option Nat := expect (fromSat (a / n))

/-- The cast `as i64` of a `u64`. -/
def asI64 (n : Nat) : Int := if n < 2 ^ 63 then (n : Int) else (n : Int) - 2 ^ 64

/-- `to_signed` (443-446) and `From<Amount> for SignedAmount` (signed.rs 569-572). -/
def toSigned (a : Nat) : Option Int := expect (sFromSat (asI64 a))

/-! ### `SignedAmount` -/

/-- `from_sat_i32` (126-132), `from_btc_i16` (183-191). -/
def sFromSatI32 (n : Int32) : Option Int := expect (sFromSat n.toInt)
def sFromBtcI16 (n : Int16) : Option Int :=
  (i64 (n.toInt * 100000000)).bind fun sats => expect (sFromSat sats)

/-- `checked_add` (436), `checked_sub` (448), `checked_mul` (460), `checked_div` (473), `checked_rem` (484). -/
def sCheckedAdd (a b : Int) : Option Int := (i64 (a + b)).bind sOkSat
def sCheckedSub (a b : Int) : Option Int := (i64 (a - b)).bind sOkSat
def sCheckedMul (a n : Int) : Option Int := (i64 (a * n)).bind sOkSat
def sCheckedDiv (a n : Int) : Option Int := (i64Div a n).bind sOkSat
def sCheckedRem (a n : Int) : Option Int := (i64Rem a n).bind sOkSat

/-- `Div<NonZeroI64>` (result.rs 187-191), `n ≠ 0`. -/
def sDivNonZero (a n : Int) : Option Int :=
  match i64Div a n with
  | none => none
  | some x => expect (sFromSat x)

/-- `abs` (392-398): `i64::abs` panics for `MIN`. -/
def sAbs (a : Int) : Option Int :=
  match i64 (if a < 0 then -a else a) with
  | none => none
  | some x => expect (sFromSat x)

/-- The cast `as u64` of an `i64`. -/
def asU64 (x : Int) : Nat := if x < 0 then (x + 2 ^ 64).toNat else x.toNat

/-- `to_unsigned` (510-518) and `TryFrom<SignedAmount> for Amount` (unsigned.rs 596). -/
def toUnsigned (a : Int) : Option (Except OutOfRange Nat) :=
  if a < 0 then some (.error ⟨false, false⟩) else (expect (fromSat (asU64 a))).map .ok

/-- `unsigned_abs` (404-406). -/
def unsignedAbs (a : Int) : Option Nat :=
  match sAbs a with
  | none => none
  | some x => match toUnsigned x with
    | some (.ok n) => some n
    | _ => none

/-- `positive_sub` (495-501). -/
def positiveSub (a b : Int) : Option Int :=
  if a < 0 ∨ b < 0 ∨ b > a then none else sCheckedSub a b

/-- `Neg for SignedAmount` (result.rs 231-238) and `Neg for Amount` (225-229). -/
def sNeg (a : Int) : Option Int :=
  match i64 (-a) with
  | none => none
  | some x => expect (sFromSat x)
def neg (a : Nat) : Option Int := (toSigned a).bind sNeg

/-- `signed_sub` (unsigned.rs 454-457). -/
def signedSub (a b : Nat) : Option Int :=
  match toSigned a, toSigned b with
  | some x, some y => sCheckedSub x y
  | _, _ => none

/-! ### Operators on results and sums -/

/-- `MathOp` (units/src/result.rs 358-375). -/
inductive MathOp where
  | add | sub | mul | div | rem | neg
deriving DecidableEq, Repr

/-- `NumOpResult` (result.rs 95-100) as `Except MathOp`, `valid_or_error` (343-348). -/
abbrev Res (α : Type) := Except MathOp α
def validOr {α : Type} (op : MathOp) : Option α → Res α
  | some a => .ok a
  | none => .error op

/-- `Sum for NumOpResult<Amount>` (amount/result.rs 252-273); outer `none` is a panic. -/
def sumStep (acc x : Res Nat) : Option (Res Nat) :=
  match acc, x with
  | .ok a, .ok b => (checkedAdd a b).map (validOr .add)
  | _, _ => some (.error .add)
def sum (xs : List (Res Nat)) : Option (Res Nat) :=
  xs.foldl (fun acc x => acc.bind (sumStep · x)) (some (.ok 0))

/-- `Sum for NumOpResult<SignedAmount>` (275-296). -/
def sSumStep (acc x : Res Int) : Res Int :=
  match acc, x with
  | .ok a, .ok b => validOr .add (sCheckedAdd a b)
  | _, _ => .error .add
def sSum (xs : List (Res Int)) : Res Int := xs.foldl sSumStep (.ok 0)

/-- `AmountDecoder::end` (unsigned.rs 636-640): eight little-endian bytes. -/
def decode (bs : Arr 8) : Except OutOfRange Nat := fromSat (leNat bs.1)

/-- `hex_u64_prefixed`, `hex_u64_unprefixed` (parse_int.rs 235-333); only the kind of failure is kept. -/
def hexPrefixed (s : Bytes) : Option Nat :=
  match s with
  | 48 :: 120 :: r | 48 :: 88 :: r =>
    match parseUInt (2 ^ 64 - 1) 16 r with | .ok n => some n | .error _ => none
  | _ => none
def hexUnprefixed (s : Bytes) : Option Nat :=
  match s with
  | 48 :: 120 :: _ | 48 :: 88 :: _ => none
  | _ => match parseUInt (2 ^ 64 - 1) 16 s with | .ok n => some n | .error _ => none

/-- `from_sat_hex`, `from_sat_unprefixed_hex` (unsigned.rs 288-307). -/
def fromSatHex (s : Bytes) : Option Nat := (hexPrefixed s).bind okSat
def fromSatUnprefixedHex (s : Bytes) : Option Nat := (hexUnprefixed s).bind okSat

/-- `SignedAmount::from_sat_u64`, `from_sat_hex`, `from_sat_unprefixed_hex` (signed.rs 141-148, 259-280). -/
def sFromSatU64 (n : Nat) : Option Int := (i64 (n : Int)).bind sOkSat
def sFromSatHex (s : Bytes) : Option Int := (hexPrefixed s).bind sFromSatU64
def sFromSatUnprefixedHex (s : Bytes) : Option Int := (hexUnprefixed s).bind sFromSatU64

/-! ### Fee rates: satoshi per million virtual bytes (`u64`), weights (`u64`) -/

/-- `from_sat_per_kwu`, `from_sat_per_vb`, `from_sat_per_kvb` (fee_rate/mod.rs 72-109). -/
def rateFromKwuU32 (n : UInt32) : Option Nat := u64Mul n.toNat 4000
def rateFromVbU32 (n : UInt32) : Option Nat := u64Mul n.toNat 1000000
def rateFromKvbU32 (n : UInt32) : Option Nat := u64Mul n.toNat 1000

/-- `from_per_kwu`, `from_per_vb`, `from_per_kvb` (79-119). -/
def rateFromKwu (a : Nat) : Res Nat := validOr .mul (checkedMul a 4000)
def rateFromVb (a : Nat) : Res Nat := validOr .mul (checkedMul a 1000000)
def rateFromKvb (a : Nat) : Res Nat := validOr .mul (checkedMul a 1000)

/-- `to_sat_per_kwu_ceil` (127) and the other readers (123-143). -/
def kwuCeil (rate : Nat) : Nat := divCeil rate 4000
def kwuFloor (rate : Nat) : Nat := rate / 4000
def vbCeil (rate : Nat) : Nat := divCeil rate 1000000
def vbFloor (rate : Nat) : Nat := rate / 1000000
def kvbCeil (rate : Nat) : Nat := divCeil rate 1000
def kvbFloor (rate : Nat) : Nat := rate / 1000

/-- `mul_by_weight` (212-221). -/
def mulByWeight (rate wu : Nat) : Res Nat :=
  match u64Mul (kwuCeil rate) wu with
  | some feeKwu =>
    match fromSat (divCeil feeKwu 1000) with
    | .ok fee => .ok fee
    | .error _ => .error .mul
  | none => .error .mul

/-- `to_fee` (199-205). -/
def toFee (rate wu : Nat) : Nat :=
  match mulByWeight rate wu with
  | .ok fee => fee
  | .error _ => MAX

/-- `div_by_weight_floor` (amount/unsigned.rs 463-478). -/
def divByWeightFloor (a wu : Nat) : Res Nat :=
  match u64Mul a 1000 with
  | some sats =>
    match u64Div sats wu with
    | some r => match fromSat r with
      | .ok x => rateFromKwu x
      | .error _ => .error .mul
    | none => .error .div
  | none => .error .mul

/-- `div_by_weight_ceil` (496-512). -/
def divByWeightCeil (a wu : Nat) : Res Nat :=
  if wu = 0 then .error .div
  else match u64Mul a 1000 with
    | some sats => match fromSat (divCeil sats wu) with
      | .ok x => rateFromKwu x
      | .error _ => .error .mul
    | none => .error .mul

/-- `div_by_fee_rate_floor` (519-526); outer `none` is the overflow panic of `* 1_000`. -/
def divByFeeRateFloor (a rate : Nat) : Option (Res Nat) :=
  match u64Mul a 1000 with
  | none => none
  | some msats => some (validOr .div (u64Div msats (kwuCeil rate)))

/-- `div_by_fee_rate_ceil` (532-543). -/
def divByFeeRateCeil (a rate : Nat) : Option (Res Nat) :=
  if kwuCeil rate = 0 then some (.error .div)
  else match u64Mul a 1000 with
    | none => none
    | some msats => some (.ok (divCeil msats (kwuCeil rate)))

end Amt
end Btc
