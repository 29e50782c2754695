import Verif.Units.Amount
import Verif.Units.LockTime
import Verif.Units.HexInt
/-!
# Weights, and the plain operators of weights, fee rates, heights and intervals

Model of `units/src/weight.rs`, the checked operations and operators of `units/src/fee_rate/mod.rs` (145-264) and the
operators of `units/src/block.rs` (484-627).  A weight is its number of weight units, a fee rate its satoshis per million
virtual bytes, both `u64`; heights, median times and intervals are `u32`.  The plain integer operators depend on the build:
with overflow checks an overflow panics (`none`), without them the result wraps.  `oc` is that choice.
-/
namespace Btc
namespace Wt

/-- `+`, `-`, `*` of a `bits`-bit unsigned integer. -/
def opAdd (bits : Nat) (oc : Bool) (a b : Nat) : Option Nat :=
  if a + b < 2 ^ bits then some (a + b) else if oc then none else some ((a + b) % 2 ^ bits)
def opSub (bits : Nat) (oc : Bool) (a b : Nat) : Option Nat :=
  if b ≤ a then some (a - b) else if oc then none else some (a + 2 ^ bits - b)
def opMul (bits : Nat) (oc : Bool) (a b : Nat) : Option Nat :=
  if a * b < 2 ^ bits then some (a * b) else if oc then none else some (a * b % 2 ^ bits)
/-- `/` and `%` panic on a zero divisor in every build. -/
def opDiv (a b : Nat) : Option Nat := if b = 0 then none else some (a / b)
def opRem (a b : Nat) : Option Nat := if b = 0 then none else some (a % b)

/-- `Weight::WITNESS_SCALE_FACTOR`, `MAX_BLOCK`, `MIN_TRANSACTION` (weight.rs 61-67). -/
def SCALE : Nat := 4
def MAX_BLOCK : Nat := 4000000
def MIN_TRANSACTION : Nat := SCALE * 60

/-- `from_kwu` (71-74), `from_vb` (78-81), `from_vb_unchecked` (85-87). -/
def fromKwu (n : Nat) : Option Nat := Amt.u64Mul n 1000
def fromVb (n : Nat) : Option Nat := Amt.u64Mul n SCALE
def fromVbUnchecked (oc : Bool) (n : Nat) : Option Nat := opMul 64 oc n SCALE

/-- `to_kwu_floor` (119), `to_kwu_ceil` (123), `to_vb_floor`, `to_vbytes_floor` (127-132), `to_vb_ceil`, `to_vbytes_ceil`
(136-141). -/
def toKwuFloor (w : Nat) : Nat := w / 1000
def toKwuCeil (w : Nat) : Nat := Amt.divCeil w 1000
def toVbFloor (w : Nat) : Nat := w / SCALE
def toVbCeil (w : Nat) : Nat := Amt.divCeil w SCALE

/-- `checked_add`, `checked_sub`, `checked_mul`, `checked_div` of weights (148-181) and of fee rates (fee_rate/mod.rs
150-187): the checked operation of `u64`. -/
def checkedAdd (a b : Nat) : Option Nat := Amt.u64Add a b
def checkedSub (a b : Nat) : Option Nat := Amt.u64Sub a b
def checkedMul (a n : Nat) : Option Nat := Amt.u64Mul a n
def checkedDiv (a n : Nat) : Option Nat := Amt.u64Div a n

/-- `from_hex`, `from_unprefixed_hex` (98-115); the text forms of `impl_parse_str_from_int_infallible!` (298) and
`Display` (197-205). -/
def fromHex (s : Bytes) : Except HexInt.Err Nat := HexInt.prefixed 64 s
def fromUnprefixedHex (s : Bytes) : Except HexInt.Err Nat := HexInt.unprefixed 64 s
def fromStr (s : Bytes) : Except IntErr Nat := parseUInt (2 ^ 64 - 1) 10 s
def display (alternate : Bool) (w : Nat) : Bytes :=
  if alternate then decBytes w ++ [32, 119, 117] else decBytes w

/-- `Sum` (weight.rs 278-296; fee_rate/mod.rs 246-264; block.rs 591-627): the standard library adds with `+` from zero. -/
def sum (bits : Nat) (oc : Bool) (ws : List Nat) : Option Nat :=
  ws.foldl (fun acc w => acc.bind fun a => opAdd bits oc a w) (some 0)

/-- A program over the operators: of weights (212-276) and fee rates (fee_rate/mod.rs 224-244) with `bits = 64`, of heights,
median times and intervals (block.rs 484-589) with `bits = 32`.  The assigning operators are the plain ones followed by a
store (weight.rs 260-276, internal_macros.rs). -/
inductive Prog where
  | lit (n : Nat)
  | add (l r : Prog)
  | sub (l r : Prog)
  /-- `Weight * u64` and `u64 * Weight`. -/
  | mul (l r : Prog)
  | div (l r : Prog)
  | rem (l r : Prog)

/-- Running a program; `none` is a panic. -/
def Prog.run (bits : Nat) (oc : Bool) : Prog → Option Nat
  | .lit n => some n
  | .add l r => (l.run bits oc).bind fun a => (r.run bits oc).bind fun b => opAdd bits oc a b
  | .sub l r => (l.run bits oc).bind fun a => (r.run bits oc).bind fun b => opSub bits oc a b
  | .mul l r => (l.run bits oc).bind fun a => (r.run bits oc).bind fun b => opMul bits oc a b
  | .div l r => (l.run bits oc).bind fun a => (r.run bits oc).bind fun b => opDiv a b
  | .rem l r => (l.run bits oc).bind fun a => (r.run bits oc).bind fun b => opRem a b

/-- `BlockMtpInterval::to_relative_mtp_interval_floor`, `_ceil` (block.rs 435-455), and `From<NumberOf512Seconds>`
(474-482). -/
def mtpIntervalFloor (s : UInt32) : Option UInt16 := Lock.secondsFloor s
def mtpIntervalCeil (s : UInt32) : Option UInt16 := Lock.secondsCeil s
def mtpIntervalFrom (n : UInt16) : UInt32 := Lock.toSeconds n

end Wt
end Btc
