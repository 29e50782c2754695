import Verif.Units.LockTime
import Verif.Units.HexInt
/-!
# Model of heights and times as text, and of the messages of the lock time errors

units/src/locktime/absolute/{mod,error}.rs, units/src/locktime/relative/{mod,error}.rs.  A text is a `String`; parsing
works on its UTF-8 bytes.  Messages are those of the innermost error, with the features `alloc` and `std`.
-/
namespace Btc
namespace LockErr
open Lock

/-- The UTF-8 bytes of a text. -/
def bytes (s : String) : Bytes := s.toUTF8.data.toList

/-- `core::num::IntErrorKind` for a signed type. -/
inductive I64Err where
  | empty | invalidDigit | posOverflow | negOverflow
deriving DecidableEq, Repr

/-- The digit loop of `i64::from_str` for a number without a minus sign. -/
def i64Pos (ds : Bytes) : Except I64Err Int := match parseDigits (2 ^ 63 - 1) 10 0 ds with
  | .ok n => .ok (n : Int)
  | .error .posOverflow => .error .posOverflow
  | .error _ => .error .invalidDigit

/-- The loop for a negative number: it subtracts the digits, with checks against `i64::MIN`; the magnitude is kept
here. -/
def i64Neg (ds : Bytes) : Except I64Err Int := match parseDigits (2 ^ 63) 10 0 ds with
  | .ok n => .ok (-(n : Int))
  | .error .posOverflow => .error .negOverflow
  | .error _ => .error .invalidDigit

/-- `i64::from_str`. -/
def parseI64 (s : Bytes) : Except I64Err Int :=
  match s with
  | [] => .error .empty
  | [43] => .error .invalidDigit
  | [45] => .error .invalidDigit
  | 43 :: ds => i64Pos ds
  | 45 :: ds => i64Neg ds
  | ds => i64Pos ds

/-- `ParseError` (absolute/error.rs 183-193). -/
inductive ParseError where
  | prefixedHex (e : HexInt.Err)
  | unprefixedHex (e : HexInt.Err)
  | parseInt (input : String) (kind : I64Err)
  | conversion (n : Int)
deriving DecidableEq, Repr

/-- `LockTimeUnit` (absolute/error.rs 343-348). -/
inductive Kind where
  | height | time
deriving DecidableEq, Repr

/-- `Height::from_u32` (absolute/mod.rs 559-565), `MedianTimePast::from_u32` (703-709). -/
def fromU32 (k : Kind) (n : UInt32) : Option UInt32 := match k with
  | .height => (Height.fromU32 n).map (·.n)
  | .time => (Mtp.fromU32 n).map (·.n)

/-- `FromStr` of both (absolute/mod.rs 599, 739): `parser` (741-752). -/
def fromStr (k : Kind) (s : String) : Except ParseError UInt32 :=
  match parseI64 (bytes s) with
  | .error e => .error (.parseInt s e)
  | .ok n =>
    if 0 ≤ n ∧ n < 2 ^ 32 then
      match fromU32 k (UInt32.ofNat n.toNat) with
      | some h => .ok h
      | none => .error (.conversion (UInt32.ofNat n.toNat).toNat)
    else .error (.conversion n)

/-- `from_hex` (absolute/mod.rs 524-527, 666-669). -/
def fromHex (k : Kind) (s : String) : Except ParseError UInt32 :=
  match HexInt.prefixed 32 (bytes s) with
  | .error e => .error (.prefixedHex e)
  | .ok n => match fromU32 k (UInt32.ofNat n) with
    | some h => .ok h
    | none => .error (.conversion (UInt32.ofNat n).toNat)

/-- `from_unprefixed_hex` (absolute/mod.rs 536-539, 678-681). -/
def fromUnprefixedHex (k : Kind) (s : String) : Except ParseError UInt32 :=
  match HexInt.unprefixed 32 (bytes s) with
  | .error e => .error (.unprefixedHex e)
  | .ok n => match fromU32 k (UInt32.ofNat n) with
    | some h => .ok h
    | none => .error (.conversion (UInt32.ofNat n).toNat)

/-- `display_cannot_parse("absolute Height/MedianTimePast")` (internals/src/error/input_string.rs 156-161). -/
def cannotParse (input : String) : String := "failed to parse '" ++ input ++ "' as absolute Height/MedianTimePast"

/-- `Display` of `PrefixedHexError` and `UnprefixedHexError` (parse_int.rs 499-508, 539-548). -/
def showHex : Bool → HexInt.Err → String
  | true, .parseInt _ => "prefixed hex string invalid int"
  | false, .parseInt _ => "hex string parse int"
  | _, .missingPrefix => "hex string is missing prefix"
  | _, .containsPrefix => "hex string contains prefix"

/-- `ParseError::display` (absolute/error.rs 205-256). -/
def display (subject : String) (lower upper : UInt32) : ParseError → String
  | .prefixedHex e => showHex true e
  | .unprefixedHex e => showHex false e
  | .parseInt input .posOverflow =>
    cannotParse input ++ " (" ++ subject ++ " is above limit " ++ toString upper.toNat ++ ")"
  | .parseInt input .negOverflow =>
    cannotParse input ++ " (" ++ subject ++ " is below limit " ++ toString lower.toNat ++ ")"
  | .parseInt input _ => cannotParse input ++ " (" ++ subject ++ ")"
  | .conversion value =>
    if value < lower.toNat then subject ++ " " ++ toString value ++ " is below limit " ++ toString lower.toNat
    else subject ++ " " ++ toString value ++ " is above limit " ++ toString upper.toNat

/-- `Display` of `ParseHeightError` and `ParseTimeError` (absolute/error.rs 135-140, 162-167). -/
def showParse : Kind → ParseError → String
  | .height, e => display "block height" 0 (THRESHOLD - 1) e
  | .time, e => display "block time" THRESHOLD 0xFFFFFFFF e

/-- `Display` of `ConversionError` and `LockTimeUnit` (absolute/error.rs 326-330, 350-359). -/
def showConversion (k : Kind) (n : UInt32) : String :=
  "invalid lock time value " ++ toString n.toNat ++ ", " ++ match k with
    | .height => "expected lock-by-height (must be < 500000000)"
    | .time => "expected lock-by-time (must be >= 500000000)"

/-- `LockTime::is_satisfied_by_height` (absolute/mod.rs 312-318) with the message of the error (error.rs 64-73). -/
def absByHeight (l : LockTime) (h : Height) : Except String Bool := match l with
  | .blocks b => .ok (b.isSatisfiedBy h)
  | .seconds t => .error ("tried to satisfy a lock-by-time lock " ++ toString t.n.toNat ++ " with height: " ++
      toString h.n.toNat)

/-- `LockTime::is_satisfied_by_time` (absolute/mod.rs 326-331) with the message of the error (error.rs 107-116). -/
def absByTime (l : LockTime) (t : Mtp) : Except String Bool := match l with
  | .seconds u => .ok (u.isSatisfiedBy t)
  | .blocks b => .error ("tried to satisfy a lock-by-height lock " ++ toString b.n.toNat ++ " with MTP: " ++
      toString t.n.toNat)

/-- `Display` of `InvalidHeightError` and `InvalidTimeError` (relative/error.rs 244-249, 273-278). -/
def showInvalid (tip mined : UInt32) : String :=
  "is_satisfied_by arguments invalid (probably the wrong way around) chain_tip: " ++ toString tip.toNat ++
    " utxo_mined_at: " ++ toString mined.toNat

/-- `NumberOfBlocks::is_satisfied_by` (relative/mod.rs 471-490). -/
def blocksBy (n : UInt16) (tip : UInt32) (mined : Option UInt32) : Except String Bool := match mined with
  | some m => match checkedSub32 tip m with
    | some diff => .ok (n.toNat - 1 ≤ diff.toNat)
    | none => .error (showInvalid tip m)
  | none => .ok (n == 0)

/-- `NumberOf512Seconds::is_satisfied_by` (relative/mod.rs 623-641). -/
def timeBy (n : UInt16) (tip : UInt32) (mined : Option UInt32) : Except String Bool := match mined with
  | some m => match checkedSub32 tip m with
    | some diff => .ok (toSeconds n ≤ diff)
    | none => .error (showInvalid tip m)
  | none => .ok (n == 0)

/-- `relative::LockTime::is_satisfied_by_height` (relative/mod.rs 247-259) with the message of
`IncompatibleHeightError` (error.rs 124-129). -/
def relByHeight (l : RelLock) (tip : UInt32) (mined : Option UInt32) : Except String Bool := match l with
  | .blocks n => blocksBy n tip mined
  | .time n => .error ("tried to satisfy a lock-by-height locktime using seconds " ++ toString n.toNat)

/-- `relative::LockTime::is_satisfied_by_time` (relative/mod.rs 272-284) with the message of
`IncompatibleTimeError` (error.rs 185-190). -/
def relByTime (l : RelLock) (tip : UInt32) (mined : Option UInt32) : Except String Bool := match l with
  | .time n => timeBy n tip mined
  | .blocks n => .error ("tried to satisfy a lock-by-time locktime using blocks " ++ toString n.toNat)

/-- `from_seconds_floor`, `from_seconds_ceil` (relative/mod.rs 559-583) with the message of `TimeOverflowError`
(error.rs 212-220). -/
def intervals (ceil : Bool) (seconds : UInt32) : Except String UInt16 :=
  match (if ceil then secondsCeil seconds else secondsFloor seconds) with
  | some n => .ok n
  | none => .error (toString seconds.toNat ++ " seconds is too large to be encoded to a 16 bit 512 second interval")

/-- `{:08x}` of a `u32`. -/
def hex8 (n : UInt32) : String :=
  String.ofList ((hexBytes ((leBytes 4 n.toNat).reverse)).map fun b => Char.ofNat b.toNat)

/-- `relative::LockTime::from_consensus` (relative/mod.rs 97-100) with the message of `DisabledLockTimeError`
(error.rs 28-33). -/
def relFromConsensus (n : UInt32) : Except String RelLock := match RelLock.fromConsensus n with
  | some l => .ok l
  | none => .error ("lock time 0x" ++ hex8 n ++ " has disable flag set")

end LockErr
end Btc
