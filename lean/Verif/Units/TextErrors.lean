import Verif.Units.LockErrors
import Verif.Units.AmountText
import Verif.Addresses.Errors
/-!
# The texts of the errors of integers, denominations, block intervals and addresses as text, and the texts of lock times

A text is its UTF-8 bytes, since some errors quote a part of the input cut at byte positions.  The messages are those of the innermost
error, with the features `alloc` and `std`.
-/
namespace Btc
namespace TextErrs
open LockErr (bytes)

/-! ## Integers (units/src/parse_int.rs) -/

/-- `ParseIntError` (444-453) without its source. -/
structure IntE where
  input : Bytes
  bits : Nat
  signed : Bool
deriving DecidableEq, Repr

/-- `display_cannot_parse` (internals/src/error/input_string.rs 156-161). -/
def cannotParse (input : Bytes) (what : String) : Bytes := bytes "failed to parse '" ++ input ++ bytes "' as " ++ bytes what

/-- `Display for ParseIntError` (459-464). -/
def intMsg (e : IntE) : Bytes :=
  cannotParse e.input "integer" ++ bytes " (" ++ bytes (if e.signed then "signed" else "unsigned") ++ bytes ", " ++
    bytes (toString e.bits) ++ bytes "-bit)"

/-- `int` (79-91) for an unsigned type. -/
def intU (bits : Nat) (s : Bytes) : Except IntE Nat :=
  match parseUInt (2 ^ bits - 1) 10 s with
  | .ok n => .ok n
  | .error _ => .error ⟨s, bits, false⟩

/-- `int` (79-91) for `i64`. -/
def intI64 (s : Bytes) : Except IntE Int :=
  match LockErr.parseI64 s with
  | .ok n => .ok n
  | .error _ => .error ⟨s, 64, true⟩

/-- `PrefixedHexErrorInner` (488-493), `UnprefixedHexErrorInner` (528-533). -/
inductive HexE where
  | missingPrefix (hex : Bytes)
  | containsPrefix (hex : Bytes)
  | parseInt (e : IntE)
deriving DecidableEq, Repr

/-- `Display` of `MissingPrefixError` (574-582), `ContainsPrefixError` (605-613) and `ParseIntError`. -/
def hexMsg : HexE → Bytes
  | .missingPrefix s => cannotParse s "hex" ++ bytes " because it is missing the '0x' prefix"
  | .containsPrefix s => cannotParse s "hex" ++ bytes " because it contains the '0x' prefix"
  | .parseInt e => intMsg e

/-- `hex_remove_prefix` (235-245), `hex_check_unprefixed` (253-260). -/
def removePrefix (s : Bytes) : Except HexE Bytes :=
  match HexInt.removePrefix s with
  | .ok r => .ok r
  | .error _ => .error (.missingPrefix s)
def checkUnprefixed (s : Bytes) : Except HexE Bytes :=
  match HexInt.checkUnprefixed s with
  | .ok r => .ok r
  | .error _ => .error (.containsPrefix s)

/-- `parse_hex_for!` (263-335), one integer type given by its number of bits. -/
def hexUnchecked (bits : Nat) (s : Bytes) : Except IntE Nat :=
  match HexInt.unchecked bits s with
  | .ok n => .ok n
  | .error _ => .error ⟨s, bits, false⟩
def hexAny (bits : Nat) (s : Bytes) : Except IntE Nat := hexUnchecked bits (HexInt.removeOptionalPrefix s)
def hexPrefixed (bits : Nat) (s : Bytes) : Except HexE Nat :=
  match removePrefix s with
  | .error e => .error e
  | .ok r => (hexUnchecked bits r).mapError .parseInt
def hexUnprefixed (bits : Nat) (s : Bytes) : Except HexE Nat :=
  match checkUnprefixed s with
  | .error e => .error e
  | .ok r => (hexUnchecked bits r).mapError .parseInt

/-- `hex_u256_unchecked` (380-411). -/
def u256Unchecked (s : Bytes) : Except IntE U256 :=
  if s.any (fun b => decide (128 ≤ b.toNat)) then
    match HexInt.unchecked 128 s with
    | .ok n => .ok (U256.ofU128 (BitVec.ofNat 128 n))
    | .error _ => .error ⟨s, 256, false⟩
  else if s.length ≤ 32 then
    match hexUnchecked 128 s with
    | .error e => .error e
    | .ok low => .ok (HexInt.ofHalves 0 low)
  else
    match hexUnchecked 128 (s.take (s.length - 32)) with
    | .error e => .error e
    | .ok high =>
      match hexUnchecked 128 (s.drop (s.length - 32)) with
      | .error e => .error e
      | .ok low => .ok (HexInt.ofHalves high low)

/-! ## Denominations (units/src/amount/mod.rs, error.rs) -/

/-- `ParseDenominationError` (error.rs 374-379). -/
inductive DenomE where
  | unknown (s : Bytes)
  | possiblyConfusing (s : Bytes)
deriving DecidableEq, Repr

/-- `CONFUSING_FORMS` (mod.rs 161): `CBTC`, `Cbtc`, `MBTC`, `Mbtc`, `UBTC`, `Ubtc`. -/
def CONFUSING_FORMS : List Bytes :=
  [[67, 66, 84, 67], [67, 98, 116, 99], [77, 66, 84, 67], [77, 98, 116, 99], [85, 66, 84, 67], [85, 98, 116, 99]]

/-- `FromStr for Denomination` (mod.rs 168-189). -/
def denomOf (s : Bytes) : Except DenomE Amt.Denom :=
  if CONFUSING_FORMS.contains s then .error (.possiblyConfusing s)
  else match Amt.Denom.forms s with
    | some d => .ok d
    | none => .error (.unknown s)

/-- `Display` of `UnknownDenominationError` (438-443) and `PossiblyConfusingDenominationError` (463-467). -/
def denomMsg : DenomE → Bytes
  | .unknown s => bytes "'" ++ s ++ bytes "' is not a known " ++ bytes "bitcoin denomination"
  | .possiblyConfusing s => cannotParse s "bitcoin denomination" ++
      bytes (": possibly confusing denomination - we intentionally do not support 'M' and 'P' " ++
        "so as to not confuse mega/milli and peta/pico")

/-! ## Block intervals (units/src/block.rs) -/

/-- `TryFrom<BlockHeightInterval> for NumberOfBlocks` (301-314). -/
def intervalOf (h : UInt32) : Except UInt32 UInt16 :=
  match Lock.intervalToBlocks h with
  | some n => .ok n
  | none => .error h

/-- `Display for TooBigForRelativeHeightError` (647-656). -/
def intervalMsg (h : UInt32) : Bytes :=
  bytes "block interval is too big to be used as a relative lock time: " ++ bytes (toString h.toNat) ++ bytes " (max: " ++
    bytes (toString 65535) ++ bytes ")"

/-! ## Addresses (addresses/src/error.rs, lib.rs) -/

/-- `FromStr for AddressType` (lib.rs 253-266) with its error. -/
def addressTypeOf (s : Bytes) : Except Bytes Addr.AddressType :=
  match Addr.AddressType.parse s with
  | some t => .ok t
  | none => .error s

/-- `Display for UnknownAddressTypeError` (66-71). -/
def addressTypeMsg (s : Bytes) : Bytes := cannotParse s "address type"

/-- `require_network` (lib.rs 1044-1050) with its error, the required network and the address. -/
def requireNetwork (a : Addr.Address) (n : Pow.Network) : Except (Pow.Network × Addr.Address) Addr.Address :=
  if a.isValidForNetwork n then .ok a else .error (n, a)

/-- `Display for NetworkValidationError` (172-178); `alt` is the flag `#`, `none` is a panic of the text of the address. -/
def networkMsg (D : Bytes → Arr 32) (alt : Bool) (e : Pow.Network × Addr.Address) : Option Bytes :=
  match e.2.display D alt with
  | none => none
  | some t => some (bytes "address " ++ t ++ bytes " is not valid on " ++ Net.display e.1)

/-- `Display for FromScriptError` (32-40), of the innermost error. -/
def fromScriptMsg : Addr.Address.FromScriptErr → Bytes
  | .unrecognized => bytes "script is not a p2pkh, p2sh or witness program"
  | .witnessVersion => bytes "witness version construction error"
  | .witnessProgram e => bytes (Addr.Msg.witnessProgram e)
  | .panic => bytes "panic"

/-! ## Lock times (units/src/locktime) -/

/-- `Display for absolute::LockTime` (absolute/mod.rs 465-481); `alt` is the flag `#`. -/
def absText (alt : Bool) : Lock.LockTime → Bytes
  | .blocks h => if alt then bytes "block-height " ++ bytes (toString h.n.toNat) else bytes (toString h.n.toNat)
  | .seconds t =>
    if alt then bytes "block-time " ++ bytes (toString t.n.toNat) ++ bytes " (seconds since epoch)" else bytes (toString t.n.toNat)

/-- `Display for relative::LockTime` (relative/mod.rs 361-375). -/
def relText (alt : Bool) : Lock.RelLock → Bytes
  | .blocks n => if alt then bytes "block-height " ++ bytes (toString n.toNat) else bytes (toString n.toNat)
  | .time n =>
    if alt then bytes "block-time " ++ bytes (toString n.toNat) ++ bytes " (512 second intervals)" else bytes (toString n.toNat)

end TextErrs
end Btc
