import Verif.TextRadix
import Verif.Units.U256
/-!
# Hexadecimal integers

Model of the hex half of `units/src/parse_int.rs` (229-423), and of the hex, octal and binary text of `U256` (`units/src/pow.rs` 457-567,
`include/u256.rs` 468-512).  Of an error only the kind is kept.
-/
namespace Btc
namespace HexInt

/-- `PrefixedHexErrorInner`, `UnprefixedHexErrorInner`. -/
inductive Err where
  | missingPrefix
  | containsPrefix
  | parseInt (e : IntErr)
deriving DecidableEq, Repr

/-- `hex_remove_prefix` (235-245). -/
def removePrefix : Bytes → Except Err Bytes
  | 48 :: 120 :: r => .ok r
  | 48 :: 88 :: r => .ok r
  | _ => .error .missingPrefix

/-- `hex_check_unprefixed` (253-260). -/
def checkUnprefixed (s : Bytes) : Except Err Bytes :=
  match s with
  | 48 :: 120 :: _ => .error .containsPrefix
  | 48 :: 88 :: _ => .error .containsPrefix
  | s => .ok s

/-- `hex_remove_optional_prefix` (415-423). -/
def removeOptionalPrefix : Bytes → Bytes
  | 48 :: 120 :: r => r
  | 48 :: 88 :: r => r
  | s => s

def mapErr {α : Type} : Except IntErr α → Except Err α
  | .ok a => .ok a
  | .error e => .error (.parseInt e)

/-- `parse_hex_for!` (263-335), one integer type given by its number of bits. -/
def unchecked (bits : Nat) (s : Bytes) : Except IntErr Nat := parseUInt (2 ^ bits - 1) 16 s
def any (bits : Nat) (s : Bytes) : Except IntErr Nat := unchecked bits (removeOptionalPrefix s)
def prefixed (bits : Nat) (s : Bytes) : Except Err Nat :=
  match removePrefix s with
  | .error e => .error e
  | .ok r => mapErr (unchecked bits r)
def unprefixed (bits : Nat) (s : Bytes) : Except Err Nat :=
  match checkUnprefixed s with
  | .error e => .error e
  | .ok r => mapErr (unchecked bits r)

/-- The end of `hex_u256_unchecked` (407-410). -/
def ofHalves (high low : Nat) : U256 :=
  U256.ofLeBytes ⟨leBytes 16 low ++ leBytes 16 high, by rw [List.length_append, leBytes_length, leBytes_length]⟩

/-- `hex_u256_unchecked` (380-411). -/
def u256Unchecked (s : Bytes) : Except IntErr U256 :=
  if s.any (fun b => decide (128 ≤ b.toNat)) then (unchecked 128 s).map fun n => U256.ofU128 (BitVec.ofNat 128 n)
  else if s.length ≤ 32 then
    match unchecked 128 s with
    | .error e => .error e
    | .ok low => .ok (ofHalves 0 low)
  else
    let highLen := s.length - 32
    match unchecked 128 (s.take highLen) with
    | .error e => .error e
    | .ok high =>
      match unchecked 128 (s.drop highLen) with
      | .error e => .error e
      | .ok low => .ok (ofHalves high low)

/-- `hex_u256_prefixed`, `hex_u256_unprefixed` (366-378). -/
def u256Prefixed (s : Bytes) : Except Err U256 :=
  match removePrefix s with
  | .error e => .error e
  | .ok r => mapErr (u256Unchecked r)
def u256Unprefixed (s : Bytes) : Except Err U256 :=
  match checkUnprefixed s with
  | .error e => .error e
  | .ok r => mapErr (u256Unchecked r)

/-- `LowerHex`, `UpperHex for U256` without and with `#` (pow.rs 467-494). -/
def upDigit (n : Nat) : UInt8 := if n < 10 then UInt8.ofNat (48 + n) else UInt8.ofNat (55 + n)
def u256Lower (alt : Bool) (x : U256) : Bytes :=
  (if alt then ([48, 120] : Bytes) else []) ++ x.toBeBytes.flatMap fun b => [hexDigit ((b.toNat &&& 0xf0) >>> 4), hexDigit (b.toNat &&& 0xf)]
def u256Upper (alt : Bool) (x : U256) : Bytes :=
  (if alt then ([48, 120] : Bytes) else []) ++ x.toBeBytes.flatMap fun b => [upDigit ((b.toNat &&& 0xf0) >>> 4), upDigit (b.toNat &&& 0xf)]

/-- Text deserialization of `U256` (pow.rs 532-542); `none` is an error. -/
def u256FromSerdeStr (s : Bytes) : Option U256 :=
  if s.length ≠ 64 then none
  else match u256Unprefixed s with
    | .ok x => some x
    | .error _ => none

/-- The loops of `Binary` and `Octal` (u256.rs 479-483, 502-506): `room` is the free part of the buffer, running out of it panics. -/
def radLoop (mask : BitVec 64) (shift : Nat) : Nat → U256 → Bytes → Option Bytes
  | room, value, acc =>
    if U256.lt U256.zero value then
      match room with
      | 0 => none
      | room + 1 => radLoop mask shift room (U256.shr value shift) ((48 + UInt8.ofNat (value.lowU64 &&& mask).toNat) :: acc)
    else some acc
/-- `Binary`, `Octal` (468-512), without flags. -/
def binary (x : U256) : Option Bytes := if x.isZero then some [48] else radLoop 1 1 256 x []
def octal (x : U256) : Option Bytes := if x.isZero then some [48] else radLoop 7 3 86 x []

end HexInt
end Btc
