import Verif.Crypto.Secp
import Verif.Base58.Base58
import Verif.Text
/-!
# Public keys, private keys and WIF: crypto/src/key.rs

`SerializedLegacyPublicKey` is an `ArrayVec` (C57) of the serialization, here a byte string.
-/
namespace Btc
namespace Crypto

/-- network/src/lib.rs:50-55. -/
inductive NetworkKind where
  | main
  | test
deriving DecidableEq, Repr

/-- network/src/lib.rs:59. -/
def NetworkKind.isMainnet : NetworkKind → Bool
  | .main => true
  | .test => false

/-! ## Legacy public keys -/

/-- crypto/src/key.rs:127-132. -/
structure LegacyPublicKey (S : Secp) where
  compressed : Bool
  inner : S.Point

/-- crypto/src/key.rs, module `error`: `FromSliceError`. -/
inductive FromSliceErr where
  | invalidKeyPrefix (b : UInt8)
  | invalidPublicKey
  | invalidLength (n : Nat)
deriving DecidableEq, Repr

namespace LegacyPublicKey
variable {S : Secp}

/-- crypto/src/key.rs:137-139. -/
def fromSecp (p : S.Point) : LegacyPublicKey S := ⟨true, p⟩
/-- crypto/src/key.rs:144-146. -/
def fromSecpUncompressed (p : S.Point) : LegacyPublicKey S := ⟨false, p⟩

/-- crypto/src/key.rs:649-655. -/
def serialize (k : LegacyPublicKey S) : Bytes := if k.compressed then (S.ser k.inner).1 else (S.serU k.inner).1

/-- crypto/src/key.rs:768-771: the order of sort keys is that of the serializations. -/
def toSortKey (k : LegacyPublicKey S) : Bytes := k.serialize

/-- crypto/src/key.rs:798-803. -/
def finishSlice (compressed : Bool) (data : Bytes) : Except FromSliceErr (LegacyPublicKey S) :=
  match S.fromSlice data with
  | none => .error .invalidPublicKey
  | some p => if compressed then .ok (fromSecp p) else .ok (fromSecpUncompressed p)

/-- crypto/src/key.rs:791-796. -/
def checkPrefix (compressed : Bool) (data : Bytes) : Except FromSliceErr (LegacyPublicKey S) :=
  match compressed, data.headD 0 with
  | true, 2 => finishSlice compressed data
  | true, 3 => finishSlice compressed data
  | false, 4 => finishSlice compressed data
  | _, b => .error (.invalidKeyPrefix b)

/-- crypto/src/key.rs:781-804. -/
def fromSlice (data : Bytes) : Except FromSliceErr (LegacyPublicKey S) :=
  if data.length = 33 then checkPrefix true data
  else if data.length = 65 then checkPrefix false data
  else .error (.invalidLength data.length)

end LegacyPublicKey

/-- crypto/src/key.rs, module `error`: `ParsePublicKeyError`; which character is invalid is not modelled. -/
inductive ParsePublicKeyErr where
  | encoding (e : FromSliceErr)
  | invalidChar
  | invalidHexLength (n : Nat)
deriving DecidableEq, Repr

namespace LegacyPublicKey
variable {S : Secp}

/-- crypto/src/key.rs:832-858. -/
def parse (s : Bytes) : Except ParsePublicKeyErr (LegacyPublicKey S) :=
  if s.length = 66 ∨ s.length = 130 then
    match unhex s with
    | none => .error .invalidChar
    | some b => (fromSlice b).mapError .encoding
  else .error (.invalidHexLength s.length)

/-- crypto/src/key.rs:871-874. -/
def display (k : LegacyPublicKey S) : Bytes := hexBytes k.serialize

end LegacyPublicKey

/-! ## Full public keys -/

/-- crypto/src/key.rs:170: a compressed public key. -/
structure FullPublicKey (S : Secp) where
  inner : S.Point

namespace FullPublicKey
variable {S : Secp}

/-- crypto/src/key.rs:941. -/
def toBytes (k : FullPublicKey S) : Bytes := (S.ser k.inner).1

/-- crypto/src/key.rs:965-969. -/
def fromBytes (data : Arr 33) : Option (FullPublicKey S) := (S.fromSlice data.1).map FullPublicKey.mk

/-- crypto/src/key.rs:1011-1017. -/
def tryFrom (k : LegacyPublicKey S) : Option (FullPublicKey S) := if k.compressed then some ⟨k.inner⟩ else none

/-- crypto/src/key.rs:867. -/
def toLegacy (k : FullPublicKey S) : LegacyPublicKey S := LegacyPublicKey.fromSecp k.inner

/-- crypto/src/key.rs:1001-1004: `none` for either error. -/
def parse (s : Bytes) : Option (FullPublicKey S) :=
  match unhex s with
  | none => none
  | some b => if h : b.length = 33 then fromBytes ⟨b, h⟩ else none

/-- crypto/src/key.rs:1026-1029. -/
def display (k : FullPublicKey S) : Bytes := hexBytes k.toBytes

end FullPublicKey

/-! ## Private keys -/

/-- crypto/src/key.rs:186-191. -/
structure PrivateKey where
  compressed : Bool
  inner : SecretKey
deriving DecidableEq

namespace PrivateKey

/-- crypto/src/key.rs:196-198. -/
def fromSecp (k : SecretKey) : PrivateKey := ⟨true, k⟩
/-- crypto/src/key.rs:203-205. -/
def fromSecpUncompressed (k : SecretKey) : PrivateKey := ⟨false, k⟩
/-- crypto/src/key.rs:1094. -/
def toSecretBytes (k : PrivateKey) : Arr 32 := k.inner.bytes
/-- crypto/src/key.rs:1103-1107. -/
def fromSecretBytes (b : Arr 32) : Option PrivateKey := (SecretKey.fromSecretBytes b).map fromSecp
/-- crypto/src/key.rs:1132-1137. -/
def negate (k : PrivateKey) : PrivateKey := if k.compressed then fromSecp k.inner.negate else fromSecpUncompressed k.inner.negate
/-- crypto/src/key.rs:1066-1074. -/
def toLegacyPublicKey (S : Secp) (k : PrivateKey) : LegacyPublicKey S :=
  if k.compressed then .fromSecp (S.pub k.inner) else .fromSecpUncompressed (S.pub k.inner)

end PrivateKey

/-! ## WIF -/

/-- crypto/src/key.rs:1158-1163. -/
structure WifKey where
  privateKey : PrivateKey
  networkKind : NetworkKind
deriving DecidableEq

/-- crypto/src/key.rs, module `error`: `FromWifError`. -/
inductive FromWifErr where
  | base58 (e : B58.DecErr)
  | invalidPayloadLength (n : Nat)
  | invalidAddressVersion (b : UInt8)
  | invalidCompressionFlag (b : UInt8)
  | fromSecretBytes
deriving DecidableEq, Repr

/-- crypto/src/key.rs:1182-1191: the payload. -/
def WifKey.payload (w : WifKey) : Bytes :=
  let ret := (if w.networkKind.isMainnet then 128 else 239) :: (w.privateKey.inner.bytes.1 ++ [0])
  if w.privateKey.compressed then ret.set 33 1 else ret.take 33

/-- crypto/src/key.rs:1181-1204, `fmt_wif` and `to_wif`; `none` is a panic in the base58 encoder. -/
def WifKey.toWif (H : Bytes → Arr 32) (w : WifKey) : Option Bytes := B58.encodeUnbounded H w.payload

/-- crypto/src/key.rs:1237-1257, with `compressed` and the 33 bytes of `data`. -/
def WifKey.finishWif (compressed : Bool) (data : Bytes) : Except FromWifErr WifKey :=
  match data with
  | [] => .error (.invalidPayloadLength 0)
  | network :: key =>
    if network = 128 ∨ network = 239 then
      if h : key.length = 32 then
        match SecretKey.fromSecretBytes ⟨key, h⟩ with
        | none => .error .fromSecretBytes
        | some k => .ok ⟨if compressed then .fromSecp k else .fromSecpUncompressed k, if network = 128 then .main else .test⟩
      else .error (.invalidPayloadLength data.length)
    else .error (.invalidAddressVersion network)

/-- crypto/src/key.rs:1218-1258. -/
def WifKey.fromWif (H : Bytes → Arr 32) (wif : Bytes) : Except FromWifErr WifKey :=
  match B58.decodeCheck H wif with
  | .error e => .error (.base58 e)
  | .ok data =>
    if data.length = 33 then finishWif false data
    else if data.length = 34 then
      if data.getLastD 0 ≠ 1 then .error (.invalidCompressionFlag (data.getLastD 0)) else finishWif true data.dropLast
    else .error (.invalidPayloadLength data.length)

end Crypto
end Btc
