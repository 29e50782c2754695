import Verif.Crypto.SighashType
import Verif.Text
/-!
# Signatures with a sighash type (`crypto/src/taproot.rs`, `crypto/src/ecdsa.rs`)

`secp256k1::schnorr::Signature` is its 64 bytes.  `secp256k1::ecdsa::Signature` with its DER functions is external code and is a
parameter (`Der`); `unhex`/`hexBytes` stand for the external hex crate.
-/
namespace Btc
namespace Crypto

/-! ## Taproot -/

/-- `taproot::Signature` (taproot.rs 39-44). -/
structure TapSig where
  sig : Arr 64
  ty : Tap
  deriving DecidableEq

/-- `SigFromSliceError` (468-473). -/
inductive TapSigErr where
  | sighashType (n : UInt32)
  | size (n : Nat)
  deriving DecidableEq

/-- `Signature::from_slice` (54-73).  `split_last` is internals/src/array.rs 69-72. -/
def TapSig.fromSlice (sl : Bytes) : Except TapSigErr TapSig :=
  if h : sl.length = 64 then .ok ⟨⟨sl, h⟩, .default⟩
  else if h : sl.length = 65 then
    match Tap.fromConsensusU8 (sl[64]'(by omega)) with
    | .error e => .error (.sighashType e)
    | .ok ty =>
      if ty = .default then .error (.sighashType 0)
      else .ok ⟨⟨sl.take 64, by rw [List.length_take]; omega⟩, ty⟩
  else .error (.size sl.length)

/-- `SerializedSignature` (162-165): `data` is a `[u8; 65]`. -/
structure TapSer where
  data : Arr 65
  len : Nat
  deriving DecidableEq

/-- `Deref for SerializedSignature` (322-327), also `as_ref`, `borrow`. -/
def TapSer.bytes (s : TapSer) : Bytes := s.data.1.take s.len

/-- `from_raw_parts` (215-218); `none` is the assertion. -/
def TapSer.fromRawParts (data : Arr 65) (len : Nat) : Option TapSer := if len ≤ 65 then some ⟨data, len⟩ else none

/-- `Signature::serialize` (80-92). -/
def TapSig.serialize (s : TapSig) : Option TapSer :=
  let buf : Bytes := List.replicate 65 0
  let buf := s.sig.1 ++ buf.drop 64
  let (buf, len) := if s.ty = .default then (buf, 64) else (buf.set 64 s.ty.toU8, 65)
  if h : buf.length = 65 then TapSer.fromRawParts ⟨buf, h⟩ len else none

/-- `Signature::to_vec` (99-106). -/
def TapSig.toVec (s : TapSig) : Bytes := if s.ty ≠ .default then s.sig.1 ++ [s.ty.toU8] else s.sig.1

/-- `SerializedSignature::to_signature` (182-184). -/
def TapSer.toSignature (s : TapSer) : Except TapSigErr TapSig := TapSig.fromSlice s.bytes

/-- `Display for Signature` (110-115), through `fmt_internal` (201-207): the lower case hex of the bytes. -/
def TapSig.display (s : TapSig) : Option Bytes := s.serialize.map fun r => hexBytes r.bytes

/-- `hex::decode_to_array::<N>`: the length is checked first. -/
inductive HexArr (n : Nat) where
  | ok (b : Arr n)
  | badLength
  | badChar

def hexToArray (n : Nat) (s : Bytes) : HexArr n :=
  if s.length = 2 * n then
    match unhex s with
    | some b => if h : b.length = n then .ok ⟨b, h⟩ else .badLength
    | none => .badChar
  else .badLength

/-- `ParseSignatureError` (506-513). -/
inductive TapSigParseErr where
  | length (n : Nat)
  | char
  | decode (e : TapSigErr)
  deriving DecidableEq

/-- `FromStr for Signature` (134-154). -/
def TapSig.parse (s : Bytes) : Except TapSigParseErr TapSig :=
  match hexToArray 64 s with
  | .ok b => (TapSig.fromSlice b.1).mapError .decode
  | .badChar => .error .char
  | .badLength =>
    match hexToArray 65 s with
    | .ok b => (TapSig.fromSlice b.1).mapError .decode
    | .badChar => .error .char
    | .badLength => .error (.length s.length)

/-- `into_iter::IntoIter` (376-380). -/
structure TapIter where
  sig : TapSer
  pos : Nat

/-- `IntoIter::new` (384-390). -/
def TapIter.new (s : TapSer) : TapIter := ⟨s, 0⟩
/-- `as_slice` (396); `none` is the panic of the range. -/
def TapIter.asSlice (i : TapIter) : Option Bytes := if i.pos ≤ i.sig.bytes.length then some (i.sig.bytes.drop i.pos) else none
/-- `next` (403-408). -/
def TapIter.next (i : TapIter) : TapIter × Option UInt8 :=
  match i.sig.bytes[i.pos]? with
  | none => (i, none)
  | some b => ({ i with pos := i.pos + 1 }, some b)
/-- `size_hint` (411-415), which `len()` of `ExactSizeIterator` returns; `none` is the overflow. -/
def TapIter.len (i : TapIter) : Option Nat := if i.pos ≤ i.sig.len then some (i.sig.len - i.pos) else none
/-- `nth` (419-430). -/
def TapIter.nth (i : TapIter) (n : Nat) : Option (TapIter × Option UInt8) :=
  i.len.map fun l => if n ≥ l then ({ i with pos := i.sig.len }, none) else TapIter.next { i with pos := i.pos + n }
/-- `next_back` (439-450), with `set_len_unchecked` (222); `none` is the overflow or the index out of range. -/
def TapIter.nextBack (i : TapIter) : Option (TapIter × Option UInt8) :=
  if i.pos = i.sig.len then some (i, none)
  else if i.sig.len = 0 then none
  else
    let newLen := i.sig.len - 1
    match i.sig.bytes[newLen]? with
    | none => none
    | some b => some ({ i with sig := { i.sig with len := newLen } }, some b)

/-! ## ECDSA -/

/-- The external DER functions of `secp256k1::ecdsa::Signature`, with what the library documents: parsing what was written gives
the signature back, and at most 72 bytes are written. -/
structure Der where
  Sig : Type
  serialize : Sig → Bytes
  parse : Bytes → Option Sig
  parse_serialize : ∀ s, parse (serialize s) = some s
  serialize_length : ∀ s, (serialize s).length ≤ 72

/-- `ecdsa::Signature` (ecdsa.rs 45-50). -/
structure EcdsaSig (D : Der) where
  sig : D.Sig
  ty : Ecdsa

/-- `DecodeError` (324-331). -/
inductive EcdsaSigErr where
  | sighashType (n : UInt32)
  | empty
  | invalidDer
  deriving DecidableEq

/-- `Signature::from_slice` (65-72). -/
def EcdsaSig.fromSlice (D : Der) (sl : Bytes) : Except EcdsaSigErr (EcdsaSig D) :=
  match sl.getLast? with
  | none => .error .empty
  | some b =>
    match Ecdsa.fromStandard b.toUInt32 with
    | .error e => .error (.sighashType e)
    | .ok ty =>
      match D.parse sl.dropLast with
      | none => .error .invalidDer
      | some s => .ok ⟨s, ty⟩

/-- `SerializedSignature` (140-143): `data` is a `[u8; 73]`. -/
structure EcdsaSer where
  data : Arr 73
  len : Nat

/-- `Deref` (276-281); `none` is the range panic. -/
def EcdsaSer.bytes (s : EcdsaSer) : Option Bytes := if s.len ≤ 73 then some (s.data.1.take s.len) else none

/-- `Signature::serialize` (78-84); `none` is a panic of the copy or of the index. -/
def EcdsaSig.serialize {D : Der} (s : EcdsaSig D) : Option EcdsaSer :=
  let buf : Bytes := List.replicate 73 0
  let d := D.serialize s.sig
  if d.length < 73 then
    let buf := (d ++ buf.drop d.length).set d.length s.ty.toU32.toUInt8
    if h : buf.length = 73 then some ⟨⟨buf, h⟩, d.length + 1⟩ else none
  else none

/-- `Signature::to_vec` (91-98). -/
def EcdsaSig.toVec {D : Der} (s : EcdsaSig D) : Bytes := D.serialize s.sig ++ [s.ty.toU32.toUInt8]

/-- `Display`/`LowerHex for Signature` (102-112, 199-210). -/
def EcdsaSig.display {D : Der} (s : EcdsaSig D) : Option Bytes := (s.serialize.bind EcdsaSer.bytes).map hexBytes

/-- `ParseSignatureError` (389-394). -/
inductive EcdsaSigParseErr where
  | hex
  | decode (e : EcdsaSigErr)
  deriving DecidableEq

/-- `FromStr for Signature` (121-129). -/
def EcdsaSig.parse (D : Der) (s : Bytes) : Except EcdsaSigParseErr (EcdsaSig D) :=
  match unhex s with
  | none => .error .hex
  | some b => (EcdsaSig.fromSlice D b).mapError .decode

end Crypto
end Btc
