import Verif.Serde.Taproot
import Verif.Crypto.Keys
import Verif.Crypto.Signature
import Verif.Bip32.Xkey
import Verif.Addresses.Address
/-!
# `Serialize` and `Deserialize` by text, of keys, and of signatures

Networks, addresses, extended keys, derivation paths, sighash types and WIF keys are written as their text in every format, text or binary.
-/
namespace Btc.Serde
open Crypto Bip32
open Pow (Network)

/-- `deserialize_str` with a visitor that has `visit_str` (`serde_string_deserialize_impl!`, internals/src/serde.rs 27-58). -/
def deText {α : Type} (parse : Bytes → Option α) (F : Fmt) (v : SVal) : R α :=
  match F.visit .str v with
  | some (.str s) => ofOpt (parse s)
  | _ => .error .refused

/-- The same with `visit_bytes` for byte strings in UTF-8 (crypto/src/key.rs 1294-1313). -/
def deTextOrBytes {α : Type} (parse : Bytes → Option α) (F : Fmt) (v : SVal) : R α :=
  match F.visit .str v with
  | some (.str s) => ofOpt (parse s)
  | some (.bytes _ b) => if (ByteArray.mk b.toArray).validateUTF8 then ofOpt (parse b) else .error .refused
  | _ => .error .refused

/-- `Result::ok`. -/
def toOpt {ε α : Type} : Except ε α → Option α
  | .ok x => some x
  | .error _ => none

/-! ### Networks (network/src/lib.rs) -/

/-- `Serialize` and `Deserialize for Network` (183-217). -/
def serNetwork (n : Network) : SVal := .str (Net.display n)
def deNetwork : Fmt → SVal → R Network := deText Net.parse

/-- The module `as_core_arg` (220-281). -/
def serCoreArg (n : Network) : SVal := .str (Net.toCoreArg n)
def deCoreArg : Fmt → SVal → R Network := deText Net.fromCoreArg

/-- The derived implementations of `NetworkKind` (49). -/
def serKind : NetworkKind → SVal
  | .main => .unitVariant 0 (Net.str "Main")
  | .test => .unitVariant 1 (Net.str "Test")
def deKind (F : Fmt) (v : SVal) : R NetworkKind :=
  match F.visit (.enum [Net.str "Main", Net.str "Test"]) v with
  | some (.enum n .unit) =>
    if n = Net.str "Main" then .ok .main else if n = Net.str "Test" then .ok .test else .error .refused
  | _ => .error .refused

/-! ### Addresses (addresses/src/lib.rs) -/

/-- `Serialize for Address` (612-619), through `DisplayUnchecked` (566-574); `none` is a panic of `Display`. -/
def serAddress (D : Bytes → Arr 32) (a : Addr.Address) : Option SVal := (a.display D false).map .str
/-- `Deserialize for Address` (578-608). -/
def deAddress (D : Bytes → Arr 32) : Fmt → SVal → R Addr.Address := deText fun s => toOpt (Addr.Address.parse D s)

/-! ### Extended keys and paths (key_expression/src/bip32.rs 177, 210, 421, 503, with internals/src/serde.rs 9-22) -/

def serXpriv (H : Bytes → Arr 32) (k : Xpriv) : Option SVal := (k.display H).map .str
def deXpriv (H : Bytes → Arr 32) : Fmt → SVal → R Xpriv := deText fun s => toOpt (Xpriv.parse H s)
def serXpub {S : Crypto.Secp} (H : Bytes → Arr 32) (k : Xpub S) : Option SVal := (k.display H).map .str
def deXpub {S : Crypto.Secp} (H : Bytes → Arr 32) : Fmt → SVal → R (Xpub S) := deText fun s => toOpt (Xpub.parse H s)
def serRelPath (p : RelPath) : SVal := .str (RelPath.display false p)
def deRelPath : Fmt → SVal → R RelPath := deText fun s => toOpt (RelPath.parse s)
def serAbsPath (p : AbsPath) : SVal := .str (p.display false)
def deAbsPath : Fmt → SVal → R AbsPath := deText fun s => toOpt (AbsPath.parse s)

/-! ### Sighash types (crypto/src/sighash.rs 44, 124) -/

def utf8 (s : String) : Bytes := s.toUTF8.data.toList
def ofUtf8 (b : Bytes) : Option String := String.fromUTF8? (ByteArray.mk b.toArray)
def serEcdsaType (t : Ecdsa) : SVal := .str (utf8 t.display)
def deEcdsaType : Fmt → SVal → R Ecdsa := deText fun b => (ofUtf8 b).bind fun s => toOpt (Ecdsa.parse s)
def serTapType (t : Tap) : SVal := .str (utf8 t.display)
def deTapType : Fmt → SVal → R Tap := deText fun b => (ofUtf8 b).bind fun s => toOpt (Tap.parse s)

/-! ### Keys (crypto/src/key.rs) -/

/-- `Serialize` and `Deserialize for WifKey` (1272-1317). -/
def serWif (H : Bytes → Arr 32) (w : WifKey) : Option SVal := (w.toWif H).map .str
def deWif (H : Bytes → Arr 32) : Fmt → SVal → R WifKey := deTextOrBytes fun s => toOpt (WifKey.fromWif H s)

/-- `Serialize` and `Deserialize for LegacyPublicKey` (1345-1416). -/
def serLegacy {S : Crypto.Secp} (F : Fmt) (k : LegacyPublicKey S) : SVal := if F.human then .str k.display else .bytes k.serialize
def deLegacy {S : Crypto.Secp} (F : Fmt) (v : SVal) : R (LegacyPublicKey S) :=
  if F.human then deTextOrBytes (fun s => toOpt (LegacyPublicKey.parse s)) F v
  else
    match F.visit .bytes v with
    | some (.bytes _ b) => ofExcept (LegacyPublicKey.fromSlice b)
    | _ => .error .refused

/-- `Serialize` and `Deserialize for FullPublicKey` (1420-1493). -/
def serFull {S : Crypto.Secp} (F : Fmt) (k : FullPublicKey S) : SVal := if F.human then .str k.display else .bytes k.toBytes
def deFull {S : Crypto.Secp} (F : Fmt) (v : SVal) : R (FullPublicKey S) :=
  if F.human then deTextOrBytes FullPublicKey.parse F v
  else
    match F.visit .bytes v with
    | some (.bytes _ b) => if h : b.length = 33 then ofOpt (FullPublicKey.fromBytes ⟨b, h⟩) else .error .refused
    | _ => .error .refused

/-- The derived implementations of `Keypair` (105); `TweakedKeypair` is `serde(transparent)` (284-286). -/
def serKeypair {α : Type} (K : Codec α) (F : Fmt) (k : α) : SVal := .newtype (K.ser F k)
def deKeypair {α : Type} (K : Codec α) (F : Fmt) (v : SVal) : R α := deNewtype (K.de F) F v

/-! ### Signatures: the derived implementations (crypto/src/taproot.rs 38-44, crypto/src/ecdsa.rs 44-50) -/

def sigNames : List Bytes := [Net.str "signature", Net.str "sighash_type"]
def serTapSig (K : Codec (Arr 64)) (F : Fmt) (s : TapSig) : SVal := .struct [(Net.str "signature", K.ser F s.sig), (Net.str "sighash_type", serTapType s.ty)]
def deTapSig (K : Codec (Arr 64)) (F : Fmt) (v : SVal) : R TapSig :=
  match deStruct sigNames F v with
  | .ok [a, b] =>
    match K.de F a with
    | .error e => .error e
    | .ok sig =>
      match deTapType F b with
      | .error e => .error e
      | .ok ty => .ok ⟨sig, ty⟩
  | .ok _ => .error .refused
  | .error e => .error e
def serEcdsaSig {D : Der} (K : Codec D.Sig) (F : Fmt) (s : EcdsaSig D) : SVal :=
  .struct [(Net.str "signature", K.ser F s.sig), (Net.str "sighash_type", serEcdsaType s.ty)]
def deEcdsaSig {D : Der} (K : Codec D.Sig) (F : Fmt) (v : SVal) : R (EcdsaSig D) :=
  match deStruct sigNames F v with
  | .ok [a, b] =>
    match K.de F a with
    | .error e => .error e
    | .ok sig =>
      match deEcdsaType F b with
      | .error e => .error e
      | .ok ty => .ok ⟨sig, ty⟩
  | .ok _ => .error .refused
  | .error e => .error e

end Btc.Serde
