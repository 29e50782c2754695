import Verif.Crypto.Keys
import Verif.Crypto.Signature
import Verif.Bitcoin.Taproot
/-!
# Key pairs, x-only keys, tweaking and signing: crypto/src/key.rs, taproot_primitives/src/lib.rs, bitcoin/src/crypto/sighash.rs

`secp256k1::Keypair` is its secret key; the public half is a function of it.
-/
namespace Btc
namespace Crypto

/-- The functions of the crate `secp256k1` on x-only keys and signatures, with the laws used here.  External. -/
structure Curve (S : Secp) (D : Der) where
  /-- `XOnlyPublicKey`. -/
  X : Type
  dec : DecidableEq X
  /-- `XOnlyPublicKey::serialize`. -/
  serX : X → Arr 32
  /-- `XOnlyPublicKey::from_byte_array`. -/
  parseX : Arr 32 → Option X
  /-- `PublicKey::x_only_public_key`: the x coordinate and whether y is odd. -/
  xonly : S.Point → X × Bool
  /-- `XOnlyPublicKey::public_key`. -/
  point : X → Bool → S.Point
  /-- `schnorr::sign_no_aux_rand` (feature off), `schnorr::sign_with_aux_rand`. -/
  signSchnorr : Bytes → Option (Arr 32) → SecretKey → Arr 64
  /-- `schnorr::verify`. -/
  verifySchnorr : Arr 64 → Bytes → X → Bool
  /-- `ecdsa::sign_low_r`. -/
  signEcdsa : Arr 32 → SecretKey → D.Sig
  /-- `ecdsa::verify`. -/
  verifyEcdsa : D.Sig → Arr 32 → S.Point → Bool
  parse_serX : ∀ x, parseX (serX x) = some x
  serX_parse : ∀ b x, parseX b = some x → serX x = b
  point_xonly : ∀ p, point (xonly p).1 (xonly p).2 = p
  xonly_point : ∀ x odd, xonly (point x odd) = (x, odd)
  /-- The point of the negated secret key has the same x and the other y. -/
  xonly_negate : ∀ k, xonly (S.pub k.negate) = ((xonly (S.pub k)).1, !(xonly (S.pub k)).2)
  schnorr_ok : ∀ m aux k, verifySchnorr (signSchnorr m aux k) m (xonly (S.pub k)).1 = true
  ecdsa_ok : ∀ m k, verifyEcdsa (signEcdsa m k) m (S.pub k) = true

namespace Curve
variable {S : Secp} {D : Der} (C : Curve S D)

/-- `XOnlyPublicKey::add_tweak`: the point with even y, plus the tweak times the generator. -/
def addTweak (x : C.X) (t : Nat) : Option (C.X × Bool) := (S.addExp (C.point x false) t).map C.xonly

/-- `XOnlyPublicKey::tweak_add_check`. -/
def tweakAddCheck (x q : C.X) (odd : Bool) (t : Nat) : Bool :=
  match C.addTweak x t with
  | some (q', odd') => (@decide (q' = q) (C.dec q' q)) && odd' == odd
  | none => false

/-- `Keypair::add_xonly_tweak`: the secret key is negated first if y is odd. -/
def addXonlyTweak (k : SecretKey) (t : Nat) : Option SecretKey := (if (C.xonly (S.pub k)).2 then k.negate else k).addTweak t

/-- The functions used by the model of taproot trees. -/
abbrev taproot : Taproot.Secp where
  Key := C.X
  ser := C.serX
  parse := C.parseX
  isScalar h := decide (beNat h.1 < ORDER)
  addTweak x t := C.addTweak x (beNat t.1)
  check x q odd t := C.tweakAddCheck x q odd (beNat t.1)
  parse_ser := C.parse_serX
  ser_parse := C.serX_parse
  check_iff x q odd t _ := by
    unfold tweakAddCheck
    cases C.addTweak x (beNat t.1) with
    | none => simp
    | some r => cases r; simp

end Curve

variable {S : Secp} {D : Der}

/-! ### Legacy and full public keys -/

namespace LegacyPublicKey
/-- crypto/src/key.rs:153-155. -/
def withCompressedness (k : LegacyPublicKey S) (c : Bool) : LegacyPublicKey S := ⟨c, k.inner⟩
/-- crypto/src/key.rs:703. -/
def forceCompressed (k : LegacyPublicKey S) : FullPublicKey S := ⟨k.inner⟩
/-- crypto/src/key.rs:808. -/
def fromPrivateKey (S : Secp) (k : PrivateKey) : LegacyPublicKey S := k.toLegacyPublicKey S
/-- crypto/src/key.rs:822-828. -/
def verify (C : Curve S D) (k : LegacyPublicKey S) (m : Arr 32) (s : EcdsaSig D) : Bool := C.verifyEcdsa s.sig m k.inner
end LegacyPublicKey

/-- crypto/src/key.rs:1057-1059. -/
def PrivateKey.toPublicKey (S : Secp) (k : PrivateKey) : FullPublicKey S := ⟨S.pub k.inner⟩
/-- crypto/src/key.rs:1148-1153. -/
def PrivateKey.rawEcdsaSign (C : Curve S D) (k : PrivateKey) (m : Arr 32) : D.Sig := C.signEcdsa m k.inner

/-- crypto/src/key.rs:987-993. -/
def FullPublicKey.verify (C : Curve S D) (k : FullPublicKey S) (m : Arr 32) (s : EcdsaSig D) : Bool := C.verifyEcdsa s.sig m k.inner

/-! ### Key pairs and x-only keys -/

/-- crypto/src/key.rs:106. -/
structure Keypair where
  inner : SecretKey
deriving DecidableEq

/-- crypto/src/key.rs:65-68, as in the model of taproot trees. -/
abbrev XOnlyKey (C : Curve S D) := Taproot.XOnly C.taproot

namespace XOnlyKey
variable {C : Curve S D}
/-- `From<secp256k1::PublicKey>` (crypto/src/key.rs:485-488). -/
def ofPoint (C : Curve S D) (p : S.Point) : XOnlyKey C := ⟨(C.xonly p).1, (C.xonly p).2⟩
/-- crypto/src/key.rs:384-387; `secp256k1::XOnlyPublicKey::from_keypair` is `x_only_public_key` of the public half. -/
def fromKeypair (C : Curve S D) (kp : Keypair) : XOnlyKey C := ofPoint C (S.pub kp.inner)
/-- `From<LegacyPublicKey>` (491-494), `From<FullPublicKey>` (496-499). -/
def ofLegacy (C : Curve S D) (k : LegacyPublicKey S) : XOnlyKey C := ofPoint C k.inner
def ofFull (C : Curve S D) (k : FullPublicKey S) : XOnlyKey C := ofPoint C k.inner
/-- crypto/src/key.rs:82. -/
def withParity (k : XOnlyKey C) (odd : Bool) : XOnlyKey C := { k with parity := odd }
/-- crypto/src/key.rs:395-401. -/
def fromByteArray (C : Curve S D) (b : Arr 32) : Option (XOnlyKey C) := (C.parseX b).map fun x => ⟨x, false⟩
/-- crypto/src/key.rs:405-407. -/
def serialize (k : XOnlyKey C) : Arr 32 × Bool := (C.serX k.inner, k.parity)
/-- crypto/src/key.rs:413. -/
def toPublicKey (k : XOnlyKey C) : FullPublicKey S := ⟨C.point k.inner k.parity⟩
/-- crypto/src/key.rs:419. -/
def toLegacyPublicKey (k : XOnlyKey C) : LegacyPublicKey S := k.toPublicKey.toLegacy
/-- crypto/src/key.rs:426-428. -/
def tweakAddCheck (k q : XOnlyKey C) (t : Nat) : Bool := C.tweakAddCheck k.inner q.inner q.parity t
/-- crypto/src/key.rs:442-450; the errors are one. -/
def addTweak (k : XOnlyKey C) (t : Nat) : Option (XOnlyKey C) := (C.addTweak k.inner t).map fun r => ⟨r.1, r.2⟩
/-- crypto/src/key.rs:458-460. -/
def verify (k : XOnlyKey C) (m : Bytes) (s : TapSig) : Bool := C.verifySchnorr s.sig m k.inner
end XOnlyKey

namespace Keypair
/-- crypto/src/key.rs:540-542. -/
def fromPrivateKey (k : PrivateKey) : Keypair := ⟨k.inner⟩
/-- crypto/src/key.rs:546-548. -/
def toPrivateKey (kp : Keypair) : PrivateKey := .fromSecp kp.inner
/-- crypto/src/key.rs:552-554. -/
def toSecretBytes (kp : Keypair) : Arr 32 := kp.inner.bytes
/-- crypto/src/key.rs:560, 977-979. -/
def toPublicKey (S : Secp) (kp : Keypair) : FullPublicKey S := ⟨S.pub kp.inner⟩
/-- crypto/src/key.rs:566, 812. -/
def toLegacyPublicKey (S : Secp) (kp : Keypair) : LegacyPublicKey S := (kp.toPublicKey S).toLegacy
/-- crypto/src/key.rs:579-599. -/
def rawBip340Sign (C : Curve S D) (kp : Keypair) (m : Bytes) (aux : Option (Arr 32)) : Arr 64 := C.signSchnorr m aux kp.inner

/-- `TapTweak::tap_tweak` for key pairs (taproot_primitives/src/lib.rs:430-435); `none` is a panic. -/
def tapTweak (H : Bytes → Taproot.Hash) (C : Curve S D) (kp : Keypair) (root : Option Taproot.Hash) : Option Keypair :=
  match Taproot.toScalar C.taproot (Taproot.tweakHash H (XOnlyKey.fromKeypair C kp) root) with
  | none => none
  | some t => (C.addXonlyTweak kp.inner (beNat t.1)).map Keypair.mk
end Keypair

/-! ### Signing (bitcoin/src/crypto/sighash.rs) -/

/-- `TapSighash::sign_key_spend` (132-139); `TweakedPublicKey::from_keypair` is `XOnlyKey.fromKeypair`. -/
def signKeySpend (C : Curve S D) (h : Arr 32) (tweaked : Keypair) (ty : Tap) : TapSig := ⟨tweaked.rawBip340Sign C h.1 none, ty⟩
/-- `TapSighash::sign_script_spend` (147-154). -/
def signScriptSpend (C : Curve S D) (h : Arr 32) (kp : Keypair) (ty : Tap) : TapSig := ⟨kp.rawBip340Sign C h.1 none, ty⟩
/-- `LegacySighash::sign` (90-92), `SegwitV0Sighash::sign` (101-103). -/
def signSighash (C : Curve S D) (h : Arr 32) (k : PrivateKey) (ty : Ecdsa) : EcdsaSig D := ⟨k.rawEcdsaSign C h, ty⟩

end Crypto
end Btc
