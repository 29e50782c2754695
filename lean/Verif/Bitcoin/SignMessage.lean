import Verif.Bitcoin.Base64
import Verif.Addresses.Address
import Verif.Hashes.Sha2
/-!
# Signed messages

Model of `bitcoin/src/sign_message.rs`.  `secp256k1::Error` values are not told apart; `HASH160` is a parameter.
-/
namespace Btc
open Btc.Crypto

/-- The functions of `secp256k1::ecdsa::recovery` (external) with the laws used here. -/
structure RecSecp (S : Secp) where
  /-- `RecoverableSignature`. -/
  Sig : Type
  /-- `RecoverableSignature::serialize_compact`: the recovery id and the 64 bytes. -/
  compact : Sig → Fin 4 × Arr 64
  /-- `RecoverableSignature::from_compact`. -/
  fromCompact : Arr 64 → Fin 4 → Option Sig
  /-- `RecoverableSignature::sign_ecdsa_recoverable`. -/
  sign : Arr 32 → SecretKey → Sig
  /-- `RecoverableSignature::recover_ecdsa`. -/
  recover : Sig → Arr 32 → Option S.Point
  from_compact : ∀ s, fromCompact (compact s).2 (compact s).1 = some s
  compact_from : ∀ b r s, fromCompact b r = some s → compact s = (r, b)
  recover_sign : ∀ m k, recover (sign m k) m = some (S.pub k)

/-- A model of the laws: the signature is the key and the message; recovery checks the message. -/
def RecSecp.toy : RecSecp Secp.toy where
  Sig := Fin 4 × SecretKey × Arr 32
  compact s := (s.1, ⟨s.2.1.bytes.1 ++ s.2.2.1, by rw [List.length_append, s.2.1.bytes.2, s.2.2.2]⟩)
  fromCompact b r :=
    (SecretKey.fromSecretBytes ⟨b.1.take 32, by rw [List.length_take, b.2]; rfl⟩).map fun k =>
      (r, k, ⟨b.1.drop 32, by rw [List.length_drop, b.2]⟩)
  sign m k := (1, k, m)
  recover s m := if s.2.2 = m then some s.2.1 else none
  from_compact s := by
    obtain ⟨r, k, m⟩ := s
    have h1 : (k.bytes.1 ++ m.1).take 32 = k.bytes.1 := by
      rw [List.take_append_of_le_length (by rw [k.bytes.2]; omega), List.take_of_length_le (by rw [k.bytes.2]; omega)]
    have h2 : (k.bytes.1 ++ m.1).drop 32 = m.1 := by
      rw [List.drop_append_of_le_length (by rw [k.bytes.2]; omega), List.drop_of_length_le (by rw [k.bytes.2]; omega), List.nil_append]
    simp only [h1, h2]
    unfold SecretKey.fromSecretBytes
    rw [dif_pos ⟨k.pos, k.lt⟩]
    rfl
  compact_from b r s h := by
    unfold SecretKey.fromSecretBytes at h
    split at h
    · simp only [Option.map_some, Option.some.injEq] at h
      subst h
      simp only [List.take_append_drop]
    · cases h
  recover_sign m k := by simp only [if_pos]; rfl

/-- `MessageSignature` (40-45). -/
structure MessageSignature {S : Secp} (R : RecSecp S) where
  signature : R.Sig
  compressed : Bool

/-- `MessageSignatureError` (202-211). -/
inductive MessageSignatureErr where
  | invalidLength
  | invalidEncoding
  | invalidBase64
  | unsupportedAddressType (t : Addr.AddressType)
deriving DecidableEq, Repr

/-- `Address::pubkey_hash` (addresses/src/lib.rs 821-826). -/
def Addr.Address.pubkeyHashOf : Addr.Address → Option (Arr 20)
  | .p2pkh h _ => some h
  | _ => none

namespace MessageSignature
variable {S : Secp} {R : RecSecp S}

/-- `serialize` (54-60). -/
def serialize (s : MessageSignature R) : Arr 65 :=
  ⟨(UInt8.ofNat (R.compact s.signature).1.val + if s.compressed then 31 else 27) :: (R.compact s.signature).2.1, by
    rw [List.length_cons, (R.compact s.signature).2.2]⟩

/-- `from_byte_array` (63-73). -/
def fromByteArray (bytes : Arr 65) : Except MessageSignatureErr (MessageSignature R) :=
  match h : bytes.1 with
  | [] => .error .invalidEncoding -- there are 65 bytes
  | b0 :: rest =>
    if b0 < 27 then .error .invalidEncoding
    else
      let recid := Fin.ofNat 4 ((b0 - 27) &&& 3).toNat
      match R.fromCompact ⟨rest, by have := bytes.2; rw [h, List.length_cons] at this; omega⟩ recid with
      | none => .error .invalidEncoding
      | some sig => .ok ⟨sig, decide ((b0 - 27) &&& 4 ≠ 0)⟩

/-- `from_slice` (77-81). -/
def fromSlice (bytes : Bytes) : Except MessageSignatureErr (MessageSignature R) :=
  if h : bytes.length = 65 then fromByteArray ⟨bytes, h⟩ else .error .invalidLength

/-- `recover_pubkey` (86-96). -/
def recoverPubkey (s : MessageSignature R) (msgHash : Arr 32) : Except MessageSignatureErr (LegacyPublicKey S) :=
  match R.recover s.signature msgHash with
  | none => .error .invalidEncoding
  | some p => .ok (if s.compressed then LegacyPublicKey.fromSecp p else LegacyPublicKey.fromSecpUncompressed p)

/-- `is_signed_by_address` (101-115). -/
def isSignedByAddress (H160 : Bytes → Arr 20) (s : MessageSignature R) (a : Addr.Address) (msgHash : Arr 32) :
    Except MessageSignatureErr Bool :=
  match a.addressType with
  | some .p2pkh =>
    match s.recoverPubkey msgHash with
    | .error e => .error e
    | .ok k => .ok (decide (a.pubkeyHashOf = some (Addr.Address.pubkeyHash H160 k)))
  | some t => .error (.unsupportedAddressType t)
  | none => .ok false

/-- `from_base64`, `from_str` (129-144, 160). -/
def fromBase64 (s : Bytes) : Except MessageSignatureErr (MessageSignature R) :=
  if s.length ≠ 88 then .error .invalidLength
  else match B64.decode s with
    | none => .error .invalidBase64
    | some bs => if h : bs.length = 65 then fromByteArray ⟨bs, h⟩ else .error .invalidLength

/-- `to_base64`, `Display` (147, 151-155). -/
def toBase64 (s : MessageSignature R) : Bytes := B64.encode s.serialize.1

end MessageSignature

/-- `BITCOIN_SIGNED_MSG_PREFIX` (23): byte 24, then "Bitcoin Signed Message:" and a newline. -/
def SIGNED_MSG_PREFIX : Bytes :=
  [24, 66, 105, 116, 99, 111, 105, 110, 32, 83, 105, 103, 110, 101, 100, 32, 77, 101, 115, 115, 97, 103, 101, 58, 10]

theorem finish256d_length (e : Sha2.Engine256) : (Sha2.finish256d e).length = 32 := by
  have : ∀ x : Sha2.St 32, (x.bytes 4).length = 32 := by
    intro x
    simp [Sha2.St.bytes, Sha2.St.toList, beBytes_length]
  exact this _

/-- `signed_msg_hash` (166-173). -/
def signedMsgHash (msg : Bytes) : Arr 32 :=
  let e := Sha2.input256 Sha2.new256 SIGNED_MSG_PREFIX
  let e := Sha2.input256 e (csEncode msg.length)
  let e := Sha2.input256 e msg
  ⟨Sha2.finish256d e, finish256d_length e⟩

/-- `sign` (177-187). -/
def signMessage {S : Secp} (R : RecSecp S) (msg : Bytes) (k : PrivateKey) : Option (MessageSignature R) :=
  match SecretKey.fromSecretBytes k.toSecretBytes with
  | none => none -- `expect`
  | some sk => some ⟨R.sign (signedMsgHash msg) sk, k.compressed⟩

end Btc
