import Verif.Bip32.Path
import Verif.Crypto.Keys
import Verif.Hashes.Hmac
import Verif.Hashes.Ripemd
/-!
# Extended keys: key_expression/src/bip32.rs, lines 79-220 and 731-1142

The outer `Option` of the derivation functions is a panic (`expect`).
-/
namespace Btc
namespace Bip32

open Crypto Hashes

/-- key_expression/src/bip32.rs:31-37. -/
def VERSION_BYTES_MAINNET_PUBLIC : Bytes := [0x04, 0x88, 0xB2, 0x1E]
def VERSION_BYTES_MAINNET_PRIVATE : Bytes := [0x04, 0x88, 0xAD, 0xE4]
def VERSION_BYTES_TESTNETS_PUBLIC : Bytes := [0x04, 0x35, 0x87, 0xCF]
def VERSION_BYTES_TESTNETS_PRIVATE : Bytes := [0x04, 0x35, 0x83, 0x94]

/-- key_expression/src/bip32.rs:79-119: a seed has between 16 and 64 bytes. -/
def Seed := {b : Bytes // 16 ≤ b.length ∧ b.length ≤ 64}

/-- key_expression/src/bip32.rs:112-118. -/
def Seed.tryFrom (bytes : Bytes) : Except Nat Seed :=
  if h : bytes.length < 16 ∨ bytes.length > 64 then .error bytes.length else .ok ⟨bytes, by omega⟩

/-- key_expression/src/bip32.rs:160-175. -/
structure Xpriv where
  network : NetworkKind
  depth : UInt8
  parentFingerprint : Arr 4
  childNumber : ChildNumber
  privateKey : SecretKey
  chainCode : Arr 32
deriving DecidableEq

/-- key_expression/src/bip32.rs:194-208. -/
structure Xpub (S : Secp) where
  network : NetworkKind
  depth : UInt8
  parentFingerprint : Arr 4
  childNumber : ChildNumber
  publicKey : S.Point
  chainCode : Arr 32

/-- A finished HMAC-SHA512, split by `split_array::<32, 32>`; `none` cannot happen, as the engine returns 64 bytes. -/
def splitHmac (b : Bytes) : Option (Arr 32 × Arr 32) :=
  if h : b.length = 64 then some (⟨b.take 32, by rw [List.length_take]; omega⟩, ⟨b.drop 32, by rw [List.length_drop]; omega⟩) else none

/-- `hash160::Hash::hash` (hashes/src/hash160/mod.rs). -/
def hash160 (b : Bytes) : Bytes := hash160Of (Sha2.sha256 b)

/-- `MaximumDepthExceededError` and `DeriveXpubError`. -/
inductive DeriveErr where
  | maximumDepthExceeded
  | cannotDeriveHardenedChild
deriving DecidableEq, Repr

/-- key_expression/src/bip32.rs:1030-1037. -/
def Xpub.fingerprintBytes {S : Secp} (k : Xpub S) : Bytes := (hash160 (S.ser k.publicKey).1).take 4

/-- The fingerprint as an array; `none` cannot happen. -/
def arr4 (b : Bytes) : Option (Arr 4) := if h : b.length = 4 then some ⟨b, h⟩ else none

/-- key_expression/src/bip32.rs:889-898. -/
def Xpub.fromXpriv (S : Secp) (k : Xpriv) : Xpub S := ⟨k.network, k.depth, k.parentFingerprint, k.childNumber, S.pub k.privateKey, k.chainCode⟩

/-- `"Bitcoin seed"`. -/
def seedKey : Bytes := [0x42, 0x69, 0x74, 0x63, 0x6f, 0x69, 0x6e, 0x20, 0x73, 0x65, 0x65, 0x64]

/-- key_expression/src/bip32.rs:743-753, given the output of the HMAC; `none` is the `expect`. -/
def Xpriv.masterFrom (network : NetworkKind) (hmacResult : Bytes) : Option Xpriv :=
  match splitHmac hmacResult with
  | none => none
  | some (l, r) =>
    match SecretKey.fromSecretBytes l with
    | none => none
    | some sk => some ⟨network, 0, ⟨[0, 0, 0, 0], rfl⟩, ChildNumber.ZERO_NORMAL, sk, r⟩

/-- key_expression/src/bip32.rs:738-754. -/
def Xpriv.newMaster (network : NetworkKind) (seed : Seed) : Option Xpriv :=
  match HmacEng.new sha512Alg seedKey with
  | none => none
  | some engine => Xpriv.masterFrom network (engine.input seed.1).finish

/-- key_expression/src/bip32.rs:791-806: the child, given the output of the HMAC. -/
def Xpriv.childFrom (S : Secp) (k : Xpriv) (i : ChildNumber) (hmacResult : Bytes) : Option (Except DeriveErr Xpriv) :=
  match splitHmac hmacResult with
  | none => none
  | some (l, r) =>
    match SecretKey.fromSecretBytes l with
    | none => none
    | some sk =>
      match sk.addTweak k.privateKey.val with
      | none => none
      | some tweaked =>
        if k.depth.toNat + 1 < 256 then
          match arr4 (Xpub.fromXpriv S k).fingerprintBytes with
          | none => none
          | some fp => some (.ok ⟨k.network, k.depth + 1, fp, i, tweaked, r⟩)
        else some (.error .maximumDepthExceeded)

/-- key_expression/src/bip32.rs:776-807. -/
def Xpriv.deriveChild (S : Secp) (k : Xpriv) (i : ChildNumber) : Option (Except DeriveErr Xpriv) :=
  match HmacEng.new sha512Alg k.chainCode.1 with
  | none => none
  | some engine =>
    let engine := if i.isNormal then engine.input (S.ser (S.pub k.privateKey)).1 else (engine.input [0]).input k.privateKey.bytes.1
    let engine := engine.input (beBytes 4 i.toRaw.toNat)
    k.childFrom S i engine.finish

/-- key_expression/src/bip32.rs:814-823. -/
def Xpriv.deriveFromPath (S : Secp) (k : Xpriv) : List ChildNumber → Option (Except DeriveErr Xpriv)
  | [] => some (.ok k)
  | i :: is =>
    match k.deriveChild S i with
    | none => none
    | some (.error e) => some (.error e)
    | some (.ok k') => k'.deriveFromPath S is

/-- key_expression/src/bip32.rs:966-985: the tweak and the chain code. -/
def Xpub.deriveChildTweak {S : Secp} (k : Xpub S) (i : ChildNumber) : Option (Except DeriveErr (Nat × Arr 32)) :=
  if i.isHardened then some (.error .cannotDeriveHardenedChild)
  else
    match HmacEng.new sha512Alg k.chainCode.1 with
    | none => none
    | some engine =>
      let engine := engine.input (S.ser k.publicKey).1
      let engine := engine.input (beBytes 4 i.index.toNat)
      match splitHmac engine.finish with
      | none => none
      | some (l, r) =>
        match SecretKey.fromSecretBytes l with
        | none => none
        | some sk => some (.ok (sk.val, r))

/-- key_expression/src/bip32.rs:923-941. -/
def Xpub.deriveChild {S : Secp} (k : Xpub S) (i : ChildNumber) : Option (Except DeriveErr (Xpub S)) :=
  match k.deriveChildTweak i with
  | none => none
  | some (.error e) => some (.error e)
  | some (.ok (tweak, r)) =>
    match S.addExp k.publicKey tweak with
    | none => none
    | some tweaked =>
      if k.depth.toNat + 1 < 256 then
        match arr4 k.fingerprintBytes with
        | none => none
        | some fp => some (.ok ⟨k.network, k.depth + 1, fp, i, tweaked, r⟩)
      else some (.error .maximumDepthExceeded)

/-- key_expression/src/bip32.rs:949-958. -/
def Xpub.deriveFromPath {S : Secp} (k : Xpub S) : List ChildNumber → Option (Except DeriveErr (Xpub S))
  | [] => some (.ok k)
  | i :: is =>
    match k.deriveChild i with
    | none => none
    | some (.error e) => some (.error e)
    | some (.ok k') => k'.deriveFromPath is

/-! ## Encoding -/

/-- key_expression/src/bip32.rs:859-872. -/
def Xpriv.encode (k : Xpriv) : Bytes :=
  let ret : Bytes := List.replicate 78 0
  let ret := splice ret 0 (match k.network with | .main => VERSION_BYTES_MAINNET_PRIVATE | .test => VERSION_BYTES_TESTNETS_PRIVATE)
  let ret := ret.set 4 k.depth
  let ret := splice ret 5 k.parentFingerprint.1
  let ret := splice ret 9 (beBytes 4 k.childNumber.toRaw.toNat)
  let ret := splice ret 13 k.chainCode.1
  let ret := ret.set 45 0
  splice ret 46 k.privateKey.bytes.1

/-- key_expression/src/bip32.rs:1015-1027. -/
def Xpub.encode {S : Secp} (k : Xpub S) : Bytes :=
  let ret : Bytes := List.replicate 78 0
  let ret := splice ret 0 (match k.network with | .main => VERSION_BYTES_MAINNET_PUBLIC | .test => VERSION_BYTES_TESTNETS_PUBLIC)
  let ret := ret.set 4 k.depth
  let ret := splice ret 5 k.parentFingerprint.1
  let ret := splice ret 9 (beBytes 4 k.childNumber.toRaw.toNat)
  let ret := splice ret 13 k.chainCode.1
  splice ret 45 (S.ser k.publicKey).1

/-- key_expression/src/bip32.rs, module `error`: `XkeyDecodeError`, `XprivDecodeError`, `XpubDecodeError`. -/
inductive XkeyErr where
  | wrongLength (n : Nat)
  | nonZeroParentFingerprint
  | nonZeroChildNumber
  | unknownVersion (b : Bytes)
  | invalidPrivateKeyPrefix
  | secp256k1
deriving DecidableEq, Repr

/-- key_expression/src/bip32.rs:1093-1101. -/
structure Common where
  version : Bytes
  depth : UInt8
  parentFingerprint : Arr 4
  childNumber : ChildNumber
  chainCode : Arr 32
  key : Arr 33

/-- key_expression/src/bip32.rs:1113-1141. -/
def Common.decode (data : Bytes) : Except XkeyErr Common :=
  if h : data.length = 78 then
    let c : Common := {
      version := data.take 4
      depth := data[4]
      parentFingerprint := ⟨(data.drop 5).take 4, by simp; omega⟩
      childNumber := .fromRaw (UInt32.ofNat (beNat ((data.drop 9).take 4)))
      chainCode := ⟨(data.drop 13).take 32, by simp; omega⟩
      key := ⟨data.drop 45, by simp; omega⟩ }
    if c.depth = 0 then
      if c.parentFingerprint.1 ≠ [0, 0, 0, 0] then .error .nonZeroParentFingerprint
      else if (data.drop 9).take 4 ≠ [0, 0, 0, 0] then .error .nonZeroChildNumber
      else .ok c
    else .ok c
  else .error (.wrongLength data.length)

/-- key_expression/src/bip32.rs:843-855: after the version. -/
def Xpriv.finish (network : NetworkKind) (c : Common) : Except XkeyErr Xpriv :=
  if c.key.1.headD 0 ≠ 0 then .error .invalidPrivateKeyPrefix
  else
    match SecretKey.fromSecretBytes ⟨c.key.1.drop 1, by rw [List.length_drop, c.key.2]⟩ with
    | none => .error .secp256k1
    | some k => .ok ⟨network, c.depth, c.parentFingerprint, c.childNumber, k, c.chainCode⟩

/-- key_expression/src/bip32.rs:833-856. -/
def Xpriv.decode (data : Bytes) : Except XkeyErr Xpriv :=
  match Common.decode data with
  | .error e => .error e
  | .ok c =>
    if c.version = VERSION_BYTES_MAINNET_PRIVATE then Xpriv.finish .main c
    else if c.version = VERSION_BYTES_TESTNETS_PRIVATE then Xpriv.finish .test c
    else .error (.unknownVersion c.version)

/-- key_expression/src/bip32.rs:1004-1011: after the version. -/
def Xpub.finish {S : Secp} (network : NetworkKind) (c : Common) : Except XkeyErr (Xpub S) :=
  match S.fromSlice c.key.1 with
  | none => .error .secp256k1
  | some k => .ok ⟨network, c.depth, c.parentFingerprint, c.childNumber, k, c.chainCode⟩

/-- key_expression/src/bip32.rs:994-1012. -/
def Xpub.decode {S : Secp} (data : Bytes) : Except XkeyErr (Xpub S) :=
  match Common.decode data with
  | .error e => .error e
  | .ok c =>
    if c.version = VERSION_BYTES_MAINNET_PUBLIC then Xpub.finish .main c
    else if c.version = VERSION_BYTES_TESTNETS_PUBLIC then Xpub.finish .test c
    else .error (.unknownVersion c.version)

/-- `ParseXprivError` and `ParseXpubError`. -/
inductive ParseXkeyErr where
  | base58 (e : B58.DecErr)
  | invalidPayloadLength (n : Nat)
  | decode (e : XkeyErr)
deriving DecidableEq, Repr

/-- key_expression/src/bip32.rs:1040-1044; `none` is a panic of the base58 encoder. -/
def Xpriv.display (H : Bytes → Arr 32) (k : Xpriv) : Option Bytes := B58.encodeUnbounded H k.encode

/-- key_expression/src/bip32.rs:1046-1060. -/
def Xpriv.parse (H : Bytes → Arr 32) (inp : Bytes) : Except ParseXkeyErr Xpriv :=
  match B58.decodeCheck H inp with
  | .error e => .error (.base58 e)
  | .ok data => if data.length ≠ 78 then .error (.invalidPayloadLength data.length) else (Xpriv.decode data).mapError .decode

/-- key_expression/src/bip32.rs:1062-1066. -/
def Xpub.display {S : Secp} (H : Bytes → Arr 32) (k : Xpub S) : Option Bytes := B58.encodeUnbounded H k.encode

/-- key_expression/src/bip32.rs:1068-1082. -/
def Xpub.parse {S : Secp} (H : Bytes → Arr 32) (inp : Bytes) : Except ParseXkeyErr (Xpub S) :=
  match B58.decodeCheck H inp with
  | .error e => .error (.base58 e)
  | .ok data => if data.length ≠ 78 then .error (.invalidPayloadLength data.length) else (Xpub.decode data).mapError .decode

end Bip32
end Btc
