import Verif.Addresses.Bech32
import Verif.Addresses.Network
import Verif.Base58.Base58
import Verif.Script.Templates
/-!
# Model of `addresses/src/lib.rs` and `AddressExt::from_script` (bitcoin/src/address.rs)

HASH160, SHA256 and SHA256d are parameters (they are modelled in `Hashes`).  `Address<NetworkChecked>` and
`Address<NetworkUnchecked>` have the same inner value; the type of network validation is erased.  Formatter flags other than `#` are
not modelled.
-/
namespace Btc.Addr
open Crypto (NetworkKind Secp LegacyPublicKey FullPublicKey)
open Pow (Network)
open Scr (WitProgram WitProgErr)
open Net (str kindOf)

/-! ## Types -/

/-- `KnownHrp` (380-390). -/
inductive KnownHrp where
  | mainnet | testnets | regtest
deriving DecidableEq, Repr

/-- `KnownHrp::from_network` (394-400). -/
def KnownHrp.fromNetwork : Network → KnownHrp
  | .bitcoin => .mainnet
  | .testnet3 | .testnet4 | .signet => .testnets
  | .regtest => .regtest

/-- `KnownHrp::from_hrp` (404-414); `Hrp`s compare in lower case, which is what `Bech32.decode` returns. -/
def KnownHrp.fromHrp (hrp : Bytes) : Option KnownHrp :=
  if hrp = str "bc" then some .mainnet
  else if hrp = str "tb" then some .testnets
  else if hrp = str "bcrt" then some .regtest
  else none

/-- `KnownHrp::to_hrp` (417-423). -/
def KnownHrp.toHrp : KnownHrp → Bytes
  | .mainnet => str "bc"
  | .testnets => str "tb"
  | .regtest => str "bcrt"

/-- `From<KnownHrp> for NetworkKind` (430-438). -/
def KnownHrp.kind : KnownHrp → NetworkKind
  | .mainnet => .main
  | .testnets => .test
  | .regtest => .test

/-- `AddressInner` (325-330). -/
inductive Address where
  | p2pkh (hash : Arr 20) (network : NetworkKind)
  | p2sh (hash : Arr 20) (network : NetworkKind)
  | segwit (program : WitProgram) (hrp : KnownHrp)
deriving DecidableEq, Repr

/-- `AddressType` (224-238). -/
inductive AddressType where
  | p2pkh | p2sh | p2wpkh | p2wsh | p2tr | p2a
deriving DecidableEq, Repr

/-- `Display for AddressType` (240-251). -/
def AddressType.display : AddressType → Bytes
  | .p2pkh => str "p2pkh"
  | .p2sh => str "p2sh"
  | .p2wpkh => str "p2wpkh"
  | .p2wsh => str "p2wsh"
  | .p2tr => str "p2tr"
  | .p2a => str "p2a"

/-- `FromStr for AddressType` (253-266). -/
def AddressType.parse (s : Bytes) : Option AddressType :=
  if s = str "p2pkh" then some .p2pkh
  else if s = str "p2sh" then some .p2sh
  else if s = str "p2wpkh" then some .p2wpkh
  else if s = str "p2wsh" then some .p2wsh
  else if s = str "p2tr" then some .p2tr
  else if s = str "p2a" then some .p2a
  else none

namespace Address

/-! ## Queries -/

/-- `network_kind` (645-651). -/
def networkKind : Address → NetworkKind
  | .p2pkh _ n => n
  | .p2sh _ n => n
  | .segwit _ hrp => hrp.kind

/-- `address_type` (791-808). -/
def addressType : Address → Option AddressType
  | .p2pkh _ _ => some .p2pkh
  | .p2sh _ _ => some .p2sh
  | .segwit p _ =>
    if p.isP2wpkh then some .p2wpkh
    else if p.isP2wsh then some .p2wsh
    else if p.isP2tr then some .p2tr
    else if p.isP2a then some .p2a
    else none

/-- `is_spend_standard` (857). -/
def isSpendStandard (a : Address) : Bool := a.addressType.isSome

/-- `script_pubkey` (861-873). -/
def scriptPubkey : Address → Bytes
  | .p2pkh h _ => Scr.newP2pkh h
  | .p2sh h _ => Scr.newP2sh h
  | .segwit p _ => Scr.newWitnessProgramUnchecked p.version p.program

/-- `payload_as_bytes` (953-959). -/
def payload : Address → Bytes
  | .p2pkh h _ => h.1
  | .p2sh h _ => h.1
  | .segwit p _ => p.program

/-- `segwit_redeem_hash` (1189-1194). -/
def segwitRedeemHash (H160 : Bytes → Arr 20) (pubkeyHash : Arr 20) : Arr 20 := H160 ([0, 20] ++ pubkeyHash.1)

/-- `LegacyPublicKey::pubkey_hash` (crypto/src/key.rs 680) and `XOnlyPublicKey::from(LegacyPublicKey)`, `serialize`: the last 32 bytes
of the compressed serialization. -/
def pubkeyHash (H160 : Bytes → Arr 20) {S : Secp} (k : LegacyPublicKey S) : Arr 20 := H160 k.serialize
def xonly {S : Secp} (k : LegacyPublicKey S) : Bytes := (S.ser k.inner).1.drop 1

/-- `is_related_to_pubkey` (910-918). -/
def isRelatedToPubkey (H160 : Bytes → Arr 20) {S : Secp} (a : Address) (k : LegacyPublicKey S) : Bool :=
  (pubkeyHash H160 k).1 == a.payload || xonly k == a.payload || (segwitRedeemHash H160 (pubkeyHash H160 k)).1 == a.payload

/-- `is_related_to_xonly_pubkey` (924-926). -/
def isRelatedToXonlyPubkey (a : Address) (key : Arr 32) : Bool := key.1 == a.payload

/-- `matches_script_pubkey` (931-943); the slices are in range as the script is of the tested kind. -/
def matchesScriptPubkey (a : Address) (script : Bytes) : Bool :=
  match a with
  | .p2pkh h _ => Scr.isP2pkh script && (script.drop 3).take 20 == h.1
  | .p2sh h _ => Scr.isP2sh script && (script.drop 2).take 20 == h.1
  | .segwit p _ => Scr.isWitnessProgram script && script.drop 2 == p.program

/-- `is_valid_for_network` (992-998). -/
def isValidForNetwork (a : Address) (n : Network) : Bool :=
  match a with
  | .p2pkh _ k => k == kindOf n
  | .p2sh _ k => k == kindOf n
  | .segwit _ hrp => hrp == KnownHrp.fromNetwork n

/-! ## Constructors -/

/-- `p2sh` (675-682) over `script_hash` (size limit 520); `none` is the error. -/
def ofRedeemScript (H160 : Bytes → Arr 20) (script : Bytes) (n : NetworkKind) : Option Address :=
  if script.length > 520 then none else some (.p2sh (H160 script) n)

/-- `WitnessProgram::p2wpkh` (witness_program.rs 84-87) and `Address::p2wpkh` (696-699) of the hash of the key. -/
def ofWpubkeyHash (h : Arr 20) (hrp : KnownHrp) : Address := .segwit ⟨0, h.1⟩ hrp

/-- `p2shwpkh` (707-712); the script hash cannot fail. -/
def p2shwpkh (H160 : Bytes → Arr 20) (h : Arr 20) (n : NetworkKind) : Option Address :=
  ofRedeemScript H160 (Scr.pushSlice (Scr.pushOpcode [] 0) h.1) n

/-- `p2wsh_from_hash` (729-732), `p2wsh` (720-726, size limit 10,000). -/
def ofWscriptHash (h : Arr 32) (hrp : KnownHrp) : Address := .segwit ⟨0, h.1⟩ hrp
def p2wsh (H256 : Bytes → Arr 32) (script : Bytes) (hrp : KnownHrp) : Option Address :=
  if script.length > 10000 then none else some (ofWscriptHash (H256 script) hrp)

/-- `p2shwsh` (744-752). -/
def p2shwsh (H160 : Bytes → Arr 20) (H256 : Bytes → Arr 32) (script : Bytes) (n : NetworkKind) : Option Address :=
  if script.length > 10000 then none else ofRedeemScript H160 (Scr.pushSlice (Scr.pushOpcode [] 0) (H256 script).1) n

/-- `p2tr_tweaked` (766-769); `p2tr` (755-763) is this with the tweaked key (see C50 for the tweak). -/
def p2trTweaked (outputKey : Arr 32) (hrp : KnownHrp) : Address := .segwit ⟨1, outputKey.1⟩ hrp

/-- `p2a` (772-774). -/
def p2a (hrp : KnownHrp) : Address := .segwit ⟨1, Scr.P2A_PROGRAM⟩ hrp

/-- `FromScriptError` (error.rs 19-26). -/
inductive FromScriptErr where
  | unrecognized
  | witnessVersion
  | witnessProgram (e : WitProgErr)
  /-- An `expect` failed. -/
  | panic
deriving DecidableEq, Repr

/-- `AddressExt::from_script` (bitcoin/src/address.rs 73-95); the parameters enter as their network. -/
def fromScript (s : Bytes) (n : Network) : Except FromScriptErr Address :=
  if Scr.isP2pkh s then
    if h : ((s.drop 3).take 20).length = 20 then .ok (.p2pkh ⟨(s.drop 3).take 20, h⟩ (kindOf n)) else .error .panic
  else if Scr.isP2sh s then
    if h : ((s.drop 2).take 20).length = 20 then .ok (.p2sh ⟨(s.drop 2).take 20, h⟩ (kindOf n)) else .error .panic
  else if Scr.isWitnessProgram s then
    match s.head? with
    | none => .error .panic
    | some opcode =>
      match Scr.witnessVersionFromOp opcode with
      | none => .error .witnessVersion
      | some v =>
        match WitProgram.new v (s.drop 2) with
        | .error e => .error (.witnessProgram e)
        | .ok p => .ok (.segwit p (KnownHrp.fromNetwork n))
  else .error .unrecognized

/-! ## Text -/

/-- `PUBKEY_ADDRESS_PREFIX_*`, `SCRIPT_ADDRESS_PREFIX_*` (152-158). -/
def pubkeyPrefix : NetworkKind → UInt8
  | .main => 0
  | .test => 111
def scriptPrefix : NetworkKind → UInt8
  | .main => 5
  | .test => 196

/-- `Display for AddressInner` (333-372); `alt` is the flag `#`; `none` is a failed `expect`.  `D` is SHA256d. -/
def display (D : Bytes → Arr 32) (alt : Bool) : Address → Option Bytes
  | .p2pkh h n => B58.encodeUnbounded D (pubkeyPrefix n :: h.1)
  | .p2sh h n => B58.encodeUnbounded D (scriptPrefix n :: h.1)
  | .segwit p hrp =>
    if p.version.toNat < 32 then
      let v := BitVec.ofNat 5 p.version.toNat
      some (if alt then Bech32.encodeUpper hrp.toHrp v p.program else Bech32.encodeLower hrp.toHrp v p.program)
    else none

/-- `to_qr_uri` (903). -/
def toQrUri (D : Bytes → Arr 32) (a : Address) : Option Bytes := (a.display D true).map (str "bitcoin:" ++ ·)

/-- `ParseError` (error.rs 85-92) and the errors in it. -/
inductive ParseErr where
  | tooLong (n : Nat)
  | base58 (e : B58.ArrErr)
  | invalidLegacyPrefix (b : UInt8)
  | bech32
  | witnessVersion (b : UInt8)
  | unknownHrp (hrp : Bytes)
  | networkValidation (required : Network)
  /-- An `expect` failed. -/
  | panic
deriving DecidableEq, Repr

/-- `from_bech32_str` (1072-1082) with `WitnessVersion::try_from(u8)` (witness_version.rs 115-139). -/
def fromBech32Str (s : Bytes) : Except ParseErr Address :=
  match Bech32.decode s with
  | none => .error .bech32
  | some (hrp, version, data) =>
    if version.toNat ≤ 16 then
      match WitProgram.new (UInt8.ofNat version.toNat) data with
      | .error _ => .error .panic
      | .ok program =>
        match KnownHrp.fromHrp hrp with
        | none => .error (.unknownHrp hrp)
        | some hrp => .ok (.segwit program hrp)
    else .error (.witnessVersion (UInt8.ofNat version.toNat))

/-- The match on the prefix byte in `from_base58_str` (1104-1122). -/
def ofPrefix (pre : UInt8) (data : Arr 20) : Except ParseErr Address :=
  if pre = 0 then .ok (.p2pkh data .main)
  else if pre = 111 then .ok (.p2pkh data .test)
  else if pre = 5 then .ok (.p2sh data .main)
  else if pre = 196 then .ok (.p2sh data .test)
  else .error (.invalidLegacyPrefix pre)

/-- `from_base58_str` (1096-1125). -/
def fromBase58Str (D : Bytes → Arr 32) (s : Bytes) : Except ParseErr Address :=
  if s.length > 50 then .error (.tooLong s.length)
  else
    match B58.decodeCheckToArray D 21 s with
    | .error e => .error (.base58 e)
    | .ok data =>
      match data with
      | [] => .error .panic
      | pre :: data => if h : data.length = 20 then ofPrefix pre ⟨data, h⟩ else .error .panic

/-- The text before the last `1`, or all of it (1179-1182). -/
def beforeLastOne (s : Bytes) : Bytes :=
  match Bech32.splitSep s with
  | some (h, _) => h
  | none => s

/-- `FromStr` (1167-1186).  `to_lowercase` is that of Unicode; no character outside ASCII has a lower case form in these prefixes. -/
def parse (D : Bytes → Arr 32) (s : Bytes) : Except ParseErr Address :=
  if [str "bc1", str "bcrt1", str "tb1"].any (fun p => p.isPrefixOf (s.map Bech32.lower)) then fromBech32Str s
  else if [str "1", str "2", str "3", str "m", str "n"].any (fun p => p.isPrefixOf s) then fromBase58Str D s
  else .error (.unknownHrp (beforeLastOne s))

/-- `require_network` (1044-1050). -/
def requireNetwork (a : Address) (n : Network) : Except ParseErr Address :=
  if a.isValidForNetwork n then .ok a else .error (.networkValidation n)

end Address
end Btc.Addr
