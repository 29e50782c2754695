import Verif.Units.LockErrors
import Verif.Bip32.Xkey
import Verif.Hashes.Siphash
import Verif.P2p.Payloads
import Verif.Addresses.Address
/-!
# What is printed for debugging

`Debug` of secrets (seeds, extended private keys, HKDF), of keyed hash engines, and of amounts, sequence numbers, lock times, witnesses and
addresses.  The builders `debug_struct`, `debug_tuple` and `debug_list` are those of the standard library; `alt` is the flag `#`.
-/
namespace Btc
namespace Dbg
open LockErr (bytes)

/-- A decimal number. -/
def dec (n : Nat) : Bytes := bytes (toString n)

/-- `PadAdapter`: four spaces at the beginning of each line; here after each line feed. -/
def pad : Bytes → Bytes
  | [] => []
  | b :: bs => if b = 10 then 10 :: 32 :: 32 :: 32 :: 32 :: pad bs else b :: pad bs

/-- The fields after the first one, with the text `close` at the end (standard library, `DebugTuple`, `DebugStruct`, `DebugList`). -/
def more (close : Bytes) : List Bytes → Bytes
  | [] => close
  | t :: ts => bytes ", " ++ t ++ more close ts
/-- One line per field. -/
def lines : List Bytes → Bytes
  | [] => []
  | t :: ts => bytes "    " ++ pad t ++ bytes ",\n" ++ lines ts

/-- `DebugTuple`. -/
def tuple (alt : Bool) (name : String) : List Bytes → Bytes
  | [] => bytes name
  | t :: ts => if alt then bytes name ++ bytes "(\n" ++ lines (t :: ts) ++ bytes ")" else bytes name ++ bytes "(" ++ t ++ more (bytes ")") ts

/-- A field of `DebugStruct`. -/
def field (name : String) (t : Bytes) : Bytes := bytes name ++ bytes ": " ++ t
/-- `DebugStruct`, without the flag `#`; the fields are given with their names. -/
def struct (name : String) : List Bytes → Bytes
  | [] => bytes name
  | t :: ts => bytes name ++ bytes " { " ++ t ++ more (bytes " }") ts
/-- `DebugList`, without the flag `#`. -/
def list : List Bytes → Bytes
  | [] => bytes "[]"
  | t :: ts => bytes "[" ++ t ++ more (bytes "]") ts

/-! ## Secrets -/

/-- `Debug for Bip32Seed` (key_expression/src/bip32.rs 121-127). -/
def seed (s : Bip32.Seed) : Bytes :=
  let hash := Sha2.sha256 s.1
  let id := UInt32.ofNat (beNat (hash.take 4))
  bytes "Bip32Seed(sha256=" ++ bytes (LockErr.hex8 id) ++ bytes ")"

/-- The tag of `Debug for Hkdf` (hashes/src/hkdf/mod.rs 137): `bitcoin_hashes1DEBUG`. -/
def hkdfTag : Bytes := [98, 105, 116, 99, 111, 105, 110, 95, 104, 97, 115, 104, 101, 115, 49, 68, 69, 66, 85, 71]

/-- `Debug for Hkdf` (hashes/src/hkdf/mod.rs 126-145); `debug_hex` (hashes/src/lib.rs 324-337). -/
def hkdf (alt : Bool) (prk : Bytes) : Bytes :=
  let A := Hashes.sha256tAlg hkdfTag
  let hash := A.finish (A.input A.new prk)
  tuple alt "Hkdf" [bytes "#" ++ hexBytes (hash.take 8)]

/-- `derive(Debug)` for `NetworkKind` (network/src/lib.rs 48-56). -/
def kind : Crypto.NetworkKind → String
  | .main => "Main"
  | .test => "Test"

/-- `Debug for Xpriv` without `std` (key_expression/src/bip32.rs 179-191), without flags.  `Fingerprint` and `ChainCode` print as lower case
hexadecimal (include/array_newtype.rs 46-50), `ChildNumber` is derived (231). -/
def xprivNoStd (x : Bip32.Xpriv) : Bytes :=
  struct "Xpriv" [field "network" (bytes (kind x.network)), field "depth" (dec x.depth.toNat),
    field "parent_fingerprint" (hexBytes x.parentFingerprint.1), field "child_number" (tuple false "ChildNumber" [dec x.childNumber.raw.toNat]),
    field "chain_code" (hexBytes x.chainCode.1), field "private_key" (bytes "\"[SecretKey]\"")]

/-- `derive(Debug)` for `Xpriv` with `std` (160-175); `key` is `Debug` of the external `secp256k1::SecretKey`. -/
def xprivStd (key : Crypto.SecretKey → Bytes) (x : Bip32.Xpriv) : Bytes :=
  struct "Xpriv" [field "network" (bytes (kind x.network)), field "depth" (dec x.depth.toNat),
    field "parent_fingerprint" (hexBytes x.parentFingerprint.1), field "child_number" (tuple false "ChildNumber" [dec x.childNumber.raw.toNat]),
    field "private_key" (key x.privateKey), field "chain_code" (hexBytes x.chainCode.1)]

/-! ## Keyed engines -/

/-- `derive(Debug)` for `sha256::HashEngine` (hashes/src/sha256/mod.rs 80-85). -/
def engine256 (e : Sha2.Engine256) : Bytes :=
  struct "HashEngine" [field "buffer" (list (e.buffer.map fun b => dec b.toNat)),
    field "h" (list ([e.h.a, e.h.b, e.h.c, e.h.d, e.h.e, e.h.f, e.h.g, e.h.h].map fun w => dec w.toNat)),
    field "bytes_hashed" (dec e.bytesHashed)]

/-- `derive(Debug)` for `HmacEngine` (hashes/src/hmac/mod.rs 84-88), over SHA-256. -/
def hmac256 (e : Hashes.HmacEng Hashes.sha256Alg) : Bytes :=
  struct "HmacEngine" [field "iengine" (engine256 e.i), field "oengine" (engine256 e.o)]

/-- `derive(Debug)` for `siphash24::State` and `HashEngine` (hashes/src/siphash24/mod.rs 109-130). -/
def sip (e : Hashes.Sip.Engine) : Bytes :=
  struct "HashEngine" [field "k0" (dec e.k0.toNat), field "k1" (dec e.k1.toNat), field "bytes_hashed" (dec e.bytesHashed),
    field "state" (struct "State" [field "v0" (dec e.state.v0.toNat), field "v2" (dec e.state.v2.toNat), field "v1" (dec e.state.v1.toNat),
      field "v3" (dec e.state.v3.toNat)]),
    field "tail" (dec e.tail.toNat), field "ntail" (dec e.ntail)]

/-! ## Public values -/

/-- `Debug for Amount` (units/src/amount/unsigned.rs 553-557), `SignedAmount` (signed.rs 528-532). -/
def amount (n : Nat) : Bytes := bytes "Amount(" ++ dec n ++ bytes " SAT)"
def signedAmount (z : Int) : Bytes := bytes "SignedAmount(" ++ (if z < 0 then 45 :: dec z.natAbs else dec z.natAbs) ++ bytes " SAT)"
/-- `Debug for Sequence` (units/src/sequence.rs 241-247). -/
def sequence (s : Lock.Seq) : Bytes := bytes "Sequence(0x" ++ bytes (LockErr.hex8 s.n) ++ bytes ")"
/-- `Debug for absolute::LockTime` (units/src/locktime/absolute/mod.rs 455-463). -/
def lockTime : Lock.LockTime → Bytes
  | .blocks h => dec h.n.toNat ++ bytes " blocks"
  | .seconds t => dec t.n.toNat ++ bytes " seconds"
/-- `Debug for Witness` (primitives/src/witness.rs 574-598) with the feature `hex`, without flags; the witness is the list of its elements. -/
def witness (els : List Bytes) : Bytes :=
  struct "Witness" [field "num_elements" (dec els.length), field "total_bytes" (dec (els.map List.length).sum),
    field "elements" (list (els.map hexBytes))]
/-- `Debug for Address<V>` (addresses/src/lib.rs 1139-1149); `none` is a panic of the text. -/
def address (D : Bytes → Arr 32) (checked alt : Bool) (a : Addr.Address) : Option Bytes :=
  match a.display D alt with
  | none => none
  | some t => some (if checked then t else bytes "Address<NetworkUnchecked>(" ++ t ++ bytes ")")

/-- `Ipv6Addr::to_ipv4` of the standard library: `::a.b.c.d` and `::ffff:a.b.c.d`. -/
def toIpv4 (s : List UInt16) : Option (UInt16 × UInt16) :=
  match s with
  | [0, 0, 0, 0, 0, z, x, y] => if z = 0 ∨ z = 0xffff then some (x, y) else none
  | _ => none

/-- `Debug for p2p::Address` (p2p/src/address.rs 93-110); the texts of the standard library's addresses and of `ServiceFlags` are parameters. -/
def netAddr (services : UInt64 → Bytes) (v4 : UInt16 × UInt16 → Bytes) (v6 : P2p.Segs → Bytes) (a : P2p.NetAddr) : Bytes :=
  let t := match toIpv4 a.address.1 with
    | some q => v4 q
    | none => v6 a.address
  bytes "Address {services: " ++ services a.services ++ bytes ", address: " ++ t ++ bytes ", port: " ++ dec a.port.toNat ++ bytes "}"

end Dbg
end Btc
