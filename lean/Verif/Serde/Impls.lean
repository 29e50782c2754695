import Verif.Serde.Data
import Verif.Units.LockTime
import Verif.Units.U256Text
import Verif.Units.HexInt
import Verif.Primitives.OutPointText
import Verif.Primitives.Witness
import Verif.Script.Opcodes
import Verif.Bitcoin.Taproot
import Verif.Bip32.Path
import Verif.Codec.Encoder
/-!
# `Serialize` and `Deserialize` of hashes, scripts, witnesses, out points, numbers and consensus encodings
-/
namespace Btc.Serde
open Lock HexInt

/-! ### Byte arrays and hashes

`impl_serde_traits!` (hashes/src/macros.rs 543-567, with `serde_details` 452-526), `impl_serde!` (primitives/src/hash_types/mod.rs 82-108,
130-190) and `impl_array_newtype_stringify!` (include/array_newtype.rs 40-135) are the same code; `rev` says whether the text is in reverse byte order
(hashes/src/macros.rs 276-281, primitives/src/hash_types/generic.rs 41-57).  `Hmac` forwards to its hash (hashes/src/hmac/mod.rs 62-74).
A byte string that is not UTF-8 is refused before it is parsed; it has no hex digits, so the parser refuses it too. -/

/-- `Display`. -/
def hashText {n : Nat} (rev : Bool) (b : Arr n) : Bytes := hexBytes (if rev then b.1.reverse else b.1)

/-- `FromStr`: `hex::decode_to_array`, then the order of the bytes. -/
def hashParse (rev : Bool) (n : Nat) (s : Bytes) : Option (Arr n) :=
  match unhex s with
  | none => none
  | some b => if h : b.length = n then some ⟨if rev then b.reverse else b, by split <;> simp [h]⟩ else none

def serHash {n : Nat} (rev : Bool) (F : Fmt) (b : Arr n) : SVal := if F.human then .str (hashText rev b) else .bytes b.1

/-- `HexVisitor` has `visit_str` and `visit_bytes`, `BytesVisitor` has `visit_bytes`. -/
def deHash (rev : Bool) (n : Nat) (F : Fmt) (v : SVal) : R (Arr n) :=
  if F.human then
    match F.visit .str v with
    | some (.str s) => ofOpt (hashParse rev n s)
    | some (.bytes _ s) => ofOpt (hashParse rev n s)
    | _ => .error .refused
  else
    match F.visit .bytes v with
    | some (.bytes _ b) => if h : b.length = n then .ok ⟨b, h⟩ else .error .refused
    | _ => .error .refused

/-! ### 256-bit numbers -/

/-- `Serialize for U256` (units/src/pow.rs 497-515). -/
def serU256 (F : Fmt) (x : U256) : SVal := if F.human then .str (u256Lower false x) else .bytes x.toBeBytes

/-- `Deserialize for U256` (518-563); `HexVisitor` has only `visit_str`. -/
def deU256 (F : Fmt) (v : SVal) : R U256 :=
  if F.human then
    match F.visit .str v with
    | some (.str s) => ofOpt (u256FromSerdeStr s)
    | _ => .error .refused
  else
    match F.visit .bytes v with
    | some (.bytes _ b) => if h : b.length = 32 then .ok (U256.ofBeBytes ⟨b, h⟩) else .error .refused
    | _ => .error .refused

/-- The derived implementations of `Work` and `Target` (98, 131). -/
def serTarget (F : Fmt) (x : U256) : SVal := .newtype (serU256 F x)
def deTarget (F : Fmt) (v : SVal) : R U256 := deNewtype (deU256 F) F v

/-! ### Numbers -/

/-- `u32::deserialize` and the like, as values of the type. -/
def deU32 (F : Fmt) (v : SVal) : R UInt32 :=
  match deUint 32 F v with
  | .ok n => .ok (UInt32.ofNat n)
  | .error e => .error e
def deU16 (F : Fmt) (v : SVal) : R UInt16 :=
  match deUint 16 F v with
  | .ok n => .ok (UInt16.ofNat n)
  | .error e => .error e
def deU64 (F : Fmt) (v : SVal) : R UInt64 :=
  match deUint 64 F v with
  | .ok n => .ok (UInt64.ofNat n)
  | .error e => .error e
def deI32 (F : Fmt) (v : SVal) : R Int32 :=
  match deSint 32 F v with
  | .ok z => .ok (Int32.ofInt z)
  | .error e => .error e

/-- `BlockHeight`, `BlockHeightInterval`, `BlockMtp`, `BlockMtpInterval` (units/src/block.rs 87-106), `BlockTime` (time.rs 99-118), `ChildNumber`
(key_expression/src/bip32.rs 397-415): the `u32`. -/
def serU32 (n : UInt32) : SVal := .uint 32 n.toNat
/-- `NumberOfBlocks`, `NumberOf512Seconds` (units/src/locktime/relative/mod.rs 502-521, 654-673). -/
def serU16 (n : UInt16) : SVal := .uint 16 n.toNat
/-- `Weight` (units/src/weight.rs 301-320). -/
def serU64 (n : UInt64) : SVal := .uint 64 n.toNat
def serI32 (n : Int32) : SVal := .sint 32 n.toInt

/-- `ChildNumber` (key_expression/src/bip32.rs 397-415). -/
def serChild (c : Bip32.ChildNumber) : SVal := serU32 c.raw
def deChild (F : Fmt) (v : SVal) : R Bip32.ChildNumber :=
  match deU32 F v with
  | .ok n => .ok ⟨n⟩
  | .error e => .error e

/-- The derived implementations of `Sequence` (units/src/sequence.rs 35), `CompactTarget` (pow.rs 248), `transaction::Version`
(primitives/src/transaction.rs 1164), and `block::Version` (primitives/src/block.rs 650). -/
def serNewU32 (n : UInt32) : SVal := .newtype (serU32 n)
def deNewU32 (F : Fmt) (v : SVal) : R UInt32 := deNewtype (deU32 F) F v
def serNewI32 (n : Int32) : SVal := .newtype (serI32 n)
def deNewI32 (F : Fmt) (v : SVal) : R Int32 := deNewtype (deI32 F) F v

/-- `Height`, `MedianTimePast` (units/src/locktime/absolute/mod.rs 602-621, 755-774). -/
def serHeight (h : Height) : SVal := serU32 h.n
def deHeight (F : Fmt) (v : SVal) : R Height :=
  match deU32 F v with
  | .ok n => ofOpt (Height.fromU32 n)
  | .error e => .error e
def serMtp (h : Mtp) : SVal := serU32 h.n
def deMtp (F : Fmt) (v : SVal) : R Mtp :=
  match deU32 F v with
  | .ok n => ofOpt (Mtp.fromU32 n)
  | .error e => .error e

/-- `absolute::LockTime` (482-501); `none` of `from_consensus` is a panic. -/
def serLock (l : LockTime) : SVal := serU32 l.toConsensus
def deLock (F : Fmt) (v : SVal) : R LockTime :=
  match deU32 F v with
  | .ok n =>
    match LockTime.fromConsensus n with
    | some l => .ok l
    | none => .error .panic
  | .error e => .error e

/-- `relative::LockTime` (units/src/locktime/relative/mod.rs 389-409). -/
def serRel (l : RelLock) : SVal := serU32 l.toConsensus
def deRel (F : Fmt) (v : SVal) : R RelLock :=
  match deU32 F v with
  | .ok n => ofOpt (RelLock.fromConsensus n)
  | .error e => .error e

/-- `WitnessVersion` (primitives/src/witness_version.rs 164-182); a version is its number. -/
def serWitnessVersion (n : UInt8) : SVal := .uint 8 n.toNat
def deWitnessVersion (F : Fmt) (v : SVal) : R UInt8 :=
  match deU8 F v with
  | .ok n => ofOpt (Scr.witnessVersionFromU8 n)
  | .error e => .error e

/-- `LeafVersion` (taproot_primitives/src/lib.rs 263-309): the visitor has only `visit_u64`. -/
def serLeafVersion (l : Taproot.LeafVersion) : SVal := .uint 8 l.toConsensus.toNat
def deLeafVersion (F : Fmt) (v : SVal) : R Taproot.LeafVersion :=
  match F.visit (.uint 8) v with
  | some (.uint n) => if n < 256 then ofExcept (Taproot.LeafVersion.fromConsensus (UInt8.ofNat n)) else .error .refused
  | _ => .error .refused

/-! ### Scripts and witnesses -/

/-- `Serialize for Script` and `ScriptBuf` (primitives/src/script/mod.rs 450-462, 500-508). -/
def serScript (F : Fmt) (s : Bytes) : SVal := if F.human then .str (hexBytes s) else .bytes s

/-- `Deserialize for ScriptBuf` (511-561). -/
def deScriptBuf (F : Fmt) (v : SVal) : R Bytes :=
  if F.human then
    match F.visit .str v with
    | some (.str s) => ofOpt (unhex s)
    | _ => .error .refused
  else
    match F.visit .byteBuf v with
    | some (.bytes _ b) => .ok b
    | _ => .error .refused

/-- `Deserialize for &Script` (466-497): borrowed bytes only. -/
def deScriptRef (F : Fmt) (v : SVal) : R Bytes :=
  if F.human then .error .refused
  else
    match F.visit .bytes v with
    | some (.bytes true b) => .ok b
    | _ => .error .refused

/-- `Serialize for Witness` (primitives/src/witness.rs 677-697); `none` is a panic of the iterator. -/
def serWitness (F : Fmt) (w : Wit) : Option SVal :=
  w.toVec.map fun l => .seq (l.map fun e => if F.human then .str (hexBytes e) else .seq (serU8s e))

/-- `Deserialize for Witness` (700-739); a `Vec<u8>` has 24 bytes. -/
def deWitness (F : Fmt) (v : SVal) : R Wit :=
  let items : R (List Bytes) :=
    if F.human then
      match F.visit .seq v with
      | some (.seq hint vs) =>
        readVec 24 (fun v =>
          match deString F v with
          | .ok s => ofOpt (unhex s)
          | .error e => .error e) hint vs
      | _ => .error .refused
    else deVec (deVec (deU8 F) F) F v
  match items with
  | .error e => .error e
  | .ok l =>
    match Wit.fromSlice l with
    | some w => .ok w
    | none => .error .panic

/-! ### Out points -/

/-- The field names (primitives/src/transaction.rs 1054-1055, 1147), as ASCII. -/
def txidField : Bytes := [116, 120, 105, 100]
def voutField : Bytes := [118, 111, 117, 116]

/-- `Serialize for OutPoint` (1040-1059): the txid as a slice, the vout as an array. -/
def serOutPoint (F : Fmt) (o : OutPoint) : SVal :=
  if F.human then .str o.display
  else .struct [(txidField, .seq (serU8s o.txid.1)), (voutField, .tuple (serU8s (leBytes 4 o.vout.toNat)))]

/-- The loop of `visit_map` (1114-1144); a key that is no field is an error of `Field`. -/
def outPointMap (F : Fmt) : List (Bytes × SVal) → Option (Arr 32) → Option UInt32 → R OutPoint
  | [], txid, vout =>
    match txid, vout with
    | some t, some v => .ok ⟨t, v⟩
    | _, _ => .error .refused
  | (k, v) :: rest, txid, vout =>
    if k = txidField then
      if txid.isSome then .error .refused
      else
        match deArray 32 (deU8 F) F v with
        | .error e => .error e
        | .ok b => if h : b.length = 32 then outPointMap F rest (some ⟨b, h⟩) vout else .error .refused
    else if k = voutField then
      if vout.isSome then .error .refused
      else
        match deArray 4 (deU8 F) F v with
        | .error e => .error e
        | .ok b => outPointMap F rest txid (some (UInt32.ofNat (leNat b)))
    else .error .refused

/-- `Deserialize for OutPoint` (1062-1151).  `visit_seq` (1103-1112) reads a `Txid` and a `u32`, `visit_map` two arrays. -/
def deOutPoint (F : Fmt) (v : SVal) : R OutPoint :=
  if F.human then
    match F.visit .str v with
    | some (.str s) => ofExcept (parseOutPoint s)
    | _ => .error .refused
  else
    match F.visit (.struct [txidField, voutField]) v with
    | some (.seq _ (a :: b :: _)) =>
      match deHash true 32 F a with
      | .error e => .error e
      | .ok t =>
        match deU32 F b with
        | .error e => .error e
        | .ok n => .ok ⟨t, n⟩
    | some (.map fs) => outPointMap F fs none none
    | _ => .error .refused

/-! ### Consensus encodings (consensus_encoding/src/serde_as_consensus.rs) -/

/-- `Display for ConsensusHex` (37-47): the chunks of the encoder, each in hex; `n` bounds the loop. -/
def drainHex (e : Enc) : Nat → e.S → Option Bytes
  | 0, _ => none
  | n + 1, s =>
    match e.adv s with
    | (_, false) => some (hexBytes (e.cur s))
    | (s', true) => (drainHex e n s').map (hexBytes (e.cur s) ++ ·)

/-- `serialize` (29-55). -/
def serConsensus (F : Fmt) (e : Enc) (n : Nat) (s : e.S) : Option SVal :=
  if F.human then (drainHex e n s).map .str else (e.drain n s).map .bytes

/-- A text as the characters `decode_from_hex` walks over. -/
def chars (s : Bytes) : List Char := s.map fun b => Char.ofNat b.toNat

/-- `deserialize` (63-109). -/
def deConsensus {α : Type} (d : Dec α) (F : Fmt) (v : SVal) : R α :=
  if F.human then
    match deString F v with
    | .error e => .error e
    | .ok s => ofExcept (d.decodeHex (chars s))
  else
    match F.visit .bytes v with
    | some (.bytes _ b) => ofExcept (d.decodeSlice b)
    | _ => .error .refused

/-- `opt::serialize` (162-179), `opt::deserialize` (181-213). -/
def serConsensusOpt (F : Fmt) (e : Enc) (n : Nat) : Option e.S → Option SVal
  | none => some .none
  | some s => (serConsensus F e n s).map .some
def deConsensusOpt {α : Type} (d : Dec α) (F : Fmt) (v : SVal) : R (Option α) := deOption (deConsensus d F) F v

/-- `vec::serialize` (267-281), `vec::deserialize` (283-324). -/
def serConsensusVec (F : Fmt) (e : Enc) (n : Nat) (l : List e.S) : Option SVal := (l.mapM (serConsensus F e n)).map .seq
def deConsensusVec {α : Type} (d : Dec α) (F : Fmt) (v : SVal) : R (List α) := deVec (deConsensus d F) F v

end Btc.Serde
