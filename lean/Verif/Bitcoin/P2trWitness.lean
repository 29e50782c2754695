import Verif.Bitcoin.Taproot
import Verif.Primitives.Witness
import Verif.Crypto.Signature
import Verif.Crypto.Keys
/-!
# Building and reading the witnesses of segwit spends

Model of `bitcoin/src/blockdata/witness.rs` and of `ControlBlock::decode_borrowed` (`bitcoin/src/taproot/mod.rs`).
A panic (an `expect`, an index) is the outer `none`.  `ArrayVec` of `encode_to_arrayvec` is its content.
-/
namespace Btc
namespace P2tr

/-- `BorrowedControlBlock` (witness.rs 12): a control block whose internal key is 32 bytes that were not checked to be a point. -/
structure BorrowedControlBlock where
  leafVersion : Taproot.LeafVersion
  parity : Bool
  internalKey : Taproot.Hash
  branch : List Taproot.Hash
deriving DecidableEq

/-- `ControlBlock::decode_borrowed` (taproot/mod.rs 1036-1056). -/
def decodeBorrowed (bs : Bytes) : Except Taproot.CErr BorrowedControlBlock :=
  match bs with
  | [] => .error (.size 0)
  | first :: rest =>
    if h : rest.length < 32 then .error (.size bs.length)
    else
      match Taproot.LeafVersion.fromConsensus (first &&& 0xfe) with
      | .error v => .error (.leafVersion v)
      | .ok ver =>
        match Taproot.decodeBranch (rest.drop 32) with
        | .error e => .error e
        | .ok br => .ok ⟨ver, first &&& 1 ≠ 0, ⟨rest.take 32, by simp; omega⟩, br⟩

/-- `P2TrSpend` (witness.rs 146-168). -/
inductive Spend where
  | key (annex : Option Bytes)
  | script (leafScript : Bytes) (cb : BorrowedControlBlock) (annex : Option Bytes)
deriving DecidableEq

/-- `starts_with(&[TAPROOT_ANNEX_PREFIX])`. -/
def startsWithAnnex (b : Bytes) : Bool := b.head? == some 0x50

/-- `witness.get_back(i).expect(..)`: `none` is the panic. -/
def expectBack (w : Wit) (i : Nat) : Option Bytes :=
  match w.getBack i with
  | some (some b) => some b
  | _ => none

/-- The script arms of `from_witness` (194-203, 204-213): the control block is element `i` from the end, the script the one before it. -/
def scriptArm (w : Wit) (i : Nat) (annex : Option Bytes) : Option (Option Spend) :=
  match expectBack w i with
  | none => none
  | some c =>
    match decodeBorrowed c with
    | .error _ => some none
    | .ok cb =>
      match expectBack w (i + 1) with
      | none => none
      | some s => some (some (.script s cb annex))

/-- `P2TrSpend::from_witness` (171-215).  The annex is `witness.last()`, which the guard has already read. -/
def Spend.fromWitness (w : Wit) : Option (Option Spend) :=
  if w.elems = 0 then some none
  else if w.elems = 1 then some (some (.key none))
  else
    match expectBack w 0 with
    | none => none
    | some last =>
      if w.elems = 2 ∧ startsWithAnnex last then some (some (.key (some last)))
      else if 3 ≤ w.elems ∧ startsWithAnnex last then scriptArm w 1 (some last)
      else scriptArm w 0 none

/-- `P2TrSpend::annex` (217-222). -/
def Spend.annex : Spend → Option Bytes
  | .key a => a
  | .script _ _ a => a

/-- `WitnessExt::tapscript` (80-85). -/
def tapscript (w : Wit) : Option (Option Bytes) :=
  match Spend.fromWitness w with
  | none => none
  | some (some (.script s _ _)) => some (some s)
  | some _ => some none

/-- `WitnessExt::taproot_leaf_script` (98-105). -/
def leafScript (w : Wit) : Option (Option (Taproot.LeafVersion × Bytes)) :=
  match Spend.fromWitness w with
  | none => none
  | some (some (.script s cb _)) => some (some (cb.leafVersion, s))
  | some _ => some none

/-- `WitnessExt::taproot_control_block` (115-120). -/
def controlBlock (w : Wit) : Option (Option BorrowedControlBlock) :=
  match Spend.fromWitness w with
  | none => none
  | some (some (.script _ cb _)) => some (some cb)
  | some _ => some none

/-- `WitnessExt::taproot_annex` (123-125). -/
def annex (w : Wit) : Option (Option Bytes) :=
  match Spend.fromWitness w with
  | none => none
  | some none => some none
  | some (some s) => some s.annex

/-- `WitnessExt::witness_script` (133). -/
def witnessScript (w : Wit) : Option (Option Bytes) := w.getBack 0

/-- `WitnessExt::p2wpkh` (29-34). -/
def p2wpkh {D : Crypto.Der} {S : Crypto.Secp} (sig : Crypto.EcdsaSig D) (pk : Crypto.FullPublicKey S) : Option Wit :=
  match sig.serialize.bind Crypto.EcdsaSer.bytes with
  | none => none
  | some s => (Wit.empty.pushSlice s).bind fun w => w.pushSlice pk.toBytes

/-- `WitnessExt::p2wsh` (45-49). -/
def p2wsh (satisfaction : List Bytes) (script : Bytes) : Option Wit :=
  (Wit.fromSlice satisfaction).bind fun w => w.pushSlice script

/-- `WitnessExt::p2tr_key_spend` (52-56). -/
def p2trKeySpend (sig : Crypto.TapSig) : Option Wit :=
  match sig.serialize with
  | none => none
  | some s => Wit.empty.pushSlice s.bytes

/-- `WitnessExt::push_p2tr_script_spend` (59-65). -/
def pushP2trScriptSpend {S : Taproot.Secp} (w : Wit) (script : Bytes) (cb : Taproot.ControlBlock S) (annex : Option Bytes) : Option Wit :=
  (w.pushSlice script).bind fun w =>
    (w.pushSlice cb.serialize).bind fun w =>
      match annex with
      | none => some w
      | some a => w.pushSlice a

/-- `WitnessExt::push_ecdsa_signature` (70-72). -/
def pushEcdsaSignature {D : Crypto.Der} (w : Wit) (sig : Crypto.EcdsaSig D) : Option Wit :=
  match sig.serialize.bind Crypto.EcdsaSer.bytes with
  | none => none
  | some s => w.pushSlice s

end P2tr
end Btc
