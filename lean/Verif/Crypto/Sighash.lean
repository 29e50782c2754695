import Verif.Crypto.SighashType
import Verif.Bitcoin.Taproot
import Verif.Primitives.Transaction
import Verif.Script.Templates
/-!
# Signature hashes (`bitcoin/src/crypto/sighash.rs`)

SHA-256 is a parameter `H`: a hash engine computes `H` of the concatenation of what is written to it (C48, C62).  Objects are written
in their consensus encoding, as one write (the code makes one write per chunk of the encoder); the encodings are those of C08-C10.
The writer is a parameter too: it may refuse any write, depending on what was written before.
-/
namespace Btc
namespace Sighash
open Crypto
open Taproot (Hash)

/-! ## Encodings written here -/

/-- `OutPoint`, `Amount`, `Script`, `TxOut` (primitives/src/transaction.rs, units/src/amount/unsigned.rs, primitives/src/script). -/
def outPointB (o : OutPoint) : Bytes := o.txid.1 ++ u32le o.vout
def amountB (a : Amount) : Bytes := leBytes 8 a.1
def scriptB (s : Bytes) : Bytes := csEncode s.length ++ s
def txOutB (o : TxOut) : Bytes := amountB o.amount ++ scriptB o.spk

/-! ## The cache -/

/-- `CommonCache` (177-184). -/
structure Common where
  prevouts : Hash
  sequences : Hash
  outputs : Hash
  deriving DecidableEq

/-- `SegwitCache` (188-192). -/
structure Segwit where
  prevouts : Hash
  sequences : Hash
  outputs : Hash
  deriving DecidableEq

/-- `TaprootCache` (196-199). -/
structure TapC where
  amounts : Hash
  spks : Hash
  deriving DecidableEq

/-- `SighashCache` (159-173). -/
structure Cache where
  tx : Tx
  common : Option Common
  segwit : Option Segwit
  taproot : Option TapC

/-- `SighashCache::new` (337-339). -/
def Cache.new (tx : Tx) : Cache := ⟨tx, none, none, none⟩

/-- The closure in `common_cache_minimal_borrow` (836-854): two engines fed in one loop over the inputs, one over the outputs. -/
def computeCommon (H : Bytes → Hash) (tx : Tx) : Common :=
  let (encPrevouts, encSequences) := tx.inputs.foldl (fun e txin => (e.1 ++ outPointB txin.prev, e.2 ++ u32le txin.sequence)) (([] : Bytes), ([] : Bytes))
  ⟨H encPrevouts, H encSequences, H (tx.outputs.foldl (fun e txout => e ++ txOutB txout) [])⟩

/-- `common_cache_minimal_borrow` (832-855), `common_cache` (828-830). -/
def commonCache (H : Bytes → Hash) (c : Cache) : Cache × Common :=
  match c.common with
  | some x => (c, x)
  | none => let x := computeCommon H c.tx; ({ c with common := some x }, x)

/-- `segwit_cache` (857-868); `hash_again` (hashes/src/sha256/mod.rs) hashes the digest. -/
def segwitCache (H : Bytes → Hash) (c : Cache) : Cache × Segwit :=
  match c.segwit with
  | some x => (c, x)
  | none =>
    let (c, com) := commonCache H c
    let x : Segwit := ⟨H com.prevouts.1, H com.sequences.1, H com.outputs.1⟩
    ({ c with segwit := some x }, x)

/-- The closure in `taproot_cache` (871-885). -/
def computeTap (H : Bytes → Hash) (prevouts : List TxOut) : TapC :=
  let (encAmounts, encSpks) := prevouts.foldl (fun e p => (e.1 ++ amountB p.amount, e.2 ++ scriptB p.spk)) (([] : Bytes), ([] : Bytes))
  ⟨H encAmounts, H encSpks⟩

/-- `taproot_cache` (870-886). -/
def taprootCache (H : Bytes → Hash) (c : Cache) (prevouts : List TxOut) : Cache × TapC :=
  match c.taproot with
  | some x => (c, x)
  | none => let x := computeTap H prevouts; ({ c with taproot := some x }, x)

/-! ## Writing -/

/-- `SigningDataError` (io or sighash error), and panics. -/
inductive SErr (ε : Type) where
  | io
  | sighash (e : ε)
  | panic
  deriving DecidableEq

/-- The cache and the bytes written so far. -/
structure W where
  cache : Cache
  out : Bytes

/-- A writer: does it accept the next write, given the bytes before it? -/
abbrev Sink := Bytes → Bytes → Bool

/-- A part of an encoding function. -/
abbrev M (ε : Type) := W → W × Except (SErr ε) Unit

variable {ε : Type}

def M.done : M ε := fun w => (w, .ok ())
def M.fail (e : ε) : M ε := fun w => (w, .error (.sighash e))
def M.panic : M ε := fun w => (w, .error .panic)
def M.seq (m k : M ε) : M ε := fun w =>
  match m w with
  | (w', .ok ()) => k w'
  | (w', .error e) => (w', .error e)
scoped infixr:60 " ;; " => M.seq

/-- `writer.write_all(b)?` and `io::encode_to_writer(..)?`. -/
def M.write (sink : Sink) (b : Bytes) : M ε := fun w =>
  if sink w.out b then ({ w with out := w.out ++ b }, .ok ()) else (w, .error .io)

/-- Read the three caches. -/
def M.common (H : Bytes → Hash) (k : Common → M ε) : M ε := fun w =>
  let (c, x) := commonCache H w.cache
  k x { w with cache := c }
def M.segwit (H : Bytes → Hash) (k : Segwit → M ε) : M ε := fun w =>
  let (c, x) := segwitCache H w.cache
  k x { w with cache := c }
def M.taproot (H : Bytes → Hash) (ps : List TxOut) (k : TapC → M ε) : M ε := fun w =>
  let (c, x) := taprootCache H w.cache ps
  k x { w with cache := c }
/-- `self.tx.borrow()`. -/
def M.tx (k : Tx → M ε) : M ε := fun w => k w.cache.tx w
def M.try {α : Type} (r : Except ε α) (k : α → M ε) : M ε :=
  match r with
  | .ok a => k a
  | .error e => M.fail e

/-- `InputsIndexError` (bitcoin/src/blockdata/transaction.rs 431-435). -/
structure InputsIndexError where
  index : Nat
  length : Nat
  deriving DecidableEq

/-- `TransactionExt::tx_in` (431-435). -/
def txIn (tx : Tx) (i : Nat) : Except InputsIndexError TxIn :=
  match tx.inputs[i]? with
  | some x => .ok x
  | none => .error ⟨i, tx.inputs.length⟩

/-! ## Taproot -/

/-- `Prevouts` (204-215). -/
inductive Prevouts where
  | one (i : Nat) (o : TxOut)
  | all (l : List TxOut)

/-- `TaprootError` (1116-1129), the errors inside it flattened. -/
inductive TapErr where
  | inputsIndex (e : InputsIndexError)
  | singleMissing (index length : Nat)
  | prevoutsSize
  | prevoutsOneIndex
  | prevoutsAllIndex
  | prevoutsKind
  deriving DecidableEq

/-- `check_all` (232-239). -/
def Prevouts.checkAll (p : Prevouts) (tx : Tx) : Except TapErr Unit :=
  match p with
  | .all l => if l.length ≠ tx.inputs.length then .error .prevoutsSize else .ok ()
  | .one _ _ => .ok ()
/-- `get_all` (241-246). -/
def Prevouts.getAll : Prevouts → Except TapErr (List TxOut)
  | .all l => .ok l
  | .one _ _ => .error .prevoutsKind
/-- `get` (248-261). -/
def Prevouts.get (p : Prevouts) (i : Nat) : Except TapErr TxOut :=
  match p with
  | .one j o => if i = j then .ok o else .error .prevoutsOneIndex
  | .all l => match l[i]? with
    | some o => .ok o
    | none => .error .prevoutsAllIndex

/-- `Annex` (926); the field is private and filled by `new` (930-936) only. -/
abbrev Annex := { b : Bytes // b.head? = some 0x50 }
/-- `Annex::new` (930-936): the error is the wrong first byte, if there is one. -/
def Annex.new (b : Bytes) : Except (Option UInt8) Annex :=
  match h : b.head? with
  | some x => if hx : x = 0x50 then .ok ⟨b, hx ▸ h⟩ else .error (some x)
  | none => .error none

/-- `taproot_encode_signing_data_to` (353-481). -/
def tapEncode (H : Bytes → Hash) (sink : Sink) (i : Nat) (prevouts : Prevouts) (annex : Option Annex)
    (leaf : Option (Hash × UInt32)) (ty : Tap) : M TapErr :=
  .tx fun tx =>
  .try (prevouts.checkAll tx) fun _ =>
  let (sighash, acp) := ty.splitAcp
  .write sink [0] ;;
  .write sink [ty.toU8] ;;
  .write sink (u32le tx.version) ;;
  .write sink (u32le tx.lockTime) ;;
  (if !acp then
    .common H (fun c => .write sink c.prevouts.1) ;;
    .try prevouts.getAll (fun ps => .taproot H ps fun c => .write sink c.amounts.1) ;;
    .try prevouts.getAll (fun ps => .taproot H ps fun c => .write sink c.spks.1) ;;
    .common H (fun c => .write sink c.sequences.1)
  else .done) ;;
  (if sighash ≠ .none ∧ sighash ≠ .single then .common H (fun c => .write sink c.outputs.1) else .done) ;;
  (let spendType : UInt8 := 0
   let spendType := if annex.isSome then spendType ||| 1 else spendType
   let spendType := if leaf.isSome then spendType ||| 2 else spendType
   .write sink [spendType]) ;;
  (if acp then
    .try ((txIn tx i).mapError .inputsIndex) fun txin =>
    .try (prevouts.get i) fun prev =>
    .write sink (outPointB txin.prev) ;;
    .write sink (amountB prev.amount) ;;
    .write sink (scriptB prev.spk) ;;
    .write sink (u32le txin.sequence)
  else .write sink (u32le (UInt32.ofNat i))) ;;
  (match annex with
   | some a => .write sink (H (csEncode a.1.length ++ a.1)).1
   | none => .done) ;;
  (if sighash = .single then
    match tx.outputs[i]? with
    | some o => .write sink (H (txOutB o)).1
    | none => .fail (.singleMissing i tx.outputs.length)
  else .done) ;;
  (match leaf with
   | some (h, pos) => .write sink h.1 ;; .write sink [0] ;; .write sink (u32le pos)
   | none => .done)

/-! ## Segwit v0 -/

/-- `segwit_v0_encode_signing_data_to` (562-615). -/
def segwitEncode (H : Bytes → Hash) (sink : Sink) (i : Nat) (scriptCode : Bytes) (amount : Amount) (ty : Ecdsa) : M InputsIndexError :=
  let zero : Bytes := List.replicate 32 0
  let (sighash, acp) := ty.splitAcp
  .tx fun tx =>
  .write sink (u32le tx.version) ;;
  (if !acp then .segwit H (fun c => .write sink c.prevouts.1) else .write sink zero) ;;
  (if !acp && sighash ≠ .single && sighash ≠ .none then .segwit H (fun c => .write sink c.sequences.1) else .write sink zero) ;;
  (.try (txIn tx i) fun txin =>
    .write sink (outPointB txin.prev) ;;
    .write sink (scriptB scriptCode) ;;
    .write sink (amountB amount) ;;
    .write sink (u32le txin.sequence)) ;;
  (if sighash ≠ .single && sighash ≠ .none then .segwit H (fun c => .write sink c.outputs.1)
   else if h : sighash = .single ∧ i < tx.outputs.length then .write sink (H (H (txOutB tx.outputs[i])).1).1
   else .write sink zero) ;;
  .write sink (u32le tx.lockTime) ;;
  .write sink (u32le ty.toU32)

/-! ## Legacy -/

/-- `is_invalid_use_of_sighash_single` (942-945). -/
def invalidSingle (n : UInt32) (i outputsLen : Nat) : Bool := (Ecdsa.fromConsensus n).isSingle && i ≥ outputsLen

/-- The loop over the inputs in `encode_signing_data_to_inner` (731-746). -/
def legacyInputs (sink : Sink) (i : Nat) (spk : Bytes) (sighash : Ecdsa) : Nat → List TxIn → M InputsIndexError
  | _, [] => .done
  | n, input :: rest =>
    .write sink (outPointB input.prev) ;;
    (if n = i then .write sink (scriptB spk) else .write sink (scriptB [])) ;;
    (if n ≠ i ∧ (sighash = .single ∨ sighash = .none) then .write sink (u32le 0) else .write sink (u32le input.sequence)) ;;
    legacyInputs sink i spk sighash (n + 1) rest

/-- The loop writing `NULL` outputs (762-766). -/
def nullOutputs (sink : Sink) : Nat → M InputsIndexError
  | 0 => .done
  | n + 1 => .write sink [0xFF, 0xFF, 0xFF, 0xFF, 0xFF, 0xFF, 0xFF, 0xFF, 0x00] ;; nullOutputs sink n

/-- `encode_signing_data_to_inner` (712-777). -/
def legacyInner (sink : Sink) (tx : Tx) (i : Nat) (spk : Bytes) (n : UInt32) : M InputsIndexError :=
  let (sighash, acp) := (Ecdsa.fromConsensus n).splitAcp
  .write sink (u32le tx.version) ;;
  (if acp then
    .write sink (csEncode 1) ;;
    (match tx.inputs[i]? with
     | none => .panic
     | some input =>
       .write sink (outPointB input.prev) ;;
       .write sink (scriptB spk) ;;
       .write sink (u32le input.sequence))
  else
    .write sink (csEncode tx.inputs.length) ;;
    legacyInputs sink i spk sighash 0 tx.inputs) ;;
  (match sighash with
   | .all => .write sink (csEncode tx.outputs.length ++ (tx.outputs.map txOutB).flatten)
   | .single =>
     if tx.outputs.length = 0 then .panic
     else
       let count := min i (tx.outputs.length - 1)
       .write sink (csEncode (count + 1)) ;;
       nullOutputs sink count ;;
       (match tx.outputs[count]? with
        | none => .panic
        | some o => .write sink (txOutB o))
   | .none => .write sink (csEncode 0)
   | _ => .panic) ;;
  .write sink (u32le tx.lockTime) ;;
  .write sink (u32le n)

/-- `EncodeSigningDataResult` (955-960) with what was written. -/
inductive LegacyRes where
  | singleBug
  | wrote (out : Bytes) (r : Except (SErr InputsIndexError) Unit)

/-- `legacy_encode_signing_data_to` (687-789), into a writer that has received nothing yet.  It takes `&self` and reads the
transaction only. -/
def legacyEncode (sink : Sink) (c : Cache) (i : Nat) (spk : Bytes) (n : UInt32) : LegacyRes :=
  match txIn c.tx i with
  | .error e => .wrote [] (.error (.sighash e))
  | .ok _ =>
    if invalidSingle n i c.tx.outputs.length then .singleBug
    else let (w, r) := legacyInner sink c.tx i spk n ⟨c, []⟩; .wrote w.out r

/-! ## The hashes -/

/-- A writer that accepts everything: `Vec<u8>` or a hash engine. -/
def vecSink : Sink := fun _ _ => true

/-- `"TapSighash"` (111). -/
def sighashTag : Bytes := [0x54, 0x61, 0x70, 0x53, 0x69, 0x67, 0x68, 0x61, 0x73, 0x68]

/-- `SigningDataError::unwrap_sighash`: an i/o error panics (outer `none`). -/
def finish {ε α : Type} (r : W × Except (SErr ε) Unit) (f : Bytes → α) : Cache × Option (Except ε α) :=
  (r.1.cache, match r.2 with
    | .ok () => some (.ok (f r.1.out))
    | .error (.sighash e) => some (.error e)
    | .error _ => none)

/-- `taproot_signature_hash` (484-504). -/
def tapHash (H : Bytes → Hash) (c : Cache) (i : Nat) (prevouts : Prevouts) (annex : Option Annex) (leaf : Option (Hash × UInt32))
    (ty : Tap) : Cache × Option (Except TapErr Hash) :=
  finish (tapEncode H vecSink i prevouts annex leaf ty ⟨c, []⟩) (Taproot.tagged H sighashTag)
/-- `taproot_key_spend_signature_hash` (507-525). -/
def tapKeyHash (H : Bytes → Hash) (c : Cache) (i : Nat) (prevouts : Prevouts) (ty : Tap) : Cache × Option (Except TapErr Hash) :=
  finish (tapEncode H vecSink i prevouts none none ty ⟨c, []⟩) (Taproot.tagged H sighashTag)
/-- `taproot_script_spend_signature_hash` (531-550). -/
def tapScriptHash (H : Bytes → Hash) (c : Cache) (i : Nat) (prevouts : Prevouts) (leaf : Hash) (ty : Tap) :
    Cache × Option (Except TapErr Hash) :=
  finish (tapEncode H vecSink i prevouts none (some (leaf, 0xFFFFFFFF)) ty ⟨c, []⟩) (Taproot.tagged H sighashTag)

/-- `P2wpkhError` (1182-1187). -/
inductive P2wpkhErr where
  | sighash (e : InputsIndexError)
  | notP2wpkh
  deriving DecidableEq

/-- `p2wsh_signature_hash` (646-663). -/
def p2wshHash (H : Bytes → Hash) (c : Cache) (i : Nat) (ws : Bytes) (amount : Amount) (ty : Ecdsa) :
    Cache × Option (Except InputsIndexError Hash) :=
  finish (segwitEncode H vecSink i ws amount ty ⟨c, []⟩) (fun m => H (H m).1)
/-- `p2wpkh_signature_hash` (621-640). -/
def p2wpkhHash (H : Bytes → Hash) (c : Cache) (i : Nat) (spk : Bytes) (amount : Amount) (ty : Ecdsa) :
    Cache × Option (Except P2wpkhErr Hash) :=
  match Scr.p2wpkhScriptCode spk with
  | none => (c, none)
  | some none => (c, some (.error .notP2wpkh))
  | some (some code) =>
    let r := finish (segwitEncode H vecSink i code amount ty ⟨c, []⟩) (fun m => H (H m).1)
    (r.1, r.2.map fun x => x.mapError .sighash)

/-- `UINT256_ONE` (46-51). -/
def uint256One : Hash := ⟨1 :: List.replicate 31 0, by simp⟩
/-- `legacy_signature_hash` (810-825). -/
def legacyHash (H : Bytes → Hash) (c : Cache) (i : Nat) (spk : Bytes) (n : UInt32) : Option (Except InputsIndexError Hash) :=
  match legacyEncode vecSink c i spk n with
  | .singleBug => some (.ok uint256One)
  | .wrote out (.ok ()) => some (.ok (H (H out).1))
  | .wrote _ (.error (.sighash e)) => some (.error e)
  | .wrote _ (.error _) => none

/-- `witness_mut` (919-921): the caller may store any witness through the reference. -/
def witnessMut (c : Cache) (i : Nat) (w : Wit) : Cache :=
  { c with tx := { c.tx with inputs := c.tx.inputs.modify i fun x => { x with witness := w } } }

end Sighash
end Btc
