import Verif.Primitives.Witness
import Verif.Codec.Then
/-!
# Transactions

Model of `primitives/src/transaction.rs` and of the wire forms of its fields (`units/src/amount`,
`units/src/sequence.rs`, `units/src/locktime/absolute`, `primitives/src/script`).  Scripts are byte
strings, lock times and sequences the `u32` they wrap (`LockTime::from_consensus`/`to_consensus_u32`
is a bijection with `u32`, see C37).
-/
namespace Btc


/-- `Amount::MAX_MONEY` in satoshi (units/src/amount/unsigned.rs 62). -/
def MAX_MONEY : Nat := 2100000000000000

/-- `Amount` (units/src/amount/unsigned.rs 27-62; the invariant is C39). -/
abbrev Amount := { n : Nat // n ≤ MAX_MONEY }

/-- `OutPoint` (transaction.rs 928-934). -/
structure OutPoint where
  txid : Arr 32
  vout : UInt32
  deriving DecidableEq

/-- `OutPoint::COINBASE_PREVOUT` (transaction.rs 944), `Txid::COINBASE_PREVOUT` (hash_types/txid.rs):
all zeroes and `u32::MAX`. -/
def OutPoint.null : OutPoint := ⟨⟨List.replicate 32 0, by simp⟩, 0xFFFFFFFF⟩

/-- `TxIn` (transaction.rs 763-784). -/
structure TxIn where
  prev : OutPoint
  scriptSig : Bytes
  sequence : UInt32
  witness : Wit
  deriving DecidableEq

/-- `TxOut` (transaction.rs 868-875). -/
structure TxOut where
  amount : Amount
  spk : Bytes
  deriving DecidableEq

/-- `Transaction` (transaction.rs 120-135). -/
structure Tx where
  version : UInt32
  lockTime : UInt32
  inputs : List TxIn
  outputs : List TxOut
  deriving DecidableEq

namespace Tx

/-- `Transaction::uses_segwit_serialization` (transaction.rs 204-211). -/
def usesSegwit (tx : Tx) : Bool :=
  if tx.inputs.any fun i => !i.witness.isEmpty then true else tx.inputs.isEmpty

/-- `Transaction::is_coinbase` (transaction.rs 220-222). -/
def isCoinbase (tx : Tx) : Bool :=
  match tx.inputs with
  | [i] => i.prev == OutPoint.null
  | _ => false

end Tx

/-! ## Encoders -/

/-- `Encode for OutPoint` (transaction.rs 995-1017). -/
def outPointEnc : Enc := encN [bytesEnc, bytesEnc]
def OutPoint.encoder (o : OutPoint) : outPointEnc.S := (0, o.txid.1, u32le o.vout, ())

/-- `Encode for TxIn` (transaction.rs 807-829). -/
def txInEnc : Enc := encN [outPointEnc, prefixedBytesEnc, bytesEnc]
def TxIn.encoder (i : TxIn) : txInEnc.S :=
  (0, i.prev.encoder, prefixedBytes i.scriptSig, u32le i.sequence, ())

/-- `Encode for TxOut` (transaction.rs 878-899), `Encode for Amount` (units amount/unsigned.rs 600-609). -/
def txOutEnc : Enc := encN [bytesEnc, prefixedBytesEnc]
def TxOut.encoder (o : TxOut) : txOutEnc.S := (0, leBytes 8 o.amount.1, prefixedBytes o.spk, ())

/-- The `loop` of `WitnessesEncoder::advance` (transaction.rs 726-745) after the current encoder has
finished; the argument is `self.inputs[1..]`. -/
def wsNext : List TxIn → (List TxIn × Option Wit.enc.S) × Bool
  | [] => (([], none), false)
  | i :: t =>
    if Wit.enc.cur i.witness.encoder ≠ [] then ((i :: t, some i.witness.encoder), true)
    else match Wit.enc.adv i.witness.encoder with
      | (c, true) => ((i :: t, some c), true)
      | (_, false) => wsNext t

/-- `WitnessesEncoder` (transaction.rs 698-747). -/
def witnessesEnc : Enc where
  S := List TxIn × Option Wit.enc.S
  cur
    | (_, none) => []
    | (_, some c) => Wit.enc.cur c
  adv
    | (ins, none) => ((ins, none), false)
    | (ins, some c) => match Wit.enc.adv c with
      | (c', true) => ((ins, some c'), true)
      | (_, false) => wsNext ins.tail

/-- `WitnessesEncoder::new` (transaction.rs 708-710). -/
def witnessesStart (ins : List TxIn) : witnessesEnc.S :=
  (ins, ins.head?.map fun i => i.witness.encoder)

/-- `Encode for Transaction` (transaction.rs 372-421). -/
def txEnc : Enc := encN [bytesEnc, optEnc bytesEnc, prefixedSliceEnc txInEnc,
  prefixedSliceEnc txOutEnc, optEnc witnessesEnc, bytesEnc]
def Tx.encoder (tx : Tx) : txEnc.S :=
  if tx.usesSegwit then
    (0, u32le tx.version, (some [0, 1] : Option Bytes),
      prefixedSlice txInEnc (tx.inputs.map TxIn.encoder),
      prefixedSlice txOutEnc (tx.outputs.map TxOut.encoder),
      (some (witnessesStart tx.inputs) : Option witnessesEnc.S), u32le tx.lockTime, ())
  else
    (0, u32le tx.version, (none : Option Bytes),
      prefixedSlice txInEnc (tx.inputs.map TxIn.encoder),
      prefixedSlice txOutEnc (tx.outputs.map TxOut.encoder),
      (none : Option witnessesEnc.S), u32le tx.lockTime, ())

/-! ## Field decoders -/

/-- `VersionDecoder`, `SequenceDecoder`, `LockTimeDecoder` (transaction.rs 1240-1261; units
sequence.rs 275-288; locktime/absolute/mod.rs 430-443): four bytes, little endian. -/
def u32Dec : Dec UInt32 := (arrayDec 4).mapE (fun b => .ok (UInt32.ofNat (leNat b))) id

/-- `OutPointDecoder` (transaction.rs 1019-1037). -/
def outPointDec : Dec OutPoint :=
  (arrayDec 36).mapE (fun b =>
    if h : (b.take 32).length = 32 then .ok ⟨⟨b.take 32, h⟩, UInt32.ofNat (leNat (b.drop 32))⟩
    else .error .panic) id

/-- `ScriptBufDecoder` (primitives/src/script/owned.rs 322-350). -/
def scriptDec : Dec Bytes := byteVecDec MAX_VEC_SIZE

/-- `AmountDecoder` (units amount/unsigned.rs 624-641); error 1 is `OutOfRange`. -/
def amountDec : Dec Amount :=
  (arrayDec 8).mapE (fun b =>
    if h : leNat b ≤ MAX_MONEY then .ok ⟨leNat b, h⟩ else .error (.custom 1 (leNat b))) id

/-- `TxInDecoder` (transaction.rs 832-855). -/
def txInDec : Dec TxIn :=
  (dec3 outPointDec scriptDec u32Dec).mapE (fun x => .ok ⟨x.1, x.2.1, x.2.2, Wit.empty⟩) id

/-- `TxOutDecoder` (transaction.rs 902-921). -/
def txOutDec : Dec TxOut := (dec2 amountDec scriptDec).mapE (fun x => .ok ⟨x.1, x.2⟩) id

/-- `VecDecoder<TxIn>`, `VecDecoder<TxOut>`. -/
def txInsDec : Dec (List TxIn) := vecDec txInDec MAX_VEC_SIZE
def txOutsDec : Dec (List TxOut) := vecDec txOutDec MAX_VEC_SIZE

/-! ## Transaction decoder

Errors (`TransactionDecoderErrorInner`): `tag 1..5` = `Version`, `Inputs`, `Outputs`, `Witness`,
`LockTime`; `custom 10` = `UnsupportedSegwitFlag`, `custom 11` = `NoWitnesses`, `custom 12` =
`EarlyEnd` (value = which), `custom 13` = `NoOutputs`, `custom 14` = `NullPrevoutInNonCoinbase`,
`custom 15/16` = `CoinbaseScriptSigTooSmall/TooLarge`, `custom 17` = `DuplicateInput` (value = the out
point), `custom 18` = `OutputValueSumTooLarge`. -/

/-- `TransactionDecoderState` (transaction.rs 655-674) without `Errored`.  The inputs in `Witnesses`
are split at the iteration counter: `inputs = donel ++ cur :: todo`, `iteration = donel.length`. -/
inductive TxSt where
  | version (s : u32Dec.S)
  | inputs (v : UInt32) (second : Bool) (s : txInsDec.S)
  | segwitFlag (v : UInt32)
  | outputs (v : UInt32) (ins : List TxIn) (segwit : Bool) (s : txOutsDec.S)
  | witnesses (v : UInt32) (outs : List TxOut) (donel : List TxIn) (cur : TxIn) (todo : List TxIn)
      (s : witDec.S)
  | lockTime (v : UInt32) (ins : List TxIn) (outs : List TxOut) (s : u32Dec.S)
  | done (tx : Tx)

/-- Result of a push. -/
abbrev TxRes := Except DErr (TxSt × Bytes × Status)

/-- State `LockTime` of the loop (transaction.rs 480-483, 563-567). -/
def txLock (v : UInt32) (ins : List TxIn) (outs : List TxOut) (s : u32Dec.S) (bs : Bytes) : TxRes :=
  u32Dec.pushThen s bs (.tag 5) (.lockTime v ins outs) fun lt rest =>
    .ok (.done ⟨v, lt, ins, outs⟩, rest, .ready)

/-- State `Witnesses` of the loop (transaction.rs 476-479, 542-562), by recursion on the inputs whose
witness is not yet read. -/
def txWit (v : UInt32) (outs : List TxOut) :
    (todo donel : List TxIn) → (cur : TxIn) → witDec.S → Bytes → TxRes
  | [], donel, cur, s, bs =>
    witDec.pushThen s bs (.tag 4) (.witnesses v outs donel cur []) fun w rest =>
      if (donel ++ [{ cur with witness := w }]).all fun i => i.witness.isEmpty then
        .error (.custom 11 0)
      else txLock v (donel ++ [{ cur with witness := w }]) outs u32Dec.init rest
  | n :: todo, donel, cur, s, bs =>
    witDec.pushThen s bs (.tag 4) (.witnesses v outs donel cur (n :: todo)) fun w rest =>
      txWit v outs todo (donel ++ [{ cur with witness := w }]) n witDec.init rest

/-- After the outputs (transaction.rs 529-540). -/
def txAfterOut (v : UInt32) (ins : List TxIn) (segwit : Bool) (outs : List TxOut) (bs : Bytes) :
    TxRes :=
  match segwit, ins with
  | true, i :: t => txWit v outs t [] i witDec.init bs
  | _, _ => txLock v ins outs u32Dec.init bs

/-- State `Outputs` (transaction.rs 472-475, 526-541). -/
def txOutp (v : UInt32) (ins : List TxIn) (segwit : Bool) (s : txOutsDec.S) (bs : Bytes) : TxRes :=
  txOutsDec.pushThen s bs (.tag 3) (.outputs v ins segwit) fun outs rest =>
    txAfterOut v ins segwit outs rest

/-- State `Inputs(_, Attempt::Second, _)` (transaction.rs 464-467, 508-515). -/
def txIn2 (v : UInt32) (s : txInsDec.S) (bs : Bytes) : TxRes :=
  txInsDec.pushThen s bs (.tag 2) (.inputs v true) fun ins rest =>
    txOutp v ins true txOutsDec.init rest

/-- State `SegwitFlag` (transaction.rs 468-471, 517-525). -/
def txFlag (v : UInt32) (bs : Bytes) : TxRes :=
  match bs with
  | [] => .ok (.segwitFlag v, [], .needsMore)
  | f :: rest => if f ≠ 1 then .error (.custom 10 f.toNat) else txIn2 v txInsDec.init rest

/-- State `Inputs(_, Attempt::First, _)` (transaction.rs 464-467, 494-507). -/
def txIn1 (v : UInt32) (s : txInsDec.S) (bs : Bytes) : TxRes :=
  txInsDec.pushThen s bs (.tag 2) (.inputs v false) fun ins rest =>
    if ins.isEmpty then txFlag v rest else txOutp v ins false txOutsDec.init rest

/-- State `Version` (transaction.rs 458-463, 490-493). -/
def txVer (s : u32Dec.S) (bs : Bytes) : TxRes :=
  u32Dec.pushThen s bs (.tag 1) .version fun v rest => txIn1 v txInsDec.init rest

/-- `TransactionDecoder::push_bytes` (transaction.rs 450-572). -/
def txPush : TxSt → Bytes → TxRes
  | .version s, bs => txVer s bs
  | .inputs v false s, bs => txIn1 v s bs
  | .inputs v true s, bs => txIn2 v s bs
  | .segwitFlag v, bs => txFlag v bs
  | .outputs v ins sw s, bs => txOutp v ins sw s bs
  | .witnesses v outs donel cur todo s, bs => txWit v outs todo donel cur s bs
  | .lockTime v ins outs s, bs => txLock v ins outs s bs
  | .done tx, bs => .ok (.done tx, bs, .ready)

/-- Position of the first null prevout (transaction.rs 594-598). -/
def firstNull : Nat → List TxIn → Option Nat
  | _, [] => none
  | k, i :: t => if i.prev = OutPoint.null then some k else firstNull (k + 1) t

/-- Derived `Ord` of `OutPoint` (transaction.rs 928): txid bytes lexicographically (that is, as a big
endian number), then `vout`. -/
def OutPoint.key (o : OutPoint) : Nat := beNat o.txid.1 * 2 ^ 32 + o.vout.toNat

/-- `outpoints.sort_unstable()` (transaction.rs 612).  Any sorting algorithm gives the same list
since equal keys mean equal out points. -/
def sortOutpoints (l : List OutPoint) : List OutPoint := l.mergeSort fun a b => a.key ≤ b.key

/-- `for pair in outpoints.windows(2) { if pair[0] == pair[1] … }` (transaction.rs 613-617). -/
def firstPair : List OutPoint → Option OutPoint
  | a :: b :: t => if a = b then some a else firstPair (b :: t)
  | _ => none

/-- The output sum loop (transaction.rs 621-627); `saturating_add` on `u64`. -/
def sumCheck : Nat → List TxOut → Option Nat
  | _, [] => none
  | acc, o :: t =>
    let acc' := min (acc + o.amount.1) (2 ^ 64 - 1)
    if acc' > MAX_MONEY then some acc' else sumCheck acc' t

/-- The coinbase scriptSig check (transaction.rs 601-609). -/
def coinbaseCheck (tx : Tx) : Option DErr :=
  match tx.isCoinbase, tx.inputs with
  | true, i :: _ =>
    if i.scriptSig.length < 2 then some (.custom 15 i.scriptSig.length)
    else if i.scriptSig.length > 100 then some (.custom 16 i.scriptSig.length) else none
  | _, _ => none

/-- `end()` in state `Done` (transaction.rs 587-629). -/
def txCheck (tx : Tx) : Except DErr Tx :=
  if tx.outputs.isEmpty then .error (.custom 13 0)
  else match (if tx.inputs.length > 1 then firstNull 0 tx.inputs else none) with
    | some i => .error (.custom 14 i)
    | none => match coinbaseCheck tx with
      | some e => .error e
      | none => match firstPair (sortOutpoints (tx.inputs.map (·.prev))) with
        | some o => .error (.custom 17 o.key)
        | none => match sumCheck 0 tx.outputs with
          | some s => .error (.custom 18 s)
          | none => .ok tx

/-- `TransactionDecoder::end` (transaction.rs 575-632). -/
def txFin : TxSt → Except DErr Tx
  | .version _ => .error (.custom 12 0)
  | .inputs _ _ _ => .error (.custom 12 1)
  | .segwitFlag _ => .error (.custom 12 2)
  | .outputs _ _ _ _ => .error (.custom 12 3)
  | .witnesses _ _ _ _ _ _ => .error (.custom 12 4)
  | .lockTime _ _ _ _ => .error (.custom 12 5)
  | .done tx => txCheck tx

/-- `TransactionDecoder::read_limit` (transaction.rs 635-650). -/
def txLimit : TxSt → Nat
  | .version s => u32Dec.limit s
  | .inputs _ _ s => txInsDec.limit s
  | .segwitFlag _ => 1
  | .outputs _ _ _ s => txOutsDec.limit s
  | .witnesses _ _ _ _ _ s => witDec.limit s
  | .lockTime _ _ _ s => u32Dec.limit s
  | .done _ => 0

/-- `TransactionDecoder` (transaction.rs 425-651). -/
def txDec : Dec Tx where
  S := TxSt
  init := .version u32Dec.init
  push := txPush
  fin := txFin
  limit := txLimit

/-! ## Identifiers -/

/-- Witness bytes hashed for one input (transaction.rs 355-362): `witness.len()` and the elements the
iterator yields; `none` is a panic of the iterator. -/
def hashWitness (w : Wit) : Option Bytes :=
  w.toVec.map fun l => csEncode w.elems ++ (l.map fun x => csEncode x.length ++ x).flatten

/-- The bytes fed to the hash engine by `hash_transaction` (transaction.rs 314-369).  The engine hashes
the concatenation of its inputs (C48). -/
def hashTxInput (tx : Tx) (segwit : Bool) : Option Bytes :=
  let wits : Option Bytes :=
    if segwit then (tx.inputs.mapM fun i => hashWitness i.witness).map List.flatten else some []
  wits.map fun wits =>
    u32le tx.version ++ (if segwit then [0] ++ [1] else []) ++
    csEncode tx.inputs.length ++
    (tx.inputs.map fun i => i.prev.txid.1 ++ u32le i.prev.vout ++ csEncode i.scriptSig.length ++
      i.scriptSig ++ u32le i.sequence).flatten ++
    csEncode tx.outputs.length ++
    (tx.outputs.map fun o => leBytes 8 o.amount.1 ++ csEncode o.spk.length ++ o.spk).flatten ++
    wits ++ u32le tx.lockTime

/-- `compute_txid` (transaction.rs 184-187); `H` is sha256d. -/
def Tx.txid (H : Bytes → Arr 32) (tx : Tx) : Option (Arr 32) := (hashTxInput tx false).map H

/-- `compute_wtxid` (transaction.rs 196-199). -/
def Tx.wtxid (H : Bytes → Arr 32) (tx : Tx) : Option (Arr 32) := (hashTxInput tx tx.usesSegwit).map H

/-- The normalized transaction of `compute_ntxid` (transaction.rs 160-173). -/
def Tx.normalized (tx : Tx) : Tx :=
  { version := tx.version, lockTime := tx.lockTime,
    inputs := tx.inputs.map fun i => { i with scriptSig := [], witness := Wit.empty },
    outputs := tx.outputs }

/-- `compute_ntxid` (transaction.rs 159-175). -/
def Tx.ntxid (H : Bytes → Arr 32) (tx : Tx) : Option (Arr 32) := tx.normalized.txid H

end Btc
