import Verif.Primitives.BlockLaws
/-!
# Model of compact blocks

`p2p/src/bip152.rs`.  `usize` has 64 bits.  `sip k0 k1` is SipHash-2-4 (a number below 2^64, `as_byte_array` is its
little-endian form), `H1` is SHA-256 and `H` double SHA-256.
-/
namespace Btc
namespace Bip152

/-- `usize` subtraction and addition: with overflow checks `none` is a panic, otherwise they wrap. -/
def subU (checks : Bool) (a b : Nat) : Option Nat :=
  if b ≤ a then some (a - b) else if checks then none else some (a + 2 ^ 64 - b)
def addU (checks : Bool) (a b : Nat) : Option Nat :=
  if a + b < 2 ^ 64 then some (a + b) else if checks then none else some (a + b - 2 ^ 64)

/-! ### Requests -/

/-- `BlockTransactionsRequest` (409-414). -/
structure Request where
  blockHash : Arr 32
  offsets : List Nat
deriving DecidableEq

/-- The loop of `from_unsorted_indices` (422-425) and of `from_indices_unchecked` (437-440). -/
def offsetsLoop (checks : Bool) : List Nat → Nat → Option (List Nat)
  | [], _ => some []
  | idx :: l, last =>
    match subU checks idx last, addU checks idx 1 with
    | some o, some last' => (offsetsLoop checks l last').map (o :: ·)
    | _, _ => none

/-- `sort_unstable` on `usize`. -/
def sort (l : List Nat) : List Nat := l.mergeSort (fun a b => decide (a ≤ b))

/-- `from_indices_unchecked` (434-442), `from_unsorted_indices` (418-427). -/
def fromIndicesUnchecked (checks : Bool) (blockHash : Arr 32) (indexes : List Nat) : Option Request :=
  (offsetsLoop checks indexes 0).map fun o => ⟨blockHash, o⟩
def fromUnsortedIndices (checks : Bool) (blockHash : Arr 32) (indexes : List Nat) : Option Request :=
  fromIndicesUnchecked checks blockHash (sort indexes)

/-- The loop of `indices` (452-461); the error is `TxIndexOutOfRangeError`. -/
def indicesLoop : List Nat → Nat → Except Nat (List Nat)
  | [], _ => .ok []
  | o :: os, last =>
    if last + o < 2 ^ 64 then
      if last + o + 1 < 2 ^ 64 then
        match indicesLoop os (last + o + 1) with
        | .error e => .error e
        | .ok l => .ok ((last + o) :: l)
      else .error (last + o)
    else .error last

/-- `indices` (449-463). -/
def Request.indices (r : Request) : Except Nat (List Nat) := indicesLoop r.offsets 0

/-- The loop of `BlockTransactions::from_request` (577-582). -/
def collect (txs : List Tx) : List Nat → Except Nat (List Tx)
  | [] => .ok []
  | idx :: l =>
    match txs[idx]? with
    | none => .error idx
    | some tx =>
      match collect txs l with
      | .error e => .error e
      | .ok ts => .ok (tx :: ts)

/-- `BlockTransactions` (510-515) and `from_request` (568-586). -/
structure BlockTxs where
  blockHash : Arr 32
  txs : List Tx
def fromRequest (r : Request) (b : Block) : Except Nat BlockTxs :=
  match r.indices with
  | .error e => .error e
  | .ok idx =>
    match collect b.txs idx with
    | .error e => .error e
    | .ok ts => .ok ⟨r.blockHash, ts⟩

/-! ### Compact blocks -/

/-- `PrefilledTransaction` (35-49); `idx` is a `u16`. -/
structure Prefilled where
  idx : Nat
  tx : Tx

/-- `HeaderAndShortIds` (216-227). -/
structure Compact where
  header : Header
  nonce : UInt64
  shortIds : List (Arr 6)
  prefilled : List Prefilled

/-- `calculate_siphash_keys` (123-138). -/
def sipKeys (H1 : Bytes → Arr 32) (h : Header) (nonce : UInt64) : Nat × Nat :=
  let d := (H1 (headerBytes h ++ leBytes 8 nonce.toNat)).val
  (leNat (d.take 8), leNat ((d.drop 8).take 8))

/-- `with_siphash_keys` (141-150). -/
def shortId (sip : Nat → Nat → Bytes → Nat) (keys : Nat × Nat) (txid : Arr 32) : Arr 6 :=
  ⟨(leBytes 8 (sip keys.1 keys.2 txid.val)).take 6, by simp⟩

/-- Version 1 of the transaction sent (338-342): all witnesses cleared (primitives witness.rs 156-160). -/
def stripTx (tx : Tx) : Tx := { tx with inputs := tx.inputs.map fun i => { i with witness := Wit.empty } }

/-- Errors of `from_block` (error 590-650). -/
inductive CErr where
  | unknownVersion
  | invalidPrefill
deriving DecidableEq, Repr

/-- The transaction that is prefilled (335-349) and the short id (352-358) for a version. -/
def sent (version : Nat) (tx : Tx) : Tx := if version = 1 then stripTx tx else tx
def idOf (sip : Nat → Nat → Bytes → Nat) (H : Bytes → Arr 32) (keys : Nat × Nat) (version : Nat) (tx : Tx) : Option (Arr 6) :=
  (if version = 1 then tx.txid H else tx.wtxid H).map (shortId sip keys)

/-- The loop of `from_block` (321-360), with the pushes done on the way back: the short ids, the prefilled
transactions and what is left of `prefill`.  `f` and `g` are the prefilled form and the short id.  `idx - last` cannot
underflow; `as u16` truncates. -/
def blockLoop {σ : Type} (f : Tx → Tx) (g : Tx → Option σ) : List Tx → Nat → List Nat → Nat → Option (List σ × List Prefilled × List Nat)
  | [], _, prefill, _ => some ([], [], prefill)
  | tx :: txs, idx, prefill, last =>
    let (pre, prefill') := if prefill.head? = some idx then (true, prefill.tail) else (decide (idx = 0), prefill)
    if pre then
      (blockLoop f g txs (idx + 1) prefill' (idx + 1)).map fun (s, p, r) => (s, ⟨(idx - last) % 2 ^ 16, f tx⟩ :: p, r)
    else
      match g tx with
      | none => none
      | some s0 => (blockLoop f g txs (idx + 1) prefill' last).map fun (s, p, r) => (s0 :: s, p, r)

/-- `from_block` (306-373); `none` is a panic: of the capacity `len - prefill.len()` (319), or of a hash. -/
def fromBlock (sip : Nat → Nat → Bytes → Nat) (H1 H : Bytes → Arr 32) (b : Block) (nonce : UInt64) (version : Nat) (prefill : List Nat) :
    Option (Except CErr Compact) :=
  if version ≠ 1 ∧ version ≠ 2 then some (.error .unknownVersion)
  else if b.txs.length < prefill.length then none
  else
    match blockLoop (sent version) (idOf sip H (sipKeys H1 b.header nonce) version) b.txs 0 prefill 0 with
    | none => none
    | some (s, p, r) => if r.isEmpty then some (.ok ⟨b.header, nonce, s, p⟩) else some (.error .invalidPrefill)

/-! ### Encoding -/

/-- `Encode for PrefilledTransaction` (61-73), decoder (75-94). -/
def prefilledEnc : Enc := encN [bytesEnc, txEnc]
def Prefilled.encoder (p : Prefilled) : prefilledEnc.S := (0, csEncode p.idx, p.tx.encoder, ())
def prefilledDec : Dec Prefilled :=
  (dec2 (csDec MAX_COMPACT_SIZE) txDec).mapE (fun x => if x.1 < 2 ^ 16 then .ok ⟨x.1, x.2⟩ else .error (.custom 30 x.1)) (.tag 30)

/-- `Encode for ShortId` (183-189), decoder (191-204). -/
def shortIdDec : Dec (Arr 6) := (arrayDec 6).mapE (fun b => if h : b.length = 6 then .ok ⟨b, h⟩ else .error .panic) id

/-- `Encode for HeaderAndShortIds` (244-258), decoder (260-285); `VecDecoder::default` limits the count to
`MAX_VEC_SIZE`. -/
def compactEnc : Enc := encN [headerEnc, bytesEnc, prefixedSliceEnc bytesEnc, prefixedSliceEnc prefilledEnc]
def Compact.encoder (c : Compact) : compactEnc.S :=
  (0, c.header.encoder, leBytes 8 c.nonce.toNat, prefixedSlice bytesEnc (c.shortIds.map (·.1)),
    prefixedSlice prefilledEnc (c.prefilled.map Prefilled.encoder), ())
def compactDec : Dec Compact :=
  (dec4 headerDec (arrayDec 8) (vecDec shortIdDec MAX_VEC_SIZE) (vecDec prefilledDec MAX_VEC_SIZE)).mapE
    (fun x => if x.2.2.1.length + x.2.2.2.length > 65535 then .error (.custom 31 0)
      else .ok ⟨x.1, UInt64.ofNat (leNat x.2.1), x.2.2.1, x.2.2.2⟩) (.tag 31)

/-- `Encode for BlockTransactionsRequest` (477-486), decoder (488-501); `Offset` is 379-404. -/
def requestEnc : Enc := encN [bytesEnc, prefixedSliceEnc bytesEnc]
def Request.encoder (r : Request) : requestEnc.S := (0, r.blockHash.1, prefixedSlice bytesEnc (r.offsets.map csEncode), ())
def requestDec : Dec Request :=
  (dec2 hash32Dec (vecDec (csDec MAX_COMPACT_SIZE) MAX_VEC_SIZE)).mapE (fun x => .ok ⟨x.1, x.2⟩) (.tag 32)

/-- `Encode for BlockTransactions` (528-540), decoder (542-555). -/
def blockTxsEnc : Enc := encN [bytesEnc, prefixedSliceEnc txEnc]
def BlockTxs.encoder (b : BlockTxs) : blockTxsEnc.S := (0, b.blockHash.1, prefixedSlice txEnc (b.txs.map Tx.encoder), ())
def blockTxsDec : Dec BlockTxs :=
  (dec2 hash32Dec (vecDec txDec MAX_VEC_SIZE)).mapE (fun x => .ok ⟨x.1, x.2⟩) (.tag 33)

end Bip152
end Btc
