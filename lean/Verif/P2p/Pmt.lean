import Verif.Primitives.BlockLaws
import Verif.Primitives.Merkle
/-!
# Model of partial merkle trees (p2p/src/merkle_tree.rs)

Nodes have type `α` with combining function `c`; the codec is modelled for 32-byte hashes.  Heights,
positions and widths are `Nat`: the `u32` arithmetic does not overflow for at most `2^31` transactions.
An outer `none` is a panic (out-of-bounds index, failed assertion).
-/
namespace Btc
namespace Pmt
variable {α : Type} [DecidableEq α] (c : α → α → α)

/-- `PartialMerkleTree` (merkle_tree.rs 196-204). -/
structure Tree (α : Type) where
  num : Nat
  bits : List Bool
  hashes : List α
deriving DecidableEq

/-- `calc_tree_width` (324-326). -/
def width (n h : Nat) : Nat := (n + 2 ^ h - 1) / 2 ^ h

/-- The loop of `calc_tree_height` (313-319); `fuel` bounds the iterations. -/
def heightLoop (n : Nat) : Nat → Nat → Nat
  | 0, h => h
  | fuel + 1, h => if width n h > 1 then heightLoop n fuel (h + 1) else h

/-- `calc_tree_height` (313-319); 32 iterations are enough for a `u32`. -/
def height (n : Nat) : Nat := heightLoop n 32 0

/-- `calc_hash` (329-345). -/
def calcHash (n : Nat) (txids : List α) : Nat → Nat → Option α
  | 0, pos => txids[pos]?
  | h + 1, pos =>
    match calcHash n txids h (pos * 2) with
    | none => none
    | some left =>
      if pos * 2 + 1 < width n h then
        match calcHash n txids h (pos * 2 + 1) with
        | none => none
        | some right => some (c left right)
      else some (c left left)

/-- The loop of 351-355: `k` iterations from `p`. -/
def orMatches (ms : List Bool) : Nat → Nat → Option Bool
  | 0, _ => some false
  | k + 1, p =>
    match ms[p]?, orMatches ms k (p + 1) with
    | some b, some r => some (b || r)
    | _, _ => none

/-- `traverse_and_build` (348-370); returns the bits and hashes pushed. -/
def build (n : Nat) (txids : List α) (ms : List Bool) : Nat → Nat → Option (List Bool × List α)
  | 0, pos =>
    match orMatches ms (min ((pos + 1) * 2 ^ 0) n - pos * 2 ^ 0) (pos * 2 ^ 0), calcHash c n txids 0 pos with
    | some b, some x => some ([b], [x])
    | _, _ => none
  | h + 1, pos =>
    match orMatches ms (min ((pos + 1) * 2 ^ (h + 1)) n - pos * 2 ^ (h + 1)) (pos * 2 ^ (h + 1)) with
    | none => none
    | some false =>
      match calcHash c n txids (h + 1) pos with
      | some x => some ([false], [x])
      | none => none
    | some true =>
      match build n txids ms h (pos * 2) with
      | none => none
      | some (b1, h1) =>
        if pos * 2 + 1 < width n h then
          match build n txids ms h (pos * 2 + 1) with
          | none => none
          | some (b2, h2) => some (true :: (b1 ++ b2), h1 ++ h2)
        else some (true :: b1, h1)

/-- `PartialMerkleTree::from_txids` (245-260). -/
def fromTxids (txids : List α) (ms : List Bool) : Option (Tree α) :=
  if txids.length = 0 then none
  else if txids.length ≠ ms.length then none
  else (build c txids.length txids ms (height txids.length) 0).map fun r => ⟨txids.length, r.1, r.2⟩

/-- `MerkleBlockError` (584-606). -/
inductive Err where
  | merkleRootMismatch | noTransactions | tooManyTransactions | tooManyHashes | notEnoughBits
  | notAllBitsConsumed | notAllHashesConsumed | bitsArrayOverflow | hashesArrayOverflow
  | identicalHashesFound
deriving DecidableEq, Repr

/-- `traverse_and_extract` (374-432).  The counters `bits_used`, `hash_used` are represented by what
is left of `bits` and `hashes`; the matches with their indexes are returned. -/
def extract (n : Nat) : Nat → Nat → List Bool → List α →
    Except Err (α × List (α × Nat) × List Bool × List α)
  | _, _, [], _ => .error .bitsArrayOverflow
  | 0, pos, b :: bits, hashes =>
    match hashes with
    | [] => .error .hashesArrayOverflow
    | x :: hashes => .ok (x, if b then [(x, pos)] else [], bits, hashes)
  | _ + 1, _, false :: bits, hashes =>
    match hashes with
    | [] => .error .hashesArrayOverflow
    | x :: hashes => .ok (x, [], bits, hashes)
  | h + 1, pos, true :: bits, hashes =>
    match extract n h (pos * 2) bits hashes with
    | .error e => .error e
    | .ok (left, m1, bits, hashes) =>
      if pos * 2 + 1 < width n h then
        match extract n h (pos * 2 + 1) bits hashes with
        | .error e => .error e
        | .ok (right, m2, bits, hashes) =>
          if right = left then .error .identicalHashesFound
          else .ok (c left right, m1 ++ m2, bits, hashes)
      else .ok (c left left, m1, bits, hashes)

/-- `u32::div_ceil(8)`. -/
def divCeil8 (n : Nat) : Nat := (n + 7) / 8

/-- `PartialMerkleTree::extract_matches` (269-310); `Weight::MAX_BLOCK / Weight::MIN_TRANSACTION` is
4,000,000 / 240 (units weight.rs 64-67).  `as u32` reduces modulo `2^32`. -/
def Tree.extractMatches (t : Tree α) : Except Err (α × List (α × Nat)) :=
  if t.num = 0 then .error .noTransactions
  else if t.num > 4000000 / 240 then .error .tooManyTransactions
  else if t.hashes.length % 2 ^ 32 > t.num then .error .tooManyHashes
  else if t.bits.length < t.hashes.length then .error .notEnoughBits
  else match extract c t.num (height t.num) 0 t.bits t.hashes with
    | .error e => .error e
    | .ok (root, ms, bits, hashes) =>
      if divCeil8 (t.bits.length - bits.length) ≠ divCeil8 t.bits.length % 2 ^ 32 then
        .error .notAllBitsConsumed
      else if t.hashes.length - hashes.length ≠ t.hashes.length % 2 ^ 32 then
        .error .notAllHashesConsumed
      else .ok (root, ms)

/-! ## Codec -/

/-- The inner loop of `BitVecEncoder::new` (444-450): bits of one chunk of at most eight. -/
def packByte : Nat → List Bool → UInt8
  | _, [] => 0
  | i, b :: t => (if b then (1 : UInt8) else 0) <<< UInt8.ofNat i ||| packByte (i + 1) t

/-- `bits.chunks(8)` packed (442-452). -/
def packBits : Nat → List Bool → Bytes
  | 0, _ => []
  | fuel + 1, bits => if bits.isEmpty then [] else packByte 0 (bits.take 8) :: packBits fuel (bits.drop 8)

/-- The decoder's loop over one byte (516-518). -/
def unpackByte (x : UInt8) : List Bool :=
  (List.range 8).map fun i => x &&& ((1 : UInt8) <<< UInt8.ofNat i) ≠ 0

/-- The decoder's loop (514-519). -/
def unpackBits (bs : Bytes) : List Bool := (bs.map unpackByte).flatten

/-- `Encode for PartialMerkleTree` (473-495).  `BitVecEncoder` (436-468) yields its buffer as a single
chunk. -/
def enc : Enc := encN [bytesEnc, prefixedSliceEnc bytesEnc, encN [bytesEnc, bytesEnc]]
def Tree.encoder (t : Tree (Arr 32)) : enc.S :=
  (0, u32le (UInt32.ofNat t.num), prefixedSlice bytesEnc (t.hashes.map (·.1)),
    ((0, csEncode (divCeil8 t.bits.length), packBits t.bits.length t.bits, ()) :
      (encN [bytesEnc, bytesEnc]).S), ())

/-- `PartialMerkleTreeDecoder` (497-522). -/
def dec : Dec (Tree (Arr 32)) :=
  (dec3 (arrayDec 4) (vecDec hash32Dec MAX_VEC_SIZE) (byteVecDec MAX_VEC_SIZE)).mapE
    (fun x => .ok ⟨leNat x.1, unpackBits x.2.2, x.2.1⟩) id

/-- `MerkleBlock` (35-40). -/
structure MerkleBlock where
  header : Header
  txn : Tree (Arr 32)

/-- `MerkleBlock::extract_matches` (114-126). -/
def MerkleBlock.extractMatches (c : Arr 32 → Arr 32 → Arr 32) (b : MerkleBlock) :
    Except Err (List (Arr 32 × Nat)) :=
  match b.txn.extractMatches c with
  | .error e => .error e
  | .ok (root, ms) => if root = b.header.merkleRoot then .ok ms else .error .merkleRootMismatch

/-- `MerkleBlock::from_header_txids_with_predicate` (93-105). -/
def MerkleBlock.fromHeader (c : Arr 32 → Arr 32 → Arr 32) (header : Header) (txids : List (Arr 32))
    (p : Arr 32 → Bool) : Option MerkleBlock :=
  (fromTxids c txids (txids.map p)).map fun t => ⟨header, t⟩

/-- `Encode for MerkleBlock` (132-141). -/
def mbEnc : Enc := encN [headerEnc, enc]
def MerkleBlock.encoder (b : MerkleBlock) : mbEnc.S := (0, b.header.encoder, b.txn.encoder, ())

/-- `MerkleBlockDecoder` (143-156). -/
def mbDec : Dec MerkleBlock := (dec2 headerDec dec).mapE (fun x => .ok ⟨x.1, x.2⟩) id

end Pmt
end Btc
