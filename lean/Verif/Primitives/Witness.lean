import Verif.Codec.Combinators
import Verif.Codec.Encoder
/-!
# Witness

Model of `primitives/src/witness.rs`.  A panic of the Rust code is the outer `none`.
`usize` is taken to be 64 bits and never to overflow (byte counts of data in memory).
-/
namespace Btc

/-- `Witness` (witness.rs 58-82): elements with their length prefixes, then a table of 4-byte start
offsets beginning at `idx`. -/
structure Wit where
  content : Bytes
  elems : Nat
  idx : Nat
  deriving DecidableEq, Repr

/-- `dst[pos..pos + data.len()].copy_from_slice(data)`; panics when out of range. -/
def writeAt (b : Bytes) (pos : Nat) (data : Bytes) : Option Bytes :=
  if pos + data.length ≤ b.length then some (b.take pos ++ data ++ b.drop (pos + data.length))
  else none

/-- `encode_cursor` (witness.rs 261-266); `to_ne_bytes` is taken as little endian. -/
def encodeCursor (b : Bytes) (start i v : Nat) : Option Bytes :=
  if v < 2 ^ 32 then writeAt b (start + i * 4) (leBytes 4 v) else none

/-- `decode_cursor` (witness.rs 269-273). -/
def decodeCursor (b : Bytes) (start i : Nat) : Option Nat :=
  if start + i * 4 + 4 ≤ b.length then some (leNat ((b.drop (start + i * 4)).take 4)) else none

/-- `decode_unchecked` (witness.rs 846-891), including its `debug_assert!`s; `none` is a panic. -/
def decodeUnchecked : Bytes → Option (Nat × Bytes)
  | [] => none
  | b :: t =>
    if b = 0xFF then
      if 8 ≤ t.length then
        if leNat (t.take 8) > 0xFFFFFFFF then some (leNat (t.take 8), t.drop 8) else none
      else none
    else if b = 0xFE then
      if 4 ≤ t.length then
        if leNat (t.take 4) > 0xFFFF then some (leNat (t.take 4), t.drop 4) else none
      else none
    else if b = 0xFD then
      if 2 ≤ t.length then
        if leNat (t.take 2) ≥ 0xFD then some (leNat (t.take 2), t.drop 2) else none
      else none
    else some (b.toNat, t)

/-- `cast_to_usize_if_valid` (witness.rs 824-833). -/
def castUsizeIfValid (n : Nat) : Option Nat := if n > 4000000 then none else some n

namespace Wit

/-- `Witness::new` (witness.rs 87-89), also `default` (803) and the result of `clear` (156-160). -/
def empty : Wit := ⟨[], 0, 0⟩

/-- The loop of `from_slice` (witness.rs 102-110). -/
def fromLoop (contentSize : Nat) : List Bytes → Nat → Nat → Bytes → Option Bytes
  | [], _, _, content => some content
  | x :: xs, i, cursor, content => do
    let content ← encodeCursor content contentSize i cursor
    let content ← writeAt content cursor (csEncode x.length)
    let cursor := cursor + (csEncode x.length).length
    let content ← writeAt content cursor x
    fromLoop contentSize xs (i + 1) (cursor + x.length) content

/-- `Witness::from_slice` (witness.rs 92-113). -/
def fromSlice (l : List Bytes) : Option Wit := do
  let contentSize := (l.map fun x => x.length + csSize x.length).sum
  let content ← fromLoop contentSize l 0 0 (List.replicate (contentSize + l.length * 4) 0)
  some ⟨content, l.length, contentSize⟩

/-- `Witness::push_slice` (witness.rs 169-191). -/
def pushSlice (w : Wit) (x : Bytes) : Option Wit := do
  let elems := w.elems + 1
  let prevEnd := w.idx
  let enc := csEncode x.length
  let n := enc.length + x.length
  let c := w.content ++ List.replicate (n + 4) 0
  if prevEnd > c.length then none else
  let suffix := c.drop prevEnd
  let c := c.take prevEnd ++ (suffix.drop (suffix.length - n) ++ suffix.take (suffix.length - n))
  let idx := w.idx + n
  let c ← encodeCursor c idx (elems - 1) prevEnd
  let c ← writeAt c prevEnd enc
  let c ← writeAt c (prevEnd + enc.length) x
  some ⟨c, elems, idx⟩

/-- The common part of `get` (229-236) and `Iter::next` (635-642): element number `i`. -/
def get (w : Wit) (i : Nat) : Option (Option Bytes) :=
  match decodeCursor w.content w.idx i with
  | none => some none
  | some pos =>
    if pos > w.content.length then none
    else match decodeUnchecked (w.content.drop pos) with
      | none => none
      | some (n, slice) =>
        match castUsizeIfValid n with
        | none => some none
        | some e => if e ≤ slice.length then some (some (slice.take e)) else none

/-- `get_back` (witness.rs 219-225); `last` (195) is `get_back(0)`. -/
def getBack (w : Wit) (i : Nat) : Option (Option Bytes) :=
  if w.elems ≤ i then some none else w.get (w.elems - 1 - i)

/-- All items of `iter()` from position `i` on (witness.rs 126-128, 635-642); `fuel` bounds the
number of items. -/
def iterFrom (w : Wit) : Nat → Nat → Option (List Bytes)
  | 0, _ => some []
  | fuel + 1, i =>
    match w.get i with
    | none => none
    | some none => some []
    | some (some x) => (iterFrom w fuel (i + 1)).map (x :: ·)

/-- `to_vec` (witness.rs 117).  The index table bounds the number of items. -/
def toVec (w : Wit) : Option (List Bytes) := w.iterFrom (w.content.length + 1) 0

/-- `Iter::size_hint` (witness.rs 645-649); `none` is an underflow panic. -/
def sizeHint (w : Wit) (current : Nat) : Option Nat :=
  if w.idx ≤ w.content.length ∧ current ≤ (w.content.length - w.idx) / 4 then
    some ((w.content.length - w.idx) / 4 - current)
  else none

/-- `Witness::size` (witness.rs 139-152). -/
def size (w : Wit) : Option Nat :=
  w.toVec.map fun l => csSize w.elems + (l.map fun x => csSize x.length + x.length).sum

/-- `Witness::is_empty` (witness.rs 121). -/
def isEmpty (w : Wit) : Bool := w.elems == 0

/-- `PartialEq<[T]>` (witness.rs 498-513): same number of elements and pairwise equal. -/
def eqSlice (w : Wit) (l : List Bytes) : Option Bool :=
  if w.elems ≠ l.length then some false
  else w.toVec.map fun v => (v.zip l).all fun p => p.1 == p.2

/-- `Witness::encoder` (witness.rs 281-287). -/
def enc : Enc := encN [bytesEnc, bytesEnc]
def encoder (w : Wit) : enc.S := (0, csEncode w.elems, w.content.take w.idx, ())

end Wit

/-! ## Decoder -/

/-- `MAX_WITNESS_STACK_ITEMS` (witness.rs 38). -/
def MAX_WITNESS_STACK_ITEMS : Nat := 4000000
/-- `MAX_WITNESS_ITEM_SIZE` (witness.rs 45). -/
def MAX_WITNESS_ITEM_SIZE : Nat := 4000000

/-- State of `WitnessDecoder` (witness.rs 303-319).  `left` is `witness_elements - element_idx`. -/
structure WdState where
  content : Bytes
  cntBuf : Bytes
  total : Option Nat
  left : Nat
  lenBuf : Bytes
  rem : Option Nat

/-- The element loop of `push_bytes` (witness.rs 380-440), by recursion on the number of missing
elements; the turn that reads a length and the next turn that copies data are written together. -/
def wdLoop (total : Nat) : Nat → Bytes → Bytes → Option Nat → Bytes →
    Except DErr (WdState × Bytes × Status)
  | 0, content, lb, rem, bs => .ok (⟨content, [], some total, 0, lb, rem⟩, bs, .ready)
  | k + 1, content, lb, rem, bs =>
    let copy (content : Bytes) (r : Nat) (bs : Bytes) :=
      let n := min bs.length r
      if r - n = 0 then wdLoop total k (content ++ bs.take n) [] none (bs.drop n)
      else .ok (⟨content ++ bs.take n, [], some total, k + 1, [], some (r - n)⟩, bs.drop n, .needsMore)
    if bs = [] then .ok (⟨content, [], some total, k + 1, lb, rem⟩, [], .needsMore)
    else match rem with
      | some r => copy content r bs
      | none =>
        match csPush lb bs with
        | (lb', rest, .needsMore) =>
          .ok (⟨content, [], some total, k + 1, lb', none⟩, rest, .needsMore)
        | (lb', rest, .ready) =>
          match csEnd MAX_WITNESS_ITEM_SIZE lb' with
          | .error e => .error (.lenPrefix e)
          | .ok n =>
            let content := content ++ csEncode n
            if n = 0 then wdLoop total k content [] none rest
            else if rest = [] then
              .ok (⟨content, [], some total, k + 1, [], some n⟩, [], .needsMore)
            else copy content n rest

/-- The index loop of `end` (witness.rs 462-474): `content` is the element area. -/
def wdIndex (content : Bytes) : Nat → Nat → Option Bytes
  | 0, _ => some []
  | k + 1, readPos =>
    if readPos < 2 ^ 32 ∧ readPos ≤ content.length then
      match decodeUnchecked (content.drop readPos) with
      | none => none
      | some (n, slice) =>
        let prefixSize := (content.drop readPos).length - slice.length
        (wdIndex content k (readPos + (prefixSize + n))).map (leBytes 4 readPos ++ ·)
    else none

/-- The successful part of `end` (witness.rs 454-476); a panic (offset above `u32::MAX`) is the error
`panic`. -/
def wdFinish (total : Nat) (content : Bytes) : Except DErr Wit :=
  match wdIndex content total 0 with
  | some t => .ok ⟨content ++ t, total, content.length⟩
  | none => .error .panic

/-- `WitnessDecoder::end` (witness.rs 443-480). -/
def wdFin (s : WdState) : Except DErr Wit :=
  match s.total with
  | none => .error (.eof 0)
  | some total => if s.left = 0 then wdFinish total s.content else .error (.eof s.left)

/-- `WitnessDecoder::push_bytes` (witness.rs 343-441). -/
def wdPush (s : WdState) (bs : Bytes) : Except DErr (WdState × Bytes × Status) :=
  match s.total with
  | none =>
    match csPush s.cntBuf bs with
    | (cb, rest, .needsMore) => .ok ({ s with cntBuf := cb }, rest, .needsMore)
    | (cb, rest, .ready) =>
      match csEnd MAX_WITNESS_STACK_ITEMS cb with
      | .error e => .error (.lenPrefix e)
      | .ok n => wdLoop n n s.content s.lenBuf s.rem rest
  | some total => wdLoop total s.left s.content s.lenBuf s.rem bs

/-- The element part of `read_limit` (witness.rs 488-491). -/
def wdElLimit (lb : Bytes) : Option Nat → Nat
  | none => csLimit lb
  | some r => r

/-- `WitnessDecoder::read_limit` (witness.rs 482-493). -/
def wdLimit (s : WdState) : Nat :=
  match s.total with
  | none => csLimit s.cntBuf
  | some _ => wdElLimit s.lenBuf s.rem

/-- `WitnessDecoder` (witness.rs 303-494). -/
def witDec : Dec Wit where
  S := WdState
  init := ⟨[], [], none, 0, [], none⟩
  push := wdPush
  fin := wdFin
  limit := wdLimit

end Btc
