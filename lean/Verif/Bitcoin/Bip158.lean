import Verif.Codec.CompactSize
import Verif.Primitives.Block
import Verif.Script.Templates
/-!
# Model of BIP-158 block filters

`bitcoin/src/bip158.rs`.  Writers are `Vec<u8>` and readers are byte slices, as in `BlockFilter` (62-113); `u64` values
are `Nat`.  The keyed SipHash is a parameter `S : Bytes → Nat` with values below 2^64.
-/
namespace Btc
namespace Bip158

/-! ### Bit streams -/

/-- Errors of the bit streams: more than 64 bits (434-439, 469-474), and `read_exact` at the end of the input. -/
inductive BitErr where
  | tooManyBits
  | eof
deriving DecidableEq, Repr

/-- `BitStreamWriter` (457-461) over a `Vec`. -/
structure BitWriter where
  buffer : UInt8
  offset : Nat
  out : Bytes
deriving DecidableEq, Repr

/-- `BitStreamWriter::new` (465). -/
def BitWriter.new (out : Bytes) : BitWriter := ⟨0, 0, out⟩

/-- `flush` (489-498): the number of bytes written. -/
def BitWriter.flush (w : BitWriter) : BitWriter × Nat :=
  if w.offset > 0 then (⟨0, 0, w.out ++ [w.buffer]⟩, 1) else (w, 0)

/-- The loop of `write` (476-484).  `offset < 8` always holds there. -/
def BitWriter.writeLoop (data : Nat) (w : BitWriter) (nbits wrote : Nat) : BitWriter × Nat :=
  if h : nbits > 0 ∧ w.offset < 8 then
    let bits := min (8 - w.offset) nbits
    let w' : BitWriter :=
      ⟨w.buffer ||| UInt8.ofNat (((data <<< (64 - nbits)) % 2 ^ 64) >>> (64 - 8 + w.offset)), w.offset + bits, w.out⟩
    if w'.offset = 8 then
      let (w'', k) := w'.flush
      writeLoop data w'' (nbits - bits) (wrote + k)
    else writeLoop data w' (nbits - bits) wrote
  else (w, wrote)
termination_by nbits
decreasing_by all_goals omega

/-- `write` (468-486). -/
def BitWriter.write (w : BitWriter) (data nbits : Nat) : Except BitErr (BitWriter × Nat) :=
  if nbits > 64 then .error .tooManyBits else .ok (w.writeLoop data nbits 0)

/-- `BitStreamReader` (411-415) over a byte slice. -/
structure BitReader where
  buffer : UInt8
  offset : Nat
  rest : Bytes
deriving DecidableEq, Repr

/-- `BitStreamReader::new` (419). -/
def BitReader.new (src : Bytes) : BitReader := ⟨0, 8, src⟩

/-- Lines 442-445. -/
def BitReader.refill (r : BitReader) : Except BitErr BitReader :=
  if r.offset = 8 then
    match r.rest with
    | [] => .error .eof
    | b :: rest => .ok ⟨b, 0, rest⟩
  else .ok r

/-- The loop of `read` (441-451); the `u8` shift drops the bits already read.  `offset ≤ 8` always holds. -/
def BitReader.readLoop (r : BitReader) (nbits data : Nat) : Except BitErr (Nat × BitReader) :=
  if h : nbits > 0 ∧ r.offset ≤ 8 then
    match hr : r.refill with
    | .error e => .error e
    | .ok r' =>
      let bits := min (8 - r'.offset) nbits
      let data' := ((data <<< bits) % 2 ^ 64) ||| ((r'.buffer.toNat <<< r'.offset) % 256) >>> (8 - bits)
      readLoop ⟨r'.buffer, r'.offset + bits, r'.rest⟩ (nbits - bits) data'
  else .ok (data, r)
termination_by nbits
decreasing_by
  have : r'.offset < 8 := by
    unfold BitReader.refill at hr
    split at hr
    · split at hr
      · cases hr
      · cases hr; show 0 < 8; omega
    · cases hr; omega
  omega

/-- `read` (433-453). -/
def BitReader.read (r : BitReader) (nbits : Nat) : Except BitErr (Nat × BitReader) :=
  if nbits > 64 then .error .tooManyBits else r.readLoop nbits 0

/-! ### Golomb-Rice codes -/

/-- The unary loop of `golomb_rice_encode` (381-385). -/
def unaryLoop (w : BitWriter) (q wrote : Nat) : Except BitErr (BitWriter × Nat) :=
  if h : q > 0 then
    let nbits := min q 64
    match w.write (2 ^ 64 - 1) nbits with
    | .error e => .error e
    | .ok (w', k) => unaryLoop w' (q - nbits) (wrote + k)
  else .ok (w, wrote)
termination_by q
decreasing_by omega

/-- `golomb_rice_encode` (371-389); outer `none` is the shift overflow `n >> p` for `p ≥ 64` (debug builds). -/
def golombEncode (p : Nat) (w : BitWriter) (n : Nat) : Option (Except BitErr (BitWriter × Nat)) :=
  if p ≥ 64 then none
  else some <|
    match unaryLoop w (n >>> p) 0 with
    | .error e => .error e
    | .ok (w1, k1) =>
      match w1.write 0 1 with
      | .error e => .error e
      | .ok (w2, k2) =>
        match w2.write n p with
        | .error e => .error e
        | .ok (w3, k3) => .ok (w3, k1 + k2 + k3)

/-- Number of bits left in a reader. -/
def BitReader.left (r : BitReader) : Nat := (8 - r.offset) + 8 * r.rest.length

/-- The `while` loop of `golomb_rice_decode` (396-399), with fuel: every iteration consumes one bit, so one more than
the number of bits left is enough (out of fuel is reported as end of input, which it is). -/
def countOnes : Nat → BitReader → Nat → Except BitErr (Nat × BitReader)
  | 0, _, _ => .error .eof
  | fuel + 1, r, q =>
    match r.read 1 with
    | .error e => .error e
    | .ok (b, r') => if b = 1 then countOnes fuel r' (q + 1) else .ok (q, r')

/-- `golomb_rice_decode` (392-402), for `p < 64`: `q << p` drops high bits, and the sum cannot overflow. -/
def golombDecode (p : Nat) (r : BitReader) : Except BitErr (Nat × BitReader) :=
  match countOnes (r.left + 1) r 0 with
  | .error e => .error e
  | .ok (q, r1) =>
    match r1.read p with
    | .error e => .error e
    | .ok (v, r2) => .ok ((q <<< p) % 2 ^ 64 + v, r2)

/-! ### Filters -/

/-- `map_to_range` (307). -/
def mapToRange (hash nm : Nat) : Nat := (hash * nm) >>> 64

/-- `u64` multiplication and addition: with overflow checks (`checks`) `none` is a panic, otherwise they wrap. -/
def mul64 (checks : Bool) (a b : Nat) : Option Nat :=
  if a * b < 2 ^ 64 then some (a * b) else if checks then none else some (a * b % 2 ^ 64)
def add64 (checks : Bool) (a b : Nat) : Option Nat :=
  if a + b < 2 ^ 64 then some (a + b) else if checks then none else some ((a + b) % 2 ^ 64)

/-- `GcsFilterWriter` (310-315): the element set; `add_element` (324-328).  A `BTreeSet` is modelled by a list without
repetitions; its order does not matter as the mapped values are sorted. -/
def addElement (elements : List Bytes) (e : Bytes) : List Bytes :=
  if e.isEmpty then elements else if elements.contains e then elements else elements ++ [e]

/-- `sort_unstable` on `u64`. -/
def sort (l : List Nat) : List Nat := l.mergeSort (fun a b => decide (a ≤ b))

/-- `Vec::dedup`. -/
def dedup : List Nat → List Nat
  | [] => []
  | [a] => [a]
  | a :: b :: l => if a = b then dedup (b :: l) else a :: dedup (b :: l)

/-- The loop of `finish` (349-353). -/
def deltaLoop (p : Nat) : List Nat → Nat → BitWriter → Nat → Option (Except BitErr (BitWriter × Nat))
  | [], _, w, wrote => some (.ok (w, wrote))
  | data :: ds, last, w, wrote =>
    match golombEncode p w (data - last) with
    | none => none
    | some (.error e) => some (.error e)
    | some (.ok (w', k)) => deltaLoop p ds data w' (wrote + k)

/-- `GcsFilterWriter::finish` (331-356): the bytes written and the returned count; `none` is a panic. -/
def finish (S : Bytes → Nat) (checks : Bool) (m p : Nat) (elements : List Bytes) : Option (Except BitErr (Bytes × Nat)) :=
  match mul64 checks elements.length m with
  | none => none
  | some nm =>
    let mapped := sort (elements.map fun e => mapToRange (S e) nm)
    let header := csEncode mapped.length
    match deltaLoop p mapped 0 (BitWriter.new header) header.length with
    | none => none
    | some (.error e) => some (.error e)
    | some (.ok (w, wrote)) =>
      let (w', k) := w.flush
      some (.ok (w'.out, wrote + k))

/-- Errors of the filter readers (error 511-520). -/
inductive FErr where
  | invalidCompactSize (e : DErr)
  | io (e : BitErr)
  | utxoMissing
deriving DecidableEq, Repr

/-- The loops of `GcsFilterReader::match_any` (242-257). -/
def anyLoop (checks : Bool) (p : Nat) (mapped : List Nat) (data remaining : Nat) (r : BitReader) : Option (Except FErr Bool) :=
  match mapped with
  | [] => some (.ok false)
  | x :: xs =>
    if data = x then some (.ok true)
    else if data < x then
      match remaining with
      | 0 => some (.ok false)
      | k + 1 =>
        match golombDecode p r with
        | .error e => some (.error (.io e))
        | .ok (d, r') =>
          match add64 checks data d with
          | none => none
          | some data' => anyLoop checks p (x :: xs) data' k r'
    else anyLoop checks p xs data remaining r
termination_by mapped.length + remaining

/-- The loops of `GcsFilterReader::match_all` (287-302). -/
def allLoop (checks : Bool) (p : Nat) (mapped : List Nat) (data remaining : Nat) (r : BitReader) : Option (Except FErr Bool) :=
  match mapped with
  | [] => some (.ok true)
  | x :: xs =>
    if data = x then allLoop checks p xs data remaining r
    else if data < x then
      match remaining with
      | 0 => some (.ok false)
      | k + 1 =>
        match golombDecode p r with
        | .error e => some (.error (.io e))
        | .ok (d, r') =>
          match add64 checks data d with
          | none => none
          | some data' => allLoop checks p (x :: xs) data' k r'
    else some (.ok false)
termination_by mapped.length + remaining

/-- `GcsFilterReader::match_any` (217-258) on a slice, for `p < 64`. -/
def matchAny (S : Bytes → Nat) (checks : Bool) (m p : Nat) (content : Bytes) (query : List Bytes) : Option (Except FErr Bool) :=
  match csU64Dec.decodeSliceUnbounded content with
  | .err e => some (.error (.invalidCompactSize e))
  | .stuck => none
  | .ok n rest =>
    match mul64 checks n m with
    | none => none
    | some nm =>
      let mapped := sort (query.map fun e => mapToRange (S e) nm)
      if mapped.isEmpty then some (.ok false)
      else if n = 0 then some (.ok false)
      else
        match golombDecode p (BitReader.new rest) with
        | .error e => some (.error (.io e))
        | .ok (data, r) => anyLoop checks p mapped data (n - 1) r

/-- `GcsFilterReader::match_all` (261-303). -/
def matchAll (S : Bytes → Nat) (checks : Bool) (m p : Nat) (content : Bytes) (query : List Bytes) : Option (Except FErr Bool) :=
  match csU64Dec.decodeSliceUnbounded content with
  | .err e => some (.error (.invalidCompactSize e))
  | .stuck => none
  | .ok n rest =>
    match mul64 checks n m with
    | none => none
    | some nm =>
      let mapped := dedup (sort (query.map fun e => mapToRange (S e) nm))
      if mapped.isEmpty then some (.ok true)
      else if n = 0 then some (.ok false)
      else
        match golombDecode p (BitReader.new rest) with
        | .error e => some (.error (.io e))
        | .ok (data, r) => allLoop checks p mapped data (n - 1) r

/-! ### Block filters -/

/-- `P`, `M` (58-59). -/
def P : Nat := 19
def M : Nat := 784931

/-- The keys of `BlockFilterWriter::new` (124-126) and `BlockFilterReader::new` (177-179). -/
def keys (blockHash : Arr 32) : Nat × Nat := (leNat (blockHash.val.take 8), leNat ((blockHash.val.drop 8).take 8))

/-- `add_output_scripts` (132-140). -/
def addOutputScripts (txs : List Tx) (elements : List Bytes) : List Bytes :=
  (txs.flatMap fun t => t.outputs.map (·.spk)).foldl (fun es s => if Scr.isOpReturn s then es else addElement es s) elements

/-- `add_input_scripts` (143-160): the loop over the previous outputs of all but the first transaction. -/
def addInputLoop (scriptForCoin : OutPoint → Except FErr Bytes) : List OutPoint → List Bytes → Except FErr (List Bytes)
  | [], es => .ok es
  | o :: os, es =>
    match scriptForCoin o with
    | .error e => .error e
    | .ok s => addInputLoop scriptForCoin os (addElement es s)
def addInputScripts (scriptForCoin : OutPoint → Except FErr Bytes) (txs : List Tx) (elements : List Bytes) : Except FErr (List Bytes) :=
  addInputLoop scriptForCoin ((txs.drop 1).flatMap fun t => t.inputs.map (·.prev)) elements

/-- `BlockFilter::new_script_filter` (73-89); `sip k0 k1` is SipHash-2-4, `blockHash` the hash of the block. -/
def newScriptFilter (sip : Nat → Nat → Bytes → Nat) (checks : Bool) (blockHash : Arr 32) (txs : List Tx)
    (scriptForCoin : OutPoint → Except FErr Bytes) : Option (Except FErr Bytes) :=
  match addInputScripts scriptForCoin txs (addOutputScripts txs []) with
  | .error e => some (.error e)
  | .ok es =>
    match finish (sip (keys blockHash).1 (keys blockHash).2) checks M P es with
    | none => none
    | some (.error e) => some (.error (.io e))
    | some (.ok (out, _)) => some (.ok out)

/-- `BlockFilter::match_any`, `match_all` (95-112). -/
def filterMatchAny (sip : Nat → Nat → Bytes → Nat) (checks : Bool) (content : Bytes) (blockHash : Arr 32) (query : List Bytes) :=
  matchAny (sip (keys blockHash).1 (keys blockHash).2) checks M P content query
def filterMatchAll (sip : Nat → Nat → Bytes → Nat) (checks : Bool) (content : Bytes) (blockHash : Arr 32) (query : List Bytes) :=
  matchAll (sip (keys blockHash).1 (keys blockHash).2) checks M P content query

end Bip158
end Btc
