import Verif.Codec.Lawful
/-!
# Compact sizes and the decoder combinators

Model of `consensus_encoding/src/compact_size.rs` and
`consensus_encoding/src/decode/decoders.rs`.
-/
namespace Btc

/-! ## Compact size -/

/-- `CompactSizeEncoder::encode` (compact_size.rs 91-113). -/
def csEncode (v : Nat) : Bytes :=
  if v ≤ 0xFC then [UInt8.ofNat v]
  else if v ≤ 0xFFFF then 0xFD :: leBytes 2 v
  else if v ≤ 0xFFFFFFFF then 0xFE :: leBytes 4 v
  else 0xFF :: leBytes 8 v

/-- `CompactSizeEncoder::encoded_size` (compact_size.rs 80-87). -/
def csSize (v : Nat) : Nat :=
  if v ≤ 0xFC then 1 else if v ≤ 0xFFFF then 3 else if v ≤ 0xFFFFFFFF then 5 else 9

/-- Total length announced by the first byte (compact_size.rs 246-251). -/
def csNeed (b : UInt8) : Nat :=
  if b = 0xFF then 9 else if b = 0xFE then 5 else if b = 0xFD then 3 else 1

/-- `compact_size_push_bytes` (compact_size.rs 237-261) on the buffer content `buf`. -/
def csPush (buf bs : Bytes) : Bytes × Bytes × Status :=
  match bs with
  | [] => (buf, [], .needsMore)
  | b :: bs' =>
    let (buf, bs) := if buf = [] then ([b], bs') else (buf, b :: bs')
    match buf with
    | [] => (buf, bs, .needsMore) -- unreachable: `buf[0]` exists here
    | b0 :: _ =>
      let len := csNeed b0
      let n := min bs.length (len - buf.length)
      let buf' := buf ++ bs.take n
      (buf', bs.drop n, if buf'.length = len then .ready else .needsMore)

/-- `compact_size_read_limit` (compact_size.rs 264-274). -/
def csLimit : Bytes → Nat
  | [] => 1
  | b0 :: t => if b0 = 0xFF then 9 - (t.length + 1) else if b0 = 0xFE then 5 - (t.length + 1)
    else if b0 = 0xFD then 3 - (t.length + 1) else 0

/-- `compact_size_decode_u64` (compact_size.rs 277-319). -/
def csDecode : Bytes → Except DErr Nat
  | [] => .error (.csEof 1 0)
  | b0 :: t =>
    if b0 = 0xFF then
      if t.length = 8 then
        if leNat t < 0x100000000 then .error (.nonMinimal (leNat t)) else .ok (leNat t)
      else .error (.csEof 8 t.length)
    else if b0 = 0xFE then
      if t.length = 4 then
        if leNat t < 0x10000 then .error (.nonMinimal (leNat t)) else .ok (leNat t)
      else .error (.csEof 4 t.length)
    else if b0 = 0xFD then
      if t.length = 2 then
        if leNat t < 0xFD then .error (.nonMinimal (leNat t)) else .ok (leNat t)
      else .error (.csEof 2 t.length)
    else .ok b0.toNat

/-- `CompactSizeDecoder::end` (compact_size.rs 171-183); `usize` has 64 bits, so `try_from` succeeds. -/
def csEnd (lim : Nat) (buf : Bytes) : Except DErr Nat :=
  match csDecode buf with
  | .error e => .error e
  | .ok v => if v ≤ lim then .ok v else .error (.exceeds lim v)

/-- `CompactSizeU64Decoder` (compact_size.rs 206-234). -/
def csU64Dec : Dec Nat where
  S := Bytes
  init := []
  push s bs := .ok (csPush s bs)
  fin := csDecode
  limit := csLimit

/-- `CompactSizeDecoder` with a limit (compact_size.rs 141-186). -/
def csDec (lim : Nat) : Dec Nat where
  S := Bytes
  init := []
  push s bs := .ok (csPush s bs)
  fin := csEnd lim
  limit := csLimit

/-- `MAX_COMPACT_SIZE` (compact_size.rs 25). -/
def MAX_COMPACT_SIZE : Nat := 0x02000000
/-- `MAX_VECTOR_ALLOCATE` (decoders.rs 22). -/
def MAX_VECTOR_ALLOCATE : Nat := 1000000
/-- `MAX_VEC_SIZE` (decoders.rs 30). -/
def MAX_VEC_SIZE : Nat := 4000000

/-! ## Array decoder -/

/-- `ArrayDecoder<N>` (decoders.rs 427-475).  The state is the part of the buffer written so far;
the not yet written zero bytes are not observable. -/
def arrayDec (N : Nat) : Dec Bytes where
  S := Bytes
  init := []
  push s bs :=
    let n := min bs.length (N - s.length)
    let s' := s ++ bs.take n
    .ok (s', bs.drop n, if s'.length < N then .needsMore else .ready)
  fin s := if s.length = N then .ok s else .error (.eof (N - s.length))
  limit s := N - s.length

/-! ## Byte vector decoder -/

/-- State of `ByteVecDecoder` (decoders.rs 37-42).  `pre` is `prefix_decoder` (its buffer), `cap` the
capacity of `buffer`.  `bytes_written` always equals `buffer.len()` (111-112) and is not repeated. -/
structure BvState where
  pre : Option Bytes
  buffer : Bytes
  expected : Nat
  cap : Nat

/-- `ByteVecDecoder::reserve` (decoders.rs 70-76).  `reserve_exact n` is modelled as giving exactly
`len + n` capacity. -/
def bvReserve (s : BvState) : BvState :=
  if s.buffer.length = s.cap then
    { s with cap := s.buffer.length + min (s.expected - s.buffer.length) MAX_VECTOR_ALLOCATE }
  else s

/-- `ByteVecDecoder::push_bytes` after the prefix is known (decoders.rs 105-119). -/
def bvBody (s : BvState) (bs : Bytes) : BvState × Bytes × Status :=
  let s := bvReserve s
  let n := min (min bs.length (s.expected - s.buffer.length)) (s.cap - s.buffer.length)
  let buffer' := s.buffer ++ bs.take n
  ({ s with buffer := buffer' }, bs.drop n,
    if buffer'.length < s.expected then .needsMore else .ready)

/-- `ByteVecDecoder` with a limit (decoders.rs 37-142). -/
def byteVecDec (lim : Nat) : Dec Bytes where
  S := BvState
  init := ⟨some [], [], 0, 0⟩
  push s bs :=
    match s.pre with
    | some pb =>
      match csPush pb bs with
      | (pb', rest, .needsMore) => .ok ({ s with pre := some pb' }, rest, .needsMore)
      | (pb', rest, .ready) =>
        match csEnd lim pb' with
        | .error e => .error (.lenPrefix e)
        | .ok n => .ok (bvBody { s with pre := none, expected := n } rest)
    | none => .ok (bvBody s bs)
  fin s :=
    match s.pre with
    | some pb => .error (.eof (csLimit pb))
    | none => if s.buffer.length ≠ s.expected then .error (.eof (s.expected - s.buffer.length))
      else .ok s.buffer
  limit s :=
    match s.pre with
    | some pb => csLimit pb
    | none => s.expected - s.buffer.length

/-! ## Vector decoders -/

/-- State of `ExactVecDecoderWith` (decoders.rs 150-154).  `left` is `length - buffer.len()`. -/
structure EvState (S α : Type) where
  left : Nat
  buffer : List α
  decoder : Option S

/-- The loop of `ExactVecDecoderWith::push_bytes` (decoders.rs 221-241), on the number of missing
items.  `reserve` only affects capacity and is treated separately (`Verif/Codec/Alloc.lean`). -/
def evLoop {α : Type} (d : Dec α) :
    Nat → List α → Option d.S → Bytes → Except DErr (EvState d.S α × Bytes × Status)
  | 0, buf, o, bs => .ok (⟨0, buf, o⟩, bs, .ready)
  | k + 1, buf, o, bs =>
    if bs = [] then .ok (⟨k + 1, buf, o⟩, bs, .needsMore)
    else match d.push (o.getD d.init) bs with
      | .error e => .error (.item e)
      | .ok (s', rest, .needsMore) => .ok (⟨k + 1, buf, some s'⟩, rest, .needsMore)
      | .ok (s', rest, .ready) =>
        match d.fin s' with
        | .error e => .error (.item e)
        | .ok a => evLoop d k (buf ++ [a]) none rest

/-- `ExactVecDecoderWith::end` (decoders.rs 244-254). -/
def evFin {α S : Type} (s : EvState S α) : Except DErr (List α) :=
  if s.left = 0 then .ok s.buffer else .error (.eof s.left)

/-- `ExactVecDecoderWith::read_limit` (decoders.rs 256-267). -/
def evLimit {α : Type} (d : Dec α) (s : EvState d.S α) : Nat :=
  match s.decoder with
  | some x => d.limit x
  | none => if s.left = 0 then 0 else s.left * d.limit d.init

/-- `ExactVecDecoderWith<D>` for `count` items (decoders.rs 150-268). -/
def exactVecDec {α : Type} (d : Dec α) (count : Nat) : Dec (List α) where
  S := EvState d.S α
  init := ⟨count, [], none⟩
  push s bs := evLoop d s.left s.buffer s.decoder bs
  fin := evFin
  limit := evLimit d

/-- State of `VecDecoderWith` (decoders.rs 276-279). -/
structure VState (S α : Type) where
  pre : Option Bytes
  items : EvState S α

/-- `VecDecoderWith<D>` with a limit (decoders.rs 276-358); `VecDecoder<T>` (365-423) forwards to it. -/
def vecDec {α : Type} (d : Dec α) (lim : Nat) : Dec (List α) where
  S := VState d.S α
  init := ⟨some [], ⟨0, [], none⟩⟩
  push s bs :=
    let body (it : EvState d.S α) (bs : Bytes) :=
      match evLoop d it.left it.buffer it.decoder bs with
      | .error e => .error e
      | .ok (it', rest, st) => .ok (VState.mk none it', rest, st)
    match s.pre with
    | some pb =>
      match csPush pb bs with
      | (pb', rest, .needsMore) => .ok ({ s with pre := some pb' }, rest, .needsMore)
      | (pb', rest, .ready) =>
        match csEnd lim pb' with
        | .error e => .error (.lenPrefix e)
        | .ok n => body ⟨n, [], none⟩ rest
    | none => body s.items bs
  fin s :=
    match s.pre with
    | some pb => .error (.eof (csLimit pb))
    | none => evFin s.items
  limit s :=
    match s.pre with
    | some pb => csLimit pb
    | none => evLimit d s.items

/-! ## Tuples -/

/-- `Decoder2State` (decoders.rs 487-494); the `Errored` state only exists after an error. -/
inductive D2State (A B α : Type) where
  | first (a : A) (b : B)
  | second (x : α) (b : B)

/-- `Decoder2<A, B>` (decoders.rs 479-614). -/
def dec2 {α β : Type} (da : Dec α) (db : Dec β) : Dec (α × β) where
  S := D2State da.S db.S α
  init := .first da.init db.init
  push s bs :=
    let second (x : α) (b : db.S) (bs : Bytes) :=
      match db.push b bs with
      | .error e => .error (.snd e)
      | .ok (b', rest, st) => .ok (D2State.second x b', rest, st)
    match s with
    | .first a b =>
      match da.push a bs with
      | .error e => .error (.fst e)
      | .ok (a', rest, .needsMore) => .ok (.first a' b, rest, .needsMore)
      | .ok (a', rest, .ready) =>
        match da.fin a' with
        | .error e => .error (.fst e)
        | .ok x => second x b rest
    | .second x b => second x b bs
  fin s :=
    match s with
    | .first a b =>
      match da.fin a with
      | .error e => .error (.fst e)
      | .ok x => match db.fin b with
        | .error e => .error (.snd e)
        | .ok y => .ok (x, y)
    | .second x b => match db.fin b with
      | .error e => .error (.snd e)
      | .ok y => .ok (x, y)
  limit s :=
    match s with
    | .first a b => da.limit a + db.limit b
    | .second _ b => db.limit b

/-- Newtype wrapper around a decoder: errors are wrapped by `g`, the output is converted by `f`
(which may fail).  Models `decoder_newtype!` (include/decoder_newtype.rs) and the hand written
wrappers, which forward `push_bytes`/`read_limit` and convert in `end`. -/
def Dec.mapE {α β : Type} (d : Dec α) (f : α → Except DErr β) (g : DErr → DErr) : Dec β where
  S := d.S
  init := d.init
  push s bs :=
    match d.push s bs with
    | .error e => .error (g e)
    | .ok r => .ok r
  fin s :=
    match d.fin s with
    | .error e => .error (g e)
    | .ok a => f a
  limit := d.limit

/-- `Decoder3` = `Decoder2<Decoder2<A, B>, C>` (decoders.rs 618-693). -/
def dec3 {α β γ : Type} (a : Dec α) (b : Dec β) (c : Dec γ) : Dec (α × β × γ) :=
  (dec2 (dec2 a b) c).mapE (fun x => .ok (x.1.1, x.1.2, x.2)) id

/-- `Decoder4` = `Decoder2<Decoder2<A, B>, Decoder2<C, D>>` (decoders.rs 697-781). -/
def dec4 {α β γ δ : Type} (a : Dec α) (b : Dec β) (c : Dec γ) (e : Dec δ) : Dec (α × β × γ × δ) :=
  (dec2 (dec2 a b) (dec2 c e)).mapE (fun x => .ok (x.1.1, x.1.2, x.2.1, x.2.2)) id

/-- `Decoder6` = `Decoder2<Decoder3<A, B, C>, Decoder3<D, E, F>>` (decoders.rs 786-893). -/
def dec6 {α β γ δ ε ζ : Type} (a : Dec α) (b : Dec β) (c : Dec γ) (e : Dec δ) (f : Dec ε)
    (g : Dec ζ) : Dec (α × β × γ × δ × ε × ζ) :=
  (dec2 (dec3 a b c) (dec3 e f g)).mapE
    (fun x => .ok (x.1.1, x.1.2.1, x.1.2.2, x.2.1, x.2.2.1, x.2.2.2)) id

end Btc
