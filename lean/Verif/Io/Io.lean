import Verif.Codec.Encoder
import Verif.Codec.Decoder
import Verif.Hashes.Hmac
/-!
# io/src/lib.rs and io/src/hash.rs

`Read`, `BufRead` and `Write` are state machines.  The loops take a number of rounds (`none`: not finished within them), because a reader
may report `Interrupted` for ever.  `usize` has 64 bits, so the conversions between `usize` and `u64` are exact.
The wrappers of io/src/bridge.rs (`FromStd`, `ToStd`) are in Io/Bridge.lean.
-/
namespace Btc
namespace Io

/-- `ErrorKind` (io/src/error.rs:166-): the two the crate itself looks at or makes, and the rest. -/
inductive Kind where
  | interrupted
  | unexpectedEof
  | other (n : Nat)
deriving DecidableEq, Repr

/-- The trait `Read` (io/src/lib.rs:64-74): the new state, and the bytes put into the first part of a buffer of the given length. -/
structure Reader (σ : Type) where
  read : σ → Nat → σ × Except Kind Bytes

/-- The trait `BufRead` (io/src/lib.rs:126-140); `consume` may panic. -/
structure BufReader (σ : Type) extends Reader σ where
  fill : σ → σ × Except Kind Bytes
  consume : σ → Nat → Option σ

/-- `Read::read_exact` (io/src/lib.rs:82-92) with `n` bytes of the buffer left and `acc` already in it. -/
def Reader.readExact {σ : Type} (R : Reader σ) : Nat → σ → Nat → Bytes → Option (σ × Bytes × Except Kind Unit)
  | _, s, 0, acc => some (s, acc, .ok ())
  | 0, _, _ + 1, _ => none
  | f + 1, s, n + 1, acc =>
    match R.read s (n + 1) with
    | (s', .ok []) => some (s', acc, .error .unexpectedEof)
    | (s', .ok (b :: bs)) => R.readExact f s' (n + 1 - (b :: bs).length) (acc ++ (b :: bs))
    | (s', .error .interrupted) => R.readExact f s' (n + 1) acc
    | (s', .error k) => some (s', acc, .error k)

/-- io/src/lib.rs:146-149. -/
structure Take (σ : Type) where
  reader : σ
  remaining : Nat

/-- `Take::read` (io/src/lib.rs:185-190). -/
def Take.read {σ : Type} (R : Reader σ) (t : Take σ) (n : Nat) : Take σ × Except Kind Bytes :=
  let len := min n t.remaining
  match R.read t.reader len with
  | (r, .ok b) => (⟨r, t.remaining - b.length⟩, .ok b)
  | (r, .error k) => (⟨r, t.remaining⟩, .error k)
def takeReader {σ : Type} (R : Reader σ) : Reader (Take σ) := ⟨Take.read R⟩

/-- `Take::read_to_end` (io/src/lib.rs:165-180): the bytes appended to the vector, and whether it failed. -/
def Reader.readToEnd {σ : Type} (R : Reader σ) : Nat → Take σ → Bytes → Option (Take σ × Bytes × Except Kind Unit)
  | 0, _, _ => none
  | f + 1, t, acc =>
    match t.read R 64 with
    | (t', .ok []) => some (t', acc, .ok ())
    | (t', .ok (b :: bs)) => R.readToEnd f t' (acc ++ (b :: bs))
    | (t', .error .interrupted) => R.readToEnd f t' acc
    | (t', .error k) => some (t', acc, .error k)

/-- `Read::read_to_limit` (io/src/lib.rs:120-122). -/
def Reader.readToLimit {σ : Type} (R : Reader σ) (f : Nat) (s : σ) (limit : Nat) : Option (Take σ × Bytes × Except Kind Unit) :=
  R.readToEnd f ⟨s, limit⟩ []

/-- `BufRead for Take` (io/src/lib.rs:196-214). -/
def Take.fill {σ : Type} (B : BufReader σ) (t : Take σ) : Take σ × Except Kind Bytes :=
  if t.remaining = 0 then (t, .ok [])
  else
    match B.fill t.reader with
    | (r, .ok b) => (⟨r, t.remaining⟩, .ok (b.take (min b.length t.remaining)))
    | (r, .error k) => (⟨r, t.remaining⟩, .error k)
def Take.consume {σ : Type} (B : BufReader σ) (t : Take σ) (amount : Nat) : Option (Take σ) :=
  if amount ≤ t.remaining then (B.consume t.reader amount).map fun r => ⟨r, t.remaining - amount⟩ else none
def takeBuf {σ : Type} (B : BufReader σ) : BufReader (Take σ) := ⟨takeReader B.toReader, Take.fill B, Take.consume B⟩

/-- `&[u8]` (io/src/lib.rs:233-250). -/
def sliceBuf : BufReader Bytes where
  read s n := let cnt := min s.length n; (s.drop cnt, .ok (s.take cnt))
  fill s := (s, .ok s)
  consume s amount := if amount ≤ s.length then some (s.drop amount) else none

def U64MAX : Nat := 2 ^ 64 - 1

/-- io/src/lib.rs:254-257; a slice has at most 2^64-1 bytes. -/
structure Cursor where
  inner : Bytes
  pos : Nat
  fits : inner.length ≤ U64MAX
deriving DecidableEq

/-- `Read for Cursor` and `BufRead for Cursor` (io/src/lib.rs:303-329). -/
def Cursor.read (c : Cursor) (n : Nat) : Cursor × Except Kind Bytes :=
  if c.pos ≥ c.inner.length then (c, .ok [])
  else
    let r := min (c.inner.length - c.pos) n
    (⟨c.inner, min (c.pos + r) U64MAX, c.fits⟩, .ok ((c.inner.drop c.pos).take r))
def Cursor.fill (c : Cursor) : Cursor × Except Kind Bytes := (c, .ok (c.inner.drop (min c.pos c.inner.length)))
def Cursor.consume (c : Cursor) (amount : Nat) : Option Cursor := some ⟨c.inner, min (c.pos + amount) U64MAX, c.fits⟩
def cursorBuf : BufReader Cursor := ⟨⟨Cursor.read⟩, Cursor.fill, Cursor.consume⟩

/-! ## Scripts: a reader with any behaviour -/

/-- What an arbitrary reader does next: it has bytes (none: end of file), or fails. -/
inductive Ev where
  | data (b : Bytes)
  | err (k : Kind)
deriving DecidableEq

/-- A reader given by what it does (not code of the crate): a short read leaves the rest of the bytes for the next. -/
def srcRead : List Ev → Nat → List Ev × Except Kind Bytes
  | [], _ => ([], .ok [])
  | .err k :: es, _ => (es, .error k)
  | .data b :: es, n => if b.length ≤ n then (es, .ok b) else (.data (b.drop n) :: es, .ok (b.take n))
def srcFill : List Ev → List Ev × Except Kind Bytes
  | [] => ([], .ok [])
  | .err k :: es => (es, .error k)
  | .data b :: es => if b = [] then (es, .ok []) else (.data b :: es, .ok b)
def srcConsume : List Ev → Nat → Option (List Ev)
  | s, 0 => some s
  | .data b :: es, n => if b.length < n then none else if b.length = n then some es else some (.data (b.drop n) :: es)
  | _, _ => none
def srcBuf : BufReader (List Ev) := ⟨⟨srcRead⟩, srcFill, srcConsume⟩

/-! ## Decoding from readers -/

inductive ReadOut (α σ : Type) where
  | ok (a : α) (left : σ)
  | decode (e : DErr)
  | io (k : Kind)
  | panic

/-- `decoder.end()`. -/
def ReadOut.ofEnd {α σ : Type} (r : Except DErr α) (left : σ) : ReadOut α σ :=
  match r with
  | .ok a => .ok a left
  | .error e => .decode e

/-- `decode_from_read_internal` (io/src/lib.rs:538-568). -/
def decodeFromRead {α σ : Type} (B : BufReader σ) (d : Dec α) : Nat → σ → d.S → Option (ReadOut α σ)
  | 0, _, _ => none
  | f + 1, r, s =>
    match B.fill r with
    | (r', .error .interrupted) => decodeFromRead B d f r' s
    | (_, .error k) => some (.io k)
    | (r', .ok []) => some (.ofEnd (d.fin s) r')
    | (r', .ok (b :: bs)) =>
      match d.push s (b :: bs) with
      | .error e => some (.decode e)
      | .ok (s', rest, status) =>
        match B.consume r' ((b :: bs).length - rest.length) with
        | none => some .panic
        | some r'' =>
          match status with
          | .ready => some (.ofEnd (d.fin s') r'')
          | .needsMore => decodeFromRead B d f r'' s'

/-- `decode_from_read_unbuffered_with` (io/src/lib.rs:615-649). -/
def decodeUnbuffered {α σ : Type} (R : Reader σ) (d : Dec α) (cap : Nat) : Nat → σ → d.S → Option (ReadOut α σ)
  | 0, _, _ => none
  | f + 1, r, s =>
    if d.limit s = 0 then some (.ofEnd (d.fin s) r)
    else
      match R.read r (min (d.limit s) cap) with
      | (r', .ok []) => some (.ofEnd (d.fin s) r')
      | (r', .ok (b :: bs)) =>
        match d.feed s (b :: bs) with
        | .needsMore s' => decodeUnbuffered R d cap f r' s'
        | .ready s' _ => some (.ofEnd (d.fin s') r')
        | .err e => some (.decode e)
        | .stuck => none
      | (r', .error .interrupted) => decodeUnbuffered R d cap f r' s
      | (_, .error k) => some (.io k)

/-- `hash_reader` (io/src/hash.rs:140-158). -/
def hashReader {σ : Type} (B : BufReader σ) (A : Hashes.Alg) : Nat → σ → A.S → Option (Except Kind Bytes)
  | 0, _, _ => none
  | f + 1, r, e =>
    match B.fill r with
    | (_, .error k) => some (.error k)
    | (_, .ok []) => some (.ok (A.finish e))
    | (r', .ok (b :: bs)) =>
      match B.consume r' (b :: bs).length with
      | none => none
      | some r'' => hashReader B A f r'' (A.input e (b :: bs))

/-! ## Writers -/

/-- The trait `Write` (io/src/lib.rs:348-354): how many bytes of the buffer were written. -/
structure Writer (σ : Type) where
  write : σ → Bytes → σ × Except Kind Nat

/-- `Write::write_all` (io/src/lib.rs:370-380). -/
def Writer.writeAll {σ : Type} (W : Writer σ) : Nat → σ → Bytes → Option (σ × Except Kind Unit)
  | _, s, [] => some (s, .ok ())
  | 0, _, _ :: _ => none
  | f + 1, s, b :: bs =>
    match W.write s (b :: bs) with
    | (s', .ok 0) => some (s', .error .unexpectedEof)
    | (s', .ok (n + 1)) => W.writeAll f s' ((b :: bs).drop (n + 1))
    | (s', .error .interrupted) => W.writeAll f s' (b :: bs)
    | (s', .error k) => some (s', .error k)

/-- `drain_to_writer` (io/src/lib.rs:477-489), `encode_to_writer` (461-468). -/
def Writer.drain {σ : Type} (W : Writer σ) (e : Enc) (rounds : Nat) : Nat → σ → e.S → Option (σ × Except Kind Unit)
  | 0, _, _ => none
  | f + 1, w, s =>
    match W.writeAll rounds w (e.cur s) with
    | none => none
    | some (w', .error k) => some (w', .error k)
    | some (w', .ok ()) =>
      match e.adv s with
      | (_, false) => some (w', .ok ())
      | (s', true) => W.drain e rounds f w' s'

/-- `Vec<u8>` (io/src/lib.rs:395-404). -/
def vecWriter : Writer Bytes := ⟨fun v b => (v ++ b, .ok b.length)⟩

/-- `&mut [u8]` (io/src/lib.rs:406-417): what has been written and the slice that is left. -/
def sliceWriter : Writer (Bytes × Bytes) := ⟨fun (done, room) b =>
  let cnt := min room.length b.length
  ((done ++ b.take cnt, room.drop cnt), .ok cnt)⟩

/-- `Write for Cursor` (io/src/lib.rs:333-339). -/
def cursorWriter : Writer Cursor := ⟨fun c b =>
  let pos := min c.pos c.inner.length
  let amt := min (c.inner.length - pos) b.length
  (⟨c.inner.take pos ++ b.take amt ++ c.inner.drop (pos + amt), c.pos + amt, by
    have := c.fits; simp only [List.length_append, List.length_take, List.length_drop, pos, amt]; omega⟩, .ok amt)⟩

/-- What an arbitrary writer does next: take up to so many bytes, or fail. -/
inductive WEv where
  | accept (n : Nat)
  | err (k : Kind)
deriving DecidableEq

/-- A writer given by what it does (not code of the crate); it ends by taking everything. -/
def scriptWrite : Bytes × List WEv → Bytes → (Bytes × List WEv) × Except Kind Nat
  | (out, []), b => ((out ++ b, []), .ok b.length)
  | (out, .err k :: es), _ => ((out, es), .error k)
  | (out, .accept n :: es), b => ((out ++ b.take n, es), .ok (min n b.length))
def scriptWriter : Writer (Bytes × List WEv) := ⟨scriptWrite⟩

end Io
end Btc
