import Verif.Bytes
/-!
# Push decoders and their drivers

Model of `consensus_encoding/src/decode/mod.rs`: the `Decoder` trait (53-105) as a state machine
and the drivers that feed it bytes (168-231, 264-277, 320-331, 381-411, 458-492).
-/
namespace Btc

/-- Errors observable through the decoders.  One recursive type stands for the many error enums of
`consensus_encoding/src/error.rs` and of the decoders in `primitives`/`p2p`.
* `eof` = `UnexpectedEofError { missing }`
* `csEof`, `nonMinimal`, `exceeds` = `CompactSizeDecoderErrorInner` (error.rs)
* `lenPrefix`, `item` = `ByteVecDecoderErrorInner::LengthPrefixDecode`, `VecDecoderErrorInner::{LengthPrefixDecode, Item}`
* `fst`, `snd` = `Decoder2Error::{First, Second}`.  `Decoder3/4/6Error` are nested `fst`/`snd`
  (the code flattens the nesting; that is an injective renaming).
* `tag n e` = newtype wrapper number `n` around `e`; `custom n v` = leaf error number `n` with value `v`.
* `panic` = the Rust code panics here. -/
inductive DErr where
  | eof (missing : Nat)
  | csEof (required received : Nat)
  | nonMinimal (value : Nat)
  | exceeds (limit value : Nat)
  | lenPrefix (e : DErr)
  | item (e : DErr)
  | fst (e : DErr)
  | snd (e : DErr)
  | tag (n : Nat) (e : DErr)
  | custom (n : Nat) (v : Nat)
  | panic
  deriving DecidableEq, Repr

/-- `DecoderStatus` (decode/mod.rs 112-123). -/
inductive Status where
  | needsMore
  | ready
  deriving DecidableEq, Repr

/-- The `Decoder` trait (decode/mod.rs 53-105) together with the initial state of
`Decode::decoder()` (49).  `push s bs` returns the new state, the not consumed rest of `bs` and the
status.  Simplification: after an error no state is returned (the code says a decoder must not be
used after an error; several of them panic then). -/
structure Dec (α : Type) where
  S : Type
  init : S
  push : S → Bytes → Except DErr (S × Bytes × Status)
  fin : S → Except DErr α
  limit : S → Nat

/-- What a decoding loop returns: a value with the unconsumed bytes, an error, or `stuck` when
`push_bytes` makes no progress on non-empty input although it asks for more (the Rust `while` loop
would spin). -/
inductive Outcome (α : Type) where
  | ok (a : α) (rest : Bytes)
  | err (e : DErr)
  | stuck
  deriving DecidableEq

/-- `decoder.end()` turned into an outcome, `rest` being the bytes not consumed. -/
def Outcome.ofEnd {α : Type} (r : Except DErr α) (rest : Bytes) : Outcome α :=
  match r with
  | .ok a => .ok a rest
  | .error e => .err e

/-- Result of feeding one slice completely: the `while !bytes.is_empty()` loop. -/
inductive Fed (S : Type) where
  | needsMore (s : S)
  | ready (s : S) (rest : Bytes)
  | err (e : DErr)
  | stuck

/-- The loop `while !bytes.is_empty() { if decoder.push_bytes(bytes)?.is_ready() { break } }`
shared by `decode_from_slice_unbounded_internal` (decode/mod.rs 324-328), the hex driver (186-199,
207-217) and the unbuffered reader (478-482). -/
def Dec.feed {α : Type} (d : Dec α) (s : d.S) (bs : Bytes) : Fed d.S :=
  if bs = [] then .needsMore s
  else match d.push s bs with
    | .error e => .err e
    | .ok (s', rest, .ready) => .ready s' rest
    | .ok (s', rest, .needsMore) =>
      if rest.length < bs.length then d.feed s' rest else .stuck
termination_by bs.length

/-- `decode_from_slice_unbounded_internal` (decode/mod.rs 320-331). -/
def Dec.decodeSliceUnbounded {α : Type} (d : Dec α) (bs : Bytes) : Outcome α :=
  match d.feed d.init bs with
  | .needsMore s => .ofEnd (d.fin s) []
  | .ready s rest => .ofEnd (d.fin s) rest
  | .err e => .err e
  | .stuck => .stuck

/-- Error of the bounded drivers: `DecodeError::{Parse, Unconsumed}` (error.rs). -/
inductive DecodeError where
  | parse (e : DErr)
  | unconsumed
  | stuck
  deriving DecidableEq

/-- `decode_from_slice_internal` (decode/mod.rs 264-277). -/
def Dec.decodeSlice {α : Type} (d : Dec α) (bs : Bytes) : Except DecodeError α :=
  match d.decodeSliceUnbounded bs with
  | .ok a [] => .ok a
  | .ok _ (_ :: _) => .error .unconsumed
  | .err e => .error (.parse e)
  | .stuck => .error .stuck

/-- Feeding a sequence of slices one after the other, as a caller of the `Decoder` trait does
(decode/mod.rs 60-79: "feed in slices, stop at `Ready`, then call `end`"). -/
def Dec.feedChunks {α : Type} (d : Dec α) (s : d.S) : List Bytes → Outcome α
  | [] => .ofEnd (d.fin s) []
  | c :: cs => match d.feed s c with
    | .needsMore s' => d.feedChunks s' cs
    | .ready s' rest => .ofEnd (d.fin s') (rest ++ cs.flatten)
    | .err e => .err e
    | .stuck => .stuck

/-! ## The hex driver -/

/-- Value of a hex digit (either case), as `hex::HexSliceToBytesIter` (external crate `hex-conservative`). -/
def hexVal (c : Char) : Option Nat :=
  let n := c.toNat
  if 48 ≤ n ∧ n ≤ 57 then some (n - 48)
  else if 97 ≤ n ∧ n ≤ 102 then some (n - 87)
  else if 65 ≤ n ∧ n ≤ 70 then some (n - 55)
  else none

/-- Decode one pair of hex digits. -/
def hexPair (a b : Char) : Option UInt8 :=
  match hexVal a, hexVal b with
  | some x, some y => some (UInt8.ofNat (16 * x + y))
  | _, _ => none

/-- Errors of `decode_from_hex`: `FromHexErrorInner` (error.rs). -/
inductive HexError where
  | oddLength
  | invalidChar
  | decode (e : DecodeError)
  deriving DecidableEq

/-- Main loop of `decode_from_hex_internal` (decode/mod.rs 179-204): `buf` is the content of the
buffer (capacity `cap`, 4096 in the code); flush it before storing a further byte when full. -/
def Dec.hexLoop {α : Type} (d : Dec α) (cap : Nat) (s : d.S) (buf : Bytes) :
    List Char → Except HexError (d.S × Bytes)
  | [] => .ok (s, buf)
  | [_] => .error .oddLength
  | a :: b :: cs =>
    match hexPair a b with
    | none => .error .invalidChar
    | some byte =>
      if buf.length = cap then
        match d.feed s buf with
        | .needsMore s' => d.hexLoop cap s' [byte] cs
        | .ready _ _ => .error (.decode .unconsumed)
        | .err e => .error (.decode (.parse e))
        | .stuck => .error (.decode .stuck)
      else d.hexLoop cap s (buf ++ [byte]) cs

/-- `decode_from_hex_internal` (decode/mod.rs 168-231).  Odd length is rejected before anything
else (172-174). -/
def Dec.decodeHex {α : Type} (d : Dec α) (hex : List Char) (cap : Nat := 4096) :
    Except HexError α :=
  if hex.length % 2 = 1 then .error .oddLength
  else match d.hexLoop cap d.init [] hex with
    | .error e => .error e
    | .ok (s, buf) =>
      match d.feed s buf with
      | .needsMore s' => match d.fin s' with
        | .ok a => .ok a
        | .error e => .error (.decode (.parse e))
      | .ready s' [] => match d.fin s' with
        | .ok a => .ok a
        | .error e => .error (.decode (.parse e))
      | .ready _ (_ :: _) => .error (.decode .unconsumed)
      | .err e => .error (.decode (.parse e))
      | .stuck => .error (.decode .stuck)

/-! ## The buffered reader driver -/

/-- Behaviour of a `BufRead`: each event is either a buffer that `fill_buf` makes available (a
partially consumed buffer is offered again), an `Interrupted` error, or a fatal I/O error.  When the
list is exhausted, or an empty buffer comes up, `fill_buf` returns the empty slice (EOF). -/
inductive BufEvent where
  | buffer (b : Bytes)
  | interrupted
  | fatal
  deriving DecidableEq

/-- Termination measure of the buffered driver (not part of the code). -/
def BufEvent.size : BufEvent → Nat
  | .buffer b => b.length + 1
  | _ => 1

/-- Result of the reader drivers: value (with what is left in the reader), decode error or I/O error. -/
inductive ReadOut (α R : Type) where
  | ok (a : α) (left : R)
  | decode (e : DErr)
  | io
  | stuck

/-- `decode_from_read_internal` (decode/mod.rs 381-411).  `left` in the result is what the reader
still holds. -/
def Dec.decodeRead {α : Type} (d : Dec α) (s : d.S) : List BufEvent → ReadOut α (List BufEvent)
  | [] => match d.fin s with
    | .ok a => .ok a []
    | .error e => .decode e
  | .interrupted :: es => d.decodeRead s es
  | .fatal :: _ => .io
  | .buffer b :: es =>
    if b = [] then match d.fin s with
      | .ok a => .ok a es
      | .error e => .decode e
    else match d.push s b with
      | .error e => .decode e
      | .ok (s', rest, .ready) => match d.fin s' with
        | .ok a => .ok a (.buffer rest :: es)
        | .error e => .decode e
      | .ok (s', rest, .needsMore) =>
        if rest = [] then d.decodeRead s' es
        else if rest.length < b.length then d.decodeRead s' (.buffer rest :: es)
        else .stuck
termination_by es => (es.map BufEvent.size).sum
decreasing_by
  all_goals simp [BufEvent.size]
  all_goals omega

/-! ## The unbuffered reader driver -/

/-- One `Read::read` call of an arbitrary reader: `take k` returns up to `k+1` bytes (never more
than asked for and never zero unless the source is empty), `interrupted` is a retryable error,
`fatal` any other error. -/
inductive ReadEvent where
  | take (k : Nat)
  | interrupted
  | fatal
  deriving DecidableEq

/-- Number of bytes a `read` with a buffer of size `asked` delivers at most (see `ReadEvent`). -/
def readSize (evs : List ReadEvent) (asked : Nat) : Nat :=
  match evs with
  | .take k :: _ => min (k + 1) asked
  | _ => asked

/-- `decode_from_read_unbuffered_with` (decode/mod.rs 458-492) with `BUFFER_SIZE = cap`.
`src` is the data the reader will deliver, `evs` its behaviour, read by read; once `evs` runs out
the reader returns as much as it can on every call.  `left` in the result is the undelivered rest
of `src`. -/
def Dec.decodeReadUnbuffered {α : Type} (d : Dec α) (cap : Nat) (s : d.S) (src : Bytes)
    (evs : List ReadEvent) : ReadOut α Bytes :=
  if d.limit s = 0 then match d.fin s with
    | .ok a => .ok a src
    | .error e => .decode e
  else
    match evs with
    | .interrupted :: evs' => d.decodeReadUnbuffered cap s src evs'
    | .fatal :: _ => .io
    | evs =>
      let n := readSize evs (min (d.limit s) cap)
      if _hg : src.take n = [] then match d.fin s with
        | .ok a => .ok a src
        | .error e => .decode e
      else match d.feed s (src.take n) with
        | .needsMore s' => d.decodeReadUnbuffered cap s' (src.drop n) evs.tail
        | .ready s' _ => match d.fin s' with
          | .ok a => .ok a (src.drop n)
          | .error e => .decode e
        | .err e => .decode e
        | .stuck => .stuck
termination_by (src.length, evs.length)
decreasing_by
  · simp_wf; apply Prod.Lex.right; simp
  · simp_wf; apply Prod.Lex.left
    simp only [List.take_eq_nil_iff, not_or] at _hg
    have h1 : 0 < src.length := List.length_pos_iff.mpr _hg.2
    simp only [n] at _hg
    omega

end Btc
