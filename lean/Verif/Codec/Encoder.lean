import Verif.Codec.Combinators
/-!
# Pull encoders

Model of `consensus_encoding/src/encode/{mod,encoders,iter}.rs`.
-/
namespace Btc

/-- The `Encoder` trait (encode/mod.rs 78-103): `cur` is `current_chunk`, `adv` is `advance`
(`true` = `HasMore`, `false` = `Finished`). -/
structure Enc where
  S : Type
  cur : S → Bytes
  adv : S → S × Bool

namespace Enc

/-- `drain_to_vec` (encode/mod.rs 330-342); `drain_to_writer` (395-407) is the same loop writing
into a sink.  `none` when the loop does not finish within `n` rounds. -/
def drain (e : Enc) : Nat → e.S → Option Bytes
  | 0, _ => none
  | n + 1, s => match e.adv s with
    | (_, false) => some (e.cur s)
    | (s', true) => (drain e n s').map (e.cur s ++ ·)

/-- `EncoderByteIter::next` (encode/mod.rs 254-266), state = encoder and position. -/
def biNext (e : Enc) : Nat → e.S × Nat → Option (Option UInt8 × (e.S × Nat))
  | 0, _ => none
  | n + 1, (s, pos) => match (e.cur s)[pos]? with
    | some b => some (some b, (s, pos + 1))
    | none => match e.adv s with
      | (s', false) => some (none, (s', pos))
      | (s', true) => biNext e n (s', 0)

/-- The loop in `EncoderByteIter::nth` (encode/mod.rs 283-292). -/
def biNthLoop (e : Enc) (pos0 : Nat) : Nat → e.S → Nat → Option (Option UInt8 × (e.S × Nat))
  | 0, _, _ => none
  | f + 1, s, n => match (e.cur s)[n]? with
    | some b => some (some b, (s, n + 1))
    | none => match e.adv s with
      | (s', false) => some (none, (s', pos0))
      | (s', true) => biNthLoop e pos0 f s' (n - (e.cur s).length)

/-- `EncoderByteIter::nth` (encode/mod.rs 268-293).  The subtractions cannot underflow in the code
because the failed `get` bounds `n` from below; in the model they are exact for the same reason. -/
def biNth (e : Enc) (f : Nat) (st : e.S × Nat) (n : Nat) : Option (Option UInt8 × (e.S × Nat)) :=
  match (e.cur st.1)[st.2 + n]? with
  | some b => some (some b, (st.1, st.2 + n + 1))
  | none =>
    let n' := n - ((e.cur st.1).length - st.2)
    match e.adv st.1 with
    | (s', false) => some (none, (s', st.2))
    | (s', true) => biNthLoop e st.2 f s' n'

/-- The loop of `EncoderByteIter::peek_chunk` (encode/mod.rs 238-246): advance to the next non-empty
chunk. -/
def biSkip (e : Enc) (pos0 : Nat) : Nat → e.S → Option (Bytes × (e.S × Nat))
  | 0, _ => none
  | f + 1, s => match e.adv s with
    | (s', false) => some ([], (s', pos0))
    | (s', true) => if e.cur s' ≠ [] then some (e.cur s', (s', 0)) else biSkip e pos0 f s'

/-- `EncoderByteIter::peek_chunk` (encode/mod.rs 233-248). -/
def biPeek (e : Enc) (f : Nat) (st : e.S × Nat) : Option (Bytes × (e.S × Nat)) :=
  if st.2 < (e.cur st.1).length then some ((e.cur st.1).drop st.2, st)
  else biSkip e st.2 f st.1

/-- Collecting the byte iterator. -/
def biCollect (e : Enc) (inner : Nat) : Nat → e.S × Nat → Option Bytes
  | 0, _ => none
  | f + 1, st => match e.biNext inner st with
    | none => none
    | some (none, _) => some []
    | some (some b, st') => (biCollect e inner f st').map (b :: ·)

end Enc

/-- `BytesEncoder`, `ArrayEncoder`, `ArrayRefEncoder`, `CompactSizeEncoder` (encoders.rs 20-117,
compact_size.rs 116-122): one chunk. -/
def bytesEnc : Enc where
  S := Bytes
  cur s := s
  adv s := (s, false)

/-- `ExactSizeEncoder::len` of the one-chunk encoders (encoders.rs 37, 89, 116; compact_size.rs 126). -/
def bytesLen (s : Bytes) : Nat := s.length

/-- States of a tuple of encoders. -/
def HSt : List Enc → Type
  | [] => Unit
  | e :: es => e.S × HSt es

/-- `match self.cur_idx { i => self.enc_i.current_chunk() }` (encoders.rs 213-218); an index out of
range is `unreachable!`, modelled by `none`. -/
def HSt.cur : {es : List Enc} → HSt es → Nat → Option Bytes
  | [], _, _ => none
  | e :: _, (s, _), 0 => some (e.cur s)
  | _ :: es, (_, t), k + 1 => HSt.cur (es := es) t k

/-- `self.enc_i.advance()`; the Boolean says `HasMore`. -/
def HSt.adv : {es : List Enc} → HSt es → Nat → HSt es × Bool
  | [], t, _ => (t, false)
  | e :: _, (s, t), 0 => (((e.adv s).1, t), (e.adv s).2)
  | _ :: es, (s, t), k + 1 => ((s, (HSt.adv (es := es) t k).1), (HSt.adv (es := es) t k).2)

/-- `EncoderN` (macro `define_encoder_n!`, encoders.rs 191-251), `N = es.length`. The panic on an
index out of range is rendered as the empty chunk; `encN_yields` (every chunk it yields is a
chunk of a component) shows that draining never reaches it. -/
def encN (es : List Enc) : Enc where
  S := Nat × HSt es
  cur s := (s.2.cur s.1).getD []
  adv s :=
    if s.1 ≥ es.length then (s, false)
    else
      let r := s.2.adv s.1
      if s.1 = es.length - 1 then ((s.1, r.1), r.2)
      else ((if r.2 then s.1 else s.1 + 1, r.1), true)

/-- Length functions of the components. -/
def HLen : List Enc → Type
  | [] => Unit
  | e :: es => (e.S → Nat) × HLen es

/-- `0 + self.enc_1.len() + …` (encoders.rs 246-248). -/
def HLen.sum : {es : List Enc} → HLen es → HSt es → Nat
  | [], _, _ => 0
  | _ :: es, (l, t), (s, ts) => l s + HLen.sum (es := es) t ts

/-- `EncoderN::len` (encoders.rs 246-248): ignores `cur_idx`. -/
def encNLen {es : List Enc} (l : HLen es) (s : (encN es).S) : Nat := l.sum s.2

/-- `Option<T>` as encoder (encode/mod.rs 475-481). -/
def optEnc (e : Enc) : Enc where
  S := Option e.S
  cur | none => []
      | some s => e.cur s
  adv | none => (none, false)
      | some s => (some (e.adv s).1, (e.adv s).2)

/-- `Option<T>::len` (encode/mod.rs 483-485). -/
def optLen {e : Enc} (l : e.S → Nat) : (optEnc e).S → Nat
  | none => 0
  | some s => l s

/-- `IterEncoder::new` (iter.rs 65-80): skips leading encoders whose first chunk is empty. -/
def iterNew (e : Enc) : List e.S → Option (e.S × List e.S)
  | [] => none
  | s :: t => if e.cur s ≠ [] then some (s, t) else iterNew e t

/-- The `loop` in `IterEncoder::advance` (iter.rs 127-143) once `current` has finished: take the
next encoder; if its chunk is empty, advance it and continue. -/
def iterNext (e : Enc) : List e.S → Option (e.S × List e.S)
  | [] => none
  | s :: t =>
    if e.cur s ≠ [] then some (s, t)
    else match e.adv s with
      | (s', true) => some (s', t)
      | (_, false) => iterNext e t

/-- `IterEncoder` (iter.rs 42-145); `none` is `Done`. -/
def iterEnc (e : Enc) : Enc where
  S := Option (e.S × List e.S)
  cur | none => []
      | some (s, _) => e.cur s
  adv | none => (none, false)
      | some (s, t) => match e.adv s with
        | (s', true) => (some (s', t), true)
        | (_, false) => match iterNext e t with
          | some r => (some r, true)
          | none => (none, false)

/-- `PrefixedBytesEncoder` (encoders.rs 42-66). -/
def prefixedBytesEnc : Enc := encN [bytesEnc, bytesEnc]

/-- `PrefixedBytesEncoder::new`. -/
def prefixedBytes (b : Bytes) : prefixedBytesEnc.S :=
  ((0, csEncode b.length, b, ()) : Nat × Bytes × Bytes × Unit)

/-- `PrefixedSliceEncoder` (encoders.rs 153-188). -/
def prefixedSliceEnc (e : Enc) : Enc := encN [bytesEnc, iterEnc e]

/-- `PrefixedSliceEncoder::new`: `items` are the item encoders. -/
def prefixedSlice (e : Enc) (items : List e.S) : (prefixedSliceEnc e).S :=
  ((0, csEncode items.length, iterNew e items, ()) : Nat × Bytes × Option (e.S × List e.S) × Unit)

end Btc
