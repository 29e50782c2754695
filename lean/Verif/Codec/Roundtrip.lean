import Verif.Codec.Encoder
/-!
# The shared code of the fuzz targets (fuzz/src/lib.rs)
-/
namespace Btc

/-- `stream_encode_decode` (fuzz/src/lib.rs 40-57): the chunks of an encoder go straight into a decoder, without a buffer between them.  The
inner `while` is `Dec.feed`; after `Ready` with nothing left of the chunk the loop goes on with the next chunk and the same decoder.  `none` is
a panic of one of the `unwrap`s, or a loop that does not end within `n` rounds. -/
def streamEncodeDecode {α : Type} (d : Dec α) (e : Enc) : Nat → d.S → e.S → Option α
  | 0, _, _ => none
  | n + 1, s, t => match d.feed s (e.cur t) with
    | .err _ => none
    | .stuck => none
    | .needsMore s' => match e.adv t with
      | (_, false) => (d.fin s').toOption
      | (t', true) => streamEncodeDecode d e n s' t'
    | .ready s' (_ :: _) => (d.fin s').toOption
    | .ready s' [] => match e.adv t with
      | (_, false) => (d.fin s').toOption
      | (t', true) => streamEncodeDecode d e n s' t'

/-- `check_roundtrip` and `check_script_roundtrip` (fuzz/src/lib.rs 12-38) on one input: either the input does not decode, or encoding the
decoded value into a fresh decoder yields that value again (the assertion), without a panic and in finitely many rounds. -/
def CheckRoundtrip {α : Type} (d : Dec α) (e : Enc) (st : α → e.S) (data : Bytes) : Prop :=
  match d.decodeSlice data with
  | .ok v => ∃ n, streamEncodeDecode d e n d.init (st v) = some v
  | .error _ => True

/-- The `deserialize_*` targets (fuzz/fuzz_targets/bitcoin/deserialize_{block,transaction,witness,script,prefilled_transaction}.rs): what
decodes is encoded to the very input (`encode_to_vec` is `Enc.drain`). -/
def CheckCanonical {α : Type} (d : Dec α) (e : Enc) (st : α → e.S) (data : Bytes) : Prop :=
  match d.decodeSlice data with
  | .ok v => ∃ n, e.drain n (st v) = some data
  | .error _ => True

/-- The targets of fuzz/fuzz_targets/consensus_encoding (decode_array.rs 23-58, decode_byte_vec.rs 12-44, decode_compact_size.rs 12-54,
decode_decoder2.rs 12-45): the decoder is given all the data in one call of `push_bytes`.  If it wants more, `end` must fail; if it is ready
and `end` succeeds, `check` must hold of the value and of the bytes that remain. -/
def CheckOnePush {α : Type} (d : Dec α) (check : α → Bytes → Prop) (data : Bytes) : Prop :=
  match d.push d.init data with
  | .error _ => True
  | .ok (s, _, .needsMore) => (d.fin s).toOption = none
  | .ok (s, rest, .ready) => match d.fin s with
    | .error _ => True
    | .ok v => check v rest

end Btc
