import Verif.Bytes
/-!
# The ChaCha20 stream cipher

chacha20_poly1305/src/chacha20.rs, without `cfg(chacha20_poly1305_fuzz)`. Arithmetic is checked, as with overflow checks on: `none` is a
panic.
-/
namespace Btc
namespace ChaCha

abbrev W32 := BitVec 32

/-- chacha20_poly1305/src/chacha20.rs:68 `U32x4`. -/
@[ext] structure V4 where
  w0 : W32
  w1 : W32
  w2 : W32
  w3 : W32
  deriving DecidableEq, Repr

namespace V4
/-- chacha20_poly1305/src/chacha20.rs:72-78 `wrapping_add`. -/
def add (a b : V4) : V4 := ⟨a.w0 + b.w0, a.w1 + b.w1, a.w2 + b.w2, a.w3 + b.w3⟩
/-- chacha20_poly1305/src/chacha20.rs:81-87 `rotate_left`. -/
def rotateLeft (a : V4) (n : Nat) : V4 := ⟨a.w0.rotateLeft n, a.w1.rotateLeft n, a.w2.rotateLeft n, a.w3.rotateLeft n⟩
/-- chacha20_poly1305/src/chacha20.rs:90-100 `rotate_elements_left`. -/
def left (a : V4) : Nat → V4
  | 1 => ⟨a.w1, a.w2, a.w3, a.w0⟩
  | 2 => ⟨a.w2, a.w3, a.w0, a.w1⟩
  | 3 => ⟨a.w3, a.w0, a.w1, a.w2⟩
  | _ => a
/-- chacha20_poly1305/src/chacha20.rs:103-113 `rotate_elements_right`. -/
def right (a : V4) : Nat → V4
  | 1 => ⟨a.w3, a.w0, a.w1, a.w2⟩
  | 2 => ⟨a.w2, a.w3, a.w0, a.w1⟩
  | 3 => ⟨a.w1, a.w2, a.w3, a.w0⟩
  | _ => a
/-- chacha20_poly1305/src/chacha20.rs:116-122 `to_le_bytes`. -/
def toLeBytes (a : V4) : Bytes := leBytes 4 a.w0.toNat ++ leBytes 4 a.w1.toNat ++ leBytes 4 a.w2.toNat ++ leBytes 4 a.w3.toNat
/-- chacha20_poly1305/src/chacha20.rs:129-135 `bitxor`. -/
def xor (a b : V4) : V4 := ⟨a.w0 ^^^ b.w0, a.w1 ^^^ b.w1, a.w2 ^^^ b.w2, a.w3 ^^^ b.w3⟩
end V4

/-- chacha20_poly1305/src/chacha20.rs:147-149 `State`. -/
structure State where
  a : V4
  b : V4
  c : V4
  d : V4
  deriving DecidableEq, Repr

/-- `u32::from_le_bytes` of the four bytes from `i` on. -/
def word (bs : Bytes) (i : Nat) : W32 := BitVec.ofNat 32 (leNat ((bs.drop i).take 4))

/-- chacha20_poly1305/src/chacha20.rs:153-176 `State::new`. -/
def State.new (key : Arr 32) (nonce : Arr 12) (count : W32) : State where
  a := ⟨0x61707865#32, 0x3320646e#32, 0x79622d32#32, 0x6b206574#32⟩
  b := ⟨word key.1 0, word key.1 4, word key.1 8, word key.1 12⟩
  c := ⟨word key.1 16, word key.1 20, word key.1 24, word key.1 28⟩
  d := ⟨count, word nonce.1 0, word nonce.1 4, word nonce.1 8⟩

/-- chacha20_poly1305/src/chacha20.rs:180-194 `quarter_round`. -/
def quarterRound (s : State) : State :=
  let a := s.a.add s.b
  let d := (s.d.xor a).rotateLeft 16
  let c := s.c.add d
  let b := (s.b.xor c).rotateLeft 12
  let a := a.add b
  let d := (d.xor a).rotateLeft 8
  let c := c.add d
  let b := (b.xor c).rotateLeft 7
  ⟨a, b, c, d⟩

/-- chacha20_poly1305/src/chacha20.rs:206-223 `double_round`. -/
def doubleRound (s : State) : State :=
  let s := quarterRound s
  let s := quarterRound ⟨s.a, s.b.left 1, s.c.left 2, s.d.left 3⟩
  ⟨s.a, s.b.right 1, s.c.right 2, s.d.right 3⟩

/-- `for _ in 0..n { working_state = double_round(working_state) }`, chacha20_poly1305/src/chacha20.rs:230-232. -/
def rounds : Nat → State → State
  | 0, s => s
  | n + 1, s => rounds n (doubleRound s)

/-- chacha20_poly1305/src/chacha20.rs:227-238 `chacha_block`. -/
def State.chachaBlock (s : State) : State :=
  let w := rounds 10 s
  ⟨w.a.add s.a, w.b.add s.b, w.c.add s.c, w.d.add s.d⟩

/-- chacha20_poly1305/src/chacha20.rs:242-248 `keystream`. -/
def State.keystream (s : State) : Bytes := s.a.toLeBytes ++ s.b.toLeBytes ++ s.c.toLeBytes ++ s.d.toLeBytes

/-- chacha20_poly1305/src/chacha20.rs:256-265 `ChaCha20`. -/
structure ChaCha20 where
  key : Arr 32
  nonce : Arr 12
  blockCount : UInt32
  seekOffset : Nat

namespace ChaCha20
/-- chacha20_poly1305/src/chacha20.rs:269-273 `new`. -/
def new (key : Arr 32) (nonce : Arr 12) (seek : UInt32) : ChaCha20 := ⟨key, nonce, seek / 64, (seek % 64).toNat⟩
/-- chacha20_poly1305/src/chacha20.rs:276-278 `new_from_block`. -/
def newFromBlock (key : Arr 32) (nonce : Arr 12) (block : UInt32) : ChaCha20 := ⟨key, nonce, block, 0⟩
/-- chacha20_poly1305/src/chacha20.rs:283-287 `keystream_at_block`. -/
def keystreamAtBlock (c : ChaCha20) (block : UInt32) : Bytes := (State.new c.key c.nonce block.toBitVec).chachaBlock.keystream
/-- chacha20_poly1305/src/chacha20.rs:346 `get_keystream`. -/
def getKeystream (c : ChaCha20) (block : UInt32) : Bytes := c.keystreamAtBlock block
/-- chacha20_poly1305/src/chacha20.rs:349-352 `seek`. -/
def seek (c : ChaCha20) (s : UInt32) : ChaCha20 := { c with blockCount := s / 64, seekOffset := (s % 64).toNat }
/-- chacha20_poly1305/src/chacha20.rs:355-358 `block`. -/
def block (c : ChaCha20) (b : UInt32) : ChaCha20 := { c with blockCount := b, seekOffset := 0 }

/-- `for (b, k) in buffer.iter_mut().zip(keystream) { *b ^= *k }`. -/
def xorInto (buffer keystream : Bytes) : Bytes := List.zipWith (· ^^^ ·) buffer keystream ++ buffer.drop keystream.length

/-- `self.block_count += 1`: `none` on overflow. -/
def incBlock (c : ChaCha20) : Option ChaCha20 := if c.blockCount.toNat + 1 < 2 ^ 32 then some { c with blockCount := c.blockCount + 1 } else none

/-- chacha20_poly1305/src/chacha20.rs:321-328: the loop over `n` full blocks of the buffer; gives what they became and the rest. -/
def fullBlocks : Nat → ChaCha20 → Bytes → Option (ChaCha20 × Bytes × Bytes)
  | 0, c, buffer => some (c, [], buffer)
  | n + 1, c, buffer =>
    match c.incBlock with
    | none => none
    | some c' => (fullBlocks n c' (buffer.drop 64)).map fun (c', out, rest) => (c', xorInto (buffer.take 64) (c.keystreamAtBlock c.blockCount) ++ out, rest)

/-- chacha20_poly1305/src/chacha20.rs:320-338: from an aligned position. -/
def applyAligned (c : ChaCha20) (buffer : Bytes) : Option (ChaCha20 × Bytes) :=
  (fullBlocks (buffer.length / 64) c buffer).map fun (c, out, rest) =>
    if rest.isEmpty then (c, out)
    else ({ c with seekOffset := rest.length }, out ++ xorInto rest (c.keystreamAtBlock c.blockCount))

/-- chacha20_poly1305/src/chacha20.rs:295-339 `apply_keystream`. -/
def applyKeystream (c : ChaCha20) (buffer : Bytes) : Option (ChaCha20 × Bytes) :=
  if c.seekOffset ≠ 0 then
    let untilAligned := 64 - c.seekOffset
    let n := min buffer.length untilAligned
    let first := xorInto (buffer.take n) ((c.keystreamAtBlock c.blockCount).drop c.seekOffset)
    if n < untilAligned then some ({ c with seekOffset := c.seekOffset + n }, first ++ buffer.drop n)
    else match c.incBlock with
      | none => none
      | some c => (applyAligned { c with seekOffset := 0 } (buffer.drop n)).map fun (c, out) => (c, first ++ out)
  else applyAligned c buffer
end ChaCha20

end ChaCha
end Btc
