import Verif.Bytes
/-!
# Block-wise hash engines (`hashes/src/internal_macros.rs`, `hashes/src/*/mod.rs`)

The compression function of an engine is a parameter here; `Sha2.lean`, `Sha1.lean`, `Ripemd.lean` and `Keccak.lean` have the
actual ones.
-/
namespace Btc
namespace Hashes

/-- The three fields of the engines (sha256/mod.rs 81-85, sha512/mod.rs 56-60, sha1/mod.rs 46-50, ripemd160/mod.rs 55-59,
sha3_256/mod.rs 176-180).  `buffer` is an array of the block size. -/
structure Eng (σ : Type) where
  buffer : Bytes
  h : σ
  bytesHashed : Nat

/-- `process_blocks` of all engines: a loop over `chunks_exact(BLOCK_SIZE)` (sha256/crypto/mod.rs 479-575, sha512/crypto.rs
82-195, sha1/crypto.rs 12-58, ripemd160/crypto.rs 137-329, sha3_256/mod.rs 203-210).  The first argument is the number of chunks. -/
def blocksLoop {σ : Type} (B : Nat) (comp : σ → Bytes → σ) : Nat → σ → Bytes → σ
  | 0, h, _ => h
  | k + 1, h, bs => blocksLoop B comp k (comp h (bs.take B)) (bs.drop B)
def processBlocks {σ : Type} (B : Nat) (comp : σ → Bytes → σ) (h : σ) (bs : Bytes) : σ := blocksLoop B comp (bs.length / B) h bs

/-- `self.buffer[i..i + l.len()].copy_from_slice(l)`. -/
def splice (buf : Bytes) (i : Nat) (l : Bytes) : Bytes := buf.take i ++ l ++ buf.drop (i + l.length)

/-- `Default`/`new` of the engines. -/
def Eng.new {σ : Type} (B : Nat) (iv : σ) : Eng σ := ⟨List.replicate B 0, iv, 0⟩

/-- `incomplete_block_len` (lib.rs 308-313). -/
def incompleteLen {σ : Type} (B : Nat) (e : Eng σ) : Nat := e.bytesHashed % B

/-- `impl_engine_input!` (internal_macros.rs 203-230).  `bytes_hashed` is a `u64`: with overflow checks the addition panics
when 2^64 bytes have been hashed, without them it wraps, as here. -/
def Eng.input {σ : Type} (B : Nat) (comp : σ → Bytes → σ) (e : Eng σ) (inp : Bytes) : Eng σ :=
  let i := incompleteLen B e
  let n := (e.bytesHashed + inp.length) % 2 ^ 64
  if i + inp.length < B then { e with buffer := splice e.buffer i inp, bytesHashed := n }
  else
    let (buf, h, inp) :=
      if i > 0 then
        let needed := B - i
        let buf := splice e.buffer i (inp.take needed)
        (buf, processBlocks B comp e.h buf, inp.drop needed)
      else (e.buffer, e.h, inp)
    let full := inp.length / B * B
    let h := if full > 0 then processBlocks B comp h (inp.take full) else h
    ⟨splice buf 0 (inp.drop full), h, n⟩

/-- `buffer[i..].fill(0)` and `buffer[..i].fill(0)`. -/
def fillFrom (buf : Bytes) (i : Nat) : Bytes := buf.take i ++ List.replicate (buf.length - i) 0
def fillTo (buf : Bytes) (i : Nat) : Bytes := List.replicate i 0 ++ buf.drop i

/-- `from_engine` (sha256/mod.rs 33-51, sha512/mod.rs 25-41, sha1/mod.rs 23-39, ripemd160/mod.rs 24-40): the final state.  `L` is 8,
for SHA-512 16; `enc` writes the bit length in 8 bytes, big endian except for RIPEMD-160.  `8 * n_bytes_hashed` panics with
overflow checks from 2^61 bytes on, and wraps without, as here. -/
def Eng.finish {σ : Type} (B L : Nat) (enc : Nat → Bytes) (comp : σ → Bytes → σ) (e : Eng σ) : σ :=
  let i := incompleteLen B e
  let buf := splice e.buffer i [0x80]
  let buf := fillFrom buf (i + 1)
  let (buf, h) := if i ≥ B - L then (fillTo buf (B - 8), processBlocks B comp e.h buf) else (buf, e.h)
  let buf := splice buf (B - 8) (enc ((8 * e.bytesHashed) % 2 ^ 64))
  processBlocks B comp h buf

/-- `sha3_256::HashEngine::finalize` (sha3_256/mod.rs 221-226): the final state. -/
def Eng.finishSha3 {σ : Type} (B : Nat) (comp : σ → Bytes → σ) (e : Eng σ) : σ :=
  let i := incompleteLen B e
  let buf := fillFrom e.buffer (i + 1)
  let buf := splice buf i [0x06]
  let buf := splice buf (B - 1) [buf.getD (B - 1) 0 ^^^ 0x80]
  processBlocks B comp e.h buf

end Hashes
end Btc
