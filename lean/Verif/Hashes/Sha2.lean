import Verif.Hashes.Engine
/-!
# SHA-256 and SHA-512 (`hashes/src/sha256/`, `hashes/src/sha512/`, `sha384`, `sha512_256`, `sha256d`)

The unrolled lines of `round!` calls in the Rust source are kept as tables: one `Call` per line, in the order of the source, with
the variables `a`..`h` numbered 0..7.  The SIMD versions (x86 intrinsics, AVX2, ARM) are not modelled.  `u32`/`u64` words are
`BitVec 32`/`BitVec 64`.
-/
namespace Btc
namespace Sha2

/-- The eight working variables, and the eight words of the engine's state. -/
structure St (w : Nat) where
  a : BitVec w
  b : BitVec w
  c : BitVec w
  d : BitVec w
  e : BitVec w
  f : BitVec w
  g : BitVec w
  h : BitVec w
  deriving DecidableEq

/-- Reading and assigning the variable with the given number. -/
def St.get {w : Nat} (s : St w) : Nat → BitVec w
  | 0 => s.a | 1 => s.b | 2 => s.c | 3 => s.d | 4 => s.e | 5 => s.f | 6 => s.g | _ => s.h
def St.set {w : Nat} (s : St w) (i : Nat) (x : BitVec w) : St w :=
  match i with
  | 0 => { s with a := x } | 1 => { s with b := x } | 2 => { s with c := x } | 3 => { s with d := x }
  | 4 => { s with e := x } | 5 => { s with f := x } | 6 => { s with g := x } | _ => { s with h := x }
/-- `state[i] = state[i].wrapping_add(...)` for the eight words. -/
def St.add {w : Nat} (s t : St w) : St w :=
  ⟨s.a + t.a, s.b + t.b, s.c + t.c, s.d + t.d, s.e + t.e, s.f + t.f, s.g + t.g, s.h + t.h⟩
def St.toList {w : Nat} (s : St w) : List (BitVec w) := [s.a, s.b, s.c, s.d, s.e, s.f, s.g, s.h]

/-- `Ch`, `Maj` (sha256/crypto/mod.rs 62-64, sha512/crypto.rs 12-14). -/
def ch {w : Nat} (x y z : BitVec w) : BitVec w := z ^^^ (x &&& (y ^^^ z))
def maj {w : Nat} (x y z : BitVec w) : BitVec w := (x &&& y) ||| (z &&& (x ||| y))

/-- The four functions that differ between the two word sizes. -/
structure Fns (w : Nat) where
  Sigma0 : BitVec w → BitVec w
  Sigma1 : BitVec w → BitVec w
  sigma0 : BitVec w → BitVec w
  sigma1 : BitVec w → BitVec w

/-- sha256/crypto/mod.rs 65-70. -/
def fns256 : Fns 32 where
  Sigma0 x := x.rotateLeft 30 ^^^ x.rotateLeft 19 ^^^ x.rotateLeft 10
  Sigma1 x := x.rotateLeft 26 ^^^ x.rotateLeft 21 ^^^ x.rotateLeft 7
  sigma0 x := x.rotateLeft 25 ^^^ x.rotateLeft 14 ^^^ (x >>> 3)
  sigma1 x := x.rotateLeft 15 ^^^ x.rotateLeft 13 ^^^ (x >>> 10)

/-- sha512/crypto.rs 15-20. -/
def fns512 : Fns 64 where
  Sigma0 x := x.rotateLeft 36 ^^^ x.rotateLeft 30 ^^^ x.rotateLeft 25
  Sigma1 x := x.rotateLeft 50 ^^^ x.rotateLeft 46 ^^^ x.rotateLeft 23
  sigma0 x := x.rotateLeft 63 ^^^ x.rotateLeft 56 ^^^ (x >>> 7)
  sigma1 x := x.rotateLeft 45 ^^^ x.rotateLeft 3 ^^^ (x >>> 6)

/-- One summand of a new message word. -/
inductive Term (w : Nat) where
  | w (i : Nat)
  | s0 (i : Nat)
  | s1 (i : Nat)
  | c (x : BitVec w)
  deriving DecidableEq

/-- The `$w` argument(s) of a `round!` line: an array entry, a constant, or an array entry that is first assigned the sum of some
terms. -/
inductive Src (w : Nat) where
  | word (i : Nat)
  | const (x : BitVec w)
  | set (i : Nat) (ts : List (Term w))
  deriving DecidableEq

/-- The four-argument form of the macro: `$w = $w + sigma1($w1) + $w2 + sigma0($w3)` (sha256/crypto/mod.rs 126-130,
sha512/crypto.rs 72-75). -/
def Src.later {w : Nat} (i w1 w2 w3 : Nat) : Src w := .set i [.w i, .s1 w1, .w w2, .s0 w3]

/-- A `round!` line. -/
structure Call (w : Nat) where
  a : Nat
  b : Nat
  c : Nat
  d : Nat
  e : Nat
  f : Nat
  g : Nat
  h : Nat
  k : BitVec w
  src : Src w
  deriving DecidableEq

def Term.eval {w : Nat} (F : Fns w) (m : List (BitVec w)) : Term w → BitVec w
  | .w i => m.getD i 0
  | .s0 i => F.sigma0 (m.getD i 0)
  | .s1 i => F.sigma1 (m.getD i 0)
  | .c x => x

/-- The sum `t0.wrapping_add(t1).wrapping_add(t2)...`. -/
def sumTerms {w : Nat} (F : Fns w) (m : List (BitVec w)) : List (Term w) → BitVec w
  | [] => 0
  | t :: ts => ts.foldl (fun acc u => acc + u.eval F m) (t.eval F m)

def Src.eval {w : Nat} (F : Fns w) (m : List (BitVec w)) : Src w → List (BitVec w) × BitVec w
  | .word i => (m, m.getD i 0)
  | .const x => (m, x)
  | .set i ts => (m.set i (sumTerms F m ts), sumTerms F m ts)

/-- The body of `round!` (sha256/crypto/mod.rs 119-124, sha512/crypto.rs 66-71; the `small-hash` variants 79-112 and 27-57 do the
same). -/
def Call.run {w : Nat} (F : Fns w) (p : St w × List (BitVec w)) (x : Call w) : St w × List (BitVec w) :=
  let (v, m) := p
  let (m, y) := x.src.eval F m
  let t1 := v.get x.h + F.Sigma1 (v.get x.e) + ch (v.get x.e) (v.get x.f) (v.get x.g) + x.k + y
  let t2 := F.Sigma0 (v.get x.a) + maj (v.get x.a) (v.get x.b) (v.get x.c)
  let v := v.set x.d (v.get x.d + t1)
  (v.set x.h (t1 + t2), m)

def runCalls {w : Nat} (F : Fns w) (cs : List (Call w)) (v : St w) (m : List (BitVec w)) : St w × List (BitVec w) :=
  cs.foldl (Call.run F) (v, m)

/-- `u32::from_be_bytes` / `u64::from_be_bytes` over the `as_chunks` of a block; `k` bytes per word. -/
def words (w k : Nat) (block : Bytes) (n : Nat) : List (BitVec w) :=
  (List.range n).map fun i => BitVec.ofNat w (beNat ((block.drop (k * i)).take k))

/-- The rounds of `software_process_block` (sha256/crypto/mod.rs 497-563). -/
def calls256 : List (Call 32) := [
  ⟨0, 1, 2, 3, 4, 5, 6, 7, 0x428a2f98#32, .word 0⟩,
  ⟨7, 0, 1, 2, 3, 4, 5, 6, 0x71374491#32, .word 1⟩,
  ⟨6, 7, 0, 1, 2, 3, 4, 5, 0xb5c0fbcf#32, .word 2⟩,
  ⟨5, 6, 7, 0, 1, 2, 3, 4, 0xe9b5dba5#32, .word 3⟩,
  ⟨4, 5, 6, 7, 0, 1, 2, 3, 0x3956c25b#32, .word 4⟩,
  ⟨3, 4, 5, 6, 7, 0, 1, 2, 0x59f111f1#32, .word 5⟩,
  ⟨2, 3, 4, 5, 6, 7, 0, 1, 0x923f82a4#32, .word 6⟩,
  ⟨1, 2, 3, 4, 5, 6, 7, 0, 0xab1c5ed5#32, .word 7⟩,
  ⟨0, 1, 2, 3, 4, 5, 6, 7, 0xd807aa98#32, .word 8⟩,
  ⟨7, 0, 1, 2, 3, 4, 5, 6, 0x12835b01#32, .word 9⟩,
  ⟨6, 7, 0, 1, 2, 3, 4, 5, 0x243185be#32, .word 10⟩,
  ⟨5, 6, 7, 0, 1, 2, 3, 4, 0x550c7dc3#32, .word 11⟩,
  ⟨4, 5, 6, 7, 0, 1, 2, 3, 0x72be5d74#32, .word 12⟩,
  ⟨3, 4, 5, 6, 7, 0, 1, 2, 0x80deb1fe#32, .word 13⟩,
  ⟨2, 3, 4, 5, 6, 7, 0, 1, 0x9bdc06a7#32, .word 14⟩,
  ⟨1, 2, 3, 4, 5, 6, 7, 0, 0xc19bf174#32, .word 15⟩,
  ⟨0, 1, 2, 3, 4, 5, 6, 7, 0xe49b69c1#32, .later 0 14 9 1⟩,
  ⟨7, 0, 1, 2, 3, 4, 5, 6, 0xefbe4786#32, .later 1 15 10 2⟩,
  ⟨6, 7, 0, 1, 2, 3, 4, 5, 0x0fc19dc6#32, .later 2 0 11 3⟩,
  ⟨5, 6, 7, 0, 1, 2, 3, 4, 0x240ca1cc#32, .later 3 1 12 4⟩,
  ⟨4, 5, 6, 7, 0, 1, 2, 3, 0x2de92c6f#32, .later 4 2 13 5⟩,
  ⟨3, 4, 5, 6, 7, 0, 1, 2, 0x4a7484aa#32, .later 5 3 14 6⟩,
  ⟨2, 3, 4, 5, 6, 7, 0, 1, 0x5cb0a9dc#32, .later 6 4 15 7⟩,
  ⟨1, 2, 3, 4, 5, 6, 7, 0, 0x76f988da#32, .later 7 5 0 8⟩,
  ⟨0, 1, 2, 3, 4, 5, 6, 7, 0x983e5152#32, .later 8 6 1 9⟩,
  ⟨7, 0, 1, 2, 3, 4, 5, 6, 0xa831c66d#32, .later 9 7 2 10⟩,
  ⟨6, 7, 0, 1, 2, 3, 4, 5, 0xb00327c8#32, .later 10 8 3 11⟩,
  ⟨5, 6, 7, 0, 1, 2, 3, 4, 0xbf597fc7#32, .later 11 9 4 12⟩,
  ⟨4, 5, 6, 7, 0, 1, 2, 3, 0xc6e00bf3#32, .later 12 10 5 13⟩,
  ⟨3, 4, 5, 6, 7, 0, 1, 2, 0xd5a79147#32, .later 13 11 6 14⟩,
  ⟨2, 3, 4, 5, 6, 7, 0, 1, 0x06ca6351#32, .later 14 12 7 15⟩,
  ⟨1, 2, 3, 4, 5, 6, 7, 0, 0x14292967#32, .later 15 13 8 0⟩,
  ⟨0, 1, 2, 3, 4, 5, 6, 7, 0x27b70a85#32, .later 0 14 9 1⟩,
  ⟨7, 0, 1, 2, 3, 4, 5, 6, 0x2e1b2138#32, .later 1 15 10 2⟩,
  ⟨6, 7, 0, 1, 2, 3, 4, 5, 0x4d2c6dfc#32, .later 2 0 11 3⟩,
  ⟨5, 6, 7, 0, 1, 2, 3, 4, 0x53380d13#32, .later 3 1 12 4⟩,
  ⟨4, 5, 6, 7, 0, 1, 2, 3, 0x650a7354#32, .later 4 2 13 5⟩,
  ⟨3, 4, 5, 6, 7, 0, 1, 2, 0x766a0abb#32, .later 5 3 14 6⟩,
  ⟨2, 3, 4, 5, 6, 7, 0, 1, 0x81c2c92e#32, .later 6 4 15 7⟩,
  ⟨1, 2, 3, 4, 5, 6, 7, 0, 0x92722c85#32, .later 7 5 0 8⟩,
  ⟨0, 1, 2, 3, 4, 5, 6, 7, 0xa2bfe8a1#32, .later 8 6 1 9⟩,
  ⟨7, 0, 1, 2, 3, 4, 5, 6, 0xa81a664b#32, .later 9 7 2 10⟩,
  ⟨6, 7, 0, 1, 2, 3, 4, 5, 0xc24b8b70#32, .later 10 8 3 11⟩,
  ⟨5, 6, 7, 0, 1, 2, 3, 4, 0xc76c51a3#32, .later 11 9 4 12⟩,
  ⟨4, 5, 6, 7, 0, 1, 2, 3, 0xd192e819#32, .later 12 10 5 13⟩,
  ⟨3, 4, 5, 6, 7, 0, 1, 2, 0xd6990624#32, .later 13 11 6 14⟩,
  ⟨2, 3, 4, 5, 6, 7, 0, 1, 0xf40e3585#32, .later 14 12 7 15⟩,
  ⟨1, 2, 3, 4, 5, 6, 7, 0, 0x106aa070#32, .later 15 13 8 0⟩,
  ⟨0, 1, 2, 3, 4, 5, 6, 7, 0x19a4c116#32, .later 0 14 9 1⟩,
  ⟨7, 0, 1, 2, 3, 4, 5, 6, 0x1e376c08#32, .later 1 15 10 2⟩,
  ⟨6, 7, 0, 1, 2, 3, 4, 5, 0x2748774c#32, .later 2 0 11 3⟩,
  ⟨5, 6, 7, 0, 1, 2, 3, 4, 0x34b0bcb5#32, .later 3 1 12 4⟩,
  ⟨4, 5, 6, 7, 0, 1, 2, 3, 0x391c0cb3#32, .later 4 2 13 5⟩,
  ⟨3, 4, 5, 6, 7, 0, 1, 2, 0x4ed8aa4a#32, .later 5 3 14 6⟩,
  ⟨2, 3, 4, 5, 6, 7, 0, 1, 0x5b9cca4f#32, .later 6 4 15 7⟩,
  ⟨1, 2, 3, 4, 5, 6, 7, 0, 0x682e6ff3#32, .later 7 5 0 8⟩,
  ⟨0, 1, 2, 3, 4, 5, 6, 7, 0x748f82ee#32, .later 8 6 1 9⟩,
  ⟨7, 0, 1, 2, 3, 4, 5, 6, 0x78a5636f#32, .later 9 7 2 10⟩,
  ⟨6, 7, 0, 1, 2, 3, 4, 5, 0x84c87814#32, .later 10 8 3 11⟩,
  ⟨5, 6, 7, 0, 1, 2, 3, 4, 0x8cc70208#32, .later 11 9 4 12⟩,
  ⟨4, 5, 6, 7, 0, 1, 2, 3, 0x90befffa#32, .later 12 10 5 13⟩,
  ⟨3, 4, 5, 6, 7, 0, 1, 2, 0xa4506ceb#32, .later 13 11 6 14⟩,
  ⟨2, 3, 4, 5, 6, 7, 0, 1, 0xbef9a3f7#32, .later 14 12 7 15⟩,
  ⟨1, 2, 3, 4, 5, 6, 7, 0, 0xc67178f2#32, .later 15 13 8 0⟩]

/-- The rounds of `update_midstate_unoptimized` (sha256/crypto/mod.rs 214-280). -/
def callsUnopt : List (Call 32) := [
  ⟨0, 1, 2, 3, 4, 5, 6, 7, 0x428a2f98#32, .word 0⟩,
  ⟨7, 0, 1, 2, 3, 4, 5, 6, 0x71374491#32, .word 1⟩,
  ⟨6, 7, 0, 1, 2, 3, 4, 5, 0xb5c0fbcf#32, .word 2⟩,
  ⟨5, 6, 7, 0, 1, 2, 3, 4, 0xe9b5dba5#32, .word 3⟩,
  ⟨4, 5, 6, 7, 0, 1, 2, 3, 0x3956c25b#32, .word 4⟩,
  ⟨3, 4, 5, 6, 7, 0, 1, 2, 0x59f111f1#32, .word 5⟩,
  ⟨2, 3, 4, 5, 6, 7, 0, 1, 0x923f82a4#32, .word 6⟩,
  ⟨1, 2, 3, 4, 5, 6, 7, 0, 0xab1c5ed5#32, .word 7⟩,
  ⟨0, 1, 2, 3, 4, 5, 6, 7, 0xd807aa98#32, .word 8⟩,
  ⟨7, 0, 1, 2, 3, 4, 5, 6, 0x12835b01#32, .word 9⟩,
  ⟨6, 7, 0, 1, 2, 3, 4, 5, 0x243185be#32, .word 10⟩,
  ⟨5, 6, 7, 0, 1, 2, 3, 4, 0x550c7dc3#32, .word 11⟩,
  ⟨4, 5, 6, 7, 0, 1, 2, 3, 0x72be5d74#32, .word 12⟩,
  ⟨3, 4, 5, 6, 7, 0, 1, 2, 0x80deb1fe#32, .word 13⟩,
  ⟨2, 3, 4, 5, 6, 7, 0, 1, 0x9bdc06a7#32, .word 14⟩,
  ⟨1, 2, 3, 4, 5, 6, 7, 0, 0xc19bf174#32, .word 15⟩,
  ⟨0, 1, 2, 3, 4, 5, 6, 7, 0xe49b69c1#32, .later 0 14 9 1⟩,
  ⟨7, 0, 1, 2, 3, 4, 5, 6, 0xefbe4786#32, .later 1 15 10 2⟩,
  ⟨6, 7, 0, 1, 2, 3, 4, 5, 0x0fc19dc6#32, .later 2 0 11 3⟩,
  ⟨5, 6, 7, 0, 1, 2, 3, 4, 0x240ca1cc#32, .later 3 1 12 4⟩,
  ⟨4, 5, 6, 7, 0, 1, 2, 3, 0x2de92c6f#32, .later 4 2 13 5⟩,
  ⟨3, 4, 5, 6, 7, 0, 1, 2, 0x4a7484aa#32, .later 5 3 14 6⟩,
  ⟨2, 3, 4, 5, 6, 7, 0, 1, 0x5cb0a9dc#32, .later 6 4 15 7⟩,
  ⟨1, 2, 3, 4, 5, 6, 7, 0, 0x76f988da#32, .later 7 5 0 8⟩,
  ⟨0, 1, 2, 3, 4, 5, 6, 7, 0x983e5152#32, .later 8 6 1 9⟩,
  ⟨7, 0, 1, 2, 3, 4, 5, 6, 0xa831c66d#32, .later 9 7 2 10⟩,
  ⟨6, 7, 0, 1, 2, 3, 4, 5, 0xb00327c8#32, .later 10 8 3 11⟩,
  ⟨5, 6, 7, 0, 1, 2, 3, 4, 0xbf597fc7#32, .later 11 9 4 12⟩,
  ⟨4, 5, 6, 7, 0, 1, 2, 3, 0xc6e00bf3#32, .later 12 10 5 13⟩,
  ⟨3, 4, 5, 6, 7, 0, 1, 2, 0xd5a79147#32, .later 13 11 6 14⟩,
  ⟨2, 3, 4, 5, 6, 7, 0, 1, 0x06ca6351#32, .later 14 12 7 15⟩,
  ⟨1, 2, 3, 4, 5, 6, 7, 0, 0x14292967#32, .later 15 13 8 0⟩,
  ⟨0, 1, 2, 3, 4, 5, 6, 7, 0x27b70a85#32, .later 0 14 9 1⟩,
  ⟨7, 0, 1, 2, 3, 4, 5, 6, 0x2e1b2138#32, .later 1 15 10 2⟩,
  ⟨6, 7, 0, 1, 2, 3, 4, 5, 0x4d2c6dfc#32, .later 2 0 11 3⟩,
  ⟨5, 6, 7, 0, 1, 2, 3, 4, 0x53380d13#32, .later 3 1 12 4⟩,
  ⟨4, 5, 6, 7, 0, 1, 2, 3, 0x650a7354#32, .later 4 2 13 5⟩,
  ⟨3, 4, 5, 6, 7, 0, 1, 2, 0x766a0abb#32, .later 5 3 14 6⟩,
  ⟨2, 3, 4, 5, 6, 7, 0, 1, 0x81c2c92e#32, .later 6 4 15 7⟩,
  ⟨1, 2, 3, 4, 5, 6, 7, 0, 0x92722c85#32, .later 7 5 0 8⟩,
  ⟨0, 1, 2, 3, 4, 5, 6, 7, 0xa2bfe8a1#32, .later 8 6 1 9⟩,
  ⟨7, 0, 1, 2, 3, 4, 5, 6, 0xa81a664b#32, .later 9 7 2 10⟩,
  ⟨6, 7, 0, 1, 2, 3, 4, 5, 0xc24b8b70#32, .later 10 8 3 11⟩,
  ⟨5, 6, 7, 0, 1, 2, 3, 4, 0xc76c51a3#32, .later 11 9 4 12⟩,
  ⟨4, 5, 6, 7, 0, 1, 2, 3, 0xd192e819#32, .later 12 10 5 13⟩,
  ⟨3, 4, 5, 6, 7, 0, 1, 2, 0xd6990624#32, .later 13 11 6 14⟩,
  ⟨2, 3, 4, 5, 6, 7, 0, 1, 0xf40e3585#32, .later 14 12 7 15⟩,
  ⟨1, 2, 3, 4, 5, 6, 7, 0, 0x106aa070#32, .later 15 13 8 0⟩,
  ⟨0, 1, 2, 3, 4, 5, 6, 7, 0x19a4c116#32, .later 0 14 9 1⟩,
  ⟨7, 0, 1, 2, 3, 4, 5, 6, 0x1e376c08#32, .later 1 15 10 2⟩,
  ⟨6, 7, 0, 1, 2, 3, 4, 5, 0x2748774c#32, .later 2 0 11 3⟩,
  ⟨5, 6, 7, 0, 1, 2, 3, 4, 0x34b0bcb5#32, .later 3 1 12 4⟩,
  ⟨4, 5, 6, 7, 0, 1, 2, 3, 0x391c0cb3#32, .later 4 2 13 5⟩,
  ⟨3, 4, 5, 6, 7, 0, 1, 2, 0x4ed8aa4a#32, .later 5 3 14 6⟩,
  ⟨2, 3, 4, 5, 6, 7, 0, 1, 0x5b9cca4f#32, .later 6 4 15 7⟩,
  ⟨1, 2, 3, 4, 5, 6, 7, 0, 0x682e6ff3#32, .later 7 5 0 8⟩,
  ⟨0, 1, 2, 3, 4, 5, 6, 7, 0x748f82ee#32, .later 8 6 1 9⟩,
  ⟨7, 0, 1, 2, 3, 4, 5, 6, 0x78a5636f#32, .later 9 7 2 10⟩,
  ⟨6, 7, 0, 1, 2, 3, 4, 5, 0x84c87814#32, .later 10 8 3 11⟩,
  ⟨5, 6, 7, 0, 1, 2, 3, 4, 0x8cc70208#32, .later 11 9 4 12⟩,
  ⟨4, 5, 6, 7, 0, 1, 2, 3, 0x90befffa#32, .later 12 10 5 13⟩,
  ⟨3, 4, 5, 6, 7, 0, 1, 2, 0xa4506ceb#32, .later 13 11 6 14⟩,
  ⟨2, 3, 4, 5, 6, 7, 0, 1, 0xbef9a3f7#32, .later 14 12 7 15⟩,
  ⟨1, 2, 3, 4, 5, 6, 7, 0, 0xc67178f2#32, .later 15 13 8 0⟩]

/-- The rounds of `software_sha256d_64`, transform 1 (sha256/crypto/mod.rs 595-661). -/
def callsD1 : List (Call 32) := [
  ⟨0, 1, 2, 3, 4, 5, 6, 7, 0x428a2f98#32, .word 0⟩,
  ⟨7, 0, 1, 2, 3, 4, 5, 6, 0x71374491#32, .word 1⟩,
  ⟨6, 7, 0, 1, 2, 3, 4, 5, 0xb5c0fbcf#32, .word 2⟩,
  ⟨5, 6, 7, 0, 1, 2, 3, 4, 0xe9b5dba5#32, .word 3⟩,
  ⟨4, 5, 6, 7, 0, 1, 2, 3, 0x3956c25b#32, .word 4⟩,
  ⟨3, 4, 5, 6, 7, 0, 1, 2, 0x59f111f1#32, .word 5⟩,
  ⟨2, 3, 4, 5, 6, 7, 0, 1, 0x923f82a4#32, .word 6⟩,
  ⟨1, 2, 3, 4, 5, 6, 7, 0, 0xab1c5ed5#32, .word 7⟩,
  ⟨0, 1, 2, 3, 4, 5, 6, 7, 0xd807aa98#32, .word 8⟩,
  ⟨7, 0, 1, 2, 3, 4, 5, 6, 0x12835b01#32, .word 9⟩,
  ⟨6, 7, 0, 1, 2, 3, 4, 5, 0x243185be#32, .word 10⟩,
  ⟨5, 6, 7, 0, 1, 2, 3, 4, 0x550c7dc3#32, .word 11⟩,
  ⟨4, 5, 6, 7, 0, 1, 2, 3, 0x72be5d74#32, .word 12⟩,
  ⟨3, 4, 5, 6, 7, 0, 1, 2, 0x80deb1fe#32, .word 13⟩,
  ⟨2, 3, 4, 5, 6, 7, 0, 1, 0x9bdc06a7#32, .word 14⟩,
  ⟨1, 2, 3, 4, 5, 6, 7, 0, 0xc19bf174#32, .word 15⟩,
  ⟨0, 1, 2, 3, 4, 5, 6, 7, 0xe49b69c1#32, .later 0 14 9 1⟩,
  ⟨7, 0, 1, 2, 3, 4, 5, 6, 0xefbe4786#32, .later 1 15 10 2⟩,
  ⟨6, 7, 0, 1, 2, 3, 4, 5, 0x0fc19dc6#32, .later 2 0 11 3⟩,
  ⟨5, 6, 7, 0, 1, 2, 3, 4, 0x240ca1cc#32, .later 3 1 12 4⟩,
  ⟨4, 5, 6, 7, 0, 1, 2, 3, 0x2de92c6f#32, .later 4 2 13 5⟩,
  ⟨3, 4, 5, 6, 7, 0, 1, 2, 0x4a7484aa#32, .later 5 3 14 6⟩,
  ⟨2, 3, 4, 5, 6, 7, 0, 1, 0x5cb0a9dc#32, .later 6 4 15 7⟩,
  ⟨1, 2, 3, 4, 5, 6, 7, 0, 0x76f988da#32, .later 7 5 0 8⟩,
  ⟨0, 1, 2, 3, 4, 5, 6, 7, 0x983e5152#32, .later 8 6 1 9⟩,
  ⟨7, 0, 1, 2, 3, 4, 5, 6, 0xa831c66d#32, .later 9 7 2 10⟩,
  ⟨6, 7, 0, 1, 2, 3, 4, 5, 0xb00327c8#32, .later 10 8 3 11⟩,
  ⟨5, 6, 7, 0, 1, 2, 3, 4, 0xbf597fc7#32, .later 11 9 4 12⟩,
  ⟨4, 5, 6, 7, 0, 1, 2, 3, 0xc6e00bf3#32, .later 12 10 5 13⟩,
  ⟨3, 4, 5, 6, 7, 0, 1, 2, 0xd5a79147#32, .later 13 11 6 14⟩,
  ⟨2, 3, 4, 5, 6, 7, 0, 1, 0x06ca6351#32, .later 14 12 7 15⟩,
  ⟨1, 2, 3, 4, 5, 6, 7, 0, 0x14292967#32, .later 15 13 8 0⟩,
  ⟨0, 1, 2, 3, 4, 5, 6, 7, 0x27b70a85#32, .later 0 14 9 1⟩,
  ⟨7, 0, 1, 2, 3, 4, 5, 6, 0x2e1b2138#32, .later 1 15 10 2⟩,
  ⟨6, 7, 0, 1, 2, 3, 4, 5, 0x4d2c6dfc#32, .later 2 0 11 3⟩,
  ⟨5, 6, 7, 0, 1, 2, 3, 4, 0x53380d13#32, .later 3 1 12 4⟩,
  ⟨4, 5, 6, 7, 0, 1, 2, 3, 0x650a7354#32, .later 4 2 13 5⟩,
  ⟨3, 4, 5, 6, 7, 0, 1, 2, 0x766a0abb#32, .later 5 3 14 6⟩,
  ⟨2, 3, 4, 5, 6, 7, 0, 1, 0x81c2c92e#32, .later 6 4 15 7⟩,
  ⟨1, 2, 3, 4, 5, 6, 7, 0, 0x92722c85#32, .later 7 5 0 8⟩,
  ⟨0, 1, 2, 3, 4, 5, 6, 7, 0xa2bfe8a1#32, .later 8 6 1 9⟩,
  ⟨7, 0, 1, 2, 3, 4, 5, 6, 0xa81a664b#32, .later 9 7 2 10⟩,
  ⟨6, 7, 0, 1, 2, 3, 4, 5, 0xc24b8b70#32, .later 10 8 3 11⟩,
  ⟨5, 6, 7, 0, 1, 2, 3, 4, 0xc76c51a3#32, .later 11 9 4 12⟩,
  ⟨4, 5, 6, 7, 0, 1, 2, 3, 0xd192e819#32, .later 12 10 5 13⟩,
  ⟨3, 4, 5, 6, 7, 0, 1, 2, 0xd6990624#32, .later 13 11 6 14⟩,
  ⟨2, 3, 4, 5, 6, 7, 0, 1, 0xf40e3585#32, .later 14 12 7 15⟩,
  ⟨1, 2, 3, 4, 5, 6, 7, 0, 0x106aa070#32, .later 15 13 8 0⟩,
  ⟨0, 1, 2, 3, 4, 5, 6, 7, 0x19a4c116#32, .later 0 14 9 1⟩,
  ⟨7, 0, 1, 2, 3, 4, 5, 6, 0x1e376c08#32, .later 1 15 10 2⟩,
  ⟨6, 7, 0, 1, 2, 3, 4, 5, 0x2748774c#32, .later 2 0 11 3⟩,
  ⟨5, 6, 7, 0, 1, 2, 3, 4, 0x34b0bcb5#32, .later 3 1 12 4⟩,
  ⟨4, 5, 6, 7, 0, 1, 2, 3, 0x391c0cb3#32, .later 4 2 13 5⟩,
  ⟨3, 4, 5, 6, 7, 0, 1, 2, 0x4ed8aa4a#32, .later 5 3 14 6⟩,
  ⟨2, 3, 4, 5, 6, 7, 0, 1, 0x5b9cca4f#32, .later 6 4 15 7⟩,
  ⟨1, 2, 3, 4, 5, 6, 7, 0, 0x682e6ff3#32, .later 7 5 0 8⟩,
  ⟨0, 1, 2, 3, 4, 5, 6, 7, 0x748f82ee#32, .later 8 6 1 9⟩,
  ⟨7, 0, 1, 2, 3, 4, 5, 6, 0x78a5636f#32, .later 9 7 2 10⟩,
  ⟨6, 7, 0, 1, 2, 3, 4, 5, 0x84c87814#32, .later 10 8 3 11⟩,
  ⟨5, 6, 7, 0, 1, 2, 3, 4, 0x8cc70208#32, .later 11 9 4 12⟩,
  ⟨4, 5, 6, 7, 0, 1, 2, 3, 0x90befffa#32, .later 12 10 5 13⟩,
  ⟨3, 4, 5, 6, 7, 0, 1, 2, 0xa4506ceb#32, .later 13 11 6 14⟩,
  ⟨2, 3, 4, 5, 6, 7, 0, 1, 0xbef9a3f7#32, .later 14 12 7 15⟩,
  ⟨1, 2, 3, 4, 5, 6, 7, 0, 0xc67178f2#32, .later 15 13 8 0⟩]

/-- The rounds of `software_sha256d_64`, transform 2 (sha256/crypto/mod.rs 676-739). -/
def callsD2 : List (Call 32) := [
  ⟨0, 1, 2, 3, 4, 5, 6, 7, 0xc28a2f98#32, .const 0⟩,
  ⟨7, 0, 1, 2, 3, 4, 5, 6, 0x71374491#32, .const 0⟩,
  ⟨6, 7, 0, 1, 2, 3, 4, 5, 0xb5c0fbcf#32, .const 0⟩,
  ⟨5, 6, 7, 0, 1, 2, 3, 4, 0xe9b5dba5#32, .const 0⟩,
  ⟨4, 5, 6, 7, 0, 1, 2, 3, 0x3956c25b#32, .const 0⟩,
  ⟨3, 4, 5, 6, 7, 0, 1, 2, 0x59f111f1#32, .const 0⟩,
  ⟨2, 3, 4, 5, 6, 7, 0, 1, 0x923f82a4#32, .const 0⟩,
  ⟨1, 2, 3, 4, 5, 6, 7, 0, 0xab1c5ed5#32, .const 0⟩,
  ⟨0, 1, 2, 3, 4, 5, 6, 7, 0xd807aa98#32, .const 0⟩,
  ⟨7, 0, 1, 2, 3, 4, 5, 6, 0x12835b01#32, .const 0⟩,
  ⟨6, 7, 0, 1, 2, 3, 4, 5, 0x243185be#32, .const 0⟩,
  ⟨5, 6, 7, 0, 1, 2, 3, 4, 0x550c7dc3#32, .const 0⟩,
  ⟨4, 5, 6, 7, 0, 1, 2, 3, 0x72be5d74#32, .const 0⟩,
  ⟨3, 4, 5, 6, 7, 0, 1, 2, 0x80deb1fe#32, .const 0⟩,
  ⟨2, 3, 4, 5, 6, 7, 0, 1, 0x9bdc06a7#32, .const 0⟩,
  ⟨1, 2, 3, 4, 5, 6, 7, 0, 0xc19bf374#32, .const 0⟩,
  ⟨0, 1, 2, 3, 4, 5, 6, 7, 0x649b69c1#32, .const 0⟩,
  ⟨7, 0, 1, 2, 3, 4, 5, 6, 0xf0fe4786#32, .const 0⟩,
  ⟨6, 7, 0, 1, 2, 3, 4, 5, 0x0fe1edc6#32, .const 0⟩,
  ⟨5, 6, 7, 0, 1, 2, 3, 4, 0x240cf254#32, .const 0⟩,
  ⟨4, 5, 6, 7, 0, 1, 2, 3, 0x4fe9346f#32, .const 0⟩,
  ⟨3, 4, 5, 6, 7, 0, 1, 2, 0x6cc984be#32, .const 0⟩,
  ⟨2, 3, 4, 5, 6, 7, 0, 1, 0x61b9411e#32, .const 0⟩,
  ⟨1, 2, 3, 4, 5, 6, 7, 0, 0x16f988fa#32, .const 0⟩,
  ⟨0, 1, 2, 3, 4, 5, 6, 7, 0xf2c65152#32, .const 0⟩,
  ⟨7, 0, 1, 2, 3, 4, 5, 6, 0xa88e5a6d#32, .const 0⟩,
  ⟨6, 7, 0, 1, 2, 3, 4, 5, 0xb019fc65#32, .const 0⟩,
  ⟨5, 6, 7, 0, 1, 2, 3, 4, 0xb9d99ec7#32, .const 0⟩,
  ⟨4, 5, 6, 7, 0, 1, 2, 3, 0x9a1231c3#32, .const 0⟩,
  ⟨3, 4, 5, 6, 7, 0, 1, 2, 0xe70eeaa0#32, .const 0⟩,
  ⟨2, 3, 4, 5, 6, 7, 0, 1, 0xfdb1232b#32, .const 0⟩,
  ⟨1, 2, 3, 4, 5, 6, 7, 0, 0xc7353eb0#32, .const 0⟩,
  ⟨0, 1, 2, 3, 4, 5, 6, 7, 0x3069bad5#32, .const 0⟩,
  ⟨7, 0, 1, 2, 3, 4, 5, 6, 0xcb976d5f#32, .const 0⟩,
  ⟨6, 7, 0, 1, 2, 3, 4, 5, 0x5a0f118f#32, .const 0⟩,
  ⟨5, 6, 7, 0, 1, 2, 3, 4, 0xdc1eeefd#32, .const 0⟩,
  ⟨4, 5, 6, 7, 0, 1, 2, 3, 0x0a35b689#32, .const 0⟩,
  ⟨3, 4, 5, 6, 7, 0, 1, 2, 0xde0b7a04#32, .const 0⟩,
  ⟨2, 3, 4, 5, 6, 7, 0, 1, 0x58f4ca9d#32, .const 0⟩,
  ⟨1, 2, 3, 4, 5, 6, 7, 0, 0xe15d5b16#32, .const 0⟩,
  ⟨0, 1, 2, 3, 4, 5, 6, 7, 0x007f3e86#32, .const 0⟩,
  ⟨7, 0, 1, 2, 3, 4, 5, 6, 0x37088980#32, .const 0⟩,
  ⟨6, 7, 0, 1, 2, 3, 4, 5, 0xa507ea32#32, .const 0⟩,
  ⟨5, 6, 7, 0, 1, 2, 3, 4, 0x6fab9537#32, .const 0⟩,
  ⟨4, 5, 6, 7, 0, 1, 2, 3, 0x17406110#32, .const 0⟩,
  ⟨3, 4, 5, 6, 7, 0, 1, 2, 0x0d8cd6f1#32, .const 0⟩,
  ⟨2, 3, 4, 5, 6, 7, 0, 1, 0xcdaa3b6d#32, .const 0⟩,
  ⟨1, 2, 3, 4, 5, 6, 7, 0, 0xc0bbbe37#32, .const 0⟩,
  ⟨0, 1, 2, 3, 4, 5, 6, 7, 0x83613bda#32, .const 0⟩,
  ⟨7, 0, 1, 2, 3, 4, 5, 6, 0xdb48a363#32, .const 0⟩,
  ⟨6, 7, 0, 1, 2, 3, 4, 5, 0x0b02e931#32, .const 0⟩,
  ⟨5, 6, 7, 0, 1, 2, 3, 4, 0x6fd15ca7#32, .const 0⟩,
  ⟨4, 5, 6, 7, 0, 1, 2, 3, 0x521afaca#32, .const 0⟩,
  ⟨3, 4, 5, 6, 7, 0, 1, 2, 0x31338431#32, .const 0⟩,
  ⟨2, 3, 4, 5, 6, 7, 0, 1, 0x6ed41a95#32, .const 0⟩,
  ⟨1, 2, 3, 4, 5, 6, 7, 0, 0x6d437890#32, .const 0⟩,
  ⟨0, 1, 2, 3, 4, 5, 6, 7, 0xc39c91f2#32, .const 0⟩,
  ⟨7, 0, 1, 2, 3, 4, 5, 6, 0x9eccabbd#32, .const 0⟩,
  ⟨6, 7, 0, 1, 2, 3, 4, 5, 0xb5c9a0e6#32, .const 0⟩,
  ⟨5, 6, 7, 0, 1, 2, 3, 4, 0x532fb63c#32, .const 0⟩,
  ⟨4, 5, 6, 7, 0, 1, 2, 3, 0xd2c741c6#32, .const 0⟩,
  ⟨3, 4, 5, 6, 7, 0, 1, 2, 0x07237ea3#32, .const 0⟩,
  ⟨2, 3, 4, 5, 6, 7, 0, 1, 0xa4954b68#32, .const 0⟩,
  ⟨1, 2, 3, 4, 5, 6, 7, 0, 0x4c191d76#32, .const 0⟩]

/-- The rounds of `software_sha256d_64`, transform 3 (sha256/crypto/mod.rs 762-829). -/
def callsD3 : List (Call 32) := [
  ⟨0, 1, 2, 3, 4, 5, 6, 7, 0x428a2f98#32, .word 0⟩,
  ⟨7, 0, 1, 2, 3, 4, 5, 6, 0x71374491#32, .word 1⟩,
  ⟨6, 7, 0, 1, 2, 3, 4, 5, 0xb5c0fbcf#32, .word 2⟩,
  ⟨5, 6, 7, 0, 1, 2, 3, 4, 0xe9b5dba5#32, .word 3⟩,
  ⟨4, 5, 6, 7, 0, 1, 2, 3, 0x3956c25b#32, .word 4⟩,
  ⟨3, 4, 5, 6, 7, 0, 1, 2, 0x59f111f1#32, .word 5⟩,
  ⟨2, 3, 4, 5, 6, 7, 0, 1, 0x923f82a4#32, .word 6⟩,
  ⟨1, 2, 3, 4, 5, 6, 7, 0, 0xab1c5ed5#32, .word 7⟩,
  ⟨0, 1, 2, 3, 4, 5, 6, 7, 0x5807aa98#32, .const 0⟩,
  ⟨7, 0, 1, 2, 3, 4, 5, 6, 0x12835b01#32, .const 0⟩,
  ⟨6, 7, 0, 1, 2, 3, 4, 5, 0x243185be#32, .const 0⟩,
  ⟨5, 6, 7, 0, 1, 2, 3, 4, 0x550c7dc3#32, .const 0⟩,
  ⟨4, 5, 6, 7, 0, 1, 2, 3, 0x72be5d74#32, .const 0⟩,
  ⟨3, 4, 5, 6, 7, 0, 1, 2, 0x80deb1fe#32, .const 0⟩,
  ⟨2, 3, 4, 5, 6, 7, 0, 1, 0x9bdc06a7#32, .const 0⟩,
  ⟨1, 2, 3, 4, 5, 6, 7, 0, 0xc19bf274#32, .const 0⟩,
  ⟨0, 1, 2, 3, 4, 5, 6, 7, 0xe49b69c1#32, .set 0 [.w 0, .s0 1]⟩,
  ⟨7, 0, 1, 2, 3, 4, 5, 6, 0xefbe4786#32, .set 1 [.w 1, .c 0x00a00000#32, .s0 2]⟩,
  ⟨6, 7, 0, 1, 2, 3, 4, 5, 0x0fc19dc6#32, .set 2 [.w 2, .s1 0, .s0 3]⟩,
  ⟨5, 6, 7, 0, 1, 2, 3, 4, 0x240ca1cc#32, .set 3 [.w 3, .s1 1, .s0 4]⟩,
  ⟨4, 5, 6, 7, 0, 1, 2, 3, 0x2de92c6f#32, .set 4 [.w 4, .s1 2, .s0 5]⟩,
  ⟨3, 4, 5, 6, 7, 0, 1, 2, 0x4a7484aa#32, .set 5 [.w 5, .s1 3, .s0 6]⟩,
  ⟨2, 3, 4, 5, 6, 7, 0, 1, 0x5cb0a9dc#32, .set 6 [.w 6, .s1 4, .c 0x00000100#32, .s0 7]⟩,
  ⟨1, 2, 3, 4, 5, 6, 7, 0, 0x76f988da#32, .set 7 [.w 7, .s1 5, .w 0, .c 0x11002000#32]⟩,
  ⟨0, 1, 2, 3, 4, 5, 6, 7, 0x983e5152#32, .set 8 [.s1 6, .w 1, .c 0x80000000#32]⟩,
  ⟨7, 0, 1, 2, 3, 4, 5, 6, 0xa831c66d#32, .set 9 [.s1 7, .w 2]⟩,
  ⟨6, 7, 0, 1, 2, 3, 4, 5, 0xb00327c8#32, .set 10 [.s1 8, .w 3]⟩,
  ⟨5, 6, 7, 0, 1, 2, 3, 4, 0xbf597fc7#32, .set 11 [.s1 9, .w 4]⟩,
  ⟨4, 5, 6, 7, 0, 1, 2, 3, 0xc6e00bf3#32, .set 12 [.s1 10, .w 5]⟩,
  ⟨3, 4, 5, 6, 7, 0, 1, 2, 0xd5a79147#32, .set 13 [.s1 11, .w 6]⟩,
  ⟨2, 3, 4, 5, 6, 7, 0, 1, 0x06ca6351#32, .set 14 [.s1 12, .w 7, .c 0x00400022#32]⟩,
  ⟨1, 2, 3, 4, 5, 6, 7, 0, 0x14292967#32, .set 15 [.s1 13, .w 8, .s0 0, .c 0x00000100#32]⟩,
  ⟨0, 1, 2, 3, 4, 5, 6, 7, 0x27b70a85#32, .later 0 14 9 1⟩,
  ⟨7, 0, 1, 2, 3, 4, 5, 6, 0x2e1b2138#32, .later 1 15 10 2⟩,
  ⟨6, 7, 0, 1, 2, 3, 4, 5, 0x4d2c6dfc#32, .later 2 0 11 3⟩,
  ⟨5, 6, 7, 0, 1, 2, 3, 4, 0x53380d13#32, .later 3 1 12 4⟩,
  ⟨4, 5, 6, 7, 0, 1, 2, 3, 0x650a7354#32, .later 4 2 13 5⟩,
  ⟨3, 4, 5, 6, 7, 0, 1, 2, 0x766a0abb#32, .later 5 3 14 6⟩,
  ⟨2, 3, 4, 5, 6, 7, 0, 1, 0x81c2c92e#32, .later 6 4 15 7⟩,
  ⟨1, 2, 3, 4, 5, 6, 7, 0, 0x92722c85#32, .later 7 5 0 8⟩,
  ⟨0, 1, 2, 3, 4, 5, 6, 7, 0xa2bfe8a1#32, .later 8 6 1 9⟩,
  ⟨7, 0, 1, 2, 3, 4, 5, 6, 0xa81a664b#32, .later 9 7 2 10⟩,
  ⟨6, 7, 0, 1, 2, 3, 4, 5, 0xc24b8b70#32, .later 10 8 3 11⟩,
  ⟨5, 6, 7, 0, 1, 2, 3, 4, 0xc76c51a3#32, .later 11 9 4 12⟩,
  ⟨4, 5, 6, 7, 0, 1, 2, 3, 0xd192e819#32, .later 12 10 5 13⟩,
  ⟨3, 4, 5, 6, 7, 0, 1, 2, 0xd6990624#32, .later 13 11 6 14⟩,
  ⟨2, 3, 4, 5, 6, 7, 0, 1, 0xf40e3585#32, .later 14 12 7 15⟩,
  ⟨1, 2, 3, 4, 5, 6, 7, 0, 0x106aa070#32, .later 15 13 8 0⟩,
  ⟨0, 1, 2, 3, 4, 5, 6, 7, 0x19a4c116#32, .later 0 14 9 1⟩,
  ⟨7, 0, 1, 2, 3, 4, 5, 6, 0x1e376c08#32, .later 1 15 10 2⟩,
  ⟨6, 7, 0, 1, 2, 3, 4, 5, 0x2748774c#32, .later 2 0 11 3⟩,
  ⟨5, 6, 7, 0, 1, 2, 3, 4, 0x34b0bcb5#32, .later 3 1 12 4⟩,
  ⟨4, 5, 6, 7, 0, 1, 2, 3, 0x391c0cb3#32, .later 4 2 13 5⟩,
  ⟨3, 4, 5, 6, 7, 0, 1, 2, 0x4ed8aa4a#32, .later 5 3 14 6⟩,
  ⟨2, 3, 4, 5, 6, 7, 0, 1, 0x5b9cca4f#32, .later 6 4 15 7⟩,
  ⟨1, 2, 3, 4, 5, 6, 7, 0, 0x682e6ff3#32, .later 7 5 0 8⟩,
  ⟨0, 1, 2, 3, 4, 5, 6, 7, 0x748f82ee#32, .later 8 6 1 9⟩,
  ⟨7, 0, 1, 2, 3, 4, 5, 6, 0x78a5636f#32, .later 9 7 2 10⟩,
  ⟨6, 7, 0, 1, 2, 3, 4, 5, 0x84c87814#32, .later 10 8 3 11⟩,
  ⟨5, 6, 7, 0, 1, 2, 3, 4, 0x8cc70208#32, .later 11 9 4 12⟩,
  ⟨4, 5, 6, 7, 0, 1, 2, 3, 0x90befffa#32, .later 12 10 5 13⟩,
  ⟨3, 4, 5, 6, 7, 0, 1, 2, 0xa4506ceb#32, .later 13 11 6 14⟩,
  ⟨2, 3, 4, 5, 6, 7, 0, 1, 0xbef9a3f7#32, .later 14 12 7 15⟩,
  ⟨1, 2, 3, 4, 5, 6, 7, 0, 0xc67178f2#32, .later 15 13 8 0⟩]

/-- The rounds of `process_blocks` (sha512/crypto.rs 100-183). -/
def calls512 : List (Call 64) := [
  ⟨0, 1, 2, 3, 4, 5, 6, 7, 0x428a2f98d728ae22#64, .word 0⟩,
  ⟨7, 0, 1, 2, 3, 4, 5, 6, 0x7137449123ef65cd#64, .word 1⟩,
  ⟨6, 7, 0, 1, 2, 3, 4, 5, 0xb5c0fbcfec4d3b2f#64, .word 2⟩,
  ⟨5, 6, 7, 0, 1, 2, 3, 4, 0xe9b5dba58189dbbc#64, .word 3⟩,
  ⟨4, 5, 6, 7, 0, 1, 2, 3, 0x3956c25bf348b538#64, .word 4⟩,
  ⟨3, 4, 5, 6, 7, 0, 1, 2, 0x59f111f1b605d019#64, .word 5⟩,
  ⟨2, 3, 4, 5, 6, 7, 0, 1, 0x923f82a4af194f9b#64, .word 6⟩,
  ⟨1, 2, 3, 4, 5, 6, 7, 0, 0xab1c5ed5da6d8118#64, .word 7⟩,
  ⟨0, 1, 2, 3, 4, 5, 6, 7, 0xd807aa98a3030242#64, .word 8⟩,
  ⟨7, 0, 1, 2, 3, 4, 5, 6, 0x12835b0145706fbe#64, .word 9⟩,
  ⟨6, 7, 0, 1, 2, 3, 4, 5, 0x243185be4ee4b28c#64, .word 10⟩,
  ⟨5, 6, 7, 0, 1, 2, 3, 4, 0x550c7dc3d5ffb4e2#64, .word 11⟩,
  ⟨4, 5, 6, 7, 0, 1, 2, 3, 0x72be5d74f27b896f#64, .word 12⟩,
  ⟨3, 4, 5, 6, 7, 0, 1, 2, 0x80deb1fe3b1696b1#64, .word 13⟩,
  ⟨2, 3, 4, 5, 6, 7, 0, 1, 0x9bdc06a725c71235#64, .word 14⟩,
  ⟨1, 2, 3, 4, 5, 6, 7, 0, 0xc19bf174cf692694#64, .word 15⟩,
  ⟨0, 1, 2, 3, 4, 5, 6, 7, 0xe49b69c19ef14ad2#64, .later 0 14 9 1⟩,
  ⟨7, 0, 1, 2, 3, 4, 5, 6, 0xefbe4786384f25e3#64, .later 1 15 10 2⟩,
  ⟨6, 7, 0, 1, 2, 3, 4, 5, 0x0fc19dc68b8cd5b5#64, .later 2 0 11 3⟩,
  ⟨5, 6, 7, 0, 1, 2, 3, 4, 0x240ca1cc77ac9c65#64, .later 3 1 12 4⟩,
  ⟨4, 5, 6, 7, 0, 1, 2, 3, 0x2de92c6f592b0275#64, .later 4 2 13 5⟩,
  ⟨3, 4, 5, 6, 7, 0, 1, 2, 0x4a7484aa6ea6e483#64, .later 5 3 14 6⟩,
  ⟨2, 3, 4, 5, 6, 7, 0, 1, 0x5cb0a9dcbd41fbd4#64, .later 6 4 15 7⟩,
  ⟨1, 2, 3, 4, 5, 6, 7, 0, 0x76f988da831153b5#64, .later 7 5 0 8⟩,
  ⟨0, 1, 2, 3, 4, 5, 6, 7, 0x983e5152ee66dfab#64, .later 8 6 1 9⟩,
  ⟨7, 0, 1, 2, 3, 4, 5, 6, 0xa831c66d2db43210#64, .later 9 7 2 10⟩,
  ⟨6, 7, 0, 1, 2, 3, 4, 5, 0xb00327c898fb213f#64, .later 10 8 3 11⟩,
  ⟨5, 6, 7, 0, 1, 2, 3, 4, 0xbf597fc7beef0ee4#64, .later 11 9 4 12⟩,
  ⟨4, 5, 6, 7, 0, 1, 2, 3, 0xc6e00bf33da88fc2#64, .later 12 10 5 13⟩,
  ⟨3, 4, 5, 6, 7, 0, 1, 2, 0xd5a79147930aa725#64, .later 13 11 6 14⟩,
  ⟨2, 3, 4, 5, 6, 7, 0, 1, 0x06ca6351e003826f#64, .later 14 12 7 15⟩,
  ⟨1, 2, 3, 4, 5, 6, 7, 0, 0x142929670a0e6e70#64, .later 15 13 8 0⟩,
  ⟨0, 1, 2, 3, 4, 5, 6, 7, 0x27b70a8546d22ffc#64, .later 0 14 9 1⟩,
  ⟨7, 0, 1, 2, 3, 4, 5, 6, 0x2e1b21385c26c926#64, .later 1 15 10 2⟩,
  ⟨6, 7, 0, 1, 2, 3, 4, 5, 0x4d2c6dfc5ac42aed#64, .later 2 0 11 3⟩,
  ⟨5, 6, 7, 0, 1, 2, 3, 4, 0x53380d139d95b3df#64, .later 3 1 12 4⟩,
  ⟨4, 5, 6, 7, 0, 1, 2, 3, 0x650a73548baf63de#64, .later 4 2 13 5⟩,
  ⟨3, 4, 5, 6, 7, 0, 1, 2, 0x766a0abb3c77b2a8#64, .later 5 3 14 6⟩,
  ⟨2, 3, 4, 5, 6, 7, 0, 1, 0x81c2c92e47edaee6#64, .later 6 4 15 7⟩,
  ⟨1, 2, 3, 4, 5, 6, 7, 0, 0x92722c851482353b#64, .later 7 5 0 8⟩,
  ⟨0, 1, 2, 3, 4, 5, 6, 7, 0xa2bfe8a14cf10364#64, .later 8 6 1 9⟩,
  ⟨7, 0, 1, 2, 3, 4, 5, 6, 0xa81a664bbc423001#64, .later 9 7 2 10⟩,
  ⟨6, 7, 0, 1, 2, 3, 4, 5, 0xc24b8b70d0f89791#64, .later 10 8 3 11⟩,
  ⟨5, 6, 7, 0, 1, 2, 3, 4, 0xc76c51a30654be30#64, .later 11 9 4 12⟩,
  ⟨4, 5, 6, 7, 0, 1, 2, 3, 0xd192e819d6ef5218#64, .later 12 10 5 13⟩,
  ⟨3, 4, 5, 6, 7, 0, 1, 2, 0xd69906245565a910#64, .later 13 11 6 14⟩,
  ⟨2, 3, 4, 5, 6, 7, 0, 1, 0xf40e35855771202a#64, .later 14 12 7 15⟩,
  ⟨1, 2, 3, 4, 5, 6, 7, 0, 0x106aa07032bbd1b8#64, .later 15 13 8 0⟩,
  ⟨0, 1, 2, 3, 4, 5, 6, 7, 0x19a4c116b8d2d0c8#64, .later 0 14 9 1⟩,
  ⟨7, 0, 1, 2, 3, 4, 5, 6, 0x1e376c085141ab53#64, .later 1 15 10 2⟩,
  ⟨6, 7, 0, 1, 2, 3, 4, 5, 0x2748774cdf8eeb99#64, .later 2 0 11 3⟩,
  ⟨5, 6, 7, 0, 1, 2, 3, 4, 0x34b0bcb5e19b48a8#64, .later 3 1 12 4⟩,
  ⟨4, 5, 6, 7, 0, 1, 2, 3, 0x391c0cb3c5c95a63#64, .later 4 2 13 5⟩,
  ⟨3, 4, 5, 6, 7, 0, 1, 2, 0x4ed8aa4ae3418acb#64, .later 5 3 14 6⟩,
  ⟨2, 3, 4, 5, 6, 7, 0, 1, 0x5b9cca4f7763e373#64, .later 6 4 15 7⟩,
  ⟨1, 2, 3, 4, 5, 6, 7, 0, 0x682e6ff3d6b2b8a3#64, .later 7 5 0 8⟩,
  ⟨0, 1, 2, 3, 4, 5, 6, 7, 0x748f82ee5defb2fc#64, .later 8 6 1 9⟩,
  ⟨7, 0, 1, 2, 3, 4, 5, 6, 0x78a5636f43172f60#64, .later 9 7 2 10⟩,
  ⟨6, 7, 0, 1, 2, 3, 4, 5, 0x84c87814a1f0ab72#64, .later 10 8 3 11⟩,
  ⟨5, 6, 7, 0, 1, 2, 3, 4, 0x8cc702081a6439ec#64, .later 11 9 4 12⟩,
  ⟨4, 5, 6, 7, 0, 1, 2, 3, 0x90befffa23631e28#64, .later 12 10 5 13⟩,
  ⟨3, 4, 5, 6, 7, 0, 1, 2, 0xa4506cebde82bde9#64, .later 13 11 6 14⟩,
  ⟨2, 3, 4, 5, 6, 7, 0, 1, 0xbef9a3f7b2c67915#64, .later 14 12 7 15⟩,
  ⟨1, 2, 3, 4, 5, 6, 7, 0, 0xc67178f2e372532b#64, .later 15 13 8 0⟩,
  ⟨0, 1, 2, 3, 4, 5, 6, 7, 0xca273eceea26619c#64, .later 0 14 9 1⟩,
  ⟨7, 0, 1, 2, 3, 4, 5, 6, 0xd186b8c721c0c207#64, .later 1 15 10 2⟩,
  ⟨6, 7, 0, 1, 2, 3, 4, 5, 0xeada7dd6cde0eb1e#64, .later 2 0 11 3⟩,
  ⟨5, 6, 7, 0, 1, 2, 3, 4, 0xf57d4f7fee6ed178#64, .later 3 1 12 4⟩,
  ⟨4, 5, 6, 7, 0, 1, 2, 3, 0x06f067aa72176fba#64, .later 4 2 13 5⟩,
  ⟨3, 4, 5, 6, 7, 0, 1, 2, 0x0a637dc5a2c898a6#64, .later 5 3 14 6⟩,
  ⟨2, 3, 4, 5, 6, 7, 0, 1, 0x113f9804bef90dae#64, .later 6 4 15 7⟩,
  ⟨1, 2, 3, 4, 5, 6, 7, 0, 0x1b710b35131c471b#64, .later 7 5 0 8⟩,
  ⟨0, 1, 2, 3, 4, 5, 6, 7, 0x28db77f523047d84#64, .later 8 6 1 9⟩,
  ⟨7, 0, 1, 2, 3, 4, 5, 6, 0x32caab7b40c72493#64, .later 9 7 2 10⟩,
  ⟨6, 7, 0, 1, 2, 3, 4, 5, 0x3c9ebe0a15c9bebc#64, .later 10 8 3 11⟩,
  ⟨5, 6, 7, 0, 1, 2, 3, 4, 0x431d67c49c100d4c#64, .later 11 9 4 12⟩,
  ⟨4, 5, 6, 7, 0, 1, 2, 3, 0x4cc5d4becb3e42b6#64, .later 12 10 5 13⟩,
  ⟨3, 4, 5, 6, 7, 0, 1, 2, 0x597f299cfc657e2a#64, .later 13 11 6 14⟩,
  ⟨2, 3, 4, 5, 6, 7, 0, 1, 0x5fcb6fab3ad6faec#64, .later 14 12 7 15⟩,
  ⟨1, 2, 3, 4, 5, 6, 7, 0, 0x6c44198c4a475817#64, .later 15 13 8 0⟩]

/-- One iteration of the loop over blocks (sha256/crypto/mod.rs 482-574, sha512/crypto.rs 85-193). -/
def compCalls {w : Nat} (F : Fns w) (k : Nat) (cs : List (Call w)) (h : St w) (block : Bytes) : St w :=
  h.add (runCalls F cs h (words w k block 16)).1
def comp256 : St 32 → Bytes → St 32 := compCalls fns256 4 calls256
def comp512 : St 64 → Bytes → St 64 := compCalls fns512 8 calls512

/-- The initial states (sha256/mod.rs 91-94, sha512/mod.rs 67-70, 102-105, 117-120). -/
def iv256 : St 32 := ⟨0x6a09e667, 0xbb67ae85, 0x3c6ef372, 0xa54ff53a, 0x510e527f, 0x9b05688c, 0x1f83d9ab, 0x5be0cd19⟩
def iv512 : St 64 := ⟨0x6a09e667f3bcc908, 0xbb67ae8584caa73b, 0x3c6ef372fe94f82b, 0xa54ff53a5f1d36f1,
  0x510e527fade682d1, 0x9b05688c2b3e6c1f, 0x1f83d9abfb41bd6b, 0x5be0cd19137e2179⟩
def iv512_256 : St 64 := ⟨0x22312194fc2bf72c, 0x9f555fa3c84c64c2, 0x2393b86b6f53b151, 0x963877195940eabd,
  0x96283ee2a88effe3, 0xbe5e1e2553863992, 0x2b0199fc2c85b8aa, 0x0eb72ddc81c52ca2⟩
def iv384 : St 64 := ⟨0xcbbb9d5dc1059ed8, 0x629a292a367cd507, 0x9159015a3070dd17, 0x152fecd8f70e5939,
  0x67332667ffc00b31, 0x8eb44a8768581511, 0xdb0c2e0d64f98fa7, 0x47b5481dbefa4fa4⟩

/-- The eight words as big-endian bytes (`midstate_unchecked`, sha256/mod.rs 146-152; `midstate`, sha512/mod.rs 83-89). -/
def St.bytes {w : Nat} (k : Nat) (s : St w) : Bytes := (s.toList.map fun x => beBytes k x.toNat).flatten

open Hashes

abbrev Engine256 := Eng (St 32)
abbrev Engine512 := Eng (St 64)
/-- `HashEngine::new` and `input` of SHA-256 and SHA-512 (sha256/mod.rs 88-98, sha512/mod.rs 62-74). -/
def new256 : Engine256 := Eng.new 64 iv256
def input256 (e : Engine256) (bs : Bytes) : Engine256 := e.input 64 comp256 bs
def new512 : Engine512 := Eng.new 128 iv512
def input512 (e : Engine512) (bs : Bytes) : Engine512 := e.input 128 comp512 bs
/-- `HashEngine::sha384`, `sha512_256` (sha512/mod.rs 100-124; sha384/mod.rs 31, sha512_256/mod.rs 41). -/
def new384 : Engine512 := Eng.new 128 iv384
def new512_256 : Engine512 := Eng.new 128 iv512_256
/-- `sha256::Hash::from_engine` (sha256/mod.rs 33-51). -/
def finish256 (e : Engine256) : Bytes := (e.finish 64 8 (beBytes 8) comp256).bytes 4
/-- `sha512::Hash::from_engine` (sha512/mod.rs 25-41), and the truncations in sha384/mod.rs 16-20, sha512_256/mod.rs 25-29. -/
def finish512 (e : Engine512) : Bytes := (e.finish 128 16 (beBytes 8) comp512).bytes 8
def finish384 (e : Engine512) : Bytes := (finish512 e).take 48
def finish512_256 (e : Engine512) : Bytes := (finish512 e).take 32
/-- `hash` (internal_macros.rs 73-80) of these four. -/
def sha256 (bs : Bytes) : Bytes := finish256 (input256 new256 bs)
def sha512 (bs : Bytes) : Bytes := finish512 (input512 new512 bs)
def sha384 (bs : Bytes) : Bytes := finish384 (input512 new384 bs)
def sha512_256 (bs : Bytes) : Bytes := finish512_256 (input512 new512_256 bs)
/-- `sha256d::Hash::from_engine` (sha256d/mod.rs 25-32): the hash of the hash. -/
def finish256d (e : Engine256) : Bytes := sha256 (finish256 e)

/-- `sha256::Midstate` (sha256/mod.rs 191-197). -/
structure Midstate where
  bytes : Bytes
  bytesHashed : Nat

/-- `Midstate::SHA256_IV` (sha256/mod.rs 201-213). -/
def Midstate.iv : Midstate := ⟨[
  0x6a, 0x09, 0xe6, 0x67, 0xbb, 0x67, 0xae, 0x85,
  0x3c, 0x6e, 0xf3, 0x72, 0xa5, 0x4f, 0xf5, 0x3a,
  0x51, 0x0e, 0x52, 0x7f, 0x9b, 0x05, 0x68, 0x8c,
  0x1f, 0x83, 0xd9, 0xab, 0x5b, 0xe0, 0xcd, 0x19], 0⟩

/-- `bytes_to_state` (sha256/crypto/mod.rs 151-163) and the loop of `to_engine` (sha256/mod.rs 234-237). -/
def stateOfBytes (bs : Bytes) : St 32 :=
  let g := fun i => BitVec.ofNat 32 (beNat ((bs.drop (4 * i)).take 4))
  ⟨g 0, g 1, g 2, g 3, g 4, g 5, g 6, g 7⟩

/-- `Midstate::new` (sha256/mod.rs 221-226): `none` is the assertion failure. -/
def Midstate.new (bytes : Bytes) (n : Nat) : Option Midstate := if n % 64 = 0 then some ⟨bytes, n⟩ else none
/-- `Midstate::to_engine` (sha256/mod.rs 233-240). -/
def Midstate.toEngine (m : Midstate) : Engine256 := ⟨List.replicate 64 0, stateOfBytes m.bytes, m.bytesHashed⟩
/-- `midstate_unchecked` (sha256/mod.rs 146-152). -/
def midstateUnchecked (e : Engine256) : Midstate := ⟨e.h.bytes 4, e.bytesHashed⟩
/-- `MidstateError` (sha256/mod.rs error module): the fields. -/
structure MidstateError where
  invalidBytesHashed : Nat
  aligned : Midstate
  unprocessed : Bytes
  unprocessedLen : Nat
/-- `HashEngine::midstate` (sha256/mod.rs 120-142). -/
def midstate (e : Engine256) : Except MidstateError Midstate :=
  if e.bytesHashed % 64 = 0 then .ok (midstateUnchecked e)
  else
    let len := e.bytesHashed % 64
    .error ⟨e.bytesHashed, ⟨e.h.bytes 4, e.bytesHashed - len⟩, e.buffer, len⟩
/-- `Midstate::update_64` (sha256/mod.rs 244-249). -/
def Midstate.update64 (m : Midstate) (bytes : Bytes) : Midstate :=
  let e := m.toEngine
  midstateUnchecked { e with h := processBlocks 64 comp256 e.h bytes, bytesHashed := (e.bytesHashed + 64) % 2 ^ 64 }

/-- The block built in the loop of `update_midstate_unoptimized` (sha256/crypto/mod.rs 174-201). -/
def unoptBlock (bytes : Bytes) (numChunks chunk : Nat) : Bytes :=
  if chunk * 64 + 64 ≤ bytes.length then (bytes.drop (chunk * 64)).take 64
  else
    let rest := bytes.drop (chunk * 64)
    let i := rest.length
    let buf := splice (List.replicate 64 0) 0 rest
    let buf := if bytes.length % 64 ≤ 64 - 9 ∨ chunk + 2 = numChunks then splice buf i [0x80] else buf
    if chunk + 1 = numChunks then splice buf 56 (beBytes 8 (bytes.length * 8 % 2 ^ 64)) else buf

/-- The loop of `update_midstate_unoptimized` (sha256/crypto/mod.rs 168-291); the first argument is the number of rounds left. -/
def unoptLoop (bytes : Bytes) (numChunks : Nat) (finalize : Bool) : Nat → Nat → St 32 → St 32
  | 0, _, s => s
  | k + 1, chunk, s =>
    if chunk < numChunks then
      if !finalize && chunk + 1 == numChunks then s
      else unoptLoop bytes numChunks finalize k (chunk + 1) (compCalls fns256 4 callsUnopt s (unoptBlock bytes numChunks chunk))
    else s

/-- `update_midstate_unoptimized` (sha256/crypto/mod.rs 165-302). -/
def Midstate.updateUnoptimized (m : Midstate) (bytes : Bytes) (finalize : Bool) : Midstate :=
  let n := (bytes.length + 9 + 63) / 64
  ⟨(unoptLoop bytes n finalize n 0 (stateOfBytes m.bytes)).bytes 4, (m.bytesHashed + bytes.length) % 2 ^ 64⟩
/-- `Hash::hash_unoptimized` (sha256/mod.rs 72-74), `update_64_unoptimized` (256-258), `update_2x32_unoptimized` (265-280) and
`hash_tag` (289-292). -/
def hashUnoptimized (bytes : Bytes) : Bytes := (Midstate.iv.updateUnoptimized bytes true).bytes
def Midstate.update64Unoptimized (m : Midstate) (bytes : Bytes) : Midstate := m.updateUnoptimized bytes false
def Midstate.update2x32 (m : Midstate) (left right : Bytes) : Midstate := m.update64Unoptimized (left ++ right)
def Midstate.hashTag (tag : Bytes) : Midstate := Midstate.iv.update2x32 (hashUnoptimized tag) (hashUnoptimized tag)

/-- `software_sha256d_64` (sha256/crypto/mod.rs 579-842): `w` keeps its entries 8..15 from transform 1 when transform 3 starts. -/
def sha256d64 (input : Bytes) : Bytes :=
  let w := words 32 4 input 16
  let (v, w) := runCalls fns256 callsD1 iv256 w
  let t := v.add iv256
  let (v, w) := runCalls fns256 callsD2 t w
  let w := (t.add v).toList ++ w.drop 8
  let (v, _) := runCalls fns256 callsD3 iv256 w
  (v.add iv256).bytes 4

end Sha2
end Btc
