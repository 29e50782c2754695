import Verif.Hashes.Sha2
/-!
# The SSE4.1 and AVX2 back ends of double SHA-256

`hashes/src/sha256/crypto/sse41.rs` and `avx2.rs`: four (eight) 64-byte inputs hashed at once, one per 32-bit lane. The two files
are the same list of statements over registers of a different width; the width is a parameter here. A register is a function
from lane numbers to words, lane 0 the least significant; only lanes below the width mean anything. The intrinsics are modelled
from their documentation (Intel's intrinsics guide).
-/
namespace Btc
namespace Simd
open Sha2 (St)

/-- `__m128i` (four lanes) or `__m256i` (eight lanes). -/
abbrev Lanes := Nat → BitVec 32

/-- `_mm_set1_epi32`, `_mm256_set1_epi32`; `K` (sse41.rs 24, avx2.rs 26). -/
def K (x : BitVec 32) : Lanes := fun _ => x
/-- `_mm_add_epi32` …; `Add`, `Add3`, `Add4` (sse41.rs 27-35, avx2.rs 29-37). -/
def Add (x y : Lanes) : Lanes := fun l => x l + y l
def Add3 (x y z : Lanes) : Lanes := Add (Add x y) z
def Add4 (x y z w : Lanes) : Lanes := Add (Add x y) (Add z w)
/-- `_mm_xor_si128`, `_mm_or_si128`, `_mm_and_si128`, `_mm_srli_epi32`, `_mm_slli_epi32` and their 256-bit versions (sse41.rs 47-62,
avx2.rs 49-64). -/
def Xor (x y : Lanes) : Lanes := fun l => x l ^^^ y l
def Xor3 (x y z : Lanes) : Lanes := Xor (Xor x y) z
def Or (x y : Lanes) : Lanes := fun l => x l ||| y l
def And (x y : Lanes) : Lanes := fun l => x l &&& y l
def ShR (n : Nat) (x : Lanes) : Lanes := fun l => x l >>> n
def ShL (n : Nat) (x : Lanes) : Lanes := fun l => x l <<< n

/-- sse41.rs 65-96, avx2.rs 67-98. -/
def Ch (x y z : Lanes) : Lanes := Xor z (And x (Xor y z))
def Maj (x y z : Lanes) : Lanes := Or (And x y) (And z (Or x y))
def Sigma0 (x : Lanes) : Lanes := Xor3 (Or (ShR 2 x) (ShL 30 x)) (Or (ShR 13 x) (ShL 19 x)) (Or (ShR 22 x) (ShL 10 x))
def Sigma1 (x : Lanes) : Lanes := Xor3 (Or (ShR 6 x) (ShL 26 x)) (Or (ShR 11 x) (ShL 21 x)) (Or (ShR 25 x) (ShL 7 x))
def sigma0 (x : Lanes) : Lanes := Xor3 (Or (ShR 7 x) (ShL 25 x)) (Or (ShR 18 x) (ShL 14 x)) (ShR 3 x)
def sigma1 (x : Lanes) : Lanes := Xor3 (Or (ShR 17 x) (ShL 15 x)) (Or (ShR 19 x) (ShL 13 x)) (ShR 10 x)

/-- `_mm_set_epi32`, `_mm256_set_epi32`: the arguments from the most significant lane down. -/
def setEpi32 (xs : List (BitVec 32)) : Lanes := fun l => if l < xs.length then xs.getD (xs.length - 1 - l) 0 else 0
/-- Byte `i` of a word, counted from the least significant. -/
def byteOf (x : BitVec 32) (i : Nat) : BitVec 8 := (x >>> (8 * i)).setWidth 8
/-- The word with the given bytes, the least significant first. -/
def ofBytes (b : Nat → BitVec 8) : BitVec 32 := b 3 ++ b 2 ++ b 1 ++ b 0
/-- `_mm_shuffle_epi8`, `_mm256_shuffle_epi8`: within each group of 16 bytes, byte `i` of the result is the byte whose number is in
the low four bits of byte `i` of `c`, or zero if the top bit of that byte is set. -/
def shuffleEpi8 (v c : Lanes) : Lanes := fun l => ofBytes fun i =>
  let k := byteOf (c l) i
  if k.getLsbD 7 then 0 else byteOf (v (4 * (l / 4) + k.toNat % 16 / 4)) (k.toNat % 4)

/-- The shuffle control of `Read4` and `Write4` (sse41.rs 116, 121), of `Read8` and `Write8` (avx2.rs 123-126, 132-135); `q` groups of
16 bytes. -/
def mask (q : Nat) : Lanes :=
  setEpi32 (List.replicate q [0x0C0D0E0F#32, 0x08090A0B#32, 0x04050607#32, 0x00010203#32]).flatten
/-- `Read4` (sse41.rs 109-117), `Read8` (avx2.rs 112-127): `q` is 1 or 2, `input` has `4 * q` members. -/
def read (q : Nat) (input : List Bytes) (offset : Nat) : Lanes :=
  shuffleEpi8 (setEpi32 (input.map fun x => BitVec.ofNat 32 (leNat ((x.drop offset).take 4)))) (mask q)
/-- `Write4` (sse41.rs 120-126), `Write8` (avx2.rs 131-144): the four bytes stored in output `i`. -/
def write (q : Nat) (v : Lanes) (i : Nat) : Bytes := leBytes 4 (shuffleEpi8 v (mask q) (4 * q - 1 - i)).toNat

/-- The expressions assigned to message words. -/
inductive Expr where
  | k (x : BitVec 32)
  | w (i : Nat)
  | s0 (i : Nat)
  | s1 (i : Nat)
  | add (x y : Expr)
  | add3 (x y z : Expr)
  | add4 (x y z u : Expr)
  | read (offset : Nat)
  deriving DecidableEq

/-- The `$kw` argument of `round!`: `K(x)`, `Add(K(k), w_i)`, `Add(K(k), { w_i = e; w_i })` (the last is also what `inc2!`, `inc3!`,
`inc4!` expand to, sse41.rs 37-44). -/
inductive Kw where
  | const (x : BitVec 32)
  | addW (k : BitVec 32) (i : Nat)
  | addSet (k : BitVec 32) (i : Nat) (e : Expr)
  deriving DecidableEq

/-- A `round!` line; `a` … `h` are registers 0 … 7. -/
structure Round where
  a : Nat
  b : Nat
  c : Nat
  d : Nat
  e : Nat
  f : Nat
  g : Nat
  h : Nat
  kw : Kw
  deriving DecidableEq

/-- The registers `a` … `h` and the message words `w0` … `w15`. -/
structure Vars where
  r : Nat → Lanes
  w : Nat → Lanes

def assign (f : Nat → Lanes) (i : Nat) (x : Lanes) : Nat → Lanes := fun j => if j = i then x else f j

def Expr.eval (rd : Nat → Lanes) (w : Nat → Lanes) : Expr → Lanes
  | .k x => K x
  | .w i => w i
  | .s0 i => sigma0 (w i)
  | .s1 i => sigma1 (w i)
  | .add x y => Add (x.eval rd w) (y.eval rd w)
  | .add3 x y z => Add3 (x.eval rd w) (y.eval rd w) (z.eval rd w)
  | .add4 x y z u => Add4 (x.eval rd w) (y.eval rd w) (z.eval rd w) (u.eval rd w)
  | .read o => rd o

def Kw.eval (rd : Nat → Lanes) (w : Nat → Lanes) : Kw → (Nat → Lanes) × Lanes
  | .const x => (w, K x)
  | .addW k i => (w, Add (K k) (w i))
  | .addSet k i e => (assign w i (e.eval rd w), Add (K k) (e.eval rd w))

/-- `round!` (sse41.rs 99-106, avx2.rs 101-108). -/
def Round.run (rd : Nat → Lanes) (s : Vars) (x : Round) : Vars :=
  let (w, kw) := x.kw.eval rd s.w
  let t1 := Add4 (s.r x.h) (Sigma1 (s.r x.e)) (Ch (s.r x.e) (s.r x.f) (s.r x.g)) kw
  let t2 := Add (Sigma0 (s.r x.a)) (Maj (s.r x.a) (s.r x.b) (s.r x.c))
  let r := assign s.r x.d (Add (s.r x.d) t1)
  ⟨assign r x.h (Add t1 t2), w⟩

/-- The rounds of transform 1 (sse41.rs 146-211, avx2.rs 164-229). -/
def rounds1 : List Round := [
  ⟨0, 1, 2, 3, 4, 5, 6, 7, .addSet 0x428a2f98#32 0 (.read 0)⟩,
  ⟨7, 0, 1, 2, 3, 4, 5, 6, .addSet 0x71374491#32 1 (.read 4)⟩,
  ⟨6, 7, 0, 1, 2, 3, 4, 5, .addSet 0xb5c0fbcf#32 2 (.read 8)⟩,
  ⟨5, 6, 7, 0, 1, 2, 3, 4, .addSet 0xe9b5dba5#32 3 (.read 12)⟩,
  ⟨4, 5, 6, 7, 0, 1, 2, 3, .addSet 0x3956c25b#32 4 (.read 16)⟩,
  ⟨3, 4, 5, 6, 7, 0, 1, 2, .addSet 0x59f111f1#32 5 (.read 20)⟩,
  ⟨2, 3, 4, 5, 6, 7, 0, 1, .addSet 0x923f82a4#32 6 (.read 24)⟩,
  ⟨1, 2, 3, 4, 5, 6, 7, 0, .addSet 0xab1c5ed5#32 7 (.read 28)⟩,
  ⟨0, 1, 2, 3, 4, 5, 6, 7, .addSet 0xd807aa98#32 8 (.read 32)⟩,
  ⟨7, 0, 1, 2, 3, 4, 5, 6, .addSet 0x12835b01#32 9 (.read 36)⟩,
  ⟨6, 7, 0, 1, 2, 3, 4, 5, .addSet 0x243185be#32 10 (.read 40)⟩,
  ⟨5, 6, 7, 0, 1, 2, 3, 4, .addSet 0x550c7dc3#32 11 (.read 44)⟩,
  ⟨4, 5, 6, 7, 0, 1, 2, 3, .addSet 0x72be5d74#32 12 (.read 48)⟩,
  ⟨3, 4, 5, 6, 7, 0, 1, 2, .addSet 0x80deb1fe#32 13 (.read 52)⟩,
  ⟨2, 3, 4, 5, 6, 7, 0, 1, .addSet 0x9bdc06a7#32 14 (.read 56)⟩,
  ⟨1, 2, 3, 4, 5, 6, 7, 0, .addSet 0xc19bf174#32 15 (.read 60)⟩,
  ⟨0, 1, 2, 3, 4, 5, 6, 7, .addSet 0xe49b69c1#32 0 (.add4 (.w 0) (.s1 14) (.w 9) (.s0 1))⟩,
  ⟨7, 0, 1, 2, 3, 4, 5, 6, .addSet 0xefbe4786#32 1 (.add4 (.w 1) (.s1 15) (.w 10) (.s0 2))⟩,
  ⟨6, 7, 0, 1, 2, 3, 4, 5, .addSet 0x0fc19dc6#32 2 (.add4 (.w 2) (.s1 0) (.w 11) (.s0 3))⟩,
  ⟨5, 6, 7, 0, 1, 2, 3, 4, .addSet 0x240ca1cc#32 3 (.add4 (.w 3) (.s1 1) (.w 12) (.s0 4))⟩,
  ⟨4, 5, 6, 7, 0, 1, 2, 3, .addSet 0x2de92c6f#32 4 (.add4 (.w 4) (.s1 2) (.w 13) (.s0 5))⟩,
  ⟨3, 4, 5, 6, 7, 0, 1, 2, .addSet 0x4a7484aa#32 5 (.add4 (.w 5) (.s1 3) (.w 14) (.s0 6))⟩,
  ⟨2, 3, 4, 5, 6, 7, 0, 1, .addSet 0x5cb0a9dc#32 6 (.add4 (.w 6) (.s1 4) (.w 15) (.s0 7))⟩,
  ⟨1, 2, 3, 4, 5, 6, 7, 0, .addSet 0x76f988da#32 7 (.add4 (.w 7) (.s1 5) (.w 0) (.s0 8))⟩,
  ⟨0, 1, 2, 3, 4, 5, 6, 7, .addSet 0x983e5152#32 8 (.add4 (.w 8) (.s1 6) (.w 1) (.s0 9))⟩,
  ⟨7, 0, 1, 2, 3, 4, 5, 6, .addSet 0xa831c66d#32 9 (.add4 (.w 9) (.s1 7) (.w 2) (.s0 10))⟩,
  ⟨6, 7, 0, 1, 2, 3, 4, 5, .addSet 0xb00327c8#32 10 (.add4 (.w 10) (.s1 8) (.w 3) (.s0 11))⟩,
  ⟨5, 6, 7, 0, 1, 2, 3, 4, .addSet 0xbf597fc7#32 11 (.add4 (.w 11) (.s1 9) (.w 4) (.s0 12))⟩,
  ⟨4, 5, 6, 7, 0, 1, 2, 3, .addSet 0xc6e00bf3#32 12 (.add4 (.w 12) (.s1 10) (.w 5) (.s0 13))⟩,
  ⟨3, 4, 5, 6, 7, 0, 1, 2, .addSet 0xd5a79147#32 13 (.add4 (.w 13) (.s1 11) (.w 6) (.s0 14))⟩,
  ⟨2, 3, 4, 5, 6, 7, 0, 1, .addSet 0x06ca6351#32 14 (.add4 (.w 14) (.s1 12) (.w 7) (.s0 15))⟩,
  ⟨1, 2, 3, 4, 5, 6, 7, 0, .addSet 0x14292967#32 15 (.add4 (.w 15) (.s1 13) (.w 8) (.s0 0))⟩,
  ⟨0, 1, 2, 3, 4, 5, 6, 7, .addSet 0x27b70a85#32 0 (.add4 (.w 0) (.s1 14) (.w 9) (.s0 1))⟩,
  ⟨7, 0, 1, 2, 3, 4, 5, 6, .addSet 0x2e1b2138#32 1 (.add4 (.w 1) (.s1 15) (.w 10) (.s0 2))⟩,
  ⟨6, 7, 0, 1, 2, 3, 4, 5, .addSet 0x4d2c6dfc#32 2 (.add4 (.w 2) (.s1 0) (.w 11) (.s0 3))⟩,
  ⟨5, 6, 7, 0, 1, 2, 3, 4, .addSet 0x53380d13#32 3 (.add4 (.w 3) (.s1 1) (.w 12) (.s0 4))⟩,
  ⟨4, 5, 6, 7, 0, 1, 2, 3, .addSet 0x650a7354#32 4 (.add4 (.w 4) (.s1 2) (.w 13) (.s0 5))⟩,
  ⟨3, 4, 5, 6, 7, 0, 1, 2, .addSet 0x766a0abb#32 5 (.add4 (.w 5) (.s1 3) (.w 14) (.s0 6))⟩,
  ⟨2, 3, 4, 5, 6, 7, 0, 1, .addSet 0x81c2c92e#32 6 (.add4 (.w 6) (.s1 4) (.w 15) (.s0 7))⟩,
  ⟨1, 2, 3, 4, 5, 6, 7, 0, .addSet 0x92722c85#32 7 (.add4 (.w 7) (.s1 5) (.w 0) (.s0 8))⟩,
  ⟨0, 1, 2, 3, 4, 5, 6, 7, .addSet 0xa2bfe8a1#32 8 (.add4 (.w 8) (.s1 6) (.w 1) (.s0 9))⟩,
  ⟨7, 0, 1, 2, 3, 4, 5, 6, .addSet 0xa81a664b#32 9 (.add4 (.w 9) (.s1 7) (.w 2) (.s0 10))⟩,
  ⟨6, 7, 0, 1, 2, 3, 4, 5, .addSet 0xc24b8b70#32 10 (.add4 (.w 10) (.s1 8) (.w 3) (.s0 11))⟩,
  ⟨5, 6, 7, 0, 1, 2, 3, 4, .addSet 0xc76c51a3#32 11 (.add4 (.w 11) (.s1 9) (.w 4) (.s0 12))⟩,
  ⟨4, 5, 6, 7, 0, 1, 2, 3, .addSet 0xd192e819#32 12 (.add4 (.w 12) (.s1 10) (.w 5) (.s0 13))⟩,
  ⟨3, 4, 5, 6, 7, 0, 1, 2, .addSet 0xd6990624#32 13 (.add4 (.w 13) (.s1 11) (.w 6) (.s0 14))⟩,
  ⟨2, 3, 4, 5, 6, 7, 0, 1, .addSet 0xf40e3585#32 14 (.add4 (.w 14) (.s1 12) (.w 7) (.s0 15))⟩,
  ⟨1, 2, 3, 4, 5, 6, 7, 0, .addSet 0x106aa070#32 15 (.add4 (.w 15) (.s1 13) (.w 8) (.s0 0))⟩,
  ⟨0, 1, 2, 3, 4, 5, 6, 7, .addSet 0x19a4c116#32 0 (.add4 (.w 0) (.s1 14) (.w 9) (.s0 1))⟩,
  ⟨7, 0, 1, 2, 3, 4, 5, 6, .addSet 0x1e376c08#32 1 (.add4 (.w 1) (.s1 15) (.w 10) (.s0 2))⟩,
  ⟨6, 7, 0, 1, 2, 3, 4, 5, .addSet 0x2748774c#32 2 (.add4 (.w 2) (.s1 0) (.w 11) (.s0 3))⟩,
  ⟨5, 6, 7, 0, 1, 2, 3, 4, .addSet 0x34b0bcb5#32 3 (.add4 (.w 3) (.s1 1) (.w 12) (.s0 4))⟩,
  ⟨4, 5, 6, 7, 0, 1, 2, 3, .addSet 0x391c0cb3#32 4 (.add4 (.w 4) (.s1 2) (.w 13) (.s0 5))⟩,
  ⟨3, 4, 5, 6, 7, 0, 1, 2, .addSet 0x4ed8aa4a#32 5 (.add4 (.w 5) (.s1 3) (.w 14) (.s0 6))⟩,
  ⟨2, 3, 4, 5, 6, 7, 0, 1, .addSet 0x5b9cca4f#32 6 (.add4 (.w 6) (.s1 4) (.w 15) (.s0 7))⟩,
  ⟨1, 2, 3, 4, 5, 6, 7, 0, .addSet 0x682e6ff3#32 7 (.add4 (.w 7) (.s1 5) (.w 0) (.s0 8))⟩,
  ⟨0, 1, 2, 3, 4, 5, 6, 7, .addSet 0x748f82ee#32 8 (.add4 (.w 8) (.s1 6) (.w 1) (.s0 9))⟩,
  ⟨7, 0, 1, 2, 3, 4, 5, 6, .addSet 0x78a5636f#32 9 (.add4 (.w 9) (.s1 7) (.w 2) (.s0 10))⟩,
  ⟨6, 7, 0, 1, 2, 3, 4, 5, .addSet 0x84c87814#32 10 (.add4 (.w 10) (.s1 8) (.w 3) (.s0 11))⟩,
  ⟨5, 6, 7, 0, 1, 2, 3, 4, .addSet 0x8cc70208#32 11 (.add4 (.w 11) (.s1 9) (.w 4) (.s0 12))⟩,
  ⟨4, 5, 6, 7, 0, 1, 2, 3, .addSet 0x90befffa#32 12 (.add4 (.w 12) (.s1 10) (.w 5) (.s0 13))⟩,
  ⟨3, 4, 5, 6, 7, 0, 1, 2, .addSet 0xa4506ceb#32 13 (.add4 (.w 13) (.s1 11) (.w 6) (.s0 14))⟩,
  ⟨2, 3, 4, 5, 6, 7, 0, 1, .addSet 0xbef9a3f7#32 14 (.add4 (.w 14) (.s1 12) (.w 7) (.s0 15))⟩,
  ⟨1, 2, 3, 4, 5, 6, 7, 0, .addSet 0xc67178f2#32 15 (.add4 (.w 15) (.s1 13) (.w 8) (.s0 0))⟩]

/-- The rounds of transform 2 (sse41.rs 235-298, avx2.rs 253-316). -/
def rounds2 : List Round := [
  ⟨0, 1, 2, 3, 4, 5, 6, 7, .const 0xc28a2f98#32⟩,
  ⟨7, 0, 1, 2, 3, 4, 5, 6, .const 0x71374491#32⟩,
  ⟨6, 7, 0, 1, 2, 3, 4, 5, .const 0xb5c0fbcf#32⟩,
  ⟨5, 6, 7, 0, 1, 2, 3, 4, .const 0xe9b5dba5#32⟩,
  ⟨4, 5, 6, 7, 0, 1, 2, 3, .const 0x3956c25b#32⟩,
  ⟨3, 4, 5, 6, 7, 0, 1, 2, .const 0x59f111f1#32⟩,
  ⟨2, 3, 4, 5, 6, 7, 0, 1, .const 0x923f82a4#32⟩,
  ⟨1, 2, 3, 4, 5, 6, 7, 0, .const 0xab1c5ed5#32⟩,
  ⟨0, 1, 2, 3, 4, 5, 6, 7, .const 0xd807aa98#32⟩,
  ⟨7, 0, 1, 2, 3, 4, 5, 6, .const 0x12835b01#32⟩,
  ⟨6, 7, 0, 1, 2, 3, 4, 5, .const 0x243185be#32⟩,
  ⟨5, 6, 7, 0, 1, 2, 3, 4, .const 0x550c7dc3#32⟩,
  ⟨4, 5, 6, 7, 0, 1, 2, 3, .const 0x72be5d74#32⟩,
  ⟨3, 4, 5, 6, 7, 0, 1, 2, .const 0x80deb1fe#32⟩,
  ⟨2, 3, 4, 5, 6, 7, 0, 1, .const 0x9bdc06a7#32⟩,
  ⟨1, 2, 3, 4, 5, 6, 7, 0, .const 0xc19bf374#32⟩,
  ⟨0, 1, 2, 3, 4, 5, 6, 7, .const 0x649b69c1#32⟩,
  ⟨7, 0, 1, 2, 3, 4, 5, 6, .const 0xf0fe4786#32⟩,
  ⟨6, 7, 0, 1, 2, 3, 4, 5, .const 0x0fe1edc6#32⟩,
  ⟨5, 6, 7, 0, 1, 2, 3, 4, .const 0x240cf254#32⟩,
  ⟨4, 5, 6, 7, 0, 1, 2, 3, .const 0x4fe9346f#32⟩,
  ⟨3, 4, 5, 6, 7, 0, 1, 2, .const 0x6cc984be#32⟩,
  ⟨2, 3, 4, 5, 6, 7, 0, 1, .const 0x61b9411e#32⟩,
  ⟨1, 2, 3, 4, 5, 6, 7, 0, .const 0x16f988fa#32⟩,
  ⟨0, 1, 2, 3, 4, 5, 6, 7, .const 0xf2c65152#32⟩,
  ⟨7, 0, 1, 2, 3, 4, 5, 6, .const 0xa88e5a6d#32⟩,
  ⟨6, 7, 0, 1, 2, 3, 4, 5, .const 0xb019fc65#32⟩,
  ⟨5, 6, 7, 0, 1, 2, 3, 4, .const 0xb9d99ec7#32⟩,
  ⟨4, 5, 6, 7, 0, 1, 2, 3, .const 0x9a1231c3#32⟩,
  ⟨3, 4, 5, 6, 7, 0, 1, 2, .const 0xe70eeaa0#32⟩,
  ⟨2, 3, 4, 5, 6, 7, 0, 1, .const 0xfdb1232b#32⟩,
  ⟨1, 2, 3, 4, 5, 6, 7, 0, .const 0xc7353eb0#32⟩,
  ⟨0, 1, 2, 3, 4, 5, 6, 7, .const 0x3069bad5#32⟩,
  ⟨7, 0, 1, 2, 3, 4, 5, 6, .const 0xcb976d5f#32⟩,
  ⟨6, 7, 0, 1, 2, 3, 4, 5, .const 0x5a0f118f#32⟩,
  ⟨5, 6, 7, 0, 1, 2, 3, 4, .const 0xdc1eeefd#32⟩,
  ⟨4, 5, 6, 7, 0, 1, 2, 3, .const 0x0a35b689#32⟩,
  ⟨3, 4, 5, 6, 7, 0, 1, 2, .const 0xde0b7a04#32⟩,
  ⟨2, 3, 4, 5, 6, 7, 0, 1, .const 0x58f4ca9d#32⟩,
  ⟨1, 2, 3, 4, 5, 6, 7, 0, .const 0xe15d5b16#32⟩,
  ⟨0, 1, 2, 3, 4, 5, 6, 7, .const 0x007f3e86#32⟩,
  ⟨7, 0, 1, 2, 3, 4, 5, 6, .const 0x37088980#32⟩,
  ⟨6, 7, 0, 1, 2, 3, 4, 5, .const 0xa507ea32#32⟩,
  ⟨5, 6, 7, 0, 1, 2, 3, 4, .const 0x6fab9537#32⟩,
  ⟨4, 5, 6, 7, 0, 1, 2, 3, .const 0x17406110#32⟩,
  ⟨3, 4, 5, 6, 7, 0, 1, 2, .const 0x0d8cd6f1#32⟩,
  ⟨2, 3, 4, 5, 6, 7, 0, 1, .const 0xcdaa3b6d#32⟩,
  ⟨1, 2, 3, 4, 5, 6, 7, 0, .const 0xc0bbbe37#32⟩,
  ⟨0, 1, 2, 3, 4, 5, 6, 7, .const 0x83613bda#32⟩,
  ⟨7, 0, 1, 2, 3, 4, 5, 6, .const 0xdb48a363#32⟩,
  ⟨6, 7, 0, 1, 2, 3, 4, 5, .const 0x0b02e931#32⟩,
  ⟨5, 6, 7, 0, 1, 2, 3, 4, .const 0x6fd15ca7#32⟩,
  ⟨4, 5, 6, 7, 0, 1, 2, 3, .const 0x521afaca#32⟩,
  ⟨3, 4, 5, 6, 7, 0, 1, 2, .const 0x31338431#32⟩,
  ⟨2, 3, 4, 5, 6, 7, 0, 1, .const 0x6ed41a95#32⟩,
  ⟨1, 2, 3, 4, 5, 6, 7, 0, .const 0x6d437890#32⟩,
  ⟨0, 1, 2, 3, 4, 5, 6, 7, .const 0xc39c91f2#32⟩,
  ⟨7, 0, 1, 2, 3, 4, 5, 6, .const 0x9eccabbd#32⟩,
  ⟨6, 7, 0, 1, 2, 3, 4, 5, .const 0xb5c9a0e6#32⟩,
  ⟨5, 6, 7, 0, 1, 2, 3, 4, .const 0x532fb63c#32⟩,
  ⟨4, 5, 6, 7, 0, 1, 2, 3, .const 0xd2c741c6#32⟩,
  ⟨3, 4, 5, 6, 7, 0, 1, 2, .const 0x07237ea3#32⟩,
  ⟨2, 3, 4, 5, 6, 7, 0, 1, .const 0xa4954b68#32⟩,
  ⟨1, 2, 3, 4, 5, 6, 7, 0, .const 0x4c191d76#32⟩]

/-- The rounds of transform 3 (sse41.rs 321-387, avx2.rs 339-404). -/
def rounds3 : List Round := [
  ⟨0, 1, 2, 3, 4, 5, 6, 7, .addW 0x428a2f98#32 0⟩,
  ⟨7, 0, 1, 2, 3, 4, 5, 6, .addW 0x71374491#32 1⟩,
  ⟨6, 7, 0, 1, 2, 3, 4, 5, .addW 0xb5c0fbcf#32 2⟩,
  ⟨5, 6, 7, 0, 1, 2, 3, 4, .addW 0xe9b5dba5#32 3⟩,
  ⟨4, 5, 6, 7, 0, 1, 2, 3, .addW 0x3956c25b#32 4⟩,
  ⟨3, 4, 5, 6, 7, 0, 1, 2, .addW 0x59f111f1#32 5⟩,
  ⟨2, 3, 4, 5, 6, 7, 0, 1, .addW 0x923f82a4#32 6⟩,
  ⟨1, 2, 3, 4, 5, 6, 7, 0, .addW 0xab1c5ed5#32 7⟩,
  ⟨0, 1, 2, 3, 4, 5, 6, 7, .const 0x5807aa98#32⟩,
  ⟨7, 0, 1, 2, 3, 4, 5, 6, .const 0x12835b01#32⟩,
  ⟨6, 7, 0, 1, 2, 3, 4, 5, .const 0x243185be#32⟩,
  ⟨5, 6, 7, 0, 1, 2, 3, 4, .const 0x550c7dc3#32⟩,
  ⟨4, 5, 6, 7, 0, 1, 2, 3, .const 0x72be5d74#32⟩,
  ⟨3, 4, 5, 6, 7, 0, 1, 2, .const 0x80deb1fe#32⟩,
  ⟨2, 3, 4, 5, 6, 7, 0, 1, .const 0x9bdc06a7#32⟩,
  ⟨1, 2, 3, 4, 5, 6, 7, 0, .const 0xc19bf274#32⟩,
  ⟨0, 1, 2, 3, 4, 5, 6, 7, .addSet 0xe49b69c1#32 0 (.add (.w 0) (.s0 1))⟩,
  ⟨7, 0, 1, 2, 3, 4, 5, 6, .addSet 0xefbe4786#32 1 (.add3 (.w 1) (.k 0x00a00000#32) (.s0 2))⟩,
  ⟨6, 7, 0, 1, 2, 3, 4, 5, .addSet 0x0fc19dc6#32 2 (.add3 (.w 2) (.s1 0) (.s0 3))⟩,
  ⟨5, 6, 7, 0, 1, 2, 3, 4, .addSet 0x240ca1cc#32 3 (.add3 (.w 3) (.s1 1) (.s0 4))⟩,
  ⟨4, 5, 6, 7, 0, 1, 2, 3, .addSet 0x2de92c6f#32 4 (.add3 (.w 4) (.s1 2) (.s0 5))⟩,
  ⟨3, 4, 5, 6, 7, 0, 1, 2, .addSet 0x4a7484aa#32 5 (.add3 (.w 5) (.s1 3) (.s0 6))⟩,
  ⟨2, 3, 4, 5, 6, 7, 0, 1, .addSet 0x5cb0a9dc#32 6 (.add4 (.w 6) (.s1 4) (.k 0x00000100#32) (.s0 7))⟩,
  ⟨1, 2, 3, 4, 5, 6, 7, 0, .addSet 0x76f988da#32 7 (.add4 (.w 7) (.s1 5) (.w 0) (.k 0x11002000#32))⟩,
  ⟨0, 1, 2, 3, 4, 5, 6, 7, .addSet 0x983e5152#32 8 (.add3 (.k 0x80000000#32) (.s1 6) (.w 1))⟩,
  ⟨7, 0, 1, 2, 3, 4, 5, 6, .addSet 0xa831c66d#32 9 (.add (.s1 7) (.w 2))⟩,
  ⟨6, 7, 0, 1, 2, 3, 4, 5, .addSet 0xb00327c8#32 10 (.add (.s1 8) (.w 3))⟩,
  ⟨5, 6, 7, 0, 1, 2, 3, 4, .addSet 0xbf597fc7#32 11 (.add (.s1 9) (.w 4))⟩,
  ⟨4, 5, 6, 7, 0, 1, 2, 3, .addSet 0xc6e00bf3#32 12 (.add (.s1 10) (.w 5))⟩,
  ⟨3, 4, 5, 6, 7, 0, 1, 2, .addSet 0xd5a79147#32 13 (.add (.s1 11) (.w 6))⟩,
  ⟨2, 3, 4, 5, 6, 7, 0, 1, .addSet 0x06ca6351#32 14 (.add3 (.s1 12) (.w 7) (.k 0x00400022#32))⟩,
  ⟨1, 2, 3, 4, 5, 6, 7, 0, .addSet 0x14292967#32 15 (.add4 (.k 0x00000100#32) (.s1 13) (.w 8) (.s0 0))⟩,
  ⟨0, 1, 2, 3, 4, 5, 6, 7, .addSet 0x27b70a85#32 0 (.add4 (.w 0) (.s1 14) (.w 9) (.s0 1))⟩,
  ⟨7, 0, 1, 2, 3, 4, 5, 6, .addSet 0x2e1b2138#32 1 (.add4 (.w 1) (.s1 15) (.w 10) (.s0 2))⟩,
  ⟨6, 7, 0, 1, 2, 3, 4, 5, .addSet 0x4d2c6dfc#32 2 (.add4 (.w 2) (.s1 0) (.w 11) (.s0 3))⟩,
  ⟨5, 6, 7, 0, 1, 2, 3, 4, .addSet 0x53380d13#32 3 (.add4 (.w 3) (.s1 1) (.w 12) (.s0 4))⟩,
  ⟨4, 5, 6, 7, 0, 1, 2, 3, .addSet 0x650a7354#32 4 (.add4 (.w 4) (.s1 2) (.w 13) (.s0 5))⟩,
  ⟨3, 4, 5, 6, 7, 0, 1, 2, .addSet 0x766a0abb#32 5 (.add4 (.w 5) (.s1 3) (.w 14) (.s0 6))⟩,
  ⟨2, 3, 4, 5, 6, 7, 0, 1, .addSet 0x81c2c92e#32 6 (.add4 (.w 6) (.s1 4) (.w 15) (.s0 7))⟩,
  ⟨1, 2, 3, 4, 5, 6, 7, 0, .addSet 0x92722c85#32 7 (.add4 (.w 7) (.s1 5) (.w 0) (.s0 8))⟩,
  ⟨0, 1, 2, 3, 4, 5, 6, 7, .addSet 0xa2bfe8a1#32 8 (.add4 (.w 8) (.s1 6) (.w 1) (.s0 9))⟩,
  ⟨7, 0, 1, 2, 3, 4, 5, 6, .addSet 0xa81a664b#32 9 (.add4 (.w 9) (.s1 7) (.w 2) (.s0 10))⟩,
  ⟨6, 7, 0, 1, 2, 3, 4, 5, .addSet 0xc24b8b70#32 10 (.add4 (.w 10) (.s1 8) (.w 3) (.s0 11))⟩,
  ⟨5, 6, 7, 0, 1, 2, 3, 4, .addSet 0xc76c51a3#32 11 (.add4 (.w 11) (.s1 9) (.w 4) (.s0 12))⟩,
  ⟨4, 5, 6, 7, 0, 1, 2, 3, .addSet 0xd192e819#32 12 (.add4 (.w 12) (.s1 10) (.w 5) (.s0 13))⟩,
  ⟨3, 4, 5, 6, 7, 0, 1, 2, .addSet 0xd6990624#32 13 (.add4 (.w 13) (.s1 11) (.w 6) (.s0 14))⟩,
  ⟨2, 3, 4, 5, 6, 7, 0, 1, .addSet 0xf40e3585#32 14 (.add4 (.w 14) (.s1 12) (.w 7) (.s0 15))⟩,
  ⟨1, 2, 3, 4, 5, 6, 7, 0, .addSet 0x106aa070#32 15 (.add4 (.w 15) (.s1 13) (.w 8) (.s0 0))⟩,
  ⟨0, 1, 2, 3, 4, 5, 6, 7, .addSet 0x19a4c116#32 0 (.add4 (.w 0) (.s1 14) (.w 9) (.s0 1))⟩,
  ⟨7, 0, 1, 2, 3, 4, 5, 6, .addSet 0x1e376c08#32 1 (.add4 (.w 1) (.s1 15) (.w 10) (.s0 2))⟩,
  ⟨6, 7, 0, 1, 2, 3, 4, 5, .addSet 0x2748774c#32 2 (.add4 (.w 2) (.s1 0) (.w 11) (.s0 3))⟩,
  ⟨5, 6, 7, 0, 1, 2, 3, 4, .addSet 0x34b0bcb5#32 3 (.add4 (.w 3) (.s1 1) (.w 12) (.s0 4))⟩,
  ⟨4, 5, 6, 7, 0, 1, 2, 3, .addSet 0x391c0cb3#32 4 (.add4 (.w 4) (.s1 2) (.w 13) (.s0 5))⟩,
  ⟨3, 4, 5, 6, 7, 0, 1, 2, .addSet 0x4ed8aa4a#32 5 (.add4 (.w 5) (.s1 3) (.w 14) (.s0 6))⟩,
  ⟨2, 3, 4, 5, 6, 7, 0, 1, .addSet 0x5b9cca4f#32 6 (.add4 (.w 6) (.s1 4) (.w 15) (.s0 7))⟩,
  ⟨1, 2, 3, 4, 5, 6, 7, 0, .addSet 0x682e6ff3#32 7 (.add4 (.w 7) (.s1 5) (.w 0) (.s0 8))⟩,
  ⟨0, 1, 2, 3, 4, 5, 6, 7, .addSet 0x748f82ee#32 8 (.add4 (.w 8) (.s1 6) (.w 1) (.s0 9))⟩,
  ⟨7, 0, 1, 2, 3, 4, 5, 6, .addSet 0x78a5636f#32 9 (.add4 (.w 9) (.s1 7) (.w 2) (.s0 10))⟩,
  ⟨6, 7, 0, 1, 2, 3, 4, 5, .addSet 0x84c87814#32 10 (.add4 (.w 10) (.s1 8) (.w 3) (.s0 11))⟩,
  ⟨5, 6, 7, 0, 1, 2, 3, 4, .addSet 0x8cc70208#32 11 (.add4 (.w 11) (.s1 9) (.w 4) (.s0 12))⟩,
  ⟨4, 5, 6, 7, 0, 1, 2, 3, .addSet 0x90befffa#32 12 (.add4 (.w 12) (.s1 10) (.w 5) (.s0 13))⟩,
  ⟨3, 4, 5, 6, 7, 0, 1, 2, .addSet 0xa4506ceb#32 13 (.add4 (.w 13) (.s1 11) (.w 6) (.s0 14))⟩,
  ⟨2, 3, 4, 5, 6, 7, 0, 1, .addSet 0xbef9a3f7#32 14 (.add4 (.w 14) (.s1 12) (.w 7) (.s0 15))⟩,
  ⟨1, 2, 3, 4, 5, 6, 7, 0, .addSet 0xc67178f2#32 15 (.add4 (.w 15) (.s1 13) (.w 8) (.s0 0))⟩]

/-- The constants the registers start from and that are added at the end (sse41.rs 133-140, 214-221, 311-318, 390-397; avx2.rs
151-158, 232-239, 329-336, 407-414). -/
def init : Nat → Lanes := fun i => K ([0x6a09e667#32, 0xbb67ae85#32, 0x3c6ef372#32, 0xa54ff53a#32, 0x510e527f#32, 0x9b05688c#32,
  0x1f83d9ab#32, 0x5be0cd19#32].getD i 0)

/-- `sha256d_64_4way` (sse41.rs 131-398) for `q = 1`, `sha256d_64_8way` (avx2.rs 149-415) for `q = 2`. The message words hold
nothing (here zero) before transform 1 assigns them. -/
def sha256d64Ways (q : Nat) (input : List Bytes) : List Bytes :=
  let rd := read q input
  let s := rounds1.foldl (Round.run rd) ⟨init, fun _ => K 0⟩
  let saved := fun i => Add (s.r i) (init i)
  let s := rounds2.foldl (Round.run rd) ⟨saved, s.w⟩
  let w := fun i => if i < 8 then Add (saved i) (s.r i) else s.w i
  let s := rounds3.foldl (Round.run rd) ⟨init, w⟩
  (List.range (4 * q)).map fun i => ((List.range 8).map fun j => write q (Add (s.r j) (init j)) i).flatten

end Simd
end Btc
