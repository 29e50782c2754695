import Verif.Hashes.Simd
import Verif.Hashes.Sha2Spec
/-!
# The SHA-NI and ARM SHA2 back ends of SHA-256

`hashes/src/sha256/crypto/x86_shani.rs` and `arm_sha2.rs`: the compression of whole blocks, and double SHA-256 of two 64-byte inputs
side by side. Each function is a straight line of assignments of intrinsics to vector variables (`process_blocks` has one loop
around one such line); the lines are lists of statements here. The intrinsics are modelled from their documentation (Intel's
intrinsics guide, the Arm architecture reference manual). A vector is a function from lane numbers to words as in `Simd`; lanes 0 to
3 mean something. `vreinterpretq_u8_u32` and `vreinterpretq_u32_u8` do not change the bits and are left out.
-/
namespace Btc
namespace ShaNi
open Sha2 (St)
open Simd (Lanes byteOf ofBytes shuffleEpi8)

/-- One round of FIPS 180-4 §6.2.2 with the sum of the constant and the message word given. -/
def roundK (s : St 32) (wk : BitVec 32) : St 32 :=
  let t1 := s.h + Fips.fns256.Sigma1 s.e + Fips.Ch s.e s.f s.g + wk
  let t2 := Fips.fns256.Sigma0 s.a + Fips.Maj s.a s.b s.c
  ⟨t1 + t2, s.a, s.b, s.c, s.d + t1, s.e, s.f, s.g⟩

/-- The vector with the lanes given, the least significant first. -/
def vec (x0 x1 x2 x3 : BitVec 32) : Lanes := fun l => match l with | 0 => x0 | 1 => x1 | 2 => x2 | _ => x3

/-- `_mm_set_epi64x`. -/
def set64 (hi lo : BitVec 64) : Lanes :=
  vec (lo.setWidth 32) ((lo >>> 32).setWidth 32) (hi.setWidth 32) ((hi >>> 32).setWidth 32)
/-- `_mm_shuffle_epi32`: lane `l` of the result is the lane of `x` whose number is in bits `2 l` and `2 l + 1` of the immediate. -/
def shuf32 (x : Lanes) (imm : Nat) : Lanes := fun l => x (imm / 4 ^ l % 4)
/-- `_mm_alignr_epi8`: the 32 bytes of `x` above those of `y`, shifted right by `n` bytes. -/
def alignr (x y : Lanes) (n : Nat) : Lanes := fun l => ofBytes fun i =>
  let k := 4 * l + i + n
  if k < 16 then byteOf (y (k / 4)) (k % 4) else if k < 32 then byteOf (x ((k - 16) / 4)) ((k - 16) % 4) else 0
/-- Half `i` of a word, counted from the least significant. -/
def halfOf (x : BitVec 32) (i : Nat) : BitVec 16 := (x >>> (16 * i)).setWidth 16
/-- `_mm_blend_epi16`: 16-bit element `i` from `y` if bit `i` of the immediate is set, else from `x`. -/
def blend (x y : Lanes) (imm : Nat) : Lanes := fun l =>
  let pick := fun i => if imm.testBit (2 * l + i) then halfOf (y l) i else halfOf (x l) i
  pick 1 ++ pick 0
/-- `_mm_sha256rnds2_epu32`: two rounds; the first operand holds C, D, G, H and the second A, B, E, F, from the most significant. -/
def rnds2 (cdgh abef wk : Lanes) : Lanes :=
  let s := roundK (roundK ⟨abef 3, abef 2, cdgh 3, cdgh 2, abef 1, abef 0, cdgh 1, cdgh 0⟩ (wk 0)) (wk 1)
  vec s.f s.e s.b s.a
/-- `_mm_sha256msg1_epu32`, `vsha256su0q_u32`. -/
def sha256msg1 (x y : Lanes) : Lanes :=
  let s0 := Fips.fns256.sigma0
  vec (x 0 + s0 (x 1)) (x 1 + s0 (x 2)) (x 2 + s0 (x 3)) (x 3 + s0 (y 0))
/-- `_mm_sha256msg2_epu32`. -/
def sha256msg2 (x y : Lanes) : Lanes :=
  let s1 := Fips.fns256.sigma1
  let w16 := x 0 + s1 (y 2)
  let w17 := x 1 + s1 (y 3)
  vec w16 w17 (x 2 + s1 w16) (x 3 + s1 w17)
/-- `vsha256su1q_u32`. -/
def su1 (x y z : Lanes) : Lanes :=
  let s1 := Fips.fns256.sigma1
  let w16 := s1 (z 2) + x 0 + y 1
  let w17 := s1 (z 3) + x 1 + y 2
  vec w16 w17 (s1 w16 + x 2 + y 3) (s1 w17 + x 3 + z 0)
/-- The four rounds of `vsha256hq_u32` and `vsha256h2q_u32`, which have A to D and E to H from the least significant lane up. -/
def rounds4 (abcd efgh wk : Lanes) : St 32 :=
  roundK (roundK (roundK (roundK ⟨abcd 0, abcd 1, abcd 2, abcd 3, efgh 0, efgh 1, efgh 2, efgh 3⟩ (wk 0)) (wk 1)) (wk 2)) (wk 3)
/-- `vsha256hq_u32`. -/
def hash1 (abcd efgh wk : Lanes) : Lanes := let s := rounds4 abcd efgh wk; vec s.a s.b s.c s.d
/-- `vsha256h2q_u32`. -/
def hash2 (efgh abcd wk : Lanes) : Lanes := let s := rounds4 abcd efgh wk; vec s.e s.f s.g s.h
/-- `vrev32q_u8`: the bytes of each word in the other order. -/
def rev32 (x : Lanes) : Lanes := fun l => ofBytes fun i => byteOf (x l) (3 - i)

/-- The expressions. `tbl` is `_mm_loadu_si128` or `vld1q_u32` from one of the constant tables at a word offset, `inp` from an input at
a byte offset, `st` from the state at a word offset. -/
inductive Expr where
  | v (r : Nat)
  | tbl (t : List (BitVec 32)) (off : Nat)
  | set64 (hi lo : BitVec 64)
  | inp (i off : Nat)
  | st (off : Nat)
  | add (x y : Expr)
  | shuf32 (x : Expr) (imm : Nat)
  | alignr (x y : Expr) (n : Nat)
  | blend (x y : Expr) (imm : Nat)
  | shuf8 (x m : Expr)
  | rev32 (x : Expr)
  | msg1 (x y : Expr)
  | su0 (x y : Expr)
  | msg2 (x y : Expr)
  | su1 (x y z : Expr)
  | rnds2 (x y z : Expr)
  | h (x y z : Expr)
  | h2 (x y z : Expr)

/-- The memory that is read: the inputs, and the state. -/
structure Mem where
  inp : Nat → Bytes
  st : St 32

def Expr.eval (m : Mem) (env : Nat → Lanes) : Expr → Lanes
  | .v r => env r
  | .tbl t off => fun l => t.getD (off + l) 0
  | .set64 hi lo => ShaNi.set64 hi lo
  | .inp i off => fun l => BitVec.ofNat 32 (leNat (((m.inp i).drop (off + 4 * l)).take 4))
  | .st off => fun l => m.st.get (off + l)
  | .add x y => Simd.Add (x.eval m env) (y.eval m env)
  | .shuf32 x imm => ShaNi.shuf32 (x.eval m env) imm
  | .alignr x y n => ShaNi.alignr (x.eval m env) (y.eval m env) n
  | .blend x y imm => ShaNi.blend (x.eval m env) (y.eval m env) imm
  | .shuf8 x y => shuffleEpi8 (x.eval m env) (y.eval m env)
  | .rev32 x => ShaNi.rev32 (x.eval m env)
  | .msg1 x y => sha256msg1 (x.eval m env) (y.eval m env)
  | .su0 x y => sha256msg1 (x.eval m env) (y.eval m env)
  | .msg2 x y => sha256msg2 (x.eval m env) (y.eval m env)
  | .su1 x y z => ShaNi.su1 (x.eval m env) (y.eval m env) (z.eval m env)
  | .rnds2 x y z => ShaNi.rnds2 (x.eval m env) (y.eval m env) (z.eval m env)
  | .h x y z => hash1 (x.eval m env) (y.eval m env) (z.eval m env)
  | .h2 x y z => hash2 (x.eval m env) (y.eval m env) (z.eval m env)

/-- Where `_mm_storeu_si128`, `vst1q_u32` and `vst1q_u8` write: a byte offset in an output, a word offset in the state. -/
inductive Dst where
  | out (i off : Nat)
  | st (off : Nat)
  deriving DecidableEq

inductive Stmt where
  | set (r : Nat) (e : Expr)
  | out (i off : Nat) (e : Expr)
  | stSt (off : Nat) (e : Expr)

/-- The variables, and what has been written. -/
structure Mach where
  env : Nat → Lanes
  stores : List (Dst × Lanes)

def Stmt.run (m : Mem) (s : Mach) : Stmt → Mach
  | .set r e => { s with env := Simd.assign s.env r (e.eval m s.env) }
  | .out i off e => { s with stores := s.stores ++ [(.out i off, e.eval m s.env)] }
  | .stSt off e => { s with stores := s.stores ++ [(.st off, e.eval m s.env)] }

def runAll (m : Mem) (p : List Stmt) (s : Mach) : Mach := p.foldl (Stmt.run m) s

/-! The variables have numbers. -/
abbrev MASK : Nat := 0
abbrev tmp : Nat := 1
abbrev state1 : Nat := 2
abbrev state0 : Nat := 3
abbrev abef_save : Nat := 4
abbrev cdgh_save : Nat := 5
abbrev msg : Nat := 6
abbrev msg0 : Nat := 7
abbrev msg1 : Nat := 8
abbrev msg2 : Nat := 9
abbrev msg3 : Nat := 10
abbrev init0 : Nat := 11
abbrev init1 : Nat := 12
abbrev state0_a : Nat := 13
abbrev state0_b : Nat := 14
abbrev state1_a : Nat := 15
abbrev state1_b : Nat := 16
abbrev k : Nat := 17
abbrev msg_a : Nat := 18
abbrev msg_b : Nat := 19
abbrev msg0_a : Nat := 20
abbrev msg0_b : Nat := 21
abbrev msg1_a : Nat := 22
abbrev msg1_b : Nat := 23
abbrev msg2_a : Nat := 24
abbrev msg2_b : Nat := 25
abbrev msg3_a : Nat := 26
abbrev msg3_b : Nat := 27
abbrev tmp_a : Nat := 28
abbrev tmp_b : Nat := 29
abbrev abef_save_a : Nat := 30
abbrev abef_save_b : Nat := 31
abbrev cdgh_save_a : Nat := 32
abbrev cdgh_save_b : Nat := 33
abbrev abcd_save : Nat := 34
abbrev efgh_save : Nat := 35
abbrev tmp0 : Nat := 36
abbrev tmp2 : Nat := 37
abbrev tmp1 : Nat := 38
abbrev tmp0_a : Nat := 39
abbrev tmp0_b : Nat := 40
abbrev tmp2_a : Nat := 41
abbrev tmp2_b : Nat := 42
abbrev abcd_save_a : Nat := 43
abbrev abcd_save_b : Nat := 44
abbrev efgh_save_a : Nat := 45
abbrev efgh_save_b : Nat := 46

/-- The round constants (arm_sha2.rs 29-46, 224-242, x86_shani.rs 282-301). -/
def K : List (BitVec 32) := [
  0x428a2f98#32, 0x71374491#32, 0xb5c0fbcf#32, 0xe9b5dba5#32, 0x3956c25b#32, 0x59f111f1#32, 0x923f82a4#32, 0xab1c5ed5#32,
  0xd807aa98#32, 0x12835b01#32, 0x243185be#32, 0x550c7dc3#32, 0x72be5d74#32, 0x80deb1fe#32, 0x9bdc06a7#32, 0xc19bf174#32,
  0xe49b69c1#32, 0xefbe4786#32, 0x0fc19dc6#32, 0x240ca1cc#32, 0x2de92c6f#32, 0x4a7484aa#32, 0x5cb0a9dc#32, 0x76f988da#32,
  0x983e5152#32, 0xa831c66d#32, 0xb00327c8#32, 0xbf597fc7#32, 0xc6e00bf3#32, 0xd5a79147#32, 0x06ca6351#32, 0x14292967#32,
  0x27b70a85#32, 0x2e1b2138#32, 0x4d2c6dfc#32, 0x53380d13#32, 0x650a7354#32, 0x766a0abb#32, 0x81c2c92e#32, 0x92722c85#32,
  0xa2bfe8a1#32, 0xa81a664b#32, 0xc24b8b70#32, 0xc76c51a3#32, 0xd192e819#32, 0xd6990624#32, 0xf40e3585#32, 0x106aa070#32,
  0x19a4c116#32, 0x1e376c08#32, 0x2748774c#32, 0x34b0bcb5#32, 0x391c0cb3#32, 0x4ed8aa4a#32, 0x5b9cca4f#32, 0x682e6ff3#32,
  0x748f82ee#32, 0x78a5636f#32, 0x84c87814#32, 0x8cc70208#32, 0x90befffa#32, 0xa4506ceb#32, 0xbef9a3f7#32, 0xc67178f2#32]
/-- x86_shani.rs 303-322, arm_sha2.rs 244-263. -/
def MIDS : List (BitVec 32) := [
  0xc28a2f98#32, 0x71374491#32, 0xb5c0fbcf#32, 0xe9b5dba5#32, 0x3956c25b#32, 0x59f111f1#32, 0x923f82a4#32, 0xab1c5ed5#32,
  0xd807aa98#32, 0x12835b01#32, 0x243185be#32, 0x550c7dc3#32, 0x72be5d74#32, 0x80deb1fe#32, 0x9bdc06a7#32, 0xc19bf374#32,
  0x649b69c1#32, 0xf0fe4786#32, 0x0fe1edc6#32, 0x240cf254#32, 0x4fe9346f#32, 0x6cc984be#32, 0x61b9411e#32, 0x16f988fa#32,
  0xf2c65152#32, 0xa88e5a6d#32, 0xb019fc65#32, 0xb9d99ec7#32, 0x9a1231c3#32, 0xe70eeaa0#32, 0xfdb1232b#32, 0xc7353eb0#32,
  0x3069bad5#32, 0xcb976d5f#32, 0x5a0f118f#32, 0xdc1eeefd#32, 0x0a35b689#32, 0xde0b7a04#32, 0x58f4ca9d#32, 0xe15d5b16#32,
  0x007f3e86#32, 0x37088980#32, 0xa507ea32#32, 0x6fab9537#32, 0x17406110#32, 0x0d8cd6f1#32, 0xcdaa3b6d#32, 0xc0bbbe37#32,
  0x83613bda#32, 0xdb48a363#32, 0x0b02e931#32, 0x6fd15ca7#32, 0x521afaca#32, 0x31338431#32, 0x6ed41a95#32, 0x6d437890#32,
  0xc39c91f2#32, 0x9eccabbd#32, 0xb5c9a0e6#32, 0x532fb63c#32, 0xd2c741c6#32, 0x07237ea3#32, 0xa4954b68#32, 0x4c191d76#32]
/-- x86_shani.rs 324-333, arm_sha2.rs 265-274. -/
def FINS : List (BitVec 32) := [
  0x5807aa98#32, 0x12835b01#32, 0x243185be#32, 0x550c7dc3#32, 0x80000000#32, 0x00000000#32, 0x00000000#32, 0x00000000#32,
  0x72be5d74#32, 0x80deb1fe#32, 0x9bdc06a7#32, 0xc19bf274#32]
/-- x86_shani.rs 336, arm_sha2.rs 277. -/
def FINAL : List (BitVec 32) := [
  0x80000000#32, 0x00000000#32, 0x00000000#32, 0x00000000#32, 0x00000000#32, 0x00000000#32, 0x00000000#32, 0x00000100#32]
/-- arm_sha2.rs 217-221. -/
def INIT : List (BitVec 32) := [
  0x6a09e667#32, 0xbb67ae85#32, 0x3c6ef372#32, 0xa54ff53a#32, 0x510e527f#32, 0x9b05688c#32, 0x1f83d9ab#32, 0x5be0cd19#32]
/-- `process_blocks` (x86_shani.rs 23-53): before the loop. -/
def x86Load : List Stmt := [
  .set MASK (.set64 0x0c0d0e0f08090a0b#64 0x0405060700010203#64),
  .set tmp (.st 0),
  .set state1 (.st 4),
  .set tmp (.shuf32 (.v tmp) 0xB1),
  .set state1 (.shuf32 (.v state1) 0x1B),
  .set state0 (.alignr (.v tmp) (.v state1) 8),
  .set state1 (.blend (.v state1) (.v tmp) 0xF0)]

/-- `process_blocks` (x86_shani.rs 56-263): the body of the loop. -/
def x86Block : List Stmt := [
  .set abef_save (.v state0),
  .set cdgh_save (.v state1),
  .set msg (.inp 0 0),
  .set msg0 (.shuf8 (.v msg) (.v MASK)),
  .set msg (.add (.v msg0) (.set64 0xe9b5dba5b5c0fbcf#64 0x71374491428a2f98#64)),
  .set state1 (.rnds2 (.v state1) (.v state0) (.v msg)),
  .set msg (.shuf32 (.v msg) 0x0E),
  .set state0 (.rnds2 (.v state0) (.v state1) (.v msg)),
  .set msg1 (.inp 0 16),
  .set msg1 (.shuf8 (.v msg1) (.v MASK)),
  .set msg (.add (.v msg1) (.set64 0xab1c5ed5923f82a4#64 0x59f111f13956c25b#64)),
  .set state1 (.rnds2 (.v state1) (.v state0) (.v msg)),
  .set msg (.shuf32 (.v msg) 0x0E),
  .set state0 (.rnds2 (.v state0) (.v state1) (.v msg)),
  .set msg0 (.msg1 (.v msg0) (.v msg1)),
  .set msg2 (.inp 0 32),
  .set msg2 (.shuf8 (.v msg2) (.v MASK)),
  .set msg (.add (.v msg2) (.set64 0x550c7dc3243185be#64 0x12835b01d807aa98#64)),
  .set state1 (.rnds2 (.v state1) (.v state0) (.v msg)),
  .set msg (.shuf32 (.v msg) 0x0E),
  .set state0 (.rnds2 (.v state0) (.v state1) (.v msg)),
  .set msg1 (.msg1 (.v msg1) (.v msg2)),
  .set msg3 (.inp 0 48),
  .set msg3 (.shuf8 (.v msg3) (.v MASK)),
  .set msg (.add (.v msg3) (.set64 0xc19bf1749bdc06a7#64 0x80deb1fe72be5d74#64)),
  .set state1 (.rnds2 (.v state1) (.v state0) (.v msg)),
  .set tmp (.alignr (.v msg3) (.v msg2) 4),
  .set msg0 (.add (.v msg0) (.v tmp)),
  .set msg0 (.msg2 (.v msg0) (.v msg3)),
  .set msg (.shuf32 (.v msg) 0x0E),
  .set state0 (.rnds2 (.v state0) (.v state1) (.v msg)),
  .set msg2 (.msg1 (.v msg2) (.v msg3)),
  .set msg (.add (.v msg0) (.set64 0x240ca1cc0fc19dc6#64 0xefbe4786e49b69c1#64)),
  .set state1 (.rnds2 (.v state1) (.v state0) (.v msg)),
  .set tmp (.alignr (.v msg0) (.v msg3) 4),
  .set msg1 (.add (.v msg1) (.v tmp)),
  .set msg1 (.msg2 (.v msg1) (.v msg0)),
  .set msg (.shuf32 (.v msg) 0x0E),
  .set state0 (.rnds2 (.v state0) (.v state1) (.v msg)),
  .set msg3 (.msg1 (.v msg3) (.v msg0)),
  .set msg (.add (.v msg1) (.set64 0x76f988da5cb0a9dc#64 0x4a7484aa2de92c6f#64)),
  .set state1 (.rnds2 (.v state1) (.v state0) (.v msg)),
  .set tmp (.alignr (.v msg1) (.v msg0) 4),
  .set msg2 (.add (.v msg2) (.v tmp)),
  .set msg2 (.msg2 (.v msg2) (.v msg1)),
  .set msg (.shuf32 (.v msg) 0x0E),
  .set state0 (.rnds2 (.v state0) (.v state1) (.v msg)),
  .set msg0 (.msg1 (.v msg0) (.v msg1)),
  .set msg (.add (.v msg2) (.set64 0xbf597fc7b00327c8#64 0xa831c66d983e5152#64)),
  .set state1 (.rnds2 (.v state1) (.v state0) (.v msg)),
  .set tmp (.alignr (.v msg2) (.v msg1) 4),
  .set msg3 (.add (.v msg3) (.v tmp)),
  .set msg3 (.msg2 (.v msg3) (.v msg2)),
  .set msg (.shuf32 (.v msg) 0x0E),
  .set state0 (.rnds2 (.v state0) (.v state1) (.v msg)),
  .set msg1 (.msg1 (.v msg1) (.v msg2)),
  .set msg (.add (.v msg3) (.set64 0x1429296706ca6351#64 0xd5a79147c6e00bf3#64)),
  .set state1 (.rnds2 (.v state1) (.v state0) (.v msg)),
  .set tmp (.alignr (.v msg3) (.v msg2) 4),
  .set msg0 (.add (.v msg0) (.v tmp)),
  .set msg0 (.msg2 (.v msg0) (.v msg3)),
  .set msg (.shuf32 (.v msg) 0x0E),
  .set state0 (.rnds2 (.v state0) (.v state1) (.v msg)),
  .set msg2 (.msg1 (.v msg2) (.v msg3)),
  .set msg (.add (.v msg0) (.set64 0x53380d134d2c6dfc#64 0x2e1b213827b70a85#64)),
  .set state1 (.rnds2 (.v state1) (.v state0) (.v msg)),
  .set tmp (.alignr (.v msg0) (.v msg3) 4),
  .set msg1 (.add (.v msg1) (.v tmp)),
  .set msg1 (.msg2 (.v msg1) (.v msg0)),
  .set msg (.shuf32 (.v msg) 0x0E),
  .set state0 (.rnds2 (.v state0) (.v state1) (.v msg)),
  .set msg3 (.msg1 (.v msg3) (.v msg0)),
  .set msg (.add (.v msg1) (.set64 0x92722c8581c2c92e#64 0x766a0abb650a7354#64)),
  .set state1 (.rnds2 (.v state1) (.v state0) (.v msg)),
  .set tmp (.alignr (.v msg1) (.v msg0) 4),
  .set msg2 (.add (.v msg2) (.v tmp)),
  .set msg2 (.msg2 (.v msg2) (.v msg1)),
  .set msg (.shuf32 (.v msg) 0x0E),
  .set state0 (.rnds2 (.v state0) (.v state1) (.v msg)),
  .set msg0 (.msg1 (.v msg0) (.v msg1)),
  .set msg (.add (.v msg2) (.set64 0xc76c51a3c24b8b70#64 0xa81a664ba2bfe8a1#64)),
  .set state1 (.rnds2 (.v state1) (.v state0) (.v msg)),
  .set tmp (.alignr (.v msg2) (.v msg1) 4),
  .set msg3 (.add (.v msg3) (.v tmp)),
  .set msg3 (.msg2 (.v msg3) (.v msg2)),
  .set msg (.shuf32 (.v msg) 0x0E),
  .set state0 (.rnds2 (.v state0) (.v state1) (.v msg)),
  .set msg1 (.msg1 (.v msg1) (.v msg2)),
  .set msg (.add (.v msg3) (.set64 0x106aa070f40e3585#64 0xd6990624d192e819#64)),
  .set state1 (.rnds2 (.v state1) (.v state0) (.v msg)),
  .set tmp (.alignr (.v msg3) (.v msg2) 4),
  .set msg0 (.add (.v msg0) (.v tmp)),
  .set msg0 (.msg2 (.v msg0) (.v msg3)),
  .set msg (.shuf32 (.v msg) 0x0E),
  .set state0 (.rnds2 (.v state0) (.v state1) (.v msg)),
  .set msg2 (.msg1 (.v msg2) (.v msg3)),
  .set msg (.add (.v msg0) (.set64 0x34b0bcb52748774c#64 0x1e376c0819a4c116#64)),
  .set state1 (.rnds2 (.v state1) (.v state0) (.v msg)),
  .set tmp (.alignr (.v msg0) (.v msg3) 4),
  .set msg1 (.add (.v msg1) (.v tmp)),
  .set msg1 (.msg2 (.v msg1) (.v msg0)),
  .set msg (.shuf32 (.v msg) 0x0E),
  .set state0 (.rnds2 (.v state0) (.v state1) (.v msg)),
  .set msg3 (.msg1 (.v msg3) (.v msg0)),
  .set msg (.add (.v msg1) (.set64 0x682e6ff35b9cca4f#64 0x4ed8aa4a391c0cb3#64)),
  .set state1 (.rnds2 (.v state1) (.v state0) (.v msg)),
  .set tmp (.alignr (.v msg1) (.v msg0) 4),
  .set msg2 (.add (.v msg2) (.v tmp)),
  .set msg2 (.msg2 (.v msg2) (.v msg1)),
  .set msg (.shuf32 (.v msg) 0x0E),
  .set state0 (.rnds2 (.v state0) (.v state1) (.v msg)),
  .set msg (.add (.v msg2) (.set64 0x8cc7020884c87814#64 0x78a5636f748f82ee#64)),
  .set state1 (.rnds2 (.v state1) (.v state0) (.v msg)),
  .set tmp (.alignr (.v msg2) (.v msg1) 4),
  .set msg3 (.add (.v msg3) (.v tmp)),
  .set msg3 (.msg2 (.v msg3) (.v msg2)),
  .set msg (.shuf32 (.v msg) 0x0E),
  .set state0 (.rnds2 (.v state0) (.v state1) (.v msg)),
  .set msg (.add (.v msg3) (.set64 0xc67178f2bef9a3f7#64 0xa4506ceb90befffa#64)),
  .set state1 (.rnds2 (.v state1) (.v state0) (.v msg)),
  .set msg (.shuf32 (.v msg) 0x0E),
  .set state0 (.rnds2 (.v state0) (.v state1) (.v msg)),
  .set state0 (.add (.v state0) (.v abef_save)),
  .set state1 (.add (.v state1) (.v cdgh_save))]

/-- `process_blocks` (x86_shani.rs 266-276): after the loop. -/
def x86Store : List Stmt := [
  .set tmp (.shuf32 (.v state0) 0x1B),
  .set state1 (.shuf32 (.v state1) 0xB1),
  .set state0 (.blend (.v tmp) (.v state1) 0xF0),
  .set state1 (.alignr (.v state1) (.v tmp) 8),
  .stSt 0 (.v state0),
  .stSt 4 (.v state1)]

/-- `sha256d_64_2way` (x86_shani.rs 282-653): transform 1. -/
def x86D1 : List Stmt := [
  .set MASK (.set64 0x0c0d0e0f08090a0b#64 0x0405060700010203#64),
  .set init0 (.set64 0x6a09e667bb67ae85#64 0x510e527f9b05688c#64),
  .set init1 (.set64 0x3c6ef372a54ff53a#64 0x1f83d9ab5be0cd19#64),
  .set state0_a (.v init0),
  .set state0_b (.v init0),
  .set state1_a (.v init1),
  .set state1_b (.v init1),
  .set k (.tbl K 0),
  .set msg_a (.inp 0 0),
  .set msg_b (.inp 1 0),
  .set msg0_a (.shuf8 (.v msg_a) (.v MASK)),
  .set msg0_b (.shuf8 (.v msg_b) (.v MASK)),
  .set msg_a (.add (.v msg0_a) (.v k)),
  .set msg_b (.add (.v msg0_b) (.v k)),
  .set state1_a (.rnds2 (.v state1_a) (.v state0_a) (.v msg_a)),
  .set state1_b (.rnds2 (.v state1_b) (.v state0_b) (.v msg_b)),
  .set msg_a (.shuf32 (.v msg_a) 0x0E),
  .set msg_b (.shuf32 (.v msg_b) 0x0E),
  .set state0_a (.rnds2 (.v state0_a) (.v state1_a) (.v msg_a)),
  .set state0_b (.rnds2 (.v state0_b) (.v state1_b) (.v msg_b)),
  .set k (.tbl K 4),
  .set msg_a (.inp 0 16),
  .set msg_b (.inp 1 16),
  .set msg1_a (.shuf8 (.v msg_a) (.v MASK)),
  .set msg1_b (.shuf8 (.v msg_b) (.v MASK)),
  .set msg_a (.add (.v msg1_a) (.v k)),
  .set msg_b (.add (.v msg1_b) (.v k)),
  .set state1_a (.rnds2 (.v state1_a) (.v state0_a) (.v msg_a)),
  .set state1_b (.rnds2 (.v state1_b) (.v state0_b) (.v msg_b)),
  .set msg_a (.shuf32 (.v msg_a) 0x0E),
  .set msg_b (.shuf32 (.v msg_b) 0x0E),
  .set state0_a (.rnds2 (.v state0_a) (.v state1_a) (.v msg_a)),
  .set state0_b (.rnds2 (.v state0_b) (.v state1_b) (.v msg_b)),
  .set msg0_a (.msg1 (.v msg0_a) (.v msg1_a)),
  .set msg0_b (.msg1 (.v msg0_b) (.v msg1_b)),
  .set k (.tbl K 8),
  .set msg_a (.inp 0 32),
  .set msg_b (.inp 1 32),
  .set msg2_a (.shuf8 (.v msg_a) (.v MASK)),
  .set msg2_b (.shuf8 (.v msg_b) (.v MASK)),
  .set msg_a (.add (.v msg2_a) (.v k)),
  .set msg_b (.add (.v msg2_b) (.v k)),
  .set state1_a (.rnds2 (.v state1_a) (.v state0_a) (.v msg_a)),
  .set state1_b (.rnds2 (.v state1_b) (.v state0_b) (.v msg_b)),
  .set msg_a (.shuf32 (.v msg_a) 0x0E),
  .set msg_b (.shuf32 (.v msg_b) 0x0E),
  .set state0_a (.rnds2 (.v state0_a) (.v state1_a) (.v msg_a)),
  .set state0_b (.rnds2 (.v state0_b) (.v state1_b) (.v msg_b)),
  .set msg1_a (.msg1 (.v msg1_a) (.v msg2_a)),
  .set msg1_b (.msg1 (.v msg1_b) (.v msg2_b)),
  .set k (.tbl K 12),
  .set msg_a (.inp 0 48),
  .set msg_b (.inp 1 48),
  .set msg3_a (.shuf8 (.v msg_a) (.v MASK)),
  .set msg3_b (.shuf8 (.v msg_b) (.v MASK)),
  .set msg_a (.add (.v msg3_a) (.v k)),
  .set msg_b (.add (.v msg3_b) (.v k)),
  .set state1_a (.rnds2 (.v state1_a) (.v state0_a) (.v msg_a)),
  .set state1_b (.rnds2 (.v state1_b) (.v state0_b) (.v msg_b)),
  .set tmp_a (.alignr (.v msg3_a) (.v msg2_a) 4),
  .set tmp_b (.alignr (.v msg3_b) (.v msg2_b) 4),
  .set msg0_a (.add (.v msg0_a) (.v tmp_a)),
  .set msg0_b (.add (.v msg0_b) (.v tmp_b)),
  .set msg0_a (.msg2 (.v msg0_a) (.v msg3_a)),
  .set msg0_b (.msg2 (.v msg0_b) (.v msg3_b)),
  .set msg_a (.shuf32 (.v msg_a) 0x0E),
  .set msg_b (.shuf32 (.v msg_b) 0x0E),
  .set state0_a (.rnds2 (.v state0_a) (.v state1_a) (.v msg_a)),
  .set state0_b (.rnds2 (.v state0_b) (.v state1_b) (.v msg_b)),
  .set msg2_a (.msg1 (.v msg2_a) (.v msg3_a)),
  .set msg2_b (.msg1 (.v msg2_b) (.v msg3_b)),
  .set k (.tbl K 16),
  .set msg_a (.add (.v msg0_a) (.v k)),
  .set msg_b (.add (.v msg0_b) (.v k)),
  .set state1_a (.rnds2 (.v state1_a) (.v state0_a) (.v msg_a)),
  .set state1_b (.rnds2 (.v state1_b) (.v state0_b) (.v msg_b)),
  .set tmp_a (.alignr (.v msg0_a) (.v msg3_a) 4),
  .set tmp_b (.alignr (.v msg0_b) (.v msg3_b) 4),
  .set msg1_a (.add (.v msg1_a) (.v tmp_a)),
  .set msg1_b (.add (.v msg1_b) (.v tmp_b)),
  .set msg1_a (.msg2 (.v msg1_a) (.v msg0_a)),
  .set msg1_b (.msg2 (.v msg1_b) (.v msg0_b)),
  .set msg_a (.shuf32 (.v msg_a) 0x0E),
  .set msg_b (.shuf32 (.v msg_b) 0x0E),
  .set state0_a (.rnds2 (.v state0_a) (.v state1_a) (.v msg_a)),
  .set state0_b (.rnds2 (.v state0_b) (.v state1_b) (.v msg_b)),
  .set msg3_a (.msg1 (.v msg3_a) (.v msg0_a)),
  .set msg3_b (.msg1 (.v msg3_b) (.v msg0_b)),
  .set k (.tbl K 20),
  .set msg_a (.add (.v msg1_a) (.v k)),
  .set msg_b (.add (.v msg1_b) (.v k)),
  .set state1_a (.rnds2 (.v state1_a) (.v state0_a) (.v msg_a)),
  .set state1_b (.rnds2 (.v state1_b) (.v state0_b) (.v msg_b)),
  .set tmp_a (.alignr (.v msg1_a) (.v msg0_a) 4),
  .set tmp_b (.alignr (.v msg1_b) (.v msg0_b) 4),
  .set msg2_a (.add (.v msg2_a) (.v tmp_a)),
  .set msg2_b (.add (.v msg2_b) (.v tmp_b)),
  .set msg2_a (.msg2 (.v msg2_a) (.v msg1_a)),
  .set msg2_b (.msg2 (.v msg2_b) (.v msg1_b)),
  .set msg_a (.shuf32 (.v msg_a) 0x0E),
  .set msg_b (.shuf32 (.v msg_b) 0x0E),
  .set state0_a (.rnds2 (.v state0_a) (.v state1_a) (.v msg_a)),
  .set state0_b (.rnds2 (.v state0_b) (.v state1_b) (.v msg_b)),
  .set msg0_a (.msg1 (.v msg0_a) (.v msg1_a)),
  .set msg0_b (.msg1 (.v msg0_b) (.v msg1_b)),
  .set k (.tbl K 24),
  .set msg_a (.add (.v msg2_a) (.v k)),
  .set msg_b (.add (.v msg2_b) (.v k)),
  .set state1_a (.rnds2 (.v state1_a) (.v state0_a) (.v msg_a)),
  .set state1_b (.rnds2 (.v state1_b) (.v state0_b) (.v msg_b)),
  .set tmp_a (.alignr (.v msg2_a) (.v msg1_a) 4),
  .set tmp_b (.alignr (.v msg2_b) (.v msg1_b) 4),
  .set msg3_a (.add (.v msg3_a) (.v tmp_a)),
  .set msg3_b (.add (.v msg3_b) (.v tmp_b)),
  .set msg3_a (.msg2 (.v msg3_a) (.v msg2_a)),
  .set msg3_b (.msg2 (.v msg3_b) (.v msg2_b)),
  .set msg_a (.shuf32 (.v msg_a) 0x0E),
  .set msg_b (.shuf32 (.v msg_b) 0x0E),
  .set state0_a (.rnds2 (.v state0_a) (.v state1_a) (.v msg_a)),
  .set state0_b (.rnds2 (.v state0_b) (.v state1_b) (.v msg_b)),
  .set msg1_a (.msg1 (.v msg1_a) (.v msg2_a)),
  .set msg1_b (.msg1 (.v msg1_b) (.v msg2_b)),
  .set k (.tbl K 28),
  .set msg_a (.add (.v msg3_a) (.v k)),
  .set msg_b (.add (.v msg3_b) (.v k)),
  .set state1_a (.rnds2 (.v state1_a) (.v state0_a) (.v msg_a)),
  .set state1_b (.rnds2 (.v state1_b) (.v state0_b) (.v msg_b)),
  .set tmp_a (.alignr (.v msg3_a) (.v msg2_a) 4),
  .set tmp_b (.alignr (.v msg3_b) (.v msg2_b) 4),
  .set msg0_a (.add (.v msg0_a) (.v tmp_a)),
  .set msg0_b (.add (.v msg0_b) (.v tmp_b)),
  .set msg0_a (.msg2 (.v msg0_a) (.v msg3_a)),
  .set msg0_b (.msg2 (.v msg0_b) (.v msg3_b)),
  .set msg_a (.shuf32 (.v msg_a) 0x0E),
  .set msg_b (.shuf32 (.v msg_b) 0x0E),
  .set state0_a (.rnds2 (.v state0_a) (.v state1_a) (.v msg_a)),
  .set state0_b (.rnds2 (.v state0_b) (.v state1_b) (.v msg_b)),
  .set msg2_a (.msg1 (.v msg2_a) (.v msg3_a)),
  .set msg2_b (.msg1 (.v msg2_b) (.v msg3_b)),
  .set k (.tbl K 32),
  .set msg_a (.add (.v msg0_a) (.v k)),
  .set msg_b (.add (.v msg0_b) (.v k)),
  .set state1_a (.rnds2 (.v state1_a) (.v state0_a) (.v msg_a)),
  .set state1_b (.rnds2 (.v state1_b) (.v state0_b) (.v msg_b)),
  .set tmp_a (.alignr (.v msg0_a) (.v msg3_a) 4),
  .set tmp_b (.alignr (.v msg0_b) (.v msg3_b) 4),
  .set msg1_a (.add (.v msg1_a) (.v tmp_a)),
  .set msg1_b (.add (.v msg1_b) (.v tmp_b)),
  .set msg1_a (.msg2 (.v msg1_a) (.v msg0_a)),
  .set msg1_b (.msg2 (.v msg1_b) (.v msg0_b)),
  .set msg_a (.shuf32 (.v msg_a) 0x0E),
  .set msg_b (.shuf32 (.v msg_b) 0x0E),
  .set state0_a (.rnds2 (.v state0_a) (.v state1_a) (.v msg_a)),
  .set state0_b (.rnds2 (.v state0_b) (.v state1_b) (.v msg_b)),
  .set msg3_a (.msg1 (.v msg3_a) (.v msg0_a)),
  .set msg3_b (.msg1 (.v msg3_b) (.v msg0_b)),
  .set k (.tbl K 36),
  .set msg_a (.add (.v msg1_a) (.v k)),
  .set msg_b (.add (.v msg1_b) (.v k)),
  .set state1_a (.rnds2 (.v state1_a) (.v state0_a) (.v msg_a)),
  .set state1_b (.rnds2 (.v state1_b) (.v state0_b) (.v msg_b)),
  .set tmp_a (.alignr (.v msg1_a) (.v msg0_a) 4),
  .set tmp_b (.alignr (.v msg1_b) (.v msg0_b) 4),
  .set msg2_a (.add (.v msg2_a) (.v tmp_a)),
  .set msg2_b (.add (.v msg2_b) (.v tmp_b)),
  .set msg2_a (.msg2 (.v msg2_a) (.v msg1_a)),
  .set msg2_b (.msg2 (.v msg2_b) (.v msg1_b)),
  .set msg_a (.shuf32 (.v msg_a) 0x0E),
  .set msg_b (.shuf32 (.v msg_b) 0x0E),
  .set state0_a (.rnds2 (.v state0_a) (.v state1_a) (.v msg_a)),
  .set state0_b (.rnds2 (.v state0_b) (.v state1_b) (.v msg_b)),
  .set msg0_a (.msg1 (.v msg0_a) (.v msg1_a)),
  .set msg0_b (.msg1 (.v msg0_b) (.v msg1_b)),
  .set k (.tbl K 40),
  .set msg_a (.add (.v msg2_a) (.v k)),
  .set msg_b (.add (.v msg2_b) (.v k)),
  .set state1_a (.rnds2 (.v state1_a) (.v state0_a) (.v msg_a)),
  .set state1_b (.rnds2 (.v state1_b) (.v state0_b) (.v msg_b)),
  .set tmp_a (.alignr (.v msg2_a) (.v msg1_a) 4),
  .set tmp_b (.alignr (.v msg2_b) (.v msg1_b) 4),
  .set msg3_a (.add (.v msg3_a) (.v tmp_a)),
  .set msg3_b (.add (.v msg3_b) (.v tmp_b)),
  .set msg3_a (.msg2 (.v msg3_a) (.v msg2_a)),
  .set msg3_b (.msg2 (.v msg3_b) (.v msg2_b)),
  .set msg_a (.shuf32 (.v msg_a) 0x0E),
  .set msg_b (.shuf32 (.v msg_b) 0x0E),
  .set state0_a (.rnds2 (.v state0_a) (.v state1_a) (.v msg_a)),
  .set state0_b (.rnds2 (.v state0_b) (.v state1_b) (.v msg_b)),
  .set msg1_a (.msg1 (.v msg1_a) (.v msg2_a)),
  .set msg1_b (.msg1 (.v msg1_b) (.v msg2_b)),
  .set k (.tbl K 44),
  .set msg_a (.add (.v msg3_a) (.v k)),
  .set msg_b (.add (.v msg3_b) (.v k)),
  .set state1_a (.rnds2 (.v state1_a) (.v state0_a) (.v msg_a)),
  .set state1_b (.rnds2 (.v state1_b) (.v state0_b) (.v msg_b)),
  .set tmp_a (.alignr (.v msg3_a) (.v msg2_a) 4),
  .set tmp_b (.alignr (.v msg3_b) (.v msg2_b) 4),
  .set msg0_a (.add (.v msg0_a) (.v tmp_a)),
  .set msg0_b (.add (.v msg0_b) (.v tmp_b)),
  .set msg0_a (.msg2 (.v msg0_a) (.v msg3_a)),
  .set msg0_b (.msg2 (.v msg0_b) (.v msg3_b)),
  .set msg_a (.shuf32 (.v msg_a) 0x0E),
  .set msg_b (.shuf32 (.v msg_b) 0x0E),
  .set state0_a (.rnds2 (.v state0_a) (.v state1_a) (.v msg_a)),
  .set state0_b (.rnds2 (.v state0_b) (.v state1_b) (.v msg_b)),
  .set msg2_a (.msg1 (.v msg2_a) (.v msg3_a)),
  .set msg2_b (.msg1 (.v msg2_b) (.v msg3_b)),
  .set k (.tbl K 48),
  .set msg_a (.add (.v msg0_a) (.v k)),
  .set msg_b (.add (.v msg0_b) (.v k)),
  .set state1_a (.rnds2 (.v state1_a) (.v state0_a) (.v msg_a)),
  .set state1_b (.rnds2 (.v state1_b) (.v state0_b) (.v msg_b)),
  .set tmp_a (.alignr (.v msg0_a) (.v msg3_a) 4),
  .set tmp_b (.alignr (.v msg0_b) (.v msg3_b) 4),
  .set msg1_a (.add (.v msg1_a) (.v tmp_a)),
  .set msg1_b (.add (.v msg1_b) (.v tmp_b)),
  .set msg1_a (.msg2 (.v msg1_a) (.v msg0_a)),
  .set msg1_b (.msg2 (.v msg1_b) (.v msg0_b)),
  .set msg_a (.shuf32 (.v msg_a) 0x0E),
  .set msg_b (.shuf32 (.v msg_b) 0x0E),
  .set state0_a (.rnds2 (.v state0_a) (.v state1_a) (.v msg_a)),
  .set state0_b (.rnds2 (.v state0_b) (.v state1_b) (.v msg_b)),
  .set msg3_a (.msg1 (.v msg3_a) (.v msg0_a)),
  .set msg3_b (.msg1 (.v msg3_b) (.v msg0_b)),
  .set k (.tbl K 52),
  .set msg_a (.add (.v msg1_a) (.v k)),
  .set msg_b (.add (.v msg1_b) (.v k)),
  .set state1_a (.rnds2 (.v state1_a) (.v state0_a) (.v msg_a)),
  .set state1_b (.rnds2 (.v state1_b) (.v state0_b) (.v msg_b)),
  .set tmp_a (.alignr (.v msg1_a) (.v msg0_a) 4),
  .set tmp_b (.alignr (.v msg1_b) (.v msg0_b) 4),
  .set msg2_a (.add (.v msg2_a) (.v tmp_a)),
  .set msg2_b (.add (.v msg2_b) (.v tmp_b)),
  .set msg2_a (.msg2 (.v msg2_a) (.v msg1_a)),
  .set msg2_b (.msg2 (.v msg2_b) (.v msg1_b)),
  .set msg_a (.shuf32 (.v msg_a) 0x0E),
  .set msg_b (.shuf32 (.v msg_b) 0x0E),
  .set state0_a (.rnds2 (.v state0_a) (.v state1_a) (.v msg_a)),
  .set state0_b (.rnds2 (.v state0_b) (.v state1_b) (.v msg_b)),
  .set k (.tbl K 56),
  .set msg_a (.add (.v msg2_a) (.v k)),
  .set msg_b (.add (.v msg2_b) (.v k)),
  .set state1_a (.rnds2 (.v state1_a) (.v state0_a) (.v msg_a)),
  .set state1_b (.rnds2 (.v state1_b) (.v state0_b) (.v msg_b)),
  .set tmp_a (.alignr (.v msg2_a) (.v msg1_a) 4),
  .set tmp_b (.alignr (.v msg2_b) (.v msg1_b) 4),
  .set msg3_a (.add (.v msg3_a) (.v tmp_a)),
  .set msg3_b (.add (.v msg3_b) (.v tmp_b)),
  .set msg3_a (.msg2 (.v msg3_a) (.v msg2_a)),
  .set msg3_b (.msg2 (.v msg3_b) (.v msg2_b)),
  .set msg_a (.shuf32 (.v msg_a) 0x0E),
  .set msg_b (.shuf32 (.v msg_b) 0x0E),
  .set state0_a (.rnds2 (.v state0_a) (.v state1_a) (.v msg_a)),
  .set state0_b (.rnds2 (.v state0_b) (.v state1_b) (.v msg_b)),
  .set k (.tbl K 60),
  .set msg_a (.add (.v msg3_a) (.v k)),
  .set msg_b (.add (.v msg3_b) (.v k)),
  .set state1_a (.rnds2 (.v state1_a) (.v state0_a) (.v msg_a)),
  .set state1_b (.rnds2 (.v state1_b) (.v state0_b) (.v msg_b)),
  .set msg_a (.shuf32 (.v msg_a) 0x0E),
  .set msg_b (.shuf32 (.v msg_b) 0x0E),
  .set state0_a (.rnds2 (.v state0_a) (.v state1_a) (.v msg_a)),
  .set state0_b (.rnds2 (.v state0_b) (.v state1_b) (.v msg_b)),
  .set state0_a (.add (.v state0_a) (.v init0)),
  .set state0_b (.add (.v state0_b) (.v init0)),
  .set state1_a (.add (.v state1_a) (.v init1)),
  .set state1_b (.add (.v state1_b) (.v init1))]

/-- `sha256d_64_2way` (x86_shani.rs 654-805): transform 2. -/
def x86D2 : List Stmt := [
  .set abef_save_a (.v state0_a),
  .set abef_save_b (.v state0_b),
  .set cdgh_save_a (.v state1_a),
  .set cdgh_save_b (.v state1_b),
  .set msg_a (.tbl MIDS 0),
  .set state1_a (.rnds2 (.v state1_a) (.v state0_a) (.v msg_a)),
  .set state1_b (.rnds2 (.v state1_b) (.v state0_b) (.v msg_a)),
  .set msg_a (.shuf32 (.v msg_a) 0x0E),
  .set state0_a (.rnds2 (.v state0_a) (.v state1_a) (.v msg_a)),
  .set state0_b (.rnds2 (.v state0_b) (.v state1_b) (.v msg_a)),
  .set msg_a (.tbl MIDS 4),
  .set state1_a (.rnds2 (.v state1_a) (.v state0_a) (.v msg_a)),
  .set state1_b (.rnds2 (.v state1_b) (.v state0_b) (.v msg_a)),
  .set msg_a (.shuf32 (.v msg_a) 0x0E),
  .set state0_a (.rnds2 (.v state0_a) (.v state1_a) (.v msg_a)),
  .set state0_b (.rnds2 (.v state0_b) (.v state1_b) (.v msg_a)),
  .set msg_a (.tbl MIDS 8),
  .set state1_a (.rnds2 (.v state1_a) (.v state0_a) (.v msg_a)),
  .set state1_b (.rnds2 (.v state1_b) (.v state0_b) (.v msg_a)),
  .set msg_a (.shuf32 (.v msg_a) 0x0E),
  .set state0_a (.rnds2 (.v state0_a) (.v state1_a) (.v msg_a)),
  .set state0_b (.rnds2 (.v state0_b) (.v state1_b) (.v msg_a)),
  .set msg_a (.tbl MIDS 12),
  .set state1_a (.rnds2 (.v state1_a) (.v state0_a) (.v msg_a)),
  .set state1_b (.rnds2 (.v state1_b) (.v state0_b) (.v msg_a)),
  .set msg_a (.shuf32 (.v msg_a) 0x0E),
  .set state0_a (.rnds2 (.v state0_a) (.v state1_a) (.v msg_a)),
  .set state0_b (.rnds2 (.v state0_b) (.v state1_b) (.v msg_a)),
  .set msg_a (.tbl MIDS 16),
  .set state1_a (.rnds2 (.v state1_a) (.v state0_a) (.v msg_a)),
  .set state1_b (.rnds2 (.v state1_b) (.v state0_b) (.v msg_a)),
  .set msg_a (.shuf32 (.v msg_a) 0x0E),
  .set state0_a (.rnds2 (.v state0_a) (.v state1_a) (.v msg_a)),
  .set state0_b (.rnds2 (.v state0_b) (.v state1_b) (.v msg_a)),
  .set msg_a (.tbl MIDS 20),
  .set state1_a (.rnds2 (.v state1_a) (.v state0_a) (.v msg_a)),
  .set state1_b (.rnds2 (.v state1_b) (.v state0_b) (.v msg_a)),
  .set msg_a (.shuf32 (.v msg_a) 0x0E),
  .set state0_a (.rnds2 (.v state0_a) (.v state1_a) (.v msg_a)),
  .set state0_b (.rnds2 (.v state0_b) (.v state1_b) (.v msg_a)),
  .set msg_a (.tbl MIDS 24),
  .set state1_a (.rnds2 (.v state1_a) (.v state0_a) (.v msg_a)),
  .set state1_b (.rnds2 (.v state1_b) (.v state0_b) (.v msg_a)),
  .set msg_a (.shuf32 (.v msg_a) 0x0E),
  .set state0_a (.rnds2 (.v state0_a) (.v state1_a) (.v msg_a)),
  .set state0_b (.rnds2 (.v state0_b) (.v state1_b) (.v msg_a)),
  .set msg_a (.tbl MIDS 28),
  .set state1_a (.rnds2 (.v state1_a) (.v state0_a) (.v msg_a)),
  .set state1_b (.rnds2 (.v state1_b) (.v state0_b) (.v msg_a)),
  .set msg_a (.shuf32 (.v msg_a) 0x0E),
  .set state0_a (.rnds2 (.v state0_a) (.v state1_a) (.v msg_a)),
  .set state0_b (.rnds2 (.v state0_b) (.v state1_b) (.v msg_a)),
  .set msg_a (.tbl MIDS 32),
  .set state1_a (.rnds2 (.v state1_a) (.v state0_a) (.v msg_a)),
  .set state1_b (.rnds2 (.v state1_b) (.v state0_b) (.v msg_a)),
  .set msg_a (.shuf32 (.v msg_a) 0x0E),
  .set state0_a (.rnds2 (.v state0_a) (.v state1_a) (.v msg_a)),
  .set state0_b (.rnds2 (.v state0_b) (.v state1_b) (.v msg_a)),
  .set msg_a (.tbl MIDS 36),
  .set state1_a (.rnds2 (.v state1_a) (.v state0_a) (.v msg_a)),
  .set state1_b (.rnds2 (.v state1_b) (.v state0_b) (.v msg_a)),
  .set msg_a (.shuf32 (.v msg_a) 0x0E),
  .set state0_a (.rnds2 (.v state0_a) (.v state1_a) (.v msg_a)),
  .set state0_b (.rnds2 (.v state0_b) (.v state1_b) (.v msg_a)),
  .set msg_a (.tbl MIDS 40),
  .set state1_a (.rnds2 (.v state1_a) (.v state0_a) (.v msg_a)),
  .set state1_b (.rnds2 (.v state1_b) (.v state0_b) (.v msg_a)),
  .set msg_a (.shuf32 (.v msg_a) 0x0E),
  .set state0_a (.rnds2 (.v state0_a) (.v state1_a) (.v msg_a)),
  .set state0_b (.rnds2 (.v state0_b) (.v state1_b) (.v msg_a)),
  .set msg_a (.tbl MIDS 44),
  .set state1_a (.rnds2 (.v state1_a) (.v state0_a) (.v msg_a)),
  .set state1_b (.rnds2 (.v state1_b) (.v state0_b) (.v msg_a)),
  .set msg_a (.shuf32 (.v msg_a) 0x0E),
  .set state0_a (.rnds2 (.v state0_a) (.v state1_a) (.v msg_a)),
  .set state0_b (.rnds2 (.v state0_b) (.v state1_b) (.v msg_a)),
  .set msg_a (.tbl MIDS 48),
  .set state1_a (.rnds2 (.v state1_a) (.v state0_a) (.v msg_a)),
  .set state1_b (.rnds2 (.v state1_b) (.v state0_b) (.v msg_a)),
  .set msg_a (.shuf32 (.v msg_a) 0x0E),
  .set state0_a (.rnds2 (.v state0_a) (.v state1_a) (.v msg_a)),
  .set state0_b (.rnds2 (.v state0_b) (.v state1_b) (.v msg_a)),
  .set msg_a (.tbl MIDS 52),
  .set state1_a (.rnds2 (.v state1_a) (.v state0_a) (.v msg_a)),
  .set state1_b (.rnds2 (.v state1_b) (.v state0_b) (.v msg_a)),
  .set msg_a (.shuf32 (.v msg_a) 0x0E),
  .set state0_a (.rnds2 (.v state0_a) (.v state1_a) (.v msg_a)),
  .set state0_b (.rnds2 (.v state0_b) (.v state1_b) (.v msg_a)),
  .set msg_a (.tbl MIDS 56),
  .set state1_a (.rnds2 (.v state1_a) (.v state0_a) (.v msg_a)),
  .set state1_b (.rnds2 (.v state1_b) (.v state0_b) (.v msg_a)),
  .set msg_a (.shuf32 (.v msg_a) 0x0E),
  .set state0_a (.rnds2 (.v state0_a) (.v state1_a) (.v msg_a)),
  .set state0_b (.rnds2 (.v state0_b) (.v state1_b) (.v msg_a)),
  .set msg_a (.tbl MIDS 60),
  .set state1_a (.rnds2 (.v state1_a) (.v state0_a) (.v msg_a)),
  .set state1_b (.rnds2 (.v state1_b) (.v state0_b) (.v msg_a)),
  .set msg_a (.shuf32 (.v msg_a) 0x0E),
  .set state0_a (.rnds2 (.v state0_a) (.v state1_a) (.v msg_a)),
  .set state0_b (.rnds2 (.v state0_b) (.v state1_b) (.v msg_a)),
  .set state0_a (.add (.v state0_a) (.v abef_save_a)),
  .set state0_b (.add (.v state0_b) (.v abef_save_b)),
  .set state1_a (.add (.v state1_a) (.v cdgh_save_a)),
  .set state1_b (.add (.v state1_b) (.v cdgh_save_b)),
  .set tmp_a (.shuf32 (.v state0_a) 0x1B),
  .set tmp_b (.shuf32 (.v state0_b) 0x1B),
  .set state1_a (.shuf32 (.v state1_a) 0xB1),
  .set state1_b (.shuf32 (.v state1_b) 0xB1),
  .set msg0_a (.blend (.v tmp_a) (.v state1_a) 0xF0),
  .set msg0_b (.blend (.v tmp_b) (.v state1_b) 0xF0),
  .set msg1_a (.alignr (.v state1_a) (.v tmp_a) 8),
  .set msg1_b (.alignr (.v state1_b) (.v tmp_b) 8)]

/-- `sha256d_64_2way` (x86_shani.rs 806-1117): transform 3. -/
def x86D3 : List Stmt := [
  .set state0_a (.v init0),
  .set state0_b (.v init0),
  .set state1_a (.v init1),
  .set state1_b (.v init1),
  .set k (.tbl K 0),
  .set msg_a (.add (.v msg0_a) (.v k)),
  .set msg_b (.add (.v msg0_b) (.v k)),
  .set state1_a (.rnds2 (.v state1_a) (.v state0_a) (.v msg_a)),
  .set state1_b (.rnds2 (.v state1_b) (.v state0_b) (.v msg_b)),
  .set msg_a (.shuf32 (.v msg_a) 0x0E),
  .set msg_b (.shuf32 (.v msg_b) 0x0E),
  .set state0_a (.rnds2 (.v state0_a) (.v state1_a) (.v msg_a)),
  .set state0_b (.rnds2 (.v state0_b) (.v state1_b) (.v msg_b)),
  .set k (.tbl K 4),
  .set msg_a (.add (.v msg1_a) (.v k)),
  .set msg_b (.add (.v msg1_b) (.v k)),
  .set state1_a (.rnds2 (.v state1_a) (.v state0_a) (.v msg_a)),
  .set state1_b (.rnds2 (.v state1_b) (.v state0_b) (.v msg_b)),
  .set msg_a (.shuf32 (.v msg_a) 0x0E),
  .set msg_b (.shuf32 (.v msg_b) 0x0E),
  .set state0_a (.rnds2 (.v state0_a) (.v state1_a) (.v msg_a)),
  .set state0_b (.rnds2 (.v state0_b) (.v state1_b) (.v msg_b)),
  .set msg0_a (.msg1 (.v msg0_a) (.v msg1_a)),
  .set msg0_b (.msg1 (.v msg0_b) (.v msg1_b)),
  .set msg2_a (.tbl FINS 4),
  .set msg2_b (.v msg2_a),
  .set msg_a (.tbl FINS 0),
  .set state1_a (.rnds2 (.v state1_a) (.v state0_a) (.v msg_a)),
  .set state1_b (.rnds2 (.v state1_b) (.v state0_b) (.v msg_a)),
  .set msg_a (.shuf32 (.v msg_a) 0x0E),
  .set state0_a (.rnds2 (.v state0_a) (.v state1_a) (.v msg_a)),
  .set state0_b (.rnds2 (.v state0_b) (.v state1_b) (.v msg_a)),
  .set msg1_a (.msg1 (.v msg1_a) (.v msg2_a)),
  .set msg1_b (.msg1 (.v msg1_b) (.v msg2_b)),
  .set msg3_a (.tbl FINAL 4),
  .set msg3_b (.v msg3_a),
  .set msg_a (.tbl FINS 8),
  .set state1_a (.rnds2 (.v state1_a) (.v state0_a) (.v msg_a)),
  .set state1_b (.rnds2 (.v state1_b) (.v state0_b) (.v msg_a)),
  .set tmp_a (.alignr (.v msg3_a) (.v msg2_a) 4),
  .set tmp_b (.alignr (.v msg3_b) (.v msg2_b) 4),
  .set msg0_a (.add (.v msg0_a) (.v tmp_a)),
  .set msg0_b (.add (.v msg0_b) (.v tmp_b)),
  .set msg0_a (.msg2 (.v msg0_a) (.v msg3_a)),
  .set msg0_b (.msg2 (.v msg0_b) (.v msg3_b)),
  .set msg_a (.shuf32 (.v msg_a) 0x0E),
  .set state0_a (.rnds2 (.v state0_a) (.v state1_a) (.v msg_a)),
  .set state0_b (.rnds2 (.v state0_b) (.v state1_b) (.v msg_a)),
  .set msg2_a (.msg1 (.v msg2_a) (.v msg3_a)),
  .set msg2_b (.msg1 (.v msg2_b) (.v msg3_b)),
  .set k (.tbl K 16),
  .set msg_a (.add (.v msg0_a) (.v k)),
  .set msg_b (.add (.v msg0_b) (.v k)),
  .set state1_a (.rnds2 (.v state1_a) (.v state0_a) (.v msg_a)),
  .set state1_b (.rnds2 (.v state1_b) (.v state0_b) (.v msg_b)),
  .set tmp_a (.alignr (.v msg0_a) (.v msg3_a) 4),
  .set tmp_b (.alignr (.v msg0_b) (.v msg3_b) 4),
  .set msg1_a (.add (.v msg1_a) (.v tmp_a)),
  .set msg1_b (.add (.v msg1_b) (.v tmp_b)),
  .set msg1_a (.msg2 (.v msg1_a) (.v msg0_a)),
  .set msg1_b (.msg2 (.v msg1_b) (.v msg0_b)),
  .set msg_a (.shuf32 (.v msg_a) 0x0E),
  .set msg_b (.shuf32 (.v msg_b) 0x0E),
  .set state0_a (.rnds2 (.v state0_a) (.v state1_a) (.v msg_a)),
  .set state0_b (.rnds2 (.v state0_b) (.v state1_b) (.v msg_b)),
  .set msg3_a (.msg1 (.v msg3_a) (.v msg0_a)),
  .set msg3_b (.msg1 (.v msg3_b) (.v msg0_b)),
  .set k (.tbl K 20),
  .set msg_a (.add (.v msg1_a) (.v k)),
  .set msg_b (.add (.v msg1_b) (.v k)),
  .set state1_a (.rnds2 (.v state1_a) (.v state0_a) (.v msg_a)),
  .set state1_b (.rnds2 (.v state1_b) (.v state0_b) (.v msg_b)),
  .set tmp_a (.alignr (.v msg1_a) (.v msg0_a) 4),
  .set tmp_b (.alignr (.v msg1_b) (.v msg0_b) 4),
  .set msg2_a (.add (.v msg2_a) (.v tmp_a)),
  .set msg2_b (.add (.v msg2_b) (.v tmp_b)),
  .set msg2_a (.msg2 (.v msg2_a) (.v msg1_a)),
  .set msg2_b (.msg2 (.v msg2_b) (.v msg1_b)),
  .set msg_a (.shuf32 (.v msg_a) 0x0E),
  .set msg_b (.shuf32 (.v msg_b) 0x0E),
  .set state0_a (.rnds2 (.v state0_a) (.v state1_a) (.v msg_a)),
  .set state0_b (.rnds2 (.v state0_b) (.v state1_b) (.v msg_b)),
  .set msg0_a (.msg1 (.v msg0_a) (.v msg1_a)),
  .set msg0_b (.msg1 (.v msg0_b) (.v msg1_b)),
  .set k (.tbl K 24),
  .set msg_a (.add (.v msg2_a) (.v k)),
  .set msg_b (.add (.v msg2_b) (.v k)),
  .set state1_a (.rnds2 (.v state1_a) (.v state0_a) (.v msg_a)),
  .set state1_b (.rnds2 (.v state1_b) (.v state0_b) (.v msg_b)),
  .set tmp_a (.alignr (.v msg2_a) (.v msg1_a) 4),
  .set tmp_b (.alignr (.v msg2_b) (.v msg1_b) 4),
  .set msg3_a (.add (.v msg3_a) (.v tmp_a)),
  .set msg3_b (.add (.v msg3_b) (.v tmp_b)),
  .set msg3_a (.msg2 (.v msg3_a) (.v msg2_a)),
  .set msg3_b (.msg2 (.v msg3_b) (.v msg2_b)),
  .set msg_a (.shuf32 (.v msg_a) 0x0E),
  .set msg_b (.shuf32 (.v msg_b) 0x0E),
  .set state0_a (.rnds2 (.v state0_a) (.v state1_a) (.v msg_a)),
  .set state0_b (.rnds2 (.v state0_b) (.v state1_b) (.v msg_b)),
  .set msg1_a (.msg1 (.v msg1_a) (.v msg2_a)),
  .set msg1_b (.msg1 (.v msg1_b) (.v msg2_b)),
  .set k (.tbl K 28),
  .set msg_a (.add (.v msg3_a) (.v k)),
  .set msg_b (.add (.v msg3_b) (.v k)),
  .set state1_a (.rnds2 (.v state1_a) (.v state0_a) (.v msg_a)),
  .set state1_b (.rnds2 (.v state1_b) (.v state0_b) (.v msg_b)),
  .set tmp_a (.alignr (.v msg3_a) (.v msg2_a) 4),
  .set tmp_b (.alignr (.v msg3_b) (.v msg2_b) 4),
  .set msg0_a (.add (.v msg0_a) (.v tmp_a)),
  .set msg0_b (.add (.v msg0_b) (.v tmp_b)),
  .set msg0_a (.msg2 (.v msg0_a) (.v msg3_a)),
  .set msg0_b (.msg2 (.v msg0_b) (.v msg3_b)),
  .set msg_a (.shuf32 (.v msg_a) 0x0E),
  .set msg_b (.shuf32 (.v msg_b) 0x0E),
  .set state0_a (.rnds2 (.v state0_a) (.v state1_a) (.v msg_a)),
  .set state0_b (.rnds2 (.v state0_b) (.v state1_b) (.v msg_b)),
  .set msg2_a (.msg1 (.v msg2_a) (.v msg3_a)),
  .set msg2_b (.msg1 (.v msg2_b) (.v msg3_b)),
  .set k (.tbl K 32),
  .set msg_a (.add (.v msg0_a) (.v k)),
  .set msg_b (.add (.v msg0_b) (.v k)),
  .set state1_a (.rnds2 (.v state1_a) (.v state0_a) (.v msg_a)),
  .set state1_b (.rnds2 (.v state1_b) (.v state0_b) (.v msg_b)),
  .set tmp_a (.alignr (.v msg0_a) (.v msg3_a) 4),
  .set tmp_b (.alignr (.v msg0_b) (.v msg3_b) 4),
  .set msg1_a (.add (.v msg1_a) (.v tmp_a)),
  .set msg1_b (.add (.v msg1_b) (.v tmp_b)),
  .set msg1_a (.msg2 (.v msg1_a) (.v msg0_a)),
  .set msg1_b (.msg2 (.v msg1_b) (.v msg0_b)),
  .set msg_a (.shuf32 (.v msg_a) 0x0E),
  .set msg_b (.shuf32 (.v msg_b) 0x0E),
  .set state0_a (.rnds2 (.v state0_a) (.v state1_a) (.v msg_a)),
  .set state0_b (.rnds2 (.v state0_b) (.v state1_b) (.v msg_b)),
  .set msg3_a (.msg1 (.v msg3_a) (.v msg0_a)),
  .set msg3_b (.msg1 (.v msg3_b) (.v msg0_b)),
  .set k (.tbl K 36),
  .set msg_a (.add (.v msg1_a) (.v k)),
  .set msg_b (.add (.v msg1_b) (.v k)),
  .set state1_a (.rnds2 (.v state1_a) (.v state0_a) (.v msg_a)),
  .set state1_b (.rnds2 (.v state1_b) (.v state0_b) (.v msg_b)),
  .set tmp_a (.alignr (.v msg1_a) (.v msg0_a) 4),
  .set tmp_b (.alignr (.v msg1_b) (.v msg0_b) 4),
  .set msg2_a (.add (.v msg2_a) (.v tmp_a)),
  .set msg2_b (.add (.v msg2_b) (.v tmp_b)),
  .set msg2_a (.msg2 (.v msg2_a) (.v msg1_a)),
  .set msg2_b (.msg2 (.v msg2_b) (.v msg1_b)),
  .set msg_a (.shuf32 (.v msg_a) 0x0E),
  .set msg_b (.shuf32 (.v msg_b) 0x0E),
  .set state0_a (.rnds2 (.v state0_a) (.v state1_a) (.v msg_a)),
  .set state0_b (.rnds2 (.v state0_b) (.v state1_b) (.v msg_b)),
  .set msg0_a (.msg1 (.v msg0_a) (.v msg1_a)),
  .set msg0_b (.msg1 (.v msg0_b) (.v msg1_b)),
  .set k (.tbl K 40),
  .set msg_a (.add (.v msg2_a) (.v k)),
  .set msg_b (.add (.v msg2_b) (.v k)),
  .set state1_a (.rnds2 (.v state1_a) (.v state0_a) (.v msg_a)),
  .set state1_b (.rnds2 (.v state1_b) (.v state0_b) (.v msg_b)),
  .set tmp_a (.alignr (.v msg2_a) (.v msg1_a) 4),
  .set tmp_b (.alignr (.v msg2_b) (.v msg1_b) 4),
  .set msg3_a (.add (.v msg3_a) (.v tmp_a)),
  .set msg3_b (.add (.v msg3_b) (.v tmp_b)),
  .set msg3_a (.msg2 (.v msg3_a) (.v msg2_a)),
  .set msg3_b (.msg2 (.v msg3_b) (.v msg2_b)),
  .set msg_a (.shuf32 (.v msg_a) 0x0E),
  .set msg_b (.shuf32 (.v msg_b) 0x0E),
  .set state0_a (.rnds2 (.v state0_a) (.v state1_a) (.v msg_a)),
  .set state0_b (.rnds2 (.v state0_b) (.v state1_b) (.v msg_b)),
  .set msg1_a (.msg1 (.v msg1_a) (.v msg2_a)),
  .set msg1_b (.msg1 (.v msg1_b) (.v msg2_b)),
  .set k (.tbl K 44),
  .set msg_a (.add (.v msg3_a) (.v k)),
  .set msg_b (.add (.v msg3_b) (.v k)),
  .set state1_a (.rnds2 (.v state1_a) (.v state0_a) (.v msg_a)),
  .set state1_b (.rnds2 (.v state1_b) (.v state0_b) (.v msg_b)),
  .set tmp_a (.alignr (.v msg3_a) (.v msg2_a) 4),
  .set tmp_b (.alignr (.v msg3_b) (.v msg2_b) 4),
  .set msg0_a (.add (.v msg0_a) (.v tmp_a)),
  .set msg0_b (.add (.v msg0_b) (.v tmp_b)),
  .set msg0_a (.msg2 (.v msg0_a) (.v msg3_a)),
  .set msg0_b (.msg2 (.v msg0_b) (.v msg3_b)),
  .set msg_a (.shuf32 (.v msg_a) 0x0E),
  .set msg_b (.shuf32 (.v msg_b) 0x0E),
  .set state0_a (.rnds2 (.v state0_a) (.v state1_a) (.v msg_a)),
  .set state0_b (.rnds2 (.v state0_b) (.v state1_b) (.v msg_b)),
  .set msg2_a (.msg1 (.v msg2_a) (.v msg3_a)),
  .set msg2_b (.msg1 (.v msg2_b) (.v msg3_b)),
  .set k (.tbl K 48),
  .set msg_a (.add (.v msg0_a) (.v k)),
  .set msg_b (.add (.v msg0_b) (.v k)),
  .set state1_a (.rnds2 (.v state1_a) (.v state0_a) (.v msg_a)),
  .set state1_b (.rnds2 (.v state1_b) (.v state0_b) (.v msg_b)),
  .set tmp_a (.alignr (.v msg0_a) (.v msg3_a) 4),
  .set tmp_b (.alignr (.v msg0_b) (.v msg3_b) 4),
  .set msg1_a (.add (.v msg1_a) (.v tmp_a)),
  .set msg1_b (.add (.v msg1_b) (.v tmp_b)),
  .set msg1_a (.msg2 (.v msg1_a) (.v msg0_a)),
  .set msg1_b (.msg2 (.v msg1_b) (.v msg0_b)),
  .set msg_a (.shuf32 (.v msg_a) 0x0E),
  .set msg_b (.shuf32 (.v msg_b) 0x0E),
  .set state0_a (.rnds2 (.v state0_a) (.v state1_a) (.v msg_a)),
  .set state0_b (.rnds2 (.v state0_b) (.v state1_b) (.v msg_b)),
  .set msg3_a (.msg1 (.v msg3_a) (.v msg0_a)),
  .set msg3_b (.msg1 (.v msg3_b) (.v msg0_b)),
  .set k (.tbl K 52),
  .set msg_a (.add (.v msg1_a) (.v k)),
  .set msg_b (.add (.v msg1_b) (.v k)),
  .set state1_a (.rnds2 (.v state1_a) (.v state0_a) (.v msg_a)),
  .set state1_b (.rnds2 (.v state1_b) (.v state0_b) (.v msg_b)),
  .set tmp_a (.alignr (.v msg1_a) (.v msg0_a) 4),
  .set tmp_b (.alignr (.v msg1_b) (.v msg0_b) 4),
  .set msg2_a (.add (.v msg2_a) (.v tmp_a)),
  .set msg2_b (.add (.v msg2_b) (.v tmp_b)),
  .set msg2_a (.msg2 (.v msg2_a) (.v msg1_a)),
  .set msg2_b (.msg2 (.v msg2_b) (.v msg1_b)),
  .set msg_a (.shuf32 (.v msg_a) 0x0E),
  .set msg_b (.shuf32 (.v msg_b) 0x0E),
  .set state0_a (.rnds2 (.v state0_a) (.v state1_a) (.v msg_a)),
  .set state0_b (.rnds2 (.v state0_b) (.v state1_b) (.v msg_b)),
  .set k (.tbl K 56),
  .set msg_a (.add (.v msg2_a) (.v k)),
  .set msg_b (.add (.v msg2_b) (.v k)),
  .set state1_a (.rnds2 (.v state1_a) (.v state0_a) (.v msg_a)),
  .set state1_b (.rnds2 (.v state1_b) (.v state0_b) (.v msg_b)),
  .set tmp_a (.alignr (.v msg2_a) (.v msg1_a) 4),
  .set tmp_b (.alignr (.v msg2_b) (.v msg1_b) 4),
  .set msg3_a (.add (.v msg3_a) (.v tmp_a)),
  .set msg3_b (.add (.v msg3_b) (.v tmp_b)),
  .set msg3_a (.msg2 (.v msg3_a) (.v msg2_a)),
  .set msg3_b (.msg2 (.v msg3_b) (.v msg2_b)),
  .set msg_a (.shuf32 (.v msg_a) 0x0E),
  .set msg_b (.shuf32 (.v msg_b) 0x0E),
  .set state0_a (.rnds2 (.v state0_a) (.v state1_a) (.v msg_a)),
  .set state0_b (.rnds2 (.v state0_b) (.v state1_b) (.v msg_b)),
  .set k (.tbl K 60),
  .set msg_a (.add (.v msg3_a) (.v k)),
  .set msg_b (.add (.v msg3_b) (.v k)),
  .set state1_a (.rnds2 (.v state1_a) (.v state0_a) (.v msg_a)),
  .set state1_b (.rnds2 (.v state1_b) (.v state0_b) (.v msg_b)),
  .set msg_a (.shuf32 (.v msg_a) 0x0E),
  .set msg_b (.shuf32 (.v msg_b) 0x0E),
  .set state0_a (.rnds2 (.v state0_a) (.v state1_a) (.v msg_a)),
  .set state0_b (.rnds2 (.v state0_b) (.v state1_b) (.v msg_b)),
  .set state0_a (.add (.v state0_a) (.v init0)),
  .set state0_b (.add (.v state0_b) (.v init0)),
  .set state1_a (.add (.v state1_a) (.v init1)),
  .set state1_b (.add (.v state1_b) (.v init1)),
  .set tmp_a (.shuf32 (.v state0_a) 0x1B),
  .set tmp_b (.shuf32 (.v state0_b) 0x1B),
  .set state1_a (.shuf32 (.v state1_a) 0xB1),
  .set state1_b (.shuf32 (.v state1_b) 0xB1),
  .set state0_a (.blend (.v tmp_a) (.v state1_a) 0xF0),
  .set state0_b (.blend (.v tmp_b) (.v state1_b) 0xF0),
  .set state1_a (.alignr (.v state1_a) (.v tmp_a) 8),
  .set state1_b (.alignr (.v state1_b) (.v tmp_b) 8),
  .out 0 0 (.shuf8 (.v state0_a) (.v MASK)),
  .out 0 16 (.shuf8 (.v state1_a) (.v MASK)),
  .out 1 0 (.shuf8 (.v state0_b) (.v MASK)),
  .out 1 16 (.shuf8 (.v state1_b) (.v MASK))]

/-- `process_blocks` (arm_sha2.rs 18-56): before the loop. -/
def armLoad : List Stmt := [
  .set state0 (.st 0),
  .set state1 (.st 4)]

/-- `process_blocks` (arm_sha2.rs 59-199): the body of the loop. -/
def armBlock : List Stmt := [
  .set abcd_save (.v state0),
  .set efgh_save (.v state1),
  .set msg0 (.inp 0 0),
  .set msg1 (.inp 0 16),
  .set msg2 (.inp 0 32),
  .set msg3 (.inp 0 48),
  .set msg0 (.rev32 (.v msg0)),
  .set msg1 (.rev32 (.v msg1)),
  .set msg2 (.rev32 (.v msg2)),
  .set msg3 (.rev32 (.v msg3)),
  .set tmp0 (.add (.v msg0) (.tbl K 0)),
  .set msg0 (.su0 (.v msg0) (.v msg1)),
  .set tmp2 (.v state0),
  .set tmp1 (.add (.v msg1) (.tbl K 4)),
  .set state0 (.h (.v state0) (.v state1) (.v tmp0)),
  .set state1 (.h2 (.v state1) (.v tmp2) (.v tmp0)),
  .set msg0 (.su1 (.v msg0) (.v msg2) (.v msg3)),
  .set msg1 (.su0 (.v msg1) (.v msg2)),
  .set tmp2 (.v state0),
  .set tmp0 (.add (.v msg2) (.tbl K 8)),
  .set state0 (.h (.v state0) (.v state1) (.v tmp1)),
  .set state1 (.h2 (.v state1) (.v tmp2) (.v tmp1)),
  .set msg1 (.su1 (.v msg1) (.v msg3) (.v msg0)),
  .set msg2 (.su0 (.v msg2) (.v msg3)),
  .set tmp2 (.v state0),
  .set tmp1 (.add (.v msg3) (.tbl K 12)),
  .set state0 (.h (.v state0) (.v state1) (.v tmp0)),
  .set state1 (.h2 (.v state1) (.v tmp2) (.v tmp0)),
  .set msg2 (.su1 (.v msg2) (.v msg0) (.v msg1)),
  .set msg3 (.su0 (.v msg3) (.v msg0)),
  .set tmp2 (.v state0),
  .set tmp0 (.add (.v msg0) (.tbl K 16)),
  .set state0 (.h (.v state0) (.v state1) (.v tmp1)),
  .set state1 (.h2 (.v state1) (.v tmp2) (.v tmp1)),
  .set msg3 (.su1 (.v msg3) (.v msg1) (.v msg2)),
  .set msg0 (.su0 (.v msg0) (.v msg1)),
  .set tmp2 (.v state0),
  .set tmp1 (.add (.v msg1) (.tbl K 20)),
  .set state0 (.h (.v state0) (.v state1) (.v tmp0)),
  .set state1 (.h2 (.v state1) (.v tmp2) (.v tmp0)),
  .set msg0 (.su1 (.v msg0) (.v msg2) (.v msg3)),
  .set msg1 (.su0 (.v msg1) (.v msg2)),
  .set tmp2 (.v state0),
  .set tmp0 (.add (.v msg2) (.tbl K 24)),
  .set state0 (.h (.v state0) (.v state1) (.v tmp1)),
  .set state1 (.h2 (.v state1) (.v tmp2) (.v tmp1)),
  .set msg1 (.su1 (.v msg1) (.v msg3) (.v msg0)),
  .set msg2 (.su0 (.v msg2) (.v msg3)),
  .set tmp2 (.v state0),
  .set tmp1 (.add (.v msg3) (.tbl K 28)),
  .set state0 (.h (.v state0) (.v state1) (.v tmp0)),
  .set state1 (.h2 (.v state1) (.v tmp2) (.v tmp0)),
  .set msg2 (.su1 (.v msg2) (.v msg0) (.v msg1)),
  .set msg3 (.su0 (.v msg3) (.v msg0)),
  .set tmp2 (.v state0),
  .set tmp0 (.add (.v msg0) (.tbl K 32)),
  .set state0 (.h (.v state0) (.v state1) (.v tmp1)),
  .set state1 (.h2 (.v state1) (.v tmp2) (.v tmp1)),
  .set msg3 (.su1 (.v msg3) (.v msg1) (.v msg2)),
  .set msg0 (.su0 (.v msg0) (.v msg1)),
  .set tmp2 (.v state0),
  .set tmp1 (.add (.v msg1) (.tbl K 36)),
  .set state0 (.h (.v state0) (.v state1) (.v tmp0)),
  .set state1 (.h2 (.v state1) (.v tmp2) (.v tmp0)),
  .set msg0 (.su1 (.v msg0) (.v msg2) (.v msg3)),
  .set msg1 (.su0 (.v msg1) (.v msg2)),
  .set tmp2 (.v state0),
  .set tmp0 (.add (.v msg2) (.tbl K 40)),
  .set state0 (.h (.v state0) (.v state1) (.v tmp1)),
  .set state1 (.h2 (.v state1) (.v tmp2) (.v tmp1)),
  .set msg1 (.su1 (.v msg1) (.v msg3) (.v msg0)),
  .set msg2 (.su0 (.v msg2) (.v msg3)),
  .set tmp2 (.v state0),
  .set tmp1 (.add (.v msg3) (.tbl K 44)),
  .set state0 (.h (.v state0) (.v state1) (.v tmp0)),
  .set state1 (.h2 (.v state1) (.v tmp2) (.v tmp0)),
  .set msg2 (.su1 (.v msg2) (.v msg0) (.v msg1)),
  .set msg3 (.su0 (.v msg3) (.v msg0)),
  .set tmp2 (.v state0),
  .set tmp0 (.add (.v msg0) (.tbl K 48)),
  .set state0 (.h (.v state0) (.v state1) (.v tmp1)),
  .set state1 (.h2 (.v state1) (.v tmp2) (.v tmp1)),
  .set msg3 (.su1 (.v msg3) (.v msg1) (.v msg2)),
  .set tmp2 (.v state0),
  .set tmp1 (.add (.v msg1) (.tbl K 52)),
  .set state0 (.h (.v state0) (.v state1) (.v tmp0)),
  .set state1 (.h2 (.v state1) (.v tmp2) (.v tmp0)),
  .set tmp2 (.v state0),
  .set tmp0 (.add (.v msg2) (.tbl K 56)),
  .set state0 (.h (.v state0) (.v state1) (.v tmp1)),
  .set state1 (.h2 (.v state1) (.v tmp2) (.v tmp1)),
  .set tmp2 (.v state0),
  .set tmp1 (.add (.v msg3) (.tbl K 60)),
  .set state0 (.h (.v state0) (.v state1) (.v tmp0)),
  .set state1 (.h2 (.v state1) (.v tmp2) (.v tmp0)),
  .set tmp2 (.v state0),
  .set state0 (.h (.v state0) (.v state1) (.v tmp1)),
  .set state1 (.h2 (.v state1) (.v tmp2) (.v tmp1)),
  .set state0 (.add (.v state0) (.v abcd_save)),
  .set state1 (.add (.v state1) (.v efgh_save))]

/-- `process_blocks` (arm_sha2.rs 202-205): after the loop. -/
def armStore : List Stmt := [
  .stSt 0 (.v state0),
  .stSt 4 (.v state1)]

/-- `sha256d_64_2way` (arm_sha2.rs 211-542): transform 1. -/
def armD1 : List Stmt := [
  .set state0_a (.tbl INIT 0),
  .set state0_b (.v state0_a),
  .set state1_a (.tbl INIT 4),
  .set state1_b (.v state1_a),
  .set msg0_a (.inp 0 0),
  .set msg1_a (.inp 0 16),
  .set msg2_a (.inp 0 32),
  .set msg3_a (.inp 0 48),
  .set msg0_b (.inp 1 0),
  .set msg1_b (.inp 1 16),
  .set msg2_b (.inp 1 32),
  .set msg3_b (.inp 1 48),
  .set msg0_a (.rev32 (.v msg0_a)),
  .set msg1_a (.rev32 (.v msg1_a)),
  .set msg2_a (.rev32 (.v msg2_a)),
  .set msg3_a (.rev32 (.v msg3_a)),
  .set msg0_b (.rev32 (.v msg0_b)),
  .set msg1_b (.rev32 (.v msg1_b)),
  .set msg2_b (.rev32 (.v msg2_b)),
  .set msg3_b (.rev32 (.v msg3_b)),
  .set tmp (.tbl K 0),
  .set tmp0_a (.add (.v msg0_a) (.v tmp)),
  .set tmp0_b (.add (.v msg0_b) (.v tmp)),
  .set tmp2_a (.v state0_a),
  .set tmp2_b (.v state0_b),
  .set msg0_a (.su0 (.v msg0_a) (.v msg1_a)),
  .set msg0_b (.su0 (.v msg0_b) (.v msg1_b)),
  .set state0_a (.h (.v state0_a) (.v state1_a) (.v tmp0_a)),
  .set state0_b (.h (.v state0_b) (.v state1_b) (.v tmp0_b)),
  .set state1_a (.h2 (.v state1_a) (.v tmp2_a) (.v tmp0_a)),
  .set state1_b (.h2 (.v state1_b) (.v tmp2_b) (.v tmp0_b)),
  .set msg0_a (.su1 (.v msg0_a) (.v msg2_a) (.v msg3_a)),
  .set msg0_b (.su1 (.v msg0_b) (.v msg2_b) (.v msg3_b)),
  .set tmp (.tbl K 4),
  .set tmp0_a (.add (.v msg1_a) (.v tmp)),
  .set tmp0_b (.add (.v msg1_b) (.v tmp)),
  .set tmp2_a (.v state0_a),
  .set tmp2_b (.v state0_b),
  .set msg1_a (.su0 (.v msg1_a) (.v msg2_a)),
  .set msg1_b (.su0 (.v msg1_b) (.v msg2_b)),
  .set state0_a (.h (.v state0_a) (.v state1_a) (.v tmp0_a)),
  .set state0_b (.h (.v state0_b) (.v state1_b) (.v tmp0_b)),
  .set state1_a (.h2 (.v state1_a) (.v tmp2_a) (.v tmp0_a)),
  .set state1_b (.h2 (.v state1_b) (.v tmp2_b) (.v tmp0_b)),
  .set msg1_a (.su1 (.v msg1_a) (.v msg3_a) (.v msg0_a)),
  .set msg1_b (.su1 (.v msg1_b) (.v msg3_b) (.v msg0_b)),
  .set tmp (.tbl K 8),
  .set tmp0_a (.add (.v msg2_a) (.v tmp)),
  .set tmp0_b (.add (.v msg2_b) (.v tmp)),
  .set tmp2_a (.v state0_a),
  .set tmp2_b (.v state0_b),
  .set msg2_a (.su0 (.v msg2_a) (.v msg3_a)),
  .set msg2_b (.su0 (.v msg2_b) (.v msg3_b)),
  .set state0_a (.h (.v state0_a) (.v state1_a) (.v tmp0_a)),
  .set state0_b (.h (.v state0_b) (.v state1_b) (.v tmp0_b)),
  .set state1_a (.h2 (.v state1_a) (.v tmp2_a) (.v tmp0_a)),
  .set state1_b (.h2 (.v state1_b) (.v tmp2_b) (.v tmp0_b)),
  .set msg2_a (.su1 (.v msg2_a) (.v msg0_a) (.v msg1_a)),
  .set msg2_b (.su1 (.v msg2_b) (.v msg0_b) (.v msg1_b)),
  .set tmp (.tbl K 12),
  .set tmp0_a (.add (.v msg3_a) (.v tmp)),
  .set tmp0_b (.add (.v msg3_b) (.v tmp)),
  .set tmp2_a (.v state0_a),
  .set tmp2_b (.v state0_b),
  .set msg3_a (.su0 (.v msg3_a) (.v msg0_a)),
  .set msg3_b (.su0 (.v msg3_b) (.v msg0_b)),
  .set state0_a (.h (.v state0_a) (.v state1_a) (.v tmp0_a)),
  .set state0_b (.h (.v state0_b) (.v state1_b) (.v tmp0_b)),
  .set state1_a (.h2 (.v state1_a) (.v tmp2_a) (.v tmp0_a)),
  .set state1_b (.h2 (.v state1_b) (.v tmp2_b) (.v tmp0_b)),
  .set msg3_a (.su1 (.v msg3_a) (.v msg1_a) (.v msg2_a)),
  .set msg3_b (.su1 (.v msg3_b) (.v msg1_b) (.v msg2_b)),
  .set tmp (.tbl K 16),
  .set tmp0_a (.add (.v msg0_a) (.v tmp)),
  .set tmp0_b (.add (.v msg0_b) (.v tmp)),
  .set tmp2_a (.v state0_a),
  .set tmp2_b (.v state0_b),
  .set msg0_a (.su0 (.v msg0_a) (.v msg1_a)),
  .set msg0_b (.su0 (.v msg0_b) (.v msg1_b)),
  .set state0_a (.h (.v state0_a) (.v state1_a) (.v tmp0_a)),
  .set state0_b (.h (.v state0_b) (.v state1_b) (.v tmp0_b)),
  .set state1_a (.h2 (.v state1_a) (.v tmp2_a) (.v tmp0_a)),
  .set state1_b (.h2 (.v state1_b) (.v tmp2_b) (.v tmp0_b)),
  .set msg0_a (.su1 (.v msg0_a) (.v msg2_a) (.v msg3_a)),
  .set msg0_b (.su1 (.v msg0_b) (.v msg2_b) (.v msg3_b)),
  .set tmp (.tbl K 20),
  .set tmp0_a (.add (.v msg1_a) (.v tmp)),
  .set tmp0_b (.add (.v msg1_b) (.v tmp)),
  .set tmp2_a (.v state0_a),
  .set tmp2_b (.v state0_b),
  .set msg1_a (.su0 (.v msg1_a) (.v msg2_a)),
  .set msg1_b (.su0 (.v msg1_b) (.v msg2_b)),
  .set state0_a (.h (.v state0_a) (.v state1_a) (.v tmp0_a)),
  .set state0_b (.h (.v state0_b) (.v state1_b) (.v tmp0_b)),
  .set state1_a (.h2 (.v state1_a) (.v tmp2_a) (.v tmp0_a)),
  .set state1_b (.h2 (.v state1_b) (.v tmp2_b) (.v tmp0_b)),
  .set msg1_a (.su1 (.v msg1_a) (.v msg3_a) (.v msg0_a)),
  .set msg1_b (.su1 (.v msg1_b) (.v msg3_b) (.v msg0_b)),
  .set tmp (.tbl K 24),
  .set tmp0_a (.add (.v msg2_a) (.v tmp)),
  .set tmp0_b (.add (.v msg2_b) (.v tmp)),
  .set tmp2_a (.v state0_a),
  .set tmp2_b (.v state0_b),
  .set msg2_a (.su0 (.v msg2_a) (.v msg3_a)),
  .set msg2_b (.su0 (.v msg2_b) (.v msg3_b)),
  .set state0_a (.h (.v state0_a) (.v state1_a) (.v tmp0_a)),
  .set state0_b (.h (.v state0_b) (.v state1_b) (.v tmp0_b)),
  .set state1_a (.h2 (.v state1_a) (.v tmp2_a) (.v tmp0_a)),
  .set state1_b (.h2 (.v state1_b) (.v tmp2_b) (.v tmp0_b)),
  .set msg2_a (.su1 (.v msg2_a) (.v msg0_a) (.v msg1_a)),
  .set msg2_b (.su1 (.v msg2_b) (.v msg0_b) (.v msg1_b)),
  .set tmp (.tbl K 28),
  .set tmp0_a (.add (.v msg3_a) (.v tmp)),
  .set tmp0_b (.add (.v msg3_b) (.v tmp)),
  .set tmp2_a (.v state0_a),
  .set tmp2_b (.v state0_b),
  .set msg3_a (.su0 (.v msg3_a) (.v msg0_a)),
  .set msg3_b (.su0 (.v msg3_b) (.v msg0_b)),
  .set state0_a (.h (.v state0_a) (.v state1_a) (.v tmp0_a)),
  .set state0_b (.h (.v state0_b) (.v state1_b) (.v tmp0_b)),
  .set state1_a (.h2 (.v state1_a) (.v tmp2_a) (.v tmp0_a)),
  .set state1_b (.h2 (.v state1_b) (.v tmp2_b) (.v tmp0_b)),
  .set msg3_a (.su1 (.v msg3_a) (.v msg1_a) (.v msg2_a)),
  .set msg3_b (.su1 (.v msg3_b) (.v msg1_b) (.v msg2_b)),
  .set tmp (.tbl K 32),
  .set tmp0_a (.add (.v msg0_a) (.v tmp)),
  .set tmp0_b (.add (.v msg0_b) (.v tmp)),
  .set tmp2_a (.v state0_a),
  .set tmp2_b (.v state0_b),
  .set msg0_a (.su0 (.v msg0_a) (.v msg1_a)),
  .set msg0_b (.su0 (.v msg0_b) (.v msg1_b)),
  .set state0_a (.h (.v state0_a) (.v state1_a) (.v tmp0_a)),
  .set state0_b (.h (.v state0_b) (.v state1_b) (.v tmp0_b)),
  .set state1_a (.h2 (.v state1_a) (.v tmp2_a) (.v tmp0_a)),
  .set state1_b (.h2 (.v state1_b) (.v tmp2_b) (.v tmp0_b)),
  .set msg0_a (.su1 (.v msg0_a) (.v msg2_a) (.v msg3_a)),
  .set msg0_b (.su1 (.v msg0_b) (.v msg2_b) (.v msg3_b)),
  .set tmp (.tbl K 36),
  .set tmp0_a (.add (.v msg1_a) (.v tmp)),
  .set tmp0_b (.add (.v msg1_b) (.v tmp)),
  .set tmp2_a (.v state0_a),
  .set tmp2_b (.v state0_b),
  .set msg1_a (.su0 (.v msg1_a) (.v msg2_a)),
  .set msg1_b (.su0 (.v msg1_b) (.v msg2_b)),
  .set state0_a (.h (.v state0_a) (.v state1_a) (.v tmp0_a)),
  .set state0_b (.h (.v state0_b) (.v state1_b) (.v tmp0_b)),
  .set state1_a (.h2 (.v state1_a) (.v tmp2_a) (.v tmp0_a)),
  .set state1_b (.h2 (.v state1_b) (.v tmp2_b) (.v tmp0_b)),
  .set msg1_a (.su1 (.v msg1_a) (.v msg3_a) (.v msg0_a)),
  .set msg1_b (.su1 (.v msg1_b) (.v msg3_b) (.v msg0_b)),
  .set tmp (.tbl K 40),
  .set tmp0_a (.add (.v msg2_a) (.v tmp)),
  .set tmp0_b (.add (.v msg2_b) (.v tmp)),
  .set tmp2_a (.v state0_a),
  .set tmp2_b (.v state0_b),
  .set msg2_a (.su0 (.v msg2_a) (.v msg3_a)),
  .set msg2_b (.su0 (.v msg2_b) (.v msg3_b)),
  .set state0_a (.h (.v state0_a) (.v state1_a) (.v tmp0_a)),
  .set state0_b (.h (.v state0_b) (.v state1_b) (.v tmp0_b)),
  .set state1_a (.h2 (.v state1_a) (.v tmp2_a) (.v tmp0_a)),
  .set state1_b (.h2 (.v state1_b) (.v tmp2_b) (.v tmp0_b)),
  .set msg2_a (.su1 (.v msg2_a) (.v msg0_a) (.v msg1_a)),
  .set msg2_b (.su1 (.v msg2_b) (.v msg0_b) (.v msg1_b)),
  .set tmp (.tbl K 44),
  .set tmp0_a (.add (.v msg3_a) (.v tmp)),
  .set tmp0_b (.add (.v msg3_b) (.v tmp)),
  .set tmp2_a (.v state0_a),
  .set tmp2_b (.v state0_b),
  .set msg3_a (.su0 (.v msg3_a) (.v msg0_a)),
  .set msg3_b (.su0 (.v msg3_b) (.v msg0_b)),
  .set state0_a (.h (.v state0_a) (.v state1_a) (.v tmp0_a)),
  .set state0_b (.h (.v state0_b) (.v state1_b) (.v tmp0_b)),
  .set state1_a (.h2 (.v state1_a) (.v tmp2_a) (.v tmp0_a)),
  .set state1_b (.h2 (.v state1_b) (.v tmp2_b) (.v tmp0_b)),
  .set msg3_a (.su1 (.v msg3_a) (.v msg1_a) (.v msg2_a)),
  .set msg3_b (.su1 (.v msg3_b) (.v msg1_b) (.v msg2_b)),
  .set tmp (.tbl K 48),
  .set tmp0_a (.add (.v msg0_a) (.v tmp)),
  .set tmp0_b (.add (.v msg0_b) (.v tmp)),
  .set tmp2_a (.v state0_a),
  .set tmp2_b (.v state0_b),
  .set state0_a (.h (.v state0_a) (.v state1_a) (.v tmp0_a)),
  .set state0_b (.h (.v state0_b) (.v state1_b) (.v tmp0_b)),
  .set state1_a (.h2 (.v state1_a) (.v tmp2_a) (.v tmp0_a)),
  .set state1_b (.h2 (.v state1_b) (.v tmp2_b) (.v tmp0_b)),
  .set tmp (.tbl K 52),
  .set tmp0_a (.add (.v msg1_a) (.v tmp)),
  .set tmp0_b (.add (.v msg1_b) (.v tmp)),
  .set tmp2_a (.v state0_a),
  .set tmp2_b (.v state0_b),
  .set state0_a (.h (.v state0_a) (.v state1_a) (.v tmp0_a)),
  .set state0_b (.h (.v state0_b) (.v state1_b) (.v tmp0_b)),
  .set state1_a (.h2 (.v state1_a) (.v tmp2_a) (.v tmp0_a)),
  .set state1_b (.h2 (.v state1_b) (.v tmp2_b) (.v tmp0_b)),
  .set tmp (.tbl K 56),
  .set tmp0_a (.add (.v msg2_a) (.v tmp)),
  .set tmp0_b (.add (.v msg2_b) (.v tmp)),
  .set tmp2_a (.v state0_a),
  .set tmp2_b (.v state0_b),
  .set state0_a (.h (.v state0_a) (.v state1_a) (.v tmp0_a)),
  .set state0_b (.h (.v state0_b) (.v state1_b) (.v tmp0_b)),
  .set state1_a (.h2 (.v state1_a) (.v tmp2_a) (.v tmp0_a)),
  .set state1_b (.h2 (.v state1_b) (.v tmp2_b) (.v tmp0_b)),
  .set tmp (.tbl K 60),
  .set tmp0_a (.add (.v msg3_a) (.v tmp)),
  .set tmp0_b (.add (.v msg3_b) (.v tmp)),
  .set tmp2_a (.v state0_a),
  .set tmp2_b (.v state0_b),
  .set state0_a (.h (.v state0_a) (.v state1_a) (.v tmp0_a)),
  .set state0_b (.h (.v state0_b) (.v state1_b) (.v tmp0_b)),
  .set state1_a (.h2 (.v state1_a) (.v tmp2_a) (.v tmp0_a)),
  .set state1_b (.h2 (.v state1_b) (.v tmp2_b) (.v tmp0_b)),
  .set tmp (.tbl INIT 0),
  .set state0_a (.add (.v state0_a) (.v tmp)),
  .set state0_b (.add (.v state0_b) (.v tmp)),
  .set tmp (.tbl INIT 4),
  .set state1_a (.add (.v state1_a) (.v tmp)),
  .set state1_b (.add (.v state1_b) (.v tmp))]

/-- `sha256d_64_2way` (arm_sha2.rs 543-700): transform 2. -/
def armD2 : List Stmt := [
  .set abcd_save_a (.v state0_a),
  .set abcd_save_b (.v state0_b),
  .set efgh_save_a (.v state1_a),
  .set efgh_save_b (.v state1_b),
  .set tmp (.tbl MIDS 0),
  .set tmp2_a (.v state0_a),
  .set tmp2_b (.v state0_b),
  .set state0_a (.h (.v state0_a) (.v state1_a) (.v tmp)),
  .set state0_b (.h (.v state0_b) (.v state1_b) (.v tmp)),
  .set state1_a (.h2 (.v state1_a) (.v tmp2_a) (.v tmp)),
  .set state1_b (.h2 (.v state1_b) (.v tmp2_b) (.v tmp)),
  .set tmp (.tbl MIDS 4),
  .set tmp2_a (.v state0_a),
  .set tmp2_b (.v state0_b),
  .set state0_a (.h (.v state0_a) (.v state1_a) (.v tmp)),
  .set state0_b (.h (.v state0_b) (.v state1_b) (.v tmp)),
  .set state1_a (.h2 (.v state1_a) (.v tmp2_a) (.v tmp)),
  .set state1_b (.h2 (.v state1_b) (.v tmp2_b) (.v tmp)),
  .set tmp (.tbl MIDS 8),
  .set tmp2_a (.v state0_a),
  .set tmp2_b (.v state0_b),
  .set state0_a (.h (.v state0_a) (.v state1_a) (.v tmp)),
  .set state0_b (.h (.v state0_b) (.v state1_b) (.v tmp)),
  .set state1_a (.h2 (.v state1_a) (.v tmp2_a) (.v tmp)),
  .set state1_b (.h2 (.v state1_b) (.v tmp2_b) (.v tmp)),
  .set tmp (.tbl MIDS 12),
  .set tmp2_a (.v state0_a),
  .set tmp2_b (.v state0_b),
  .set state0_a (.h (.v state0_a) (.v state1_a) (.v tmp)),
  .set state0_b (.h (.v state0_b) (.v state1_b) (.v tmp)),
  .set state1_a (.h2 (.v state1_a) (.v tmp2_a) (.v tmp)),
  .set state1_b (.h2 (.v state1_b) (.v tmp2_b) (.v tmp)),
  .set tmp (.tbl MIDS 16),
  .set tmp2_a (.v state0_a),
  .set tmp2_b (.v state0_b),
  .set state0_a (.h (.v state0_a) (.v state1_a) (.v tmp)),
  .set state0_b (.h (.v state0_b) (.v state1_b) (.v tmp)),
  .set state1_a (.h2 (.v state1_a) (.v tmp2_a) (.v tmp)),
  .set state1_b (.h2 (.v state1_b) (.v tmp2_b) (.v tmp)),
  .set tmp (.tbl MIDS 20),
  .set tmp2_a (.v state0_a),
  .set tmp2_b (.v state0_b),
  .set state0_a (.h (.v state0_a) (.v state1_a) (.v tmp)),
  .set state0_b (.h (.v state0_b) (.v state1_b) (.v tmp)),
  .set state1_a (.h2 (.v state1_a) (.v tmp2_a) (.v tmp)),
  .set state1_b (.h2 (.v state1_b) (.v tmp2_b) (.v tmp)),
  .set tmp (.tbl MIDS 24),
  .set tmp2_a (.v state0_a),
  .set tmp2_b (.v state0_b),
  .set state0_a (.h (.v state0_a) (.v state1_a) (.v tmp)),
  .set state0_b (.h (.v state0_b) (.v state1_b) (.v tmp)),
  .set state1_a (.h2 (.v state1_a) (.v tmp2_a) (.v tmp)),
  .set state1_b (.h2 (.v state1_b) (.v tmp2_b) (.v tmp)),
  .set tmp (.tbl MIDS 28),
  .set tmp2_a (.v state0_a),
  .set tmp2_b (.v state0_b),
  .set state0_a (.h (.v state0_a) (.v state1_a) (.v tmp)),
  .set state0_b (.h (.v state0_b) (.v state1_b) (.v tmp)),
  .set state1_a (.h2 (.v state1_a) (.v tmp2_a) (.v tmp)),
  .set state1_b (.h2 (.v state1_b) (.v tmp2_b) (.v tmp)),
  .set tmp (.tbl MIDS 32),
  .set tmp2_a (.v state0_a),
  .set tmp2_b (.v state0_b),
  .set state0_a (.h (.v state0_a) (.v state1_a) (.v tmp)),
  .set state0_b (.h (.v state0_b) (.v state1_b) (.v tmp)),
  .set state1_a (.h2 (.v state1_a) (.v tmp2_a) (.v tmp)),
  .set state1_b (.h2 (.v state1_b) (.v tmp2_b) (.v tmp)),
  .set tmp (.tbl MIDS 36),
  .set tmp2_a (.v state0_a),
  .set tmp2_b (.v state0_b),
  .set state0_a (.h (.v state0_a) (.v state1_a) (.v tmp)),
  .set state0_b (.h (.v state0_b) (.v state1_b) (.v tmp)),
  .set state1_a (.h2 (.v state1_a) (.v tmp2_a) (.v tmp)),
  .set state1_b (.h2 (.v state1_b) (.v tmp2_b) (.v tmp)),
  .set tmp (.tbl MIDS 40),
  .set tmp2_a (.v state0_a),
  .set tmp2_b (.v state0_b),
  .set state0_a (.h (.v state0_a) (.v state1_a) (.v tmp)),
  .set state0_b (.h (.v state0_b) (.v state1_b) (.v tmp)),
  .set state1_a (.h2 (.v state1_a) (.v tmp2_a) (.v tmp)),
  .set state1_b (.h2 (.v state1_b) (.v tmp2_b) (.v tmp)),
  .set tmp (.tbl MIDS 44),
  .set tmp2_a (.v state0_a),
  .set tmp2_b (.v state0_b),
  .set state0_a (.h (.v state0_a) (.v state1_a) (.v tmp)),
  .set state0_b (.h (.v state0_b) (.v state1_b) (.v tmp)),
  .set state1_a (.h2 (.v state1_a) (.v tmp2_a) (.v tmp)),
  .set state1_b (.h2 (.v state1_b) (.v tmp2_b) (.v tmp)),
  .set tmp (.tbl MIDS 48),
  .set tmp2_a (.v state0_a),
  .set tmp2_b (.v state0_b),
  .set state0_a (.h (.v state0_a) (.v state1_a) (.v tmp)),
  .set state0_b (.h (.v state0_b) (.v state1_b) (.v tmp)),
  .set state1_a (.h2 (.v state1_a) (.v tmp2_a) (.v tmp)),
  .set state1_b (.h2 (.v state1_b) (.v tmp2_b) (.v tmp)),
  .set tmp (.tbl MIDS 52),
  .set tmp2_a (.v state0_a),
  .set tmp2_b (.v state0_b),
  .set state0_a (.h (.v state0_a) (.v state1_a) (.v tmp)),
  .set state0_b (.h (.v state0_b) (.v state1_b) (.v tmp)),
  .set state1_a (.h2 (.v state1_a) (.v tmp2_a) (.v tmp)),
  .set state1_b (.h2 (.v state1_b) (.v tmp2_b) (.v tmp)),
  .set tmp (.tbl MIDS 56),
  .set tmp2_a (.v state0_a),
  .set tmp2_b (.v state0_b),
  .set state0_a (.h (.v state0_a) (.v state1_a) (.v tmp)),
  .set state0_b (.h (.v state0_b) (.v state1_b) (.v tmp)),
  .set state1_a (.h2 (.v state1_a) (.v tmp2_a) (.v tmp)),
  .set state1_b (.h2 (.v state1_b) (.v tmp2_b) (.v tmp)),
  .set tmp (.tbl MIDS 60),
  .set tmp2_a (.v state0_a),
  .set tmp2_b (.v state0_b),
  .set state0_a (.h (.v state0_a) (.v state1_a) (.v tmp)),
  .set state0_b (.h (.v state0_b) (.v state1_b) (.v tmp)),
  .set state1_a (.h2 (.v state1_a) (.v tmp2_a) (.v tmp)),
  .set state1_b (.h2 (.v state1_b) (.v tmp2_b) (.v tmp)),
  .set state0_a (.add (.v state0_a) (.v abcd_save_a)),
  .set state0_b (.add (.v state0_b) (.v abcd_save_b)),
  .set state1_a (.add (.v state1_a) (.v efgh_save_a)),
  .set state1_b (.add (.v state1_b) (.v efgh_save_b))]

/-- `sha256d_64_2way` (arm_sha2.rs 701-950): transform 3. -/
def armD3 : List Stmt := [
  .set msg0_a (.v state0_a),
  .set msg0_b (.v state0_b),
  .set msg1_a (.v state1_a),
  .set msg1_b (.v state1_b),
  .set msg2_a (.tbl FINAL 0),
  .set msg2_b (.v msg2_a),
  .set msg3_a (.tbl FINAL 4),
  .set msg3_b (.v msg3_a),
  .set state0_a (.tbl INIT 0),
  .set state0_b (.v state0_a),
  .set state1_a (.tbl INIT 4),
  .set state1_b (.v state1_a),
  .set tmp (.tbl K 0),
  .set tmp0_a (.add (.v msg0_a) (.v tmp)),
  .set tmp0_b (.add (.v msg0_b) (.v tmp)),
  .set tmp2_a (.v state0_a),
  .set tmp2_b (.v state0_b),
  .set msg0_a (.su0 (.v msg0_a) (.v msg1_a)),
  .set msg0_b (.su0 (.v msg0_b) (.v msg1_b)),
  .set state0_a (.h (.v state0_a) (.v state1_a) (.v tmp0_a)),
  .set state0_b (.h (.v state0_b) (.v state1_b) (.v tmp0_b)),
  .set state1_a (.h2 (.v state1_a) (.v tmp2_a) (.v tmp0_a)),
  .set state1_b (.h2 (.v state1_b) (.v tmp2_b) (.v tmp0_b)),
  .set msg0_a (.su1 (.v msg0_a) (.v msg2_a) (.v msg3_a)),
  .set msg0_b (.su1 (.v msg0_b) (.v msg2_b) (.v msg3_b)),
  .set tmp (.tbl K 4),
  .set tmp0_a (.add (.v msg1_a) (.v tmp)),
  .set tmp0_b (.add (.v msg1_b) (.v tmp)),
  .set tmp2_a (.v state0_a),
  .set tmp2_b (.v state0_b),
  .set msg1_a (.su0 (.v msg1_a) (.v msg2_a)),
  .set msg1_b (.su0 (.v msg1_b) (.v msg2_b)),
  .set state0_a (.h (.v state0_a) (.v state1_a) (.v tmp0_a)),
  .set state0_b (.h (.v state0_b) (.v state1_b) (.v tmp0_b)),
  .set state1_a (.h2 (.v state1_a) (.v tmp2_a) (.v tmp0_a)),
  .set state1_b (.h2 (.v state1_b) (.v tmp2_b) (.v tmp0_b)),
  .set msg1_a (.su1 (.v msg1_a) (.v msg3_a) (.v msg0_a)),
  .set msg1_b (.su1 (.v msg1_b) (.v msg3_b) (.v msg0_b)),
  .set tmp (.tbl FINS 0),
  .set tmp2_a (.v state0_a),
  .set tmp2_b (.v state0_b),
  .set msg2_a (.tbl FINS 4),
  .set msg2_b (.v msg2_a),
  .set state0_a (.h (.v state0_a) (.v state1_a) (.v tmp)),
  .set state0_b (.h (.v state0_b) (.v state1_b) (.v tmp)),
  .set state1_a (.h2 (.v state1_a) (.v tmp2_a) (.v tmp)),
  .set state1_b (.h2 (.v state1_b) (.v tmp2_b) (.v tmp)),
  .set msg2_a (.su1 (.v msg2_a) (.v msg0_a) (.v msg1_a)),
  .set msg2_b (.su1 (.v msg2_b) (.v msg0_b) (.v msg1_b)),
  .set tmp (.tbl FINS 8),
  .set tmp2_a (.v state0_a),
  .set tmp2_b (.v state0_b),
  .set msg3_a (.su0 (.v msg3_a) (.v msg0_a)),
  .set msg3_b (.su0 (.v msg3_b) (.v msg0_b)),
  .set state0_a (.h (.v state0_a) (.v state1_a) (.v tmp)),
  .set state0_b (.h (.v state0_b) (.v state1_b) (.v tmp)),
  .set state1_a (.h2 (.v state1_a) (.v tmp2_a) (.v tmp)),
  .set state1_b (.h2 (.v state1_b) (.v tmp2_b) (.v tmp)),
  .set msg3_a (.su1 (.v msg3_a) (.v msg1_a) (.v msg2_a)),
  .set msg3_b (.su1 (.v msg3_b) (.v msg1_b) (.v msg2_b)),
  .set tmp (.tbl K 16),
  .set tmp0_a (.add (.v msg0_a) (.v tmp)),
  .set tmp0_b (.add (.v msg0_b) (.v tmp)),
  .set tmp2_a (.v state0_a),
  .set tmp2_b (.v state0_b),
  .set msg0_a (.su0 (.v msg0_a) (.v msg1_a)),
  .set msg0_b (.su0 (.v msg0_b) (.v msg1_b)),
  .set state0_a (.h (.v state0_a) (.v state1_a) (.v tmp0_a)),
  .set state0_b (.h (.v state0_b) (.v state1_b) (.v tmp0_b)),
  .set state1_a (.h2 (.v state1_a) (.v tmp2_a) (.v tmp0_a)),
  .set state1_b (.h2 (.v state1_b) (.v tmp2_b) (.v tmp0_b)),
  .set msg0_a (.su1 (.v msg0_a) (.v msg2_a) (.v msg3_a)),
  .set msg0_b (.su1 (.v msg0_b) (.v msg2_b) (.v msg3_b)),
  .set tmp (.tbl K 20),
  .set tmp0_a (.add (.v msg1_a) (.v tmp)),
  .set tmp0_b (.add (.v msg1_b) (.v tmp)),
  .set tmp2_a (.v state0_a),
  .set tmp2_b (.v state0_b),
  .set msg1_a (.su0 (.v msg1_a) (.v msg2_a)),
  .set msg1_b (.su0 (.v msg1_b) (.v msg2_b)),
  .set state0_a (.h (.v state0_a) (.v state1_a) (.v tmp0_a)),
  .set state0_b (.h (.v state0_b) (.v state1_b) (.v tmp0_b)),
  .set state1_a (.h2 (.v state1_a) (.v tmp2_a) (.v tmp0_a)),
  .set state1_b (.h2 (.v state1_b) (.v tmp2_b) (.v tmp0_b)),
  .set msg1_a (.su1 (.v msg1_a) (.v msg3_a) (.v msg0_a)),
  .set msg1_b (.su1 (.v msg1_b) (.v msg3_b) (.v msg0_b)),
  .set tmp (.tbl K 24),
  .set tmp0_a (.add (.v msg2_a) (.v tmp)),
  .set tmp0_b (.add (.v msg2_b) (.v tmp)),
  .set tmp2_a (.v state0_a),
  .set tmp2_b (.v state0_b),
  .set msg2_a (.su0 (.v msg2_a) (.v msg3_a)),
  .set msg2_b (.su0 (.v msg2_b) (.v msg3_b)),
  .set state0_a (.h (.v state0_a) (.v state1_a) (.v tmp0_a)),
  .set state0_b (.h (.v state0_b) (.v state1_b) (.v tmp0_b)),
  .set state1_a (.h2 (.v state1_a) (.v tmp2_a) (.v tmp0_a)),
  .set state1_b (.h2 (.v state1_b) (.v tmp2_b) (.v tmp0_b)),
  .set msg2_a (.su1 (.v msg2_a) (.v msg0_a) (.v msg1_a)),
  .set msg2_b (.su1 (.v msg2_b) (.v msg0_b) (.v msg1_b)),
  .set tmp (.tbl K 28),
  .set tmp0_a (.add (.v msg3_a) (.v tmp)),
  .set tmp0_b (.add (.v msg3_b) (.v tmp)),
  .set tmp2_a (.v state0_a),
  .set tmp2_b (.v state0_b),
  .set msg3_a (.su0 (.v msg3_a) (.v msg0_a)),
  .set msg3_b (.su0 (.v msg3_b) (.v msg0_b)),
  .set state0_a (.h (.v state0_a) (.v state1_a) (.v tmp0_a)),
  .set state0_b (.h (.v state0_b) (.v state1_b) (.v tmp0_b)),
  .set state1_a (.h2 (.v state1_a) (.v tmp2_a) (.v tmp0_a)),
  .set state1_b (.h2 (.v state1_b) (.v tmp2_b) (.v tmp0_b)),
  .set msg3_a (.su1 (.v msg3_a) (.v msg1_a) (.v msg2_a)),
  .set msg3_b (.su1 (.v msg3_b) (.v msg1_b) (.v msg2_b)),
  .set tmp (.tbl K 32),
  .set tmp0_a (.add (.v msg0_a) (.v tmp)),
  .set tmp0_b (.add (.v msg0_b) (.v tmp)),
  .set tmp2_a (.v state0_a),
  .set tmp2_b (.v state0_b),
  .set msg0_a (.su0 (.v msg0_a) (.v msg1_a)),
  .set msg0_b (.su0 (.v msg0_b) (.v msg1_b)),
  .set state0_a (.h (.v state0_a) (.v state1_a) (.v tmp0_a)),
  .set state0_b (.h (.v state0_b) (.v state1_b) (.v tmp0_b)),
  .set state1_a (.h2 (.v state1_a) (.v tmp2_a) (.v tmp0_a)),
  .set state1_b (.h2 (.v state1_b) (.v tmp2_b) (.v tmp0_b)),
  .set msg0_a (.su1 (.v msg0_a) (.v msg2_a) (.v msg3_a)),
  .set msg0_b (.su1 (.v msg0_b) (.v msg2_b) (.v msg3_b)),
  .set tmp (.tbl K 36),
  .set tmp0_a (.add (.v msg1_a) (.v tmp)),
  .set tmp0_b (.add (.v msg1_b) (.v tmp)),
  .set tmp2_a (.v state0_a),
  .set tmp2_b (.v state0_b),
  .set msg1_a (.su0 (.v msg1_a) (.v msg2_a)),
  .set msg1_b (.su0 (.v msg1_b) (.v msg2_b)),
  .set state0_a (.h (.v state0_a) (.v state1_a) (.v tmp0_a)),
  .set state0_b (.h (.v state0_b) (.v state1_b) (.v tmp0_b)),
  .set state1_a (.h2 (.v state1_a) (.v tmp2_a) (.v tmp0_a)),
  .set state1_b (.h2 (.v state1_b) (.v tmp2_b) (.v tmp0_b)),
  .set msg1_a (.su1 (.v msg1_a) (.v msg3_a) (.v msg0_a)),
  .set msg1_b (.su1 (.v msg1_b) (.v msg3_b) (.v msg0_b)),
  .set tmp (.tbl K 40),
  .set tmp0_a (.add (.v msg2_a) (.v tmp)),
  .set tmp0_b (.add (.v msg2_b) (.v tmp)),
  .set tmp2_a (.v state0_a),
  .set tmp2_b (.v state0_b),
  .set msg2_a (.su0 (.v msg2_a) (.v msg3_a)),
  .set msg2_b (.su0 (.v msg2_b) (.v msg3_b)),
  .set state0_a (.h (.v state0_a) (.v state1_a) (.v tmp0_a)),
  .set state0_b (.h (.v state0_b) (.v state1_b) (.v tmp0_b)),
  .set state1_a (.h2 (.v state1_a) (.v tmp2_a) (.v tmp0_a)),
  .set state1_b (.h2 (.v state1_b) (.v tmp2_b) (.v tmp0_b)),
  .set msg2_a (.su1 (.v msg2_a) (.v msg0_a) (.v msg1_a)),
  .set msg2_b (.su1 (.v msg2_b) (.v msg0_b) (.v msg1_b)),
  .set tmp (.tbl K 44),
  .set tmp0_a (.add (.v msg3_a) (.v tmp)),
  .set tmp0_b (.add (.v msg3_b) (.v tmp)),
  .set tmp2_a (.v state0_a),
  .set tmp2_b (.v state0_b),
  .set msg3_a (.su0 (.v msg3_a) (.v msg0_a)),
  .set msg3_b (.su0 (.v msg3_b) (.v msg0_b)),
  .set state0_a (.h (.v state0_a) (.v state1_a) (.v tmp0_a)),
  .set state0_b (.h (.v state0_b) (.v state1_b) (.v tmp0_b)),
  .set state1_a (.h2 (.v state1_a) (.v tmp2_a) (.v tmp0_a)),
  .set state1_b (.h2 (.v state1_b) (.v tmp2_b) (.v tmp0_b)),
  .set msg3_a (.su1 (.v msg3_a) (.v msg1_a) (.v msg2_a)),
  .set msg3_b (.su1 (.v msg3_b) (.v msg1_b) (.v msg2_b)),
  .set tmp (.tbl K 48),
  .set tmp0_a (.add (.v msg0_a) (.v tmp)),
  .set tmp0_b (.add (.v msg0_b) (.v tmp)),
  .set tmp2_a (.v state0_a),
  .set tmp2_b (.v state0_b),
  .set state0_a (.h (.v state0_a) (.v state1_a) (.v tmp0_a)),
  .set state0_b (.h (.v state0_b) (.v state1_b) (.v tmp0_b)),
  .set state1_a (.h2 (.v state1_a) (.v tmp2_a) (.v tmp0_a)),
  .set state1_b (.h2 (.v state1_b) (.v tmp2_b) (.v tmp0_b)),
  .set tmp (.tbl K 52),
  .set tmp0_a (.add (.v msg1_a) (.v tmp)),
  .set tmp0_b (.add (.v msg1_b) (.v tmp)),
  .set tmp2_a (.v state0_a),
  .set tmp2_b (.v state0_b),
  .set state0_a (.h (.v state0_a) (.v state1_a) (.v tmp0_a)),
  .set state0_b (.h (.v state0_b) (.v state1_b) (.v tmp0_b)),
  .set state1_a (.h2 (.v state1_a) (.v tmp2_a) (.v tmp0_a)),
  .set state1_b (.h2 (.v state1_b) (.v tmp2_b) (.v tmp0_b)),
  .set tmp (.tbl K 56),
  .set tmp0_a (.add (.v msg2_a) (.v tmp)),
  .set tmp0_b (.add (.v msg2_b) (.v tmp)),
  .set tmp2_a (.v state0_a),
  .set tmp2_b (.v state0_b),
  .set state0_a (.h (.v state0_a) (.v state1_a) (.v tmp0_a)),
  .set state0_b (.h (.v state0_b) (.v state1_b) (.v tmp0_b)),
  .set state1_a (.h2 (.v state1_a) (.v tmp2_a) (.v tmp0_a)),
  .set state1_b (.h2 (.v state1_b) (.v tmp2_b) (.v tmp0_b)),
  .set tmp (.tbl K 60),
  .set tmp0_a (.add (.v msg3_a) (.v tmp)),
  .set tmp0_b (.add (.v msg3_b) (.v tmp)),
  .set tmp2_a (.v state0_a),
  .set tmp2_b (.v state0_b),
  .set state0_a (.h (.v state0_a) (.v state1_a) (.v tmp0_a)),
  .set state0_b (.h (.v state0_b) (.v state1_b) (.v tmp0_b)),
  .set state1_a (.h2 (.v state1_a) (.v tmp2_a) (.v tmp0_a)),
  .set state1_b (.h2 (.v state1_b) (.v tmp2_b) (.v tmp0_b)),
  .set tmp (.tbl INIT 0),
  .set state0_a (.add (.v state0_a) (.v tmp)),
  .set state0_b (.add (.v state0_b) (.v tmp)),
  .set tmp (.tbl INIT 4),
  .set state1_a (.add (.v state1_a) (.v tmp)),
  .set state1_b (.add (.v state1_b) (.v tmp)),
  .out 0 0 (.rev32 (.v state0_a)),
  .out 0 16 (.rev32 (.v state1_a)),
  .out 1 0 (.rev32 (.v state0_b)),
  .out 1 16 (.rev32 (.v state1_b))]

/-- The 16 bytes of a vector. -/
def vecBytes (v : Lanes) : Bytes := ((List.range 4).map fun l => leBytes 4 (v l).toNat).flatten
/-- Output `i` after the stores. -/
def output (stores : List (Dst × Lanes)) (i : Nat) (buf : Bytes) : Bytes :=
  stores.foldl (fun b s => match s.1 with
    | .out k off => if k = i then b.take off ++ vecBytes s.2 ++ b.drop (off + 16) else b
    | .st _ => b) buf
/-- The state after the stores. -/
def stateOf (stores : List (Dst × Lanes)) (st : St 32) : St 32 :=
  stores.foldl (fun t s => match s.1 with
    | .out _ _ => t
    | .st off => (((t.set off (s.2 0)).set (off + 1) (s.2 1)).set (off + 2) (s.2 2)).set (off + 3) (s.2 3)) st

/-- The variables before they are assigned: nothing reads them. -/
def Mach.new : Mach := ⟨fun _ => Simd.K 0, []⟩

/-- The loop of `process_blocks` (x86_shani.rs 54-264, arm_sha2.rs 57-200); `block_offset` grows by 64 until it reaches the length,
which is a multiple of 64. -/
def blockLoop (body : List Stmt) (st : St 32) (blocks : Bytes) : Nat → Nat → Mach → Mach
  | 0, _, s => s
  | fuel + 1, off, s =>
    if off < blocks.length then
      blockLoop body st blocks fuel (off + 64) (runAll ⟨fun _ => blocks.drop off, st⟩ body s)
    else s

/-- `process_blocks` from its three parts. -/
def processBlocks (load body store : List Stmt) (st : St 32) (blocks : Bytes) : St 32 :=
  let m : Mem := ⟨fun _ => blocks, st⟩
  let s := blockLoop body st blocks blocks.length 0 (runAll m load Mach.new)
  stateOf (runAll m store s).stores st

/-- `x86_shani::process_blocks` (x86_shani.rs 22-277). -/
def x86ProcessBlocks (st : St 32) (blocks : Bytes) : St 32 := processBlocks x86Load x86Block x86Store st blocks
/-- `arm_sha2::process_blocks` (arm_sha2.rs 17-206). -/
def armProcessBlocks (st : St 32) (blocks : Bytes) : St 32 := processBlocks armLoad armBlock armStore st blocks

/-- The two outputs of a `sha256d_64_2way`, which start as the caller's buffers. -/
def twoWay (prog : List Stmt) (out0 out1 x y : Bytes) : Bytes × Bytes :=
  let m : Mem := ⟨fun i => if i = 0 then x else y, ⟨0, 0, 0, 0, 0, 0, 0, 0⟩⟩
  let s := runAll m prog Mach.new
  (output s.stores 0 out0, output s.stores 1 out1)

/-- `x86_shani::sha256d_64_2way` (x86_shani.rs 281-1118). -/
def x86Sha256d64 : Bytes → Bytes → Bytes → Bytes → Bytes × Bytes := twoWay (x86D1 ++ x86D2 ++ x86D3)
/-- `arm_sha2::sha256d_64_2way` (arm_sha2.rs 210-951). -/
def armSha256d64 : Bytes → Bytes → Bytes → Bytes → Bytes × Bytes := twoWay (armD1 ++ armD2 ++ armD3)

end ShaNi
end Btc
