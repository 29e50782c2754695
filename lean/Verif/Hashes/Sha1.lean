import Verif.Hashes.Engine
/-!
# SHA-1 (`hashes/src/sha1/`)
-/
namespace Btc
namespace Hashes
namespace Sha1

/-- `[u32; 5]`. -/
structure S5 where
  s0 : BitVec 32
  s1 : BitVec 32
  s2 : BitVec 32
  s3 : BitVec 32
  s4 : BitVec 32
  deriving DecidableEq

def S5.get (s : S5) : Nat → BitVec 32
  | 0 => s.s0 | 1 => s.s1 | 2 => s.s2 | 3 => s.s3 | _ => s.s4
def S5.set (s : S5) (i : Nat) (v : BitVec 32) : S5 :=
  match i with
  | 0 => { s with s0 := v } | 1 => { s with s1 := v } | 2 => { s with s2 := v } | 3 => { s with s3 := v } | _ => { s with s4 := v }
def S5.toList (s : S5) : List (BitVec 32) := [s.s0, s.s1, s.s2, s.s3, s.s4]

/-- `w[i] = (w[i - 3] ^ w[i - 8] ^ w[i - 14] ^ w[i - 16]).rotate_left(1)` for `n` values of `i` from `w.length` on
(sha1/crypto.rs 20-22); the array is modelled as growing. -/
def extend : Nat → List (BitVec 32) → List (BitVec 32)
  | 0, w => w
  | n + 1, w =>
    let i := w.length
    extend n (w ++ [(w.getD (i - 3) 0 ^^^ w.getD (i - 8) 0 ^^^ w.getD (i - 14) 0 ^^^ w.getD (i - 16) 0).rotateLeft 1])

/-- The body of the loop over `w` (sha1/crypto.rs 30-49). -/
def step (s : S5) (iw : BitVec 32 × Nat) : S5 :=
  let a := s.s0; let b := s.s1; let c := s.s2; let d := s.s3; let e := s.s4
  let (f, k) :=
    if iw.2 ≤ 19 then ((b &&& c) ||| (~~~b &&& d), (0x5a827999 : BitVec 32))
    else if iw.2 ≤ 39 then (b ^^^ c ^^^ d, 0x6ed9eba1)
    else if iw.2 ≤ 59 then ((b &&& c) ||| (b &&& d) ||| (c &&& d), 0x8f1bbcdc)
    else (b ^^^ c ^^^ d, 0xca62c1d6)
  let newA := a.rotateLeft 5 + f + e + k + iw.1
  ⟨newA, a, b.rotateLeft 30, c, d⟩

/-- One turn of the loop of `process_blocks` (sha1/crypto.rs 15-55). -/
def comp (h : S5) (block : Bytes) : S5 :=
  let w := (List.range 16).map fun i => BitVec.ofNat 32 (beNat ((block.drop (4 * i)).take 4))
  let w := extend 64 w
  let s := w.zipIdx.foldl step h
  ⟨h.s0 + s.s0, h.s1 + s.s1, h.s2 + s.s2, h.s3 + s.s3, h.s4 + s.s4⟩

/-- `HashEngine` and `from_engine` (sha1/mod.rs 23-39, 54-69). -/
def new : Eng S5 := Eng.new 64 ⟨0x67452301, 0xefcdab89, 0x98badcfe, 0x10325476, 0xc3d2e1f0⟩
def input (e : Eng S5) (x : Bytes) : Eng S5 := e.input 64 comp x
def finish (e : Eng S5) : Bytes := ((e.finish 64 8 (beBytes 8) comp).toList.map fun w => beBytes 4 w.toNat).flatten

end Sha1
end Hashes
end Btc
