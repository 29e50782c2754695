import Verif.Hashes.Sha1
/-!
# RIPEMD-160 (`hashes/src/ripemd160/`)
-/
namespace Btc
namespace Hashes
namespace Ripemd
open Sha1 (S5)

/-- One line of the argument of `process_block!`: `h_ordering`, `data_index`, `roll_shift`. -/
structure Call where
  a : Nat
  b : Nat
  c : Nat
  d : Nat
  e : Nat
  data : Nat
  shift : Nat
  deriving DecidableEq

/-- crypto.rs 149-164. -/
def left1 : List Call := [
  ⟨0, 1, 2, 3, 4, 0, 11⟩, ⟨4, 0, 1, 2, 3, 1, 14⟩, ⟨3, 4, 0, 1, 2, 2, 15⟩, ⟨2, 3, 4, 0, 1, 3, 12⟩,
  ⟨1, 2, 3, 4, 0, 4, 5⟩, ⟨0, 1, 2, 3, 4, 5, 8⟩, ⟨4, 0, 1, 2, 3, 6, 7⟩, ⟨3, 4, 0, 1, 2, 7, 9⟩,
  ⟨2, 3, 4, 0, 1, 8, 11⟩, ⟨1, 2, 3, 4, 0, 9, 13⟩, ⟨0, 1, 2, 3, 4, 10, 14⟩, ⟨4, 0, 1, 2, 3, 11, 15⟩,
  ⟨3, 4, 0, 1, 2, 12, 6⟩, ⟨2, 3, 4, 0, 1, 13, 7⟩, ⟨1, 2, 3, 4, 0, 14, 9⟩, ⟨0, 1, 2, 3, 4, 15, 8⟩]
/-- crypto.rs 167-182. -/
def left2 : List Call := [
  ⟨4, 0, 1, 2, 3, 7, 7⟩, ⟨3, 4, 0, 1, 2, 4, 6⟩, ⟨2, 3, 4, 0, 1, 13, 8⟩, ⟨1, 2, 3, 4, 0, 1, 13⟩,
  ⟨0, 1, 2, 3, 4, 10, 11⟩, ⟨4, 0, 1, 2, 3, 6, 9⟩, ⟨3, 4, 0, 1, 2, 15, 7⟩, ⟨2, 3, 4, 0, 1, 3, 15⟩,
  ⟨1, 2, 3, 4, 0, 12, 7⟩, ⟨0, 1, 2, 3, 4, 0, 12⟩, ⟨4, 0, 1, 2, 3, 9, 15⟩, ⟨3, 4, 0, 1, 2, 5, 9⟩,
  ⟨2, 3, 4, 0, 1, 2, 11⟩, ⟨1, 2, 3, 4, 0, 14, 7⟩, ⟨0, 1, 2, 3, 4, 11, 13⟩, ⟨4, 0, 1, 2, 3, 8, 12⟩]
/-- crypto.rs 185-200. -/
def left3 : List Call := [
  ⟨3, 4, 0, 1, 2, 3, 11⟩, ⟨2, 3, 4, 0, 1, 10, 13⟩, ⟨1, 2, 3, 4, 0, 14, 6⟩, ⟨0, 1, 2, 3, 4, 4, 7⟩,
  ⟨4, 0, 1, 2, 3, 9, 14⟩, ⟨3, 4, 0, 1, 2, 15, 9⟩, ⟨2, 3, 4, 0, 1, 8, 13⟩, ⟨1, 2, 3, 4, 0, 1, 15⟩,
  ⟨0, 1, 2, 3, 4, 2, 14⟩, ⟨4, 0, 1, 2, 3, 7, 8⟩, ⟨3, 4, 0, 1, 2, 0, 13⟩, ⟨2, 3, 4, 0, 1, 6, 6⟩,
  ⟨1, 2, 3, 4, 0, 13, 5⟩, ⟨0, 1, 2, 3, 4, 11, 12⟩, ⟨4, 0, 1, 2, 3, 5, 7⟩, ⟨3, 4, 0, 1, 2, 12, 5⟩]
/-- crypto.rs 203-218. -/
def left4 : List Call := [
  ⟨2, 3, 4, 0, 1, 1, 11⟩, ⟨1, 2, 3, 4, 0, 9, 12⟩, ⟨0, 1, 2, 3, 4, 11, 14⟩, ⟨4, 0, 1, 2, 3, 10, 15⟩,
  ⟨3, 4, 0, 1, 2, 0, 14⟩, ⟨2, 3, 4, 0, 1, 8, 15⟩, ⟨1, 2, 3, 4, 0, 12, 9⟩, ⟨0, 1, 2, 3, 4, 4, 8⟩,
  ⟨4, 0, 1, 2, 3, 13, 9⟩, ⟨3, 4, 0, 1, 2, 3, 14⟩, ⟨2, 3, 4, 0, 1, 7, 5⟩, ⟨1, 2, 3, 4, 0, 15, 6⟩,
  ⟨0, 1, 2, 3, 4, 14, 8⟩, ⟨4, 0, 1, 2, 3, 5, 6⟩, ⟨3, 4, 0, 1, 2, 6, 5⟩, ⟨2, 3, 4, 0, 1, 2, 12⟩]
/-- crypto.rs 221-236. -/
def left5 : List Call := [
  ⟨1, 2, 3, 4, 0, 4, 9⟩, ⟨0, 1, 2, 3, 4, 0, 15⟩, ⟨4, 0, 1, 2, 3, 5, 5⟩, ⟨3, 4, 0, 1, 2, 9, 11⟩,
  ⟨2, 3, 4, 0, 1, 7, 6⟩, ⟨1, 2, 3, 4, 0, 12, 8⟩, ⟨0, 1, 2, 3, 4, 2, 13⟩, ⟨4, 0, 1, 2, 3, 10, 12⟩,
  ⟨3, 4, 0, 1, 2, 14, 5⟩, ⟨2, 3, 4, 0, 1, 1, 12⟩, ⟨1, 2, 3, 4, 0, 3, 13⟩, ⟨0, 1, 2, 3, 4, 8, 14⟩,
  ⟨4, 0, 1, 2, 3, 11, 11⟩, ⟨3, 4, 0, 1, 2, 6, 8⟩, ⟨2, 3, 4, 0, 1, 15, 5⟩, ⟨1, 2, 3, 4, 0, 13, 6⟩]
/-- crypto.rs 239-254. -/
def par1 : List Call := [
  ⟨0, 1, 2, 3, 4, 5, 8⟩, ⟨4, 0, 1, 2, 3, 14, 9⟩, ⟨3, 4, 0, 1, 2, 7, 9⟩, ⟨2, 3, 4, 0, 1, 0, 11⟩,
  ⟨1, 2, 3, 4, 0, 9, 13⟩, ⟨0, 1, 2, 3, 4, 2, 15⟩, ⟨4, 0, 1, 2, 3, 11, 15⟩, ⟨3, 4, 0, 1, 2, 4, 5⟩,
  ⟨2, 3, 4, 0, 1, 13, 7⟩, ⟨1, 2, 3, 4, 0, 6, 7⟩, ⟨0, 1, 2, 3, 4, 15, 8⟩, ⟨4, 0, 1, 2, 3, 8, 11⟩,
  ⟨3, 4, 0, 1, 2, 1, 14⟩, ⟨2, 3, 4, 0, 1, 10, 14⟩, ⟨1, 2, 3, 4, 0, 3, 12⟩, ⟨0, 1, 2, 3, 4, 12, 6⟩]
/-- crypto.rs 257-272. -/
def par2 : List Call := [
  ⟨4, 0, 1, 2, 3, 6, 9⟩, ⟨3, 4, 0, 1, 2, 11, 13⟩, ⟨2, 3, 4, 0, 1, 3, 15⟩, ⟨1, 2, 3, 4, 0, 7, 7⟩,
  ⟨0, 1, 2, 3, 4, 0, 12⟩, ⟨4, 0, 1, 2, 3, 13, 8⟩, ⟨3, 4, 0, 1, 2, 5, 9⟩, ⟨2, 3, 4, 0, 1, 10, 11⟩,
  ⟨1, 2, 3, 4, 0, 14, 7⟩, ⟨0, 1, 2, 3, 4, 15, 7⟩, ⟨4, 0, 1, 2, 3, 8, 12⟩, ⟨3, 4, 0, 1, 2, 12, 7⟩,
  ⟨2, 3, 4, 0, 1, 4, 6⟩, ⟨1, 2, 3, 4, 0, 9, 15⟩, ⟨0, 1, 2, 3, 4, 1, 13⟩, ⟨4, 0, 1, 2, 3, 2, 11⟩]
/-- crypto.rs 275-290. -/
def par3 : List Call := [
  ⟨3, 4, 0, 1, 2, 15, 9⟩, ⟨2, 3, 4, 0, 1, 5, 7⟩, ⟨1, 2, 3, 4, 0, 1, 15⟩, ⟨0, 1, 2, 3, 4, 3, 11⟩,
  ⟨4, 0, 1, 2, 3, 7, 8⟩, ⟨3, 4, 0, 1, 2, 14, 6⟩, ⟨2, 3, 4, 0, 1, 6, 6⟩, ⟨1, 2, 3, 4, 0, 9, 14⟩,
  ⟨0, 1, 2, 3, 4, 11, 12⟩, ⟨4, 0, 1, 2, 3, 8, 13⟩, ⟨3, 4, 0, 1, 2, 12, 5⟩, ⟨2, 3, 4, 0, 1, 2, 14⟩,
  ⟨1, 2, 3, 4, 0, 10, 13⟩, ⟨0, 1, 2, 3, 4, 0, 13⟩, ⟨4, 0, 1, 2, 3, 4, 7⟩, ⟨3, 4, 0, 1, 2, 13, 5⟩]
/-- crypto.rs 293-308. -/
def par4 : List Call := [
  ⟨2, 3, 4, 0, 1, 8, 15⟩, ⟨1, 2, 3, 4, 0, 6, 5⟩, ⟨0, 1, 2, 3, 4, 4, 8⟩, ⟨4, 0, 1, 2, 3, 1, 11⟩,
  ⟨3, 4, 0, 1, 2, 3, 14⟩, ⟨2, 3, 4, 0, 1, 11, 14⟩, ⟨1, 2, 3, 4, 0, 15, 6⟩, ⟨0, 1, 2, 3, 4, 0, 14⟩,
  ⟨4, 0, 1, 2, 3, 5, 6⟩, ⟨3, 4, 0, 1, 2, 12, 9⟩, ⟨2, 3, 4, 0, 1, 2, 12⟩, ⟨1, 2, 3, 4, 0, 13, 9⟩,
  ⟨0, 1, 2, 3, 4, 9, 12⟩, ⟨4, 0, 1, 2, 3, 7, 5⟩, ⟨3, 4, 0, 1, 2, 10, 15⟩, ⟨2, 3, 4, 0, 1, 14, 8⟩]
/-- crypto.rs 311-326. -/
def par5 : List Call := [
  ⟨1, 2, 3, 4, 0, 12, 8⟩, ⟨0, 1, 2, 3, 4, 15, 5⟩, ⟨4, 0, 1, 2, 3, 10, 12⟩, ⟨3, 4, 0, 1, 2, 4, 9⟩,
  ⟨2, 3, 4, 0, 1, 1, 12⟩, ⟨1, 2, 3, 4, 0, 5, 5⟩, ⟨0, 1, 2, 3, 4, 8, 14⟩, ⟨4, 0, 1, 2, 3, 7, 6⟩,
  ⟨3, 4, 0, 1, 2, 6, 8⟩, ⟨2, 3, 4, 0, 1, 2, 13⟩, ⟨1, 2, 3, 4, 0, 13, 6⟩, ⟨0, 1, 2, 3, 4, 14, 5⟩,
  ⟨4, 0, 1, 2, 3, 0, 15⟩, ⟨3, 4, 0, 1, 2, 3, 13⟩, ⟨2, 3, 4, 0, 1, 9, 11⟩, ⟨1, 2, 3, 4, 0, 11, 11⟩]

abbrev W32 := BitVec 32

/-- The last argument of `round!` in rounds 1 to 5 (crypto.rs 73-100). -/
def fn1 (x y z : W32) : W32 := x ^^^ y ^^^ z
def fn2 (x y z : W32) : W32 := (x &&& y) ||| (~~~x &&& z)
def fn3 (x y z : W32) : W32 := (x ||| ~~~y) ^^^ z
def fn4 (x y z : W32) : W32 := (x &&& z) ||| (y &&& ~~~z)
def fn5 (x y z : W32) : W32 := x ^^^ (y ||| ~~~z)

/-- `round!` (crypto.rs 36-44). -/
def roundCall (x : Nat → W32) (add : W32) (fn : W32 → W32 → W32 → W32) (bb : S5) (k : Call) : S5 :=
  let a := bb.get k.a + fn (bb.get k.b) (bb.get k.c) (bb.get k.d) + x k.data + add
  let a := a.rotateLeft k.shift + bb.get k.e
  let bb := bb.set k.a a
  bb.set k.c ((bb.get k.c).rotateLeft 10)

/-- `process_block!` (crypto.rs 46-130). -/
def processBlock (h : S5) (x : Nat → W32) : S5 :=
  let bb := h
  let bbb := h
  let bb := left1.foldl (roundCall x 0x00000000 fn1) bb
  let bb := left2.foldl (roundCall x 0x5a827999 fn2) bb
  let bb := left3.foldl (roundCall x 0x6ed9eba1 fn3) bb
  let bb := left4.foldl (roundCall x 0x8f1bbcdc fn4) bb
  let bb := left5.foldl (roundCall x 0xa953fd4e fn5) bb
  let bbb := par1.foldl (roundCall x 0x50a28be6 fn5) bbb
  let bbb := par2.foldl (roundCall x 0x5c4dd124 fn4) bbb
  let bbb := par3.foldl (roundCall x 0x6d703ef3 fn3) bbb
  let bbb := par4.foldl (roundCall x 0x7a6d76e9 fn2) bbb
  let bbb := par5.foldl (roundCall x 0x00000000 fn1) bbb
  let bbb := { bbb with s3 := bbb.s3 + h.s1 + bb.s2 }
  let h := { h with s1 := h.s2 + bb.s3 + bbb.s4 }
  let h := { h with s2 := h.s3 + bb.s4 + bbb.s0 }
  let h := { h with s3 := h.s4 + bb.s0 + bbb.s1 }
  let h := { h with s4 := h.s0 + bb.s1 + bbb.s2 }
  { h with s0 := bbb.s3 }

/-- The words of a block (crypto.rs 142-145) and one turn of the loop of `process_blocks`. -/
def word (block : Bytes) (i : Nat) : W32 := BitVec.ofNat 32 (leNat ((block.drop (4 * i)).take 4))
def comp (h : S5) (block : Bytes) : S5 := processBlock h (word block)

/-- `HashEngine` and `from_engine` (ripemd160/mod.rs 24-40, 63-78); `midstate` is little endian. -/
def new : Eng S5 := Eng.new 64 ⟨0x67452301, 0xefcdab89, 0x98badcfe, 0x10325476, 0xc3d2e1f0⟩
def input (e : Eng S5) (x : Bytes) : Eng S5 := e.input 64 comp x
def finish (e : Eng S5) : Bytes := ((e.finish 64 8 (leBytes 8) comp).toList.map fun w => leBytes 4 w.toNat).flatten

end Ripemd

/-- `hash160::Hash::from_engine` (hash160/mod.rs 21-28), with the SHA-256 digest given. -/
def hash160Of (sha : Bytes) : Bytes := Ripemd.finish (Ripemd.input Ripemd.new sha)

end Hashes
end Btc
