import Verif.Hashes.ShaNiLaws
/-!
# The runs of the SHA-NI and ARM SHA2 programs
-/
namespace Btc
namespace ShaNi
open Sha2 (St)
open Simd (Lanes byteOf ofBytes shuffleEpi8 bswap)


/-- Transform `3 i` hashes input `i`, transform `3 i + 1` its padding block, transform `3 i + 2` the first digest with its padding. -/
def pad32 (t : Nat) : BitVec 32 := if t = 8 then 0x80000000#32 else if t = 15 then 0x100#32 else 0
def nfD : Atom → Atom
  | .a j t => if t ≤ 3 then (if j % 3 = 1 then .o (j - 1) (3 - t) else .c (INIT.getD (3 - t) 0)) else .a j t
  | .e j t => if t ≤ 3 then (if j % 3 = 1 then .o (j - 1) (7 - t) else .c (INIT.getD (7 - t) 0)) else .e j t
  | .w j t => if j % 3 = 1 ∧ t < 64 then .c (MIDS.getD t 0 - kTab t) else if j % 3 = 2 ∧ t < 8 then .o (j - 1) t
    else if j % 3 = 2 ∧ t < 16 then .c (pad32 t) else .w j t
  | .kw j t => if j % 3 = 1 ∧ t < 64 then .c (MIDS.getD t 0) else if j % 3 = 2 ∧ 8 ≤ t ∧ t < 16 then .c (kTab t + pad32 t) else .kw j t
  | .p1 j t => if j % 3 = 2 ∧ 8 ≤ t ∧ t < 15 then .c (pad32 t + Fips.fns256.sigma0 (pad32 (t + 1))) else .p1 j t
  | x => x

def start : AMach := ⟨List.replicate 47 [], []⟩
def x86D1H : List Hint := [
  .none, .none, .none, .none, .none, .none, .none, .none, .none, .none, .none, .none, .kw 0 0, .kw 3 0, .rnd 0 0, .rnd 3 0, .none, .none,
  .rnd 0 2, .rnd 3 2, .none, .none, .none, .none, .none, .kw 0 4, .kw 3 4, .rnd 0 4, .rnd 3 4, .none, .none, .rnd 0 6, .rnd 3 6, .p1 0 0,
  .p1 3 0, .none, .none, .none, .none, .none, .kw 0 8, .kw 3 8, .rnd 0 8, .rnd 3 8, .none, .none, .rnd 0 10, .rnd 3 10, .p1 0 4, .p1 3 4,
  .none, .none, .none, .none, .none, .kw 0 12, .kw 3 12, .rnd 0 12, .rnd 3 12, .none, .none, .p2 0 0, .p2 3 0, .w 0 0, .w 3 0, .none,
  .none, .rnd 0 14, .rnd 3 14, .p1 0 8, .p1 3 8, .none, .kw 0 16, .kw 3 16, .rnd 0 16, .rnd 3 16, .none, .none, .p2 0 4, .p2 3 4, .w 0 4,
  .w 3 4, .none, .none, .rnd 0 18, .rnd 3 18, .p1 0 12, .p1 3 12, .none, .kw 0 20, .kw 3 20, .rnd 0 20, .rnd 3 20, .none, .none, .p2 0 8,
  .p2 3 8, .w 0 8, .w 3 8, .none, .none, .rnd 0 22, .rnd 3 22, .p1 0 16, .p1 3 16, .none, .kw 0 24, .kw 3 24, .rnd 0 24, .rnd 3 24, .none,
  .none, .p2 0 12, .p2 3 12, .w 0 12, .w 3 12, .none, .none, .rnd 0 26, .rnd 3 26, .p1 0 20, .p1 3 20, .none, .kw 0 28, .kw 3 28,
  .rnd 0 28, .rnd 3 28, .none, .none, .p2 0 16, .p2 3 16, .w 0 16, .w 3 16, .none, .none, .rnd 0 30, .rnd 3 30, .p1 0 24, .p1 3 24, .none,
  .kw 0 32, .kw 3 32, .rnd 0 32, .rnd 3 32, .none, .none, .p2 0 20, .p2 3 20, .w 0 20, .w 3 20, .none, .none, .rnd 0 34, .rnd 3 34,
  .p1 0 28, .p1 3 28, .none, .kw 0 36, .kw 3 36, .rnd 0 36, .rnd 3 36, .none, .none, .p2 0 24, .p2 3 24, .w 0 24, .w 3 24, .none, .none,
  .rnd 0 38, .rnd 3 38, .p1 0 32, .p1 3 32, .none, .kw 0 40, .kw 3 40, .rnd 0 40, .rnd 3 40, .none, .none, .p2 0 28, .p2 3 28, .w 0 28,
  .w 3 28, .none, .none, .rnd 0 42, .rnd 3 42, .p1 0 36, .p1 3 36, .none, .kw 0 44, .kw 3 44, .rnd 0 44, .rnd 3 44, .none, .none, .p2 0 32,
  .p2 3 32, .w 0 32, .w 3 32, .none, .none, .rnd 0 46, .rnd 3 46, .p1 0 40, .p1 3 40, .none, .kw 0 48, .kw 3 48, .rnd 0 48, .rnd 3 48,
  .none, .none, .p2 0 36, .p2 3 36, .w 0 36, .w 3 36, .none, .none, .rnd 0 50, .rnd 3 50, .p1 0 44, .p1 3 44, .none, .kw 0 52, .kw 3 52,
  .rnd 0 52, .rnd 3 52, .none, .none, .p2 0 40, .p2 3 40, .w 0 40, .w 3 40, .none, .none, .rnd 0 54, .rnd 3 54, .none, .kw 0 56, .kw 3 56,
  .rnd 0 56, .rnd 3 56, .none, .none, .p2 0 44, .p2 3 44, .w 0 44, .w 3 44, .none, .none, .rnd 0 58, .rnd 3 58, .none, .kw 0 60, .kw 3 60,
  .rnd 0 60, .rnd 3 60, .none, .none, .rnd 0 62, .rnd 3 62, .out 0 5 4 1 0, .out 3 5 4 1 0, .out 0 7 6 3 2, .out 3 7 6 3 2]
def x86D2H : List Hint := [
  .none, .none, .none, .none, .none, .rnd 1 0, .rnd 4 0, .none, .rnd 1 2, .rnd 4 2, .none, .rnd 1 4, .rnd 4 4, .none, .rnd 1 6, .rnd 4 6,
  .none, .rnd 1 8, .rnd 4 8, .none, .rnd 1 10, .rnd 4 10, .none, .rnd 1 12, .rnd 4 12, .none, .rnd 1 14, .rnd 4 14, .none, .rnd 1 16,
  .rnd 4 16, .none, .rnd 1 18, .rnd 4 18, .none, .rnd 1 20, .rnd 4 20, .none, .rnd 1 22, .rnd 4 22, .none, .rnd 1 24, .rnd 4 24, .none,
  .rnd 1 26, .rnd 4 26, .none, .rnd 1 28, .rnd 4 28, .none, .rnd 1 30, .rnd 4 30, .none, .rnd 1 32, .rnd 4 32, .none, .rnd 1 34, .rnd 4 34,
  .none, .rnd 1 36, .rnd 4 36, .none, .rnd 1 38, .rnd 4 38, .none, .rnd 1 40, .rnd 4 40, .none, .rnd 1 42, .rnd 4 42, .none, .rnd 1 44,
  .rnd 4 44, .none, .rnd 1 46, .rnd 4 46, .none, .rnd 1 48, .rnd 4 48, .none, .rnd 1 50, .rnd 4 50, .none, .rnd 1 52, .rnd 4 52, .none,
  .rnd 1 54, .rnd 4 54, .none, .rnd 1 56, .rnd 4 56, .none, .rnd 1 58, .rnd 4 58, .none, .rnd 1 60, .rnd 4 60, .none, .rnd 1 62, .rnd 4 62,
  .out 1 5 4 1 0, .out 4 5 4 1 0, .out 1 7 6 3 2, .out 4 7 6 3 2, .none, .none, .none, .none, .none, .none, .none, .none]
def x86D3H : List Hint := [
  .none, .none, .none, .none, .none, .kw 2 0, .kw 5 0, .rnd 2 0, .rnd 5 0, .none, .none, .rnd 2 2, .rnd 5 2, .none, .kw 2 4, .kw 5 4,
  .rnd 2 4, .rnd 5 4, .none, .none, .rnd 2 6, .rnd 5 6, .p1 2 0, .p1 5 0, .none, .none, .none, .rnd 2 8, .rnd 5 8, .none, .rnd 2 10,
  .rnd 5 10, .p1 2 4, .p1 5 4, .none, .none, .none, .rnd 2 12, .rnd 5 12, .none, .none, .p2 2 0, .p2 5 0, .w 2 0, .w 5 0, .none, .rnd 2 14,
  .rnd 5 14, .p1 2 8, .p1 2 8, .none, .kw 2 16, .kw 5 16, .rnd 2 16, .rnd 5 16, .none, .none, .p2 2 4, .p2 5 4, .w 2 4, .w 5 4, .none,
  .none, .rnd 2 18, .rnd 5 18, .p1 2 12, .p1 5 12, .none, .kw 2 20, .kw 5 20, .rnd 2 20, .rnd 5 20, .none, .none, .p2 2 8, .p2 5 8, .w 2 8,
  .w 5 8, .none, .none, .rnd 2 22, .rnd 5 22, .p1 2 16, .p1 5 16, .none, .kw 2 24, .kw 5 24, .rnd 2 24, .rnd 5 24, .none, .none, .p2 2 12,
  .p2 5 12, .w 2 12, .w 5 12, .none, .none, .rnd 2 26, .rnd 5 26, .p1 2 20, .p1 5 20, .none, .kw 2 28, .kw 5 28, .rnd 2 28, .rnd 5 28,
  .none, .none, .p2 2 16, .p2 5 16, .w 2 16, .w 5 16, .none, .none, .rnd 2 30, .rnd 5 30, .p1 2 24, .p1 5 24, .none, .kw 2 32, .kw 5 32,
  .rnd 2 32, .rnd 5 32, .none, .none, .p2 2 20, .p2 5 20, .w 2 20, .w 5 20, .none, .none, .rnd 2 34, .rnd 5 34, .p1 2 28, .p1 5 28, .none,
  .kw 2 36, .kw 5 36, .rnd 2 36, .rnd 5 36, .none, .none, .p2 2 24, .p2 5 24, .w 2 24, .w 5 24, .none, .none, .rnd 2 38, .rnd 5 38,
  .p1 2 32, .p1 5 32, .none, .kw 2 40, .kw 5 40, .rnd 2 40, .rnd 5 40, .none, .none, .p2 2 28, .p2 5 28, .w 2 28, .w 5 28, .none, .none,
  .rnd 2 42, .rnd 5 42, .p1 2 36, .p1 5 36, .none, .kw 2 44, .kw 5 44, .rnd 2 44, .rnd 5 44, .none, .none, .p2 2 32, .p2 5 32, .w 2 32,
  .w 5 32, .none, .none, .rnd 2 46, .rnd 5 46, .p1 2 40, .p1 5 40, .none, .kw 2 48, .kw 5 48, .rnd 2 48, .rnd 5 48, .none, .none, .p2 2 36,
  .p2 5 36, .w 2 36, .w 5 36, .none, .none, .rnd 2 50, .rnd 5 50, .p1 2 44, .p1 5 44, .none, .kw 2 52, .kw 5 52, .rnd 2 52, .rnd 5 52,
  .none, .none, .p2 2 40, .p2 5 40, .w 2 40, .w 5 40, .none, .none, .rnd 2 54, .rnd 5 54, .none, .kw 2 56, .kw 5 56, .rnd 2 56, .rnd 5 56,
  .none, .none, .p2 2 44, .p2 5 44, .w 2 44, .w 5 44, .none, .none, .rnd 2 58, .rnd 5 58, .none, .kw 2 60, .kw 5 60, .rnd 2 60, .rnd 5 60,
  .none, .none, .rnd 2 62, .rnd 5 62, .out 2 5 4 1 0, .out 5 5 4 1 0, .out 2 7 6 3 2, .out 5 7 6 3 2, .none, .none, .none, .none, .none,
  .none, .none, .none, .none, .none, .none, .none]
def x86BlockH : List Hint := [
  .none, .none, .none, .none, .kw 0 0, .rnd 0 0, .none, .rnd 0 2, .none, .none, .kw 0 4, .rnd 0 4, .none, .rnd 0 6, .p1 0 0, .none, .none,
  .kw 0 8, .rnd 0 8, .none, .rnd 0 10, .p1 0 4, .none, .none, .kw 0 12, .rnd 0 12, .none, .p2 0 0, .w 0 0, .none, .rnd 0 14, .p1 0 8,
  .kw 0 16, .rnd 0 16, .none, .p2 0 4, .w 0 4, .none, .rnd 0 18, .p1 0 12, .kw 0 20, .rnd 0 20, .none, .p2 0 8, .w 0 8, .none, .rnd 0 22,
  .p1 0 16, .kw 0 24, .rnd 0 24, .none, .p2 0 12, .w 0 12, .none, .rnd 0 26, .p1 0 20, .kw 0 28, .rnd 0 28, .none, .p2 0 16, .w 0 16,
  .none, .rnd 0 30, .p1 0 24, .kw 0 32, .rnd 0 32, .none, .p2 0 20, .w 0 20, .none, .rnd 0 34, .p1 0 28, .kw 0 36, .rnd 0 36, .none,
  .p2 0 24, .w 0 24, .none, .rnd 0 38, .p1 0 32, .kw 0 40, .rnd 0 40, .none, .p2 0 28, .w 0 28, .none, .rnd 0 42, .p1 0 36, .kw 0 44,
  .rnd 0 44, .none, .p2 0 32, .w 0 32, .none, .rnd 0 46, .p1 0 40, .kw 0 48, .rnd 0 48, .none, .p2 0 36, .w 0 36, .none, .rnd 0 50,
  .p1 0 44, .kw 0 52, .rnd 0 52, .none, .p2 0 40, .w 0 40, .none, .rnd 0 54, .kw 0 56, .rnd 0 56, .none, .p2 0 44, .w 0 44, .none,
  .rnd 0 58, .kw 0 60, .rnd 0 60, .none, .rnd 0 62, .out 0 5 4 1 0, .out 0 7 6 3 2]
def armD1H : List Hint := [
  .none, .none, .none, .none, .none, .none, .none, .none, .none, .none, .none, .none, .none, .none, .none, .none, .none, .none, .none,
  .none, .none, .kw 0 0, .kw 3 0, .none, .none, .p1 0 0, .p1 3 0, .rnd 0 0, .rnd 3 0, .rnd 0 0, .rnd 3 0, .w 0 0, .w 3 0, .none, .kw 0 4,
  .kw 3 4, .none, .none, .p1 0 4, .p1 3 4, .rnd 0 4, .rnd 3 4, .rnd 0 4, .rnd 3 4, .w 0 4, .w 3 4, .none, .kw 0 8, .kw 3 8, .none, .none,
  .p1 0 8, .p1 3 8, .rnd 0 8, .rnd 3 8, .rnd 0 8, .rnd 3 8, .w 0 8, .w 3 8, .none, .kw 0 12, .kw 3 12, .none, .none, .p1 0 12, .p1 3 12,
  .rnd 0 12, .rnd 3 12, .rnd 0 12, .rnd 3 12, .w 0 12, .w 3 12, .none, .kw 0 16, .kw 3 16, .none, .none, .p1 0 16, .p1 3 16, .rnd 0 16,
  .rnd 3 16, .rnd 0 16, .rnd 3 16, .w 0 16, .w 3 16, .none, .kw 0 20, .kw 3 20, .none, .none, .p1 0 20, .p1 3 20, .rnd 0 20, .rnd 3 20,
  .rnd 0 20, .rnd 3 20, .w 0 20, .w 3 20, .none, .kw 0 24, .kw 3 24, .none, .none, .p1 0 24, .p1 3 24, .rnd 0 24, .rnd 3 24, .rnd 0 24,
  .rnd 3 24, .w 0 24, .w 3 24, .none, .kw 0 28, .kw 3 28, .none, .none, .p1 0 28, .p1 3 28, .rnd 0 28, .rnd 3 28, .rnd 0 28, .rnd 3 28,
  .w 0 28, .w 3 28, .none, .kw 0 32, .kw 3 32, .none, .none, .p1 0 32, .p1 3 32, .rnd 0 32, .rnd 3 32, .rnd 0 32, .rnd 3 32, .w 0 32,
  .w 3 32, .none, .kw 0 36, .kw 3 36, .none, .none, .p1 0 36, .p1 3 36, .rnd 0 36, .rnd 3 36, .rnd 0 36, .rnd 3 36, .w 0 36, .w 3 36,
  .none, .kw 0 40, .kw 3 40, .none, .none, .p1 0 40, .p1 3 40, .rnd 0 40, .rnd 3 40, .rnd 0 40, .rnd 3 40, .w 0 40, .w 3 40, .none,
  .kw 0 44, .kw 3 44, .none, .none, .p1 0 44, .p1 3 44, .rnd 0 44, .rnd 3 44, .rnd 0 44, .rnd 3 44, .w 0 44, .w 3 44, .none, .kw 0 48,
  .kw 3 48, .none, .none, .rnd 0 48, .rnd 3 48, .rnd 0 48, .rnd 3 48, .none, .kw 0 52, .kw 3 52, .none, .none, .rnd 0 52, .rnd 3 52,
  .rnd 0 52, .rnd 3 52, .none, .kw 0 56, .kw 3 56, .none, .none, .rnd 0 56, .rnd 3 56, .rnd 0 56, .rnd 3 56, .none, .kw 0 60, .kw 3 60,
  .none, .none, .rnd 0 60, .rnd 3 60, .rnd 0 60, .rnd 3 60, .none, .out 0 0 1 2 3, .out 3 0 1 2 3, .none, .out 0 4 5 6 7, .out 3 4 5 6 7]
def armD2H : List Hint := [
  .none, .none, .none, .none, .none, .none, .none, .rnd 1 0, .rnd 4 0, .rnd 1 0, .rnd 4 0, .none, .none, .none, .rnd 1 4, .rnd 4 4,
  .rnd 1 4, .rnd 4 4, .none, .none, .none, .rnd 1 8, .rnd 4 8, .rnd 1 8, .rnd 4 8, .none, .none, .none, .rnd 1 12, .rnd 4 12, .rnd 1 12,
  .rnd 4 12, .none, .none, .none, .rnd 1 16, .rnd 4 16, .rnd 1 16, .rnd 4 16, .none, .none, .none, .rnd 1 20, .rnd 4 20, .rnd 1 20,
  .rnd 4 20, .none, .none, .none, .rnd 1 24, .rnd 4 24, .rnd 1 24, .rnd 4 24, .none, .none, .none, .rnd 1 28, .rnd 4 28, .rnd 1 28,
  .rnd 4 28, .none, .none, .none, .rnd 1 32, .rnd 4 32, .rnd 1 32, .rnd 4 32, .none, .none, .none, .rnd 1 36, .rnd 4 36, .rnd 1 36,
  .rnd 4 36, .none, .none, .none, .rnd 1 40, .rnd 4 40, .rnd 1 40, .rnd 4 40, .none, .none, .none, .rnd 1 44, .rnd 4 44, .rnd 1 44,
  .rnd 4 44, .none, .none, .none, .rnd 1 48, .rnd 4 48, .rnd 1 48, .rnd 4 48, .none, .none, .none, .rnd 1 52, .rnd 4 52, .rnd 1 52,
  .rnd 4 52, .none, .none, .none, .rnd 1 56, .rnd 4 56, .rnd 1 56, .rnd 4 56, .none, .none, .none, .rnd 1 60, .rnd 4 60, .rnd 1 60,
  .rnd 4 60, .out 1 0 1 2 3, .out 4 0 1 2 3, .out 1 4 5 6 7, .out 4 4 5 6 7]
def armD3H : List Hint := [
  .none, .none, .none, .none, .none, .none, .none, .none, .none, .none, .none, .none, .none, .kw 2 0, .kw 5 0, .none, .none, .p1 2 0,
  .p1 5 0, .rnd 2 0, .rnd 5 0, .rnd 2 0, .rnd 5 0, .w 2 0, .w 5 0, .none, .kw 2 4, .kw 5 4, .none, .none, .p1 2 4, .p1 5 4, .rnd 2 4,
  .rnd 5 4, .rnd 2 4, .rnd 5 4, .w 2 4, .w 5 4, .none, .none, .none, .none, .none, .rnd 2 8, .rnd 5 8, .rnd 2 8, .rnd 5 8, .w 2 8, .w 5 8,
  .none, .none, .none, .p1 2 12, .p1 5 12, .rnd 2 12, .rnd 5 12, .rnd 2 12, .rnd 5 12, .w 2 12, .w 5 12, .none, .kw 2 16, .kw 5 16, .none,
  .none, .p1 2 16, .p1 5 16, .rnd 2 16, .rnd 5 16, .rnd 2 16, .rnd 5 16, .w 2 16, .w 5 16, .none, .kw 2 20, .kw 5 20, .none, .none,
  .p1 2 20, .p1 5 20, .rnd 2 20, .rnd 5 20, .rnd 2 20, .rnd 5 20, .w 2 20, .w 5 20, .none, .kw 2 24, .kw 5 24, .none, .none, .p1 2 24,
  .p1 5 24, .rnd 2 24, .rnd 5 24, .rnd 2 24, .rnd 5 24, .w 2 24, .w 5 24, .none, .kw 2 28, .kw 5 28, .none, .none, .p1 2 28, .p1 5 28,
  .rnd 2 28, .rnd 5 28, .rnd 2 28, .rnd 5 28, .w 2 28, .w 5 28, .none, .kw 2 32, .kw 5 32, .none, .none, .p1 2 32, .p1 5 32, .rnd 2 32,
  .rnd 5 32, .rnd 2 32, .rnd 5 32, .w 2 32, .w 5 32, .none, .kw 2 36, .kw 5 36, .none, .none, .p1 2 36, .p1 5 36, .rnd 2 36, .rnd 5 36,
  .rnd 2 36, .rnd 5 36, .w 2 36, .w 5 36, .none, .kw 2 40, .kw 5 40, .none, .none, .p1 2 40, .p1 5 40, .rnd 2 40, .rnd 5 40, .rnd 2 40,
  .rnd 5 40, .w 2 40, .w 5 40, .none, .kw 2 44, .kw 5 44, .none, .none, .p1 2 44, .p1 5 44, .rnd 2 44, .rnd 5 44, .rnd 2 44, .rnd 5 44,
  .w 2 44, .w 5 44, .none, .kw 2 48, .kw 5 48, .none, .none, .rnd 2 48, .rnd 5 48, .rnd 2 48, .rnd 5 48, .none, .kw 2 52, .kw 5 52, .none,
  .none, .rnd 2 52, .rnd 5 52, .rnd 2 52, .rnd 5 52, .none, .kw 2 56, .kw 5 56, .none, .none, .rnd 2 56, .rnd 5 56, .rnd 2 56, .rnd 5 56,
  .none, .kw 2 60, .kw 5 60, .none, .none, .rnd 2 60, .rnd 5 60, .rnd 2 60, .rnd 5 60, .none, .out 2 0 1 2 3, .out 5 0 1 2 3, .none,
  .out 2 4 5 6 7, .out 5 4 5 6 7, .none, .none, .none, .none]
def armBlockH : List Hint := [
  .none, .none, .none, .none, .none, .none, .none, .none, .none, .none, .kw 0 0, .p1 0 0, .none, .kw 0 4, .rnd 0 0, .rnd 0 0, .w 0 0,
  .p1 0 4, .none, .kw 0 8, .rnd 0 4, .rnd 0 4, .w 0 4, .p1 0 8, .none, .kw 0 12, .rnd 0 8, .rnd 0 8, .w 0 8, .p1 0 12, .none, .kw 0 16,
  .rnd 0 12, .rnd 0 12, .w 0 12, .p1 0 16, .none, .kw 0 20, .rnd 0 16, .rnd 0 16, .w 0 16, .p1 0 20, .none, .kw 0 24, .rnd 0 20, .rnd 0 20,
  .w 0 20, .p1 0 24, .none, .kw 0 28, .rnd 0 24, .rnd 0 24, .w 0 24, .p1 0 28, .none, .kw 0 32, .rnd 0 28, .rnd 0 28, .w 0 28, .p1 0 32,
  .none, .kw 0 36, .rnd 0 32, .rnd 0 32, .w 0 32, .p1 0 36, .none, .kw 0 40, .rnd 0 36, .rnd 0 36, .w 0 36, .p1 0 40, .none, .kw 0 44,
  .rnd 0 40, .rnd 0 40, .w 0 40, .p1 0 44, .none, .kw 0 48, .rnd 0 44, .rnd 0 44, .w 0 44, .none, .kw 0 52, .rnd 0 48, .rnd 0 48, .none,
  .kw 0 56, .rnd 0 52, .rnd 0 52, .none, .kw 0 60, .rnd 0 56, .rnd 0 56, .none, .rnd 0 60, .rnd 0 60, .out 0 0 1 2 3, .out 0 4 5 6 7]

/-! ## Double hash of two inputs -/

def stores2 : List (Dst × AV) :=
  [(.out 0 0, [.sw 2 0, .sw 2 1, .sw 2 2, .sw 2 3]), (.out 0 16, [.sw 2 4, .sw 2 5, .sw 2 6, .sw 2 7]),
   (.out 1 0, [.sw 5 0, .sw 5 1, .sw 5 2, .sw 5 3]), (.out 1 16, [.sw 5 4, .sw 5 5, .sw 5 6, .sw 5 7])]
def x86Hinted : List (Stmt × Hint) := (x86D1 ++ x86D2 ++ x86D3).zip (x86D1H ++ x86D2H ++ x86D3H)
def armHinted : List (Stmt × Hint) := (armD1 ++ armD2 ++ armD3).zip (armD1H ++ armD2H ++ armD3H)

theorem x86_stores : (absRun nfD (fun i => 3 * i) x86Hinted start).map AMach.stores = some stores2 := by decide +kernel
theorem arm_stores : (absRun nfD (fun i => 3 * i) armHinted start).map AMach.stores = some stores2 := by decide +kernel
theorem x86_hinted : x86Hinted.map Prod.fst = x86D1 ++ x86D2 ++ x86D3 := List.map_fst_zip (by decide +kernel)
theorem arm_hinted : armHinted.map Prod.fst = armD1 ++ armD2 ++ armD3 := List.map_fst_zip (by decide +kernel)

/-- The state after the first hash of the double hash, and after the second. -/
def first (x : Bytes) : St 32 := Fips.compress Fips.fns256 Fips.K256 64 Fips.iv256 (Fips.word 32 4 x)
def second (x : Bytes) : St 32 := Fips.compress Fips.fns256 Fips.K256 64 (first x) Sha2.padBlock64
def third (x : Bytes) : St 32 := Fips.compress Fips.fns256 Fips.K256 64 Fips.iv256 (Sha2.padWords (second x))

def semD (x y : Bytes) : Sem where
  H j := if j % 3 = 1 then first (if j / 3 = 0 then x else y) else Fips.iv256
  M j := if j % 3 = 0 then Fips.word 32 4 (if j / 3 = 0 then x else y) else if j % 3 = 1 then Sha2.padBlock64
    else Sha2.padWords (second (if j / 3 = 0 then x else y))

theorem semD_O0 (x y : Bytes) (j : Nat) (h : j % 3 = 0) : (semD x y).O j = first (if j / 3 = 0 then x else y) := by
  unfold Sem.O semD first
  simp only [h, if_neg (show ¬ (0 = 1) by decide), if_pos]
theorem semD_O1 (x y : Bytes) (j : Nat) (h : j % 3 = 1) : (semD x y).O j = second (if j / 3 = 0 then x else y) := by
  unfold Sem.O semD second
  simp only [h, if_neg (show ¬ (1 = 0) by decide), if_pos]
theorem semD_O2 (x y : Bytes) (j : Nat) (h : j % 3 = 2) : (semD x y).O j = third (if j / 3 = 0 then x else y) := by
  unfold Sem.O semD third
  simp only [h, if_neg (show ¬ (2 = 0) by decide), if_neg (show ¬ (2 = 1) by decide)]

theorem init_iv : ∀ i, i < 8 → INIT.getD i 0 = Fips.iv256.get i := by decide +kernel
theorem mids_eq : ∀ t, t < 64 → MIDS.getD t 0 = (Sha2.callsD2.map Sha2.Call.k).getD t 0 := by decide +kernel
theorem mids_W (t : Nat) (ht : t < 64) : MIDS.getD t 0 = Fips.K256 t + Fips.W Fips.fns256 Sha2.padBlock64 t := by
  rw [← Sha2.fns256_eq, Sha2.w2_eq t ht, mids_eq t ht]
  unfold Sha2.w2
  rw [BitVec.add_comm, BitVec.sub_add_cancel]

theorem semD_W1 (x y : Bytes) (j t : Nat) (h : j % 3 = 1) : (semD x y).W j t = Fips.W Fips.fns256 Sha2.padBlock64 t := by
  unfold Sem.W semD
  simp only [h, if_neg (show ¬ (1 = 0) by decide), if_pos]
theorem semD_W2 (x y : Bytes) (j t : Nat) (h : j % 3 = 2) (ht : t < 16) :
    (semD x y).W j t = Sha2.padWords (second (if j / 3 = 0 then x else y)) t := by
  unfold Sem.W semD
  simp only [h, if_neg (show ¬ (2 = 0) by decide), if_neg (show ¬ (2 = 1) by decide)]
  rw [Sha2.W_lt _ _ _ ht]
theorem pad32_words (s : St 32) (t : Nat) (h : 8 ≤ t) : Sha2.padWords s t = pad32 t := by
  unfold Sha2.padWords pad32; rw [if_neg (by omega)]

theorem nfD_val (x y : Bytes) (z : Atom) : (semD x y).val (nfD z) = (semD x y).val z := by
  cases z with
  | a j t =>
    simp only [nfD]
    split
    · next ht =>
      split
      · next hj =>
        change ((semD x y).O (j - 1)).get (3 - t) = (semD x y).A j t
        unfold Sem.A
        rw [if_pos ht, semD_O0 x y (j - 1) (by omega), show (j - 1) / 3 = j / 3 by omega]
        unfold semD
        simp only [hj, if_pos]
      · next hj =>
        change INIT.getD (3 - t) 0 = (semD x y).A j t
        unfold Sem.A
        rw [if_pos ht, init_iv _ (by omega)]
        unfold semD
        simp only [hj, if_false]
    · rfl
  | e j t =>
    simp only [nfD]
    split
    · next ht =>
      split
      · next hj =>
        change ((semD x y).O (j - 1)).get (7 - t) = (semD x y).E j t
        unfold Sem.E
        rw [if_pos ht, semD_O0 x y (j - 1) (by omega), show (j - 1) / 3 = j / 3 by omega]
        unfold semD
        simp only [hj, if_pos]
      · next hj =>
        change INIT.getD (7 - t) 0 = (semD x y).E j t
        unfold Sem.E
        rw [if_pos ht, init_iv _ (by omega)]
        unfold semD
        simp only [hj, if_false]
    · rfl
  | w j t =>
    simp only [nfD]
    split
    · next h =>
      change MIDS.getD t 0 - kTab t = (semD x y).W j t
      rw [semD_W1 x y j t h.1, mids_W t h.2, kTab_eq t h.2, BitVec.add_comm, BitVec.add_sub_cancel]
    · split
      · next h =>
        change ((semD x y).O (j - 1)).get t = (semD x y).W j t
        rw [semD_W2 x y j t h.1 (by omega), semD_O1 x y (j - 1) (by omega), show (j - 1) / 3 = j / 3 by omega]
        unfold Sha2.padWords
        rw [if_pos h.2]
      · split
        · next h1 h2 h =>
          change pad32 t = (semD x y).W j t
          rw [semD_W2 x y j t h.1 h.2, pad32_words _ t (by omega)]
        · rfl
  | kw j t =>
    simp only [nfD]
    split
    · next h =>
      change MIDS.getD t 0 = Fips.K256 t + (semD x y).W j t
      rw [semD_W1 x y j t h.1, mids_W t h.2]
    · split
      · next h =>
        change kTab t + pad32 t = Fips.K256 t + (semD x y).W j t
        rw [semD_W2 x y j t h.1 h.2.2, pad32_words _ t h.2.1, kTab_eq t (by omega)]
      · rfl
  | p1 j t =>
    simp only [nfD]
    split
    · next h =>
      change pad32 t + Fips.fns256.sigma0 (pad32 (t + 1)) = (semD x y).W j t + Fips.fns256.sigma0 ((semD x y).W j (t + 1))
      rw [semD_W2 x y j t h.1 (by omega), semD_W2 x y j (t + 1) h.1 (by omega), pad32_words _ t h.2.1, pad32_words _ (t + 1) (by omega)]
    · rfl
  | _ => rfl

theorem semD_good (x y : Bytes) (hx : x.length = 64) (hy : y.length = 64) :
    Good nfD (semD x y) (fun i => 3 * i) ⟨fun i => if i = 0 then x else y, Fips.iv256⟩ where
  nf := nfD_val x y
  inp := by
    intro i t ht
    have hl : ((if i = 0 then x else y).drop (4 * t)).length = 64 - 4 * t := by
      rw [List.length_drop]; split
      · rw [hx]
      · rw [hy]
    change _ = bswap ((semD x y).M (3 * i) t)
    unfold semD
    simp only [show 3 * i % 3 = 0 by omega, if_pos, show 3 * i / 3 = i by omega]
    unfold Fips.word
    rw [← Simd.bswap_le _ (by rw [List.length_take, hl]; omega), bswap_bswap]
  st := rfl

theorem list4 {α : Type} (l : List α) (h : l.length = 4) : ∃ a b c d, l = [a, b, c, d] := by
  match l, h with
  | [a, b, c, d], _ => exact ⟨a, b, c, d, rfl⟩

theorem vecBytes_eq (v : Lanes) : vecBytes v = leBytes 4 (v 0).toNat ++ (leBytes 4 (v 1).toNat ++ (leBytes 4 (v 2).toNat ++ leBytes 4 (v 3).toNat)) := by
  unfold vecBytes
  simp [List.range_succ]
theorem vecBytes_length (v : Lanes) : (vecBytes v).length = 16 := by
  rw [vecBytes_eq]; simp

theorem two_stores (s : St 32) (v u : Lanes) (hv : ∀ l, l < 4 → v l = bswap (s.get l)) (hu : ∀ l, l < 4 → u l = bswap (s.get (4 + l))) (b : Bytes)
    (hb : b.length = 32) : ((b.take 0 ++ vecBytes v ++ b.drop 16).take 16 ++ vecBytes u ++ (b.take 0 ++ vecBytes v ++ b.drop 16).drop 32) = s.bytes 4 := by
  rw [List.take_zero, List.nil_append, List.take_left' (vecBytes_length v), List.drop_of_length_le (by simp [vecBytes_length, hb]), List.append_nil,
    vecBytes_eq, vecBytes_eq, hv 0 (by omega), hv 1 (by omega), hv 2 (by omega), hv 3 (by omega), hu 0 (by omega), hu 1 (by omega), hu 2 (by omega),
    hu 3 (by omega), Simd.le_bswap, Simd.le_bswap, Simd.le_bswap, Simd.le_bswap, Simd.le_bswap, Simd.le_bswap, Simd.le_bswap, Simd.le_bswap,
    Simd.bytes_get]
  simp [List.range_succ]

theorem mrel_start (S : Sem) : MRel S Mach.new start where
  env := by
    intro r l _ x hx
    have : start.env.getD r [] = [] := by
      unfold start
      rw [List.getD_eq_getElem?_getD, List.getElem?_replicate]
      split <;> rfl
    rw [this] at hx
    cases hx
  len := rfl
  dst := by intro i d v h; cases h

/-- Nothing is read from the state. -/
def Expr.noSt : Expr → Bool
  | .v _ => true
  | .tbl _ _ => true
  | .set64 _ _ => true
  | .inp _ _ => true
  | .st _ => false
  | .add x y => x.noSt && y.noSt
  | .shuf32 x _ => x.noSt
  | .alignr x y _ => x.noSt && y.noSt
  | .blend x y _ => x.noSt && y.noSt
  | .shuf8 x y => x.noSt && y.noSt
  | .rev32 x => x.noSt
  | .msg1 x y => x.noSt && y.noSt
  | .su0 x y => x.noSt && y.noSt
  | .msg2 x y => x.noSt && y.noSt
  | .su1 x y z => x.noSt && y.noSt && z.noSt
  | .rnds2 x y z => x.noSt && y.noSt && z.noSt
  | .h x y z => x.noSt && y.noSt && z.noSt
  | .h2 x y z => x.noSt && y.noSt && z.noSt
def Stmt.noSt : Stmt → Bool
  | .set _ e => e.noSt
  | .out _ _ e => e.noSt
  | .stSt _ e => e.noSt

theorem Expr.eval_noSt (i : Nat → Bytes) (s s' : St 32) (env : Nat → Lanes) (e : Expr) (h : e.noSt = true) :
    e.eval ⟨i, s⟩ env = e.eval ⟨i, s'⟩ env := by
  induction e with
  | v r => rfl
  | tbl t off => rfl
  | set64 a b => rfl
  | inp k off => rfl
  | st off => cases h
  | shuf32 x n ih => simp only [Expr.noSt] at h; simp only [Expr.eval, ih h]
  | rev32 x ih => simp only [Expr.noSt] at h; simp only [Expr.eval, ih h]
  | alignr x y n ihx ihy => simp only [Expr.noSt, Bool.and_eq_true] at h; simp only [Expr.eval, ihx h.1, ihy h.2]
  | blend x y n ihx ihy => simp only [Expr.noSt, Bool.and_eq_true] at h; simp only [Expr.eval, ihx h.1, ihy h.2]
  | shuf8 x y ihx ihy => simp only [Expr.noSt, Bool.and_eq_true] at h; simp only [Expr.eval, ihx h.1, ihy h.2]
  | add x y ihx ihy => simp only [Expr.noSt, Bool.and_eq_true] at h; simp only [Expr.eval, ihx h.1, ihy h.2]
  | msg1 x y ihx ihy => simp only [Expr.noSt, Bool.and_eq_true] at h; simp only [Expr.eval, ihx h.1, ihy h.2]
  | su0 x y ihx ihy => simp only [Expr.noSt, Bool.and_eq_true] at h; simp only [Expr.eval, ihx h.1, ihy h.2]
  | msg2 x y ihx ihy => simp only [Expr.noSt, Bool.and_eq_true] at h; simp only [Expr.eval, ihx h.1, ihy h.2]
  | su1 x y z ihx ihy ihz => simp only [Expr.noSt, Bool.and_eq_true] at h; simp only [Expr.eval, ihx h.1.1, ihy h.1.2, ihz h.2]
  | rnds2 x y z ihx ihy ihz => simp only [Expr.noSt, Bool.and_eq_true] at h; simp only [Expr.eval, ihx h.1.1, ihy h.1.2, ihz h.2]
  | h x y z ihx ihy ihz => simp only [Expr.noSt, Bool.and_eq_true] at h; simp only [Expr.eval, ihx h.1.1, ihy h.1.2, ihz h.2]
  | h2 x y z ihx ihy ihz => simp only [Expr.noSt, Bool.and_eq_true] at h; simp only [Expr.eval, ihx h.1.1, ihy h.1.2, ihz h.2]

theorem run_noSt (i : Nat → Bytes) (s s' : St 32) (ps : List Stmt) (h : ps.all Stmt.noSt = true) (m : Mach) :
    runAll ⟨i, s⟩ ps m = runAll ⟨i, s'⟩ ps m := by
  induction ps generalizing m with
  | nil => rfl
  | cons p ps ih =>
    simp only [List.all_cons, Bool.and_eq_true] at h
    have : p.run ⟨i, s⟩ m = p.run ⟨i, s'⟩ m := by
      cases p with
      | set r e => simp only [Stmt.run, Expr.eval_noSt i s s' m.env e h.1]
      | out k off e => simp only [Stmt.run, Expr.eval_noSt i s s' m.env e h.1]
      | stSt off e => simp only [Stmt.run, Expr.eval_noSt i s s' m.env e h.1]
    change runAll _ ps (p.run _ m) = runAll _ ps (p.run _ m)
    rw [this, ih h.2]

theorem x86_noSt : (x86D1 ++ x86D2 ++ x86D3).all Stmt.noSt = true := by decide +kernel
theorem arm_noSt : (armD1 ++ armD2 ++ armD3).all Stmt.noSt = true := by decide +kernel

theorem twoWay_eq (prog : List Stmt) (hinted : List (Stmt × Hint)) (hp : hinted.map Prod.fst = prog) (hn : prog.all Stmt.noSt = true)
    (hr : (absRun nfD (fun i => 3 * i) hinted start).map AMach.stores = some stores2) (out0 out1 x y : Bytes) (h0 : out0.length = 32)
    (h1 : out1.length = 32) (hx : x.length = 64) (hy : y.length = 64) : twoWay prog out0 out1 x y = ((third x).bytes 4, (third y).bytes 4) := by
  rw [Option.map_eq_some_iff] at hr
  obtain ⟨a, ha, hs⟩ := hr
  have R := absRun_sound (semD x y) _ _ (semD_good x y hx hy) hinted Mach.new start a (mrel_start _) ha
  rw [hp] at R
  unfold twoWay
  simp only []
  rw [run_noSt _ _ Fips.iv256 prog hn]
  generalize runAll ⟨fun i => if i = 0 then x else y, Fips.iv256⟩ prog Mach.new = s at R
  have hl := R.len
  rw [hs] at hl
  obtain ⟨⟨d0, v0⟩, ⟨d1, v1⟩, ⟨d2, v2⟩, ⟨d3, v3⟩, hst⟩ := list4 s.stores hl
  have g := R.dst
  rw [hst, hs] at g
  obtain ⟨a0, e0, r0⟩ := g 0 d0 v0 rfl
  obtain ⟨a1, e1, r1⟩ := g 1 d1 v1 rfl
  obtain ⟨a2, e2, r2⟩ := g 2 d2 v2 rfl
  obtain ⟨a3, e3, r3⟩ := g 3 d3 v3 rfl
  simp only [stores2, List.getElem?_cons_zero, List.getElem?_cons_succ, Option.some.injEq, Prod.mk.injEq] at e0 e1 e2 e3
  obtain ⟨e0, e0'⟩ := e0
  obtain ⟨e1, e1'⟩ := e1
  obtain ⟨e2, e2'⟩ := e2
  obtain ⟨e3, e3'⟩ := e3
  subst e0 e1 e2 e3 e0' e1' e2' e3'
  have o2 : (semD x y).O 2 = third x := semD_O2 x y 2 rfl
  have o5 : (semD x y).O 5 = third y := semD_O2 x y 5 rfl
  rw [rel4] at r0 r1 r2 r3
  simp only [Sem.val, o2, o5] at r0 r1 r2 r3
  have four : ∀ (v : Lanes) (s : St 32) (k : Nat), v 0 = bswap (s.get (k + 0)) ∧ v 1 = bswap (s.get (k + 1)) ∧ v 2 = bswap (s.get (k + 2)) ∧
      v 3 = bswap (s.get (k + 3)) → ∀ l, l < 4 → v l = bswap (s.get (k + l)) := by
    rintro v s k ⟨h0, h1, h2, h3⟩ l hl
    have h : l = 0 ∨ l = 1 ∨ l = 2 ∨ l = 3 := by omega
    rcases h with h | h | h | h <;> subst h <;> assumption
  have b0 := two_stores (third x) v0 v1 (by have := four v0 _ 0 r0; simpa only [Nat.zero_add] using this) (four v1 _ 4 r1) out0 h0
  have b1 := two_stores (third y) v2 v3 (by have := four v2 _ 0 r2; simpa only [Nat.zero_add] using this) (four v3 _ 4 r3) out1 h1
  rw [hst]
  refine Prod.ext ?_ ?_
  · exact b0
  · exact b1

theorem third_bytes (x : Bytes) (h : x.length = 64) : (third x).bytes 4 = Fips.sha256 (Fips.sha256 x) := by
  have hS1 : Sha2.sha256 x = (Sha2.comp256 (Sha2.comp256 Sha2.iv256 x) (0x80 :: List.replicate 55 0 ++ beBytes 8 512)).bytes 4 := by
    rw [Sha2.sha256_blocks x (by omega)]
    unfold Fips.pad Fips.zeros
    rw [h, List.append_assoc]
    rw [Hashes.processBlocks_append 64 (by omega) Sha2.comp256 Sha2.iv256 x _ (by rw [h]), Hashes.processBlocks_one 64 (by omega) Sha2.comp256 _ _ h]
    rw [Hashes.processBlocks_one 64 (by omega) Sha2.comp256 _ _ (by decide)]
  have hs : Sha2.comp256 (Sha2.comp256 Sha2.iv256 x) (0x80 :: List.replicate 55 0 ++ beBytes 8 512) = second x := by
    rw [Sha2.comp256_eq, Sha2.comp256_eq, Sha2.compress_congr _ _ _ _ Sha2.pad64_words, Sha2.iv256_eq]
    rfl
  rw [hs] at hS1
  have hl32 : (Sha2.sha256 x).length = 32 := by rw [hS1, Sha2.St.bytes_length]
  have hS2 : Sha2.sha256 (Sha2.sha256 x) = (Sha2.comp256 Sha2.iv256 ((second x).bytes 4 ++ (0x80 :: List.replicate 23 0 ++ beBytes 8 256))).bytes 4 := by
    rw [Sha2.sha256_blocks _ (by omega)]
    unfold Fips.pad Fips.zeros
    rw [hl32, List.append_assoc, hS1]
    rw [Hashes.processBlocks_one 64 (by omega) Sha2.comp256 _ _ (by rw [List.length_append, Sha2.St.bytes_length]; decide)]
  rw [← Sha2.sha256_eq x (by omega), ← Sha2.sha256_eq _ (by omega), hS2, Sha2.comp256_eq, Sha2.iv256_eq]
  refine congrArg (St.bytes 4) (Sha2.compress_congr Fips.fns256 Fips.K256 _ _ ?_ 64 Fips.iv256)
  intro i hi
  by_cases h8 : i < 8
  · rw [Sha2.bytes_word _ _ i h8]; unfold Sha2.padWords; rw [if_pos h8]
  · have := Sha2.pad32_words (i - 8) (by omega)
    rw [show 8 + (i - 8) = i by omega] at this
    rw [pad32_words _ i (by omega), ← pad32_words ⟨0, 0, 0, 0, 0, 0, 0, 0⟩ i (by omega), ← this]
    generalize (0x80 :: List.replicate 23 0 ++ beBytes 8 256 : Bytes) = tl
    unfold Fips.word
    rw [List.drop_append, List.drop_of_length_le (l := (second x).bytes 4) (by rw [Sha2.St.bytes_length]; omega), List.nil_append, Sha2.St.bytes_length,
      show 4 * i - 8 * 4 = 4 * (i - 8) by omega]

theorem x86Sha256d64_eq (out0 out1 x y : Bytes) (h0 : out0.length = 32) (h1 : out1.length = 32) (hx : x.length = 64) (hy : y.length = 64) :
    x86Sha256d64 out0 out1 x y = (Fips.sha256 (Fips.sha256 x), Fips.sha256 (Fips.sha256 y)) := by
  unfold x86Sha256d64
  rw [twoWay_eq _ x86Hinted x86_hinted x86_noSt x86_stores out0 out1 x y h0 h1 hx hy, third_bytes x hx, third_bytes y hy]
theorem armSha256d64_eq (out0 out1 x y : Bytes) (h0 : out0.length = 32) (h1 : out1.length = 32) (hx : x.length = 64) (hy : y.length = 64) :
    armSha256d64 out0 out1 x y = (Fips.sha256 (Fips.sha256 x), Fips.sha256 (Fips.sha256 y)) := by
  unfold armSha256d64
  rw [twoWay_eq _ armHinted arm_hinted arm_noSt arm_stores out0 out1 x y h0 h1 hx hy, third_bytes x hx, third_bytes y hy]

end ShaNi
end Btc
