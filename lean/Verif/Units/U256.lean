import Verif.Text
/-!
# Model of the 256-bit integer (include/u256.rs, included by units/src/pow.rs and bitcoin/src/pow.rs)

`u128` and `u64` are `BitVec 128` and `BitVec 64`.  Debug assertions and overflow checks are modelled
(an outer `none` is a panic), except the two `+=` of the shifts and the `carry +` of `mul_u64`, which are
proved not to overflow (`C43_no_overflow`).
-/
namespace Btc

/-- `U256(u128, u128)`: high limb, low limb (u256.rs 10-13). -/
structure U256 where
  hi : BitVec 128
  lo : BitVec 128
deriving DecidableEq, Repr

namespace U256

/-- `MAX`, `ZERO`, `ONE` (17-22). -/
def max : U256 := ⟨BitVec.allOnes 128, BitVec.allOnes 128⟩
def zero : U256 := ⟨0, 0⟩
def one : U256 := ⟨0, 1⟩

/-- `From<T: Into<u128>>` (385-387). -/
def ofU128 (x : BitVec 128) : U256 := ⟨0, x⟩

/-- The derived `Ord`: lexicographic, high limb first (12). -/
def lt (x y : U256) : Bool := x.hi < y.hi || (x.hi == y.hi && x.lo < y.lo)
def le (x y : U256) : Bool := !lt y x

/-- `from_be_bytes` (25-30), `from_le_bytes` (33-38), `split_in_half` (500-508). -/
def ofBeBytes (a : Arr 32) : U256 :=
  ⟨BitVec.ofNat 128 (beNat (a.1.take 16)), BitVec.ofNat 128 (beNat (a.1.drop 16))⟩
def ofLeBytes (a : Arr 32) : U256 :=
  ⟨BitVec.ofNat 128 (leNat (a.1.drop 16)), BitVec.ofNat 128 (leNat (a.1.take 16))⟩

/-- `to_be_bytes` (41-46), `to_le_bytes` (49-54). -/
def toBeBytes (x : U256) : Bytes := beBytes 16 x.hi.toNat ++ beBytes 16 x.lo.toNat
def toLeBytes (x : U256) : Bytes := leBytes 16 x.lo.toNat ++ leBytes 16 x.hi.toNat

/-- `is_zero`, `is_one`, `is_max` (82-86). -/
def isZero (x : U256) : Bool := x.hi == 0 && x.lo == 0
def isOne (x : U256) : Bool := x.hi == 0 && x.lo == 1
def isMax (x : U256) : Bool := x.hi == BitVec.allOnes 128 && x.lo == BitVec.allOnes 128

/-- `low_u64` (92). -/
def lowU64 (x : U256) : BitVec 64 := x.lo.setWidth 64

/-- `low_u32` (89). -/
def lowU32 (x : U256) : BitVec 32 := x.lo.setWidth 32

/-- `saturating_to_u128` (99-105). -/
def saturatingToU128 (x : U256) : BitVec 128 :=
  if lt (ofU128 (BitVec.allOnes 128)) x then BitVec.allOnes 128 else x.lo

/-- `u128::leading_zeros`. -/
def leadingZeros (x : BitVec 128) : Nat := if x = 0 then 128 else 127 - Nat.log2 x.toNat

/-- `bits` (108-114). -/
def bits (x : U256) : Nat :=
  if x.hi > 0 then 256 - leadingZeros x.hi else 128 - leadingZeros x.lo

/-- One iteration of the loop of `mul_u64` (127-133). -/
def mulStep (rhs : BitVec 64) (carry : BitVec 128) (word : BitVec 64) : BitVec 64 × BitVec 128 :=
  let n := carry + rhs.setWidth 128 * word.setWidth 128
  (n.setWidth 64, n >>> 64)

/-- `mul_u64` (122-138). -/
def mulU64 (x : U256) (rhs : BitVec 64) : U256 × Bool :=
  let s0 := mulStep rhs 0 (x.lo.setWidth 64)
  let s1 := mulStep rhs s0.2 ((x.lo >>> 64).setWidth 64)
  let s2 := mulStep rhs s1.2 (x.hi.setWidth 64)
  let s3 := mulStep rhs s2.2 ((x.hi >>> 64).setWidth 64)
  (⟨s2.1.setWidth 128 ||| (s3.1.setWidth 128 <<< 64), s0.1.setWidth 128 ||| (s1.1.setWidth 128 <<< 64)⟩,
    s3.2 != 0)

/-- `overflowing_add` (190-207). -/
def overflowingAdd (x y : U256) : U256 × Bool :=
  let high := x.hi + y.hi
  let o1 := BitVec.uaddOverflow x.hi y.hi
  let low := x.lo + y.lo
  if BitVec.uaddOverflow x.lo y.lo then
    (⟨high + 1, low⟩, o1 || BitVec.uaddOverflow high 1)
  else (⟨high, low⟩, o1)

/-- `wrapping_add` (255-258). -/
def wrappingAdd (x y : U256) : U256 := (overflowingAdd x y).1

/-- `Not` (433-437). -/
def not (x : U256) : U256 := ⟨~~~x.hi, ~~~x.lo⟩

/-- `overflowing_sub` (213-218). -/
def overflowingSub (x y : U256) : U256 × Bool :=
  (wrappingAdd (wrappingAdd x (not y)) one, lt x y)

/-- `wrapping_sub` (263-266). -/
def wrappingSub (x y : U256) : U256 := (overflowingSub x y).1

/-- `wrapping_inc` (279-289). -/
def wrappingInc (x : U256) : U256 :=
  let low := x.lo + 1
  ⟨if low = 0 then x.hi + 1 else x.hi, low⟩

/-- `wrapping_shl` (298-316); `u128::wrapping_shr` by less than 128. -/
def shl (x : U256) (rhs : Nat) : U256 :=
  let shift := rhs % 256
  let bitShift := shift % 128
  if shift ≥ 128 then ⟨x.lo <<< bitShift, 0⟩
  else
    ⟨x.hi <<< bitShift + (if bitShift > 0 then x.lo >>> (128 - bitShift) else 0), x.lo <<< bitShift⟩

/-- `wrapping_shr` (325-343). -/
def shr (x : U256) (rhs : Nat) : U256 :=
  let shift := rhs % 256
  let bitShift := shift % 128
  if shift ≥ 128 then ⟨0, x.hi >>> bitShift⟩
  else
    ⟨x.hi >>> bitShift, x.lo >>> bitShift + (if bitShift > 0 then x.hi <<< (128 - bitShift) else 0)⟩

/-- One iteration of the loop of `overflowing_mul` (231-245). -/
def mulLoopStep (x rhs : U256) (i : Nat) (acc : U256 × Bool) : U256 × Bool :=
  let toMul := lowU64 (shr rhs (64 * i))
  let m := mulU64 x toMul
  let overflowBits := if i > 0 then shr m.1 (256 - 64 * i) else zero
  let s := overflowingAdd acc.1 (shl m.1 (64 * i))
  (s.1, ((acc.2 || m.2) || lt zero overflowBits) || s.2)

/-- `overflowing_mul` (227-248). -/
def overflowingMul (x rhs : U256) : U256 × Bool :=
  [0, 1, 2, 3].foldl (fun acc i => mulLoopStep x rhs i acc) (zero, false)

/-- The loop of `div_rem` (167-178); `shift` counts down.  The quotient limbs are indexed by
`1 - shift / 128`, low limb last. -/
def divLoop : Nat → U256 → U256 → U256 → U256 × U256
  | shift, subCopy, shiftCopy, ret =>
    let hit := le shiftCopy subCopy
    let bit : BitVec 128 := (1 : BitVec 128) <<< (shift % 128)
    let ret := if hit then
        (if shift / 128 = 0 then ⟨ret.hi, ret.lo ||| bit⟩ else ⟨ret.hi ||| bit, ret.lo⟩ : U256)
      else ret
    let subCopy := if hit then wrappingSub subCopy shiftCopy else subCopy
    match shift with
    | 0 => (ret, subCopy)
    | shift + 1 => divLoop shift subCopy (shr shiftCopy 1) ret

/-- `div_rem` (150-181); `none` is the panic for a zero divisor. -/
def divRem (x rhs : U256) : Option (U256 × U256) :=
  if bits rhs = 0 then none
  else if bits x < bits rhs then some (zero, x)
  else
    let shift := bits x - bits rhs
    some (divLoop shift x (shl rhs shift) zero)

/-- `Add`, `Sub`, `Mul` (389-414) with debug assertions, `Div`, `Rem` (416-424). -/
def add (x y : U256) : Option U256 := let r := overflowingAdd x y; if r.2 then none else some r.1
def sub (x y : U256) : Option U256 := let r := overflowingSub x y; if r.2 then none else some r.1
def mul (x y : U256) : Option U256 := let r := overflowingMul x y; if r.2 then none else some r.1
def div (x y : U256) : Option U256 := (divRem x y).map (·.1)
def rem (x y : U256) : Option U256 := (divRem x y).map (·.2)

/-- `inverse` (63-80). -/
def inverse (x : U256) : Option U256 :=
  if x.isZero then some max
  else if x.isOne then some max
  else if x.isMax then some one
  else (div (not x) (wrappingInc x)).map wrappingInc

/-- The loop of `fmt_decimal` (353-361): the digits of `cur` in front of `acc`; `i` is the free room in
the 78-byte buffer, underflow panics. -/
def fmtLoop : Nat → U256 → Bytes → Option Bytes
  | i, cur, acc =>
    match rem cur ⟨0, 10⟩, div cur ⟨0, 10⟩ with
    | some r, some q =>
      let acc := ((r.lo.setWidth 8).toNat.toUInt8 + 48) :: acc
      if q.isZero then some acc
      else match i with
        | 0 => none
        | i + 1 => fmtLoop i q acc
    | _, _ => none

/-- `Display` (449-457), without width or flags. -/
def display (x : U256) : Option Bytes := if x.isZero then some [48] else fmtLoop 77 x []

/-- `ParseU256Error` (553-560); `InvalidEncoding` (a chunk cutting a multi-byte character) is merged into
`invalidDigit`. -/
inductive ParseErr where
  | empty | invalidDigit | overflow
deriving DecidableEq, Repr

/-- The loop of `from_str` over the chunks (524-538). -/
def fromStrLoop : List Bytes → U256 → Except ParseErr U256
  | [], result => .ok result
  | chunk :: chunks, result =>
    match parseUInt (2 ^ 128 - 1) 10 chunk with
    | .error _ => .error .invalidDigit
    | .ok val =>
      let r1 := overflowingMul result (ofU128 (BitVec.ofNat 128 (10 ^ 38)))
      let r2 := overflowingAdd r1.1 (ofU128 (BitVec.ofNat 128 val))
      if r1.2 || r2.2 then .error .overflow else fromStrLoop chunks r2.1

/-- `chunks(38)` of a list whose length is a multiple of 38. -/
def chunks38 : Nat → Bytes → List Bytes
  | 0, _ => []
  | fuel + 1, s => if s.isEmpty then [] else s.take 38 :: chunks38 fuel (s.drop 38)

/-- `rchunks(38).rev()`: a short first chunk, then chunks of 38. -/
def rchunks38 (s : Bytes) : List Bytes :=
  let r := s.length % 38
  (if r = 0 then [] else [s.take r]) ++ chunks38 s.length (s.drop r)

/-- `FromStr` (512-542). -/
def fromStr (s : Bytes) : Except ParseErr U256 :=
  if s.isEmpty then .error .empty else fromStrLoop (rchunks38 s) zero

end U256
end Btc
