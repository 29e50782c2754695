import Verif.Units.U256
/-!
# The nearest double of a 256-bit integer

Model of `U256::to_f64` (include/u256.rs 362-394).  A double is its 64 bits, as in `f64::from_bits`.
-/
namespace Btc
namespace U256

/-- Checked `u128` subtraction: `none` is the overflow panic. -/
def subU128 (a b : BitVec 128) : Option (BitVec 128) := if b ≤ a then some (a - b) else none
/-- Checked `u128` addition. -/
def addU128 (a b : BitVec 128) : Option (BitVec 128) := if BitVec.uaddOverflow a b then none else some (a + b)
/-- Checked `u64` addition. -/
def addU64 (a b : BitVec 64) : Option (BitVec 64) := if BitVec.uaddOverflow a b then none else some (a + b)

/-- `to_f64`; `none` is an overflow panic. -/
def toF64 (x : U256) : Option (BitVec 64) :=
  let leadingZeroes := 256 - x.bits
  let left := shl x leadingZeroes
  let middle := shr left 75
  let mantissa := middle.hi
  let dropped := middle.lo ||| (left.lo &&& 0x7FFFFFFFFFFFFFFFFFF)
  (subU128 dropped ((dropped >>> 127) &&& ~~~mantissa)).bind fun d =>
    (addU128 mantissa (d >>> 127)).bind fun m =>
      let exponent : BitVec 64 := if x = zero then 0 else 1277 - BitVec.ofNat 64 leadingZeroes
      addU64 (exponent <<< 52) (m.setWidth 64)

end U256
end Btc
