import Verif.Bytes
/-!
# Comparing secrets: hashes/src/cmp.rs
-/
namespace Btc
namespace Cmp

/-- hashes/src/cmp.rs:35-42: the loop; volatile reads and writes are plain ones. -/
def accumulate (lhs rhs : Bytes) : Nat → UInt8 → UInt8
  | 0, r => r
  | n + 1, r => accumulate lhs rhs n (r ||| (lhs[lhs.length - (n + 1)]! ^^^ rhs[lhs.length - (n + 1)]!))

/-- hashes/src/cmp.rs:43-63: fold the eight bits into the lowest. -/
def collapse (r : UInt8) : Bool :=
  let t := r ||| (r >>> 4)
  let t := t ||| (t >>> 2)
  let t := t ||| (t >>> 1)
  t &&& 1 == 0

/-- hashes/src/cmp.rs:21-66, `fixed_time_eq` without `hashes_fuzz`; `none` is the assertion at line 30. -/
def fixedTimeEq (a b : Bytes) : Option Bool :=
  if a.length = b.length then some (collapse (accumulate a b a.length 0)) else none

end Cmp
end Btc
