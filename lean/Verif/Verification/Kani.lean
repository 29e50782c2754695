import Verif.Units.NumOp
import Verif.Units.U256
import Verif.Internals.ArrayVec
/-!
# Model of the Kani proof harnesses

`units/src/amount/verification.rs`, `internals/src/array_vec.rs` (module `verification`) and `bitcoin/src/pow.rs` (module `verification`).
Kani runs a harness for every value of `kani::any`, up to a bound on loops.  Here the values are arguments and loops are not bounded.
-/
namespace Btc
namespace Kani

/-- What a run comes to: an assumption does not hold, all assertions hold, or an assertion fails or something panics. -/
inductive Run where
  | skipped | passed | failed
deriving DecidableEq, Repr

/-- `kani::assume`. -/
def assume (p : Bool) (r : Run) : Run := if p then r else .skipped
/-- `assert_eq!` and further. -/
def assert (p : Bool) (r : Run) : Run := if p then r else .failed
/-- A step that may panic. -/
def step {α : Type} (x : Option α) (f : α → Run) : Run :=
  match x with
  | none => .failed
  | some a => f a

/-- `==` of a `NumOpResult` and a valid one. -/
def isOk {α : Type} [DecidableEq α] (r : Amt.Res α) (x : α) : Bool :=
  match r with
  | .ok y => y = x
  | .error _ => false

open Amt Amt.NumOp

/-- `Result::is_ok`. -/
def good {ε α : Type} : Except ε α → Bool
  | .ok _ => true
  | .error _ => false

/-- `u_amount_homomorphic` (verification.rs 23-41). -/
def uAmount (n1 n2 : Nat) : Run :=
  assume (good (fromSat n1)) <| assume (good (fromSat n2)) <|
  step (expect (fromSat n1)) fun a => step (expect (fromSat n2)) fun b =>
  step (checkedAdd a b) fun sum => assume sum.isSome <|
  step (addTT (s := false) a b) fun r => step (u64Add n1 n2) fun n => step (expect (fromSat n)) fun c => assert (isOk r c) <|
  step (expect (fromSat (max n1 n2))) fun x => step (expect (fromSat (min n1 n2))) fun y =>
  step (u64Sub (max n1 n2) (min n1 n2)) fun m => step (expect (fromSat m)) fun d =>
  step (subTT (s := false) x y) fun r => assert (isOk r d) .passed

/-- `s_amount_homomorphic` (verification.rs 45-61). -/
def sAmount (n1 n2 : Int) : Run :=
  assume (good (sFromSat n1)) <| assume (good (sFromSat n2)) <|
  step (expect (sFromSat n1)) fun a => step (expect (sFromSat n2)) fun b =>
  assume (sCheckedAdd a b).isSome <| assume (sCheckedSub a b).isSome <|
  step (addTT (s := true) a b) fun r => step (i64 (n1 + n2)) fun n => step (expect (sFromSat n)) fun c => assert (isOk r c) <|
  step (i64 (n1 - n2)) fun m => step (expect (sFromSat m)) fun d => step (subTT (s := true) a b) fun r => assert (isOk r d) .passed

open AVec

/-- The first loop of the array harnesses (array_vec.rs 451-454, 470-473): a panic of `push`, or undefined behaviour, is `none`. -/
def pushAll {T : Type} {cap : Nat} (val : T) : Nat → AV T cap → Option (AV T cap)
  | 0, v => some v
  | k + 1, v =>
    match v.push val with
    | some (v, false) => pushAll val k v
    | _ => none

/-- The second loop (456-458, 475-477), from `i` for `k` elements; indexing goes through `as_slice`. -/
def readAll {T : Type} [DecidableEq T] {cap : Nat} (val : T) (v : AV T cap) : Nat → Nat → Run
  | 0, _ => .passed
  | k + 1, i => step v.asSlice fun s => step s[i]? fun x => assert (x = val) (readAll val v k (i + 1))

/-- `no_out_of_bounds_less_than_cap` (444-459) and `no_out_of_bounds_upto_cap` (463-478), which have the capacities 32 and 15, and at most
15 elements. -/
def array (cap elements : Nat) (val : UInt32) : Run :=
  step (pushAll val elements (new : AV UInt32 cap)) fun v => readAll val v elements 0

/-- One iteration of the loop of `mul_u64` with overflow checks (pow.rs 127-133): the sum and the product are of type `u128`. -/
def mulStepChecked (rhs : BitVec 64) (carry : BitVec 128) (word : BitVec 64) : Option (BitVec 64 × BitVec 128) :=
  if rhs.toNat * word.toNat < 2 ^ 128 then
    if carry.toNat + rhs.toNat * word.toNat < 2 ^ 128 then some (U256.mulStep rhs carry word) else none
  else none

/-- `check_mul_u64` (pow.rs 835-840): only that nothing panics. -/
def mulU64 (x : U256) (y : BitVec 64) : Run :=
  step (mulStepChecked y 0 (x.lo.setWidth 64)) fun s0 => step (mulStepChecked y s0.2 ((x.lo >>> 64).setWidth 64)) fun s1 =>
  step (mulStepChecked y s1.2 (x.hi.setWidth 64)) fun s2 => step (mulStepChecked y s2.2 ((x.hi >>> 64).setWidth 64)) fun _ => .passed

end Kani
end Btc
