import Verif.Bitcoin.Genesis
/-!
# Following a chain of headers

The program a client writes with `next_target_after` (bitcoin/src/pow.rs 221-272), `HeaderExt::validate_pow`
(bitcoin/src/blockdata/block.rs 64-75), `HeaderExt::work` (78) and `Add for Work` (units/src/pow.rs 109-112).
-/
namespace Btc
namespace HeaderSync
open Pow (Params nextTargetAfter fromCompact toWork)
open Genesis (validatePow)

/-- The closure `get_block_header_by_height` (pow.rs 226, 229): the headers kept so far, the error for heights without one. -/
def byHeight (l : List Header) (i : Nat) : Except Unit Header :=
  match l[i]? with
  | some h => .ok h
  | none => .error ()

/-- The bits required after `l` for a header with time `time` (pow.rs 221); `none` is a panic. -/
def required (p : Params) (l : List Header) (time : UInt32) : Option (Except Unit UInt32) :=
  match l.getLast? with
  | none => some (.error ())
  | some last => nextTargetAfter last (l.length - 1) p (some time) (byHeight l)

/-- `Result::is_ok`. -/
def isOk {ε α : Type} : Except ε α → Bool
  | .ok _ => true
  | .error _ => false

/-- Is `h` accepted after `l`?  With `strict` also its `bits` are compared, not only what `validate_pow` compares. -/
def accepts (H : Bytes → Arr 32) (p : Params) (strict : Bool) (l : List Header) (h : Header) : Option Bool :=
  match required p l h.time with
  | none => none
  | some (.error _) => some false
  | some (.ok bits) =>
    some (decide (l.getLast?.map (·.blockHash H) = some h.prev) && (!strict || h.bits == bits) &&
      isOk (validatePow H h (fromCompact bits)))

/-- The client: each incoming header is appended or ignored. -/
def follow (H : Bytes → Arr 32) (p : Params) (strict : Bool) : List Header → List Header → Option (List Header)
  | l, [] => some l
  | l, h :: hs =>
    match accepts H p strict l h with
    | none => none
    | some true => follow H p strict (l ++ [h]) hs
    | some false => follow H p strict l hs

/-- `acc + header.work()` over the headers; `none` is a panic. -/
def totalWork : U256 → List Header → Option U256
  | acc, [] => some acc
  | acc, h :: hs => (toWork (fromCompact h.bits)).bind fun w => (U256.add acc w).bind fun s => totalWork s hs

end HeaderSync
end Btc
