import Verif.Bytes
/-!
# Model of the merkle root algorithms (primitives/src/merkle_tree.rs)

`α` is the node type, `c` is `MerkleNode::combine`.  `usize` counters do not overflow.
-/
namespace Btc
namespace Merkle
variable {α : Type} [DecidableEq α] (c : α → α → α)

/-- Why a loop stopped early. -/
inductive Stop where
  | dup       -- `return None` for equal siblings
  | full      -- `return None`, stack of 15 full (no-alloc builds)
  | panic     -- `unwrap` of an empty stack or failed `assert!`
deriving DecidableEq, Repr

/-- The inner loop (merkle_tree.rs 75-88); the stack's top is the head.  `fuel` bounds the number of
iterations, `n` itself is enough. -/
def mergeUp : Nat → Nat → List (Nat × α) → Except Stop (List (Nat × α))
  | 0, n, st => if n % 2 = 1 then .error .panic else .ok st
  | fuel + 1, n, st =>
    if n % 2 = 1 then
      match st with
      | right :: left :: st =>
        if left.2 = right.2 then .error .dup
        else mergeUp fuel (n / 2) ((left.1 + 1, c left.2 right.2) :: st)
      | _ => .error .panic
    else .ok st

/-- The loop over the leaves (67-89); `cap` is `some 15` without the `alloc` feature (70-72). -/
def pushAll (cap : Option Nat) : Nat → List α → List (Nat × α) → Except Stop (List (Nat × α))
  | _, [], st => .ok st
  | n, leaf :: leaves, st =>
    if cap = some st.length then .error .full
    else
      match mergeUp c n n ((0, leaf) :: st) with
      | .error e => .error e
      | .ok st => pushAll cap (n + 1) leaves st

/-- The loop of 106-109: double `right` until its level is `to`; `fuel = to - level`. -/
def raise : Nat → Nat × α → Nat → Except Stop (Nat × α)
  | 0, right, to => if right.1 = to then .ok right else .error .panic
  | fuel + 1, right, to =>
    if right.1 = to then .ok right
    else if right.1 < to then raise fuel (right.1 + 1, c right.2 right.2) to
    else .error .panic

/-- The loop of 103-111; every iteration removes an element, `fuel` is the length. -/
def flush : Nat → List (Nat × α) → Except Stop (List (Nat × α))
  | fuel + 1, right :: left :: st =>
    match raise c (left.1 - right.1) right left.1 with
    | .error e => .error e
    | .ok right => flush fuel ((left.1 + 1, c left.2 right.2) :: st)
  | _, st => .ok st

/-- `MerkleNode::calculate_root`, the streaming algorithm (59-115).  The outer `none` is a panic. -/
def calculateRoot (cap : Option Nat) (leaves : List α) : Option (Option α) :=
  match pushAll c cap 0 leaves [] with
  | .error .panic => none
  | .error _ => some none
  | .ok st =>
    match flush c st.length st with
    | .error .panic => none
    | .error _ => some none
    | .ok st => some (st.head?.map (·.2))

/-- `nodes.chunks_exact(2)` mapped with `f`. -/
def chunks2 {β : Type} (f : α → α → β) : List α → List β
  | a :: b :: t => f a b :: chunks2 f t
  | _ => []

/-- Duplicate the last node of an odd level (133-137). -/
def pad (nodes : List α) : List α :=
  if nodes.length % 2 ≠ 0 then
    match nodes.getLast? with
    | some l => nodes ++ [l]
    | none => nodes
  else nodes

/-- The loop of `calculate_root_batched` (125-153); `fuel` is the number of nodes. -/
def batchLoop : Nat → List α → Option (List α)
  | 0, nodes => if nodes.length > 1 then none else some nodes
  | fuel + 1, nodes =>
    if nodes.length > 1 then
      if (chunks2 (fun a b => decide (a = b)) nodes).any id then none
      else batchLoop fuel (chunks2 c (pad nodes))
    else some nodes

/-- `calculate_root_batched` (120-156). -/
def calculateRootBatched (nodes : List α) : Option α :=
  if nodes.isEmpty then none
  else (batchLoop c nodes.length nodes).bind (·.head?)

end Merkle
end Btc
