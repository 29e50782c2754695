import Verif.Bytes
/-!
# `ArrayVec`

internals/src/array_vec.rs. A slot of `[MaybeUninit<T>; CAP]` is an `Option T`: `none` is uninitialised memory. Doing what the unsafe
code must not do (a length past the array, reading an uninitialised slot) is undefined behaviour, the outer `none` of a result.
-/
namespace Btc
namespace AVec

/-- internals/src/array_vec.rs:18-22 `ArrayVec`. -/
structure AV (T : Type) (cap : Nat) where
  len : Nat
  data : List (Option T)

variable {T : Type} {cap : Nat}

/-- internals/src/array_vec.rs:27 `new`. -/
def new : AV T cap := ⟨0, List.replicate cap none⟩

/-- The loop of `from_slice` (39-42): writes `slice[i..]` at `i`; `none` is an index out of bounds (a panic). -/
def writeFrom (data : List (Option T)) (i : Nat) : List T → Option (List (Option T))
  | [] => some data
  | x :: xs => if i < data.length then writeFrom (data.set i (some x)) (i + 1) xs else none

/-- internals/src/array_vec.rs:34-45 `from_slice`; `none` is a panic. -/
def fromSlice (slice : List T) : Option (AV T cap) :=
  if slice.length ≤ cap then (writeFrom (List.replicate cap none) 0 slice).map fun data => ⟨slice.length, data⟩ else none

/-- internals/src/array_vec.rs:48-54 `as_slice`; `none` is undefined behaviour. -/
def AV.asSlice (a : AV T cap) : Option (List T) := if a.len ≤ a.data.length then (a.data.take a.len).mapM id else none

/-- internals/src/array_vec.rs:57-62 `as_mut_slice` followed by a write through the slice: `none` is undefined behaviour, `some none` the
panic of an index out of bounds. -/
def AV.setAt (a : AV T cap) (i : Nat) (x : T) : Option (Option (AV T cap)) :=
  if a.len ≤ a.data.length then some (if i < a.len then some { a with data := a.data.set i (some x) } else none) else none

/-- internals/src/array_vec.rs:65-68 `spare_capacity_mut`: the number of spare slots; they start at `len`. `none` is undefined behaviour. -/
def AV.spare (a : AV T cap) : Option Nat := if a.len ≤ a.data.length then some (a.data.length - a.len) else none

/-- A write by the caller to a slot of `spare_capacity_mut`, 65-68; `some none` is the panic of an index out of bounds. -/
def AV.setSpare (a : AV T cap) (i : Nat) (x : Option T) : Option (Option (AV T cap)) :=
  a.spare.map fun n => if i < n then some { a with data := a.data.set (a.len + i) x } else none

/-- internals/src/array_vec.rs:76-79 `set_len`. -/
def AV.setLen (a : AV T cap) (n : Nat) : AV T cap := { a with len := n }

/-- internals/src/array_vec.rs:225-229 `Error`. -/
inductive Error where
  | capacityExceeded (cap : Nat)
  deriving DecidableEq, Repr

/-- internals/src/array_vec.rs:99-111 `try_push`. -/
def AV.tryPush (a : AV T cap) (x : T) : Option (AV T cap × Except Error Unit) :=
  a.spare.map fun n =>
    if n = 0 then (a, .error (.capacityExceeded cap))
    else (({ a with data := a.data.set a.len (some x) } : AV T cap).setLen (a.len + 1), .ok ())

/-- internals/src/array_vec.rs:90-92 `push`; the flag is whether it panicked. -/
def AV.push (a : AV T cap) (x : T) : Option (AV T cap × Bool) :=
  (a.tryPush x).map fun
    | (a, .ok ()) => (a, false)
    | (a, .error _) => (a, true)

/-- internals/src/array_vec.rs:118-126 `pop`. -/
def AV.pop (a : AV T cap) : Option (AV T cap × Option T) :=
  a.asSlice.map fun s =>
    match s.getLast? with
    | none => (a, none)
    | some x => (a.setLen (a.len - 1), some x)

/-- `copy_from_slice` on `data[i..i + xs.len()]`, in bounds. -/
def copyAt (data : List (Option T)) (i : Nat) (xs : List (Option T)) : List (Option T) := data.take i ++ xs ++ data.drop (i + xs.length)

/-- internals/src/array_vec.rs:133-145 `extend_from_slice`; the flag is whether it panicked. -/
def AV.extendFromSlice (a : AV T cap) (slice : List T) : Option (AV T cap × Bool) :=
  a.spare.map fun n =>
    if slice.length ≤ n then (({ a with data := copyAt a.data a.len (slice.map some) } : AV T cap).setLen (a.len + slice.length), false)
    else (a, true)

/-- internals/src/array_vec.rs:158-160 `clone`; `some none` is a panic. -/
def AV.clone (a : AV T cap) : Option (Option (AV T cap)) := a.asSlice.map fromSlice

/-- internals/src/array_vec.rs:174-178 `eq`, also for two capacities. -/
def AV.eq [DecidableEq T] {cap₁ cap₂ : Nat} (a : AV T cap₁) (b : AV T cap₂) : Option Bool :=
  match a.asSlice, b.asSlice with
  | some s, some t => some (decide (s = t))
  | _, _ => none

/-- `<[T] as Ord>::cmp`: element by element, then the lengths. -/
def sliceCmp (cmp : T → T → Ordering) : List T → List T → Ordering
  | [], [] => .eq
  | [], _ :: _ => .lt
  | _ :: _, [] => .gt
  | x :: xs, y :: ys => (cmp x y).then (sliceCmp cmp xs ys)

/-- internals/src/array_vec.rs:200-210 `cmp`, `partial_cmp`. -/
def AV.cmp {cap₁ cap₂ : Nat} (c : T → T → Ordering) (a : AV T cap₁) (b : AV T cap₂) : Option Ordering :=
  match a.asSlice, b.asSlice with
  | some s, some t => some (sliceCmp c s t)
  | _, _ => none

/-- What `deserialize` reports (internals/src/array_vec.rs:286-303). -/
inductive SeqErr (E : Type) where
  | invalidLength (n : Nat)
  | element (e : E)

/-- internals/src/array_vec.rs:299-301: the loop of `visit_seq` over what `next_element` gives. -/
def visitLoop {E : Type} (out : AV T cap) : List (Except E T) → Option (Except (SeqErr E) (AV T cap))
  | [] => some (.ok out)
  | .error e :: _ => some (.error (.element e))
  | .ok x :: rest =>
    match out.tryPush x with
    | none => none
    | some (out, .ok ()) => visitLoop out rest
    | some (out, .error _) => out.asSlice.map fun s => .error (.invalidLength (s.length + 1))

/-- internals/src/array_vec.rs:286-303 `visit_seq`. -/
def visitSeq {E : Type} (hint : Option Nat) (seq : List (Except E T)) : Option (Except (SeqErr E) (AV T cap)) :=
  match hint with
  | some h => if h > cap then some (.error (.invalidLength h)) else visitLoop new seq
  | none => visitLoop new seq

end AVec
end Btc
