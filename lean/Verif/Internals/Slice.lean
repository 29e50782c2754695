import Verif.Bytes
/-!
# Slices and arrays

Model of `internals/src/slice.rs` and `internals/src/array.rs`.  A slice is a window of a memory region, so that the
`unsafe` casts can leave it; a length of the window and an offset in it are `usize` of 64 bits.  Constant conditions that
stop the compilation (`Hack`, `Hack2`) are `none` here.
-/
namespace Btc
namespace SliceM

/-- A slice: `len` elements of a region from `start`. -/
structure Slice (T : Type) where
  mem : List T
  start : Nat
  len : Nat
deriving DecidableEq, Repr

/-- What a slice reads as. -/
def Slice.elems {T : Type} (s : Slice T) : List T := (s.mem.drop s.start).take s.len

/-- `split_at` of the standard library; `none` is its panic. -/
def Slice.splitAt {T : Type} (s : Slice T) (mid : Nat) : Option (Slice T × Slice T) :=
  if mid ≤ s.len then some (⟨s.mem, s.start, mid⟩, ⟨s.mem, s.start + mid, s.len - mid⟩) else none

/-- `from_raw_parts` of the pointer of a slice cast to arrays of `n`; `none` is undefined behaviour: the arrays are not
inside the slice the pointer comes from. -/
def rawParts {T : Type} (s : Slice T) (n count : Nat) : Option (List (List T)) :=
  if count * n ≤ s.len then some ((List.range count).map fun i => (s.mem.drop (s.start + i * n)).take n) else none

/-- `bitcoin_as_chunks` (slice.rs 59-74); `bitcoin_as_chunks_mut` (76-96) computes the same window. -/
def asChunks {T : Type} (n : Nat) (s : Slice T) : Option (List (List T) × Slice T) :=
  if n = 0 then none
  else
    let count := s.len / n
    match s.splitAt (count * n) with
    | none => none
    | some (left, right) => (rawParts left n count).map fun l => (l, right)

/-- Storing an array through the `i`-th chunk of `bitcoin_as_chunks_mut` (the pointer arithmetic of 89-94): the slice
after it. -/
def storeChunk {T : Type} (n : Nat) (s : Slice T) (i : Nat) (a : List T) : Slice T :=
  { s with mem := s.mem.take (s.start + i * n) ++ a ++ s.mem.drop (s.start + i * n + n) }

/-- `get(from..to)` of the standard library. -/
def Slice.get {T : Type} (s : Slice T) (a b : Nat) : Option (List T) :=
  if a ≤ b ∧ b ≤ s.len then some ((s.elems.drop a).take (b - a)) else none

/-- `get_array` (slice.rs 98-104).  The outer `none` is a panic: of the addition in builds with overflow checks, or of
`expect`. -/
def getArray {T : Type} (checks : Bool) (n : Nat) (s : Slice T) (offset : Nat) : Option (Option (List T)) :=
  if checks = true ∧ 2 ^ 64 ≤ offset + n then none
  else match s.get offset ((offset + n) % 2 ^ 64) with
    | none => some none
    | some l => if l.length = n then some (some l) else none

/-- `split_first_chunk` (slice.rs 106-114), `split_last_chunk` (116-127). -/
def splitFirstChunk {T : Type} (n : Nat) (s : Slice T) : Option (Option (List T × List T)) :=
  if s.len < n then some none
  else match s.splitAt n with
    | none => none
    | some (f, r) => if f.elems.length = n then some (some (f.elems, r.elems)) else none
def splitLastChunk {T : Type} (n : Nat) (s : Slice T) : Option (Option (List T × List T)) :=
  if s.len < n then some none
  else match s.splitAt (s.len - n) with
    | none => none
    | some (r, l) => if l.elems.length = n then some (some (r.elems, l.elems)) else none

/-- `sub_array` (array.rs 78-83) on an array, with `IS_VALID_RANGE` (97-99). -/
def subArray {T : Type} (a : List T) (offset len : Nat) : Option (List T) :=
  if offset + len ≤ a.length then
    let r := (a.drop offset).take len
    if r.length = len then some r else none
  else none

/-- `split_array` (85-92) with `IS_FULL_RANGE` (103-105). -/
def splitArray {T : Type} (a : List T) (left right : Nat) : Option (List T × List T) :=
  if left + right = a.length then
    match subArray a 0 left, subArray a left right with
    | some x, some y => some (x, y)
    | _, _ => none
  else none

/-- `get_static` (20), `first` (31), `split_first` (52-55), `split_last` (69-72). -/
def getStatic {T : Type} (a : List T) (i : Nat) : Option T := (subArray a i 1).bind fun l => l[0]?
def first {T : Type} (a : List T) : Option T := getStatic a 0
def splitFirst {T : Type} (a : List T) (right : Nat) : Option (T × List T) :=
  (splitArray a 1 right).bind fun (l, r) => l[0]?.map fun x => (x, r)
def splitLast {T : Type} (a : List T) (left : Nat) : Option (T × List T) :=
  (splitArray a left 1).bind fun (l, r) => r[0]?.map fun x => (x, l)

end SliceM
end Btc
