import Verif.Bytes
/-!
# Serde's data model

The implementations of `Serialize` and `Deserialize` in the repository talk to a data format through serde's two interfaces: one call on the
`Serializer` for a value (`SVal`), and, for reading, a hint to the `Deserializer` (`Hint`), which answers with one call on the visitor
(`Visit`).  The crate `serde` and the data formats are external; a format is whatever keeps serde's contract, stated here as `Fmt.visit`: a
hint that fits the stored value is answered with that value.  What a format does with a hint that does not fit is up to the format
(`Fmt.other`), so a theorem for all formats shows that an implementation never asks for anything but what it wrote.

Simplified: the widths of integers are kept in values and hints, but a visitor sees the number only (the default methods of `Visitor` forward
the narrow calls to `visit_u64` and `visit_i64`); `visit_string` and `visit_borrowed_str` forward to `visit_str`; text is bytes.  The message of an error is not modelled.
-/
namespace Btc.Serde

/-- A call on the `Serializer`, with what is serialized inside it. -/
inductive SVal where
  /-- `serialize_u8`, `_u16`, `_u32`, `_u64` by width -/
  | uint (w n : Nat)
  /-- `serialize_i32`, `_i64` -/
  | sint (w : Nat) (z : Int)
  /-- `serialize_f64`: the bits -/
  | f64 (bits : Nat)
  | str (s : Bytes)
  | bytes (b : Bytes)
  | none
  | some (v : SVal)
  | seq (vs : List SVal)
  | tuple (vs : List SVal)
  | newtype (v : SVal)
  | struct (fs : List (Bytes × SVal))
  | unitVariant (idx : Nat) (name : Bytes)
  | newtypeVariant (idx : Nat) (name : Bytes) (v : SVal)
  | tupleVariant (idx : Nat) (name : Bytes) (vs : List SVal)

/-- The method called on the `Deserializer`. -/
inductive Hint where
  | uint (w : Nat)
  | sint (w : Nat)
  | f64
  | str
  | string
  | bytes
  | byteBuf
  | option
  | seq
  | tuple (n : Nat)
  | newtype
  | struct (names : List Bytes)
  | enum (names : List Bytes)
deriving DecidableEq

/-- What a variant holds. -/
inductive Content where
  | unit
  | newtype (v : SVal)
  | tuple (vs : List SVal)

/-- The call the `Deserializer` makes on the visitor. -/
inductive Visit where
  | uint (n : Nat)
  | int (z : Int)
  | f64 (bits : Nat)
  | str (s : Bytes)
  /-- `visit_borrowed_bytes` or `visit_bytes`/`visit_byte_buf` -/
  | bytes (borrowed : Bool) (b : Bytes)
  | none
  | some (v : SVal)
  | newtype (v : SVal)
  /-- `visit_seq`, with what `size_hint` says -/
  | seq (hint : Option Nat) (vs : List SVal)
  | map (fs : List (Bytes × SVal))
  | enum (name : Bytes) (c : Content)

/-- A data format. -/
structure Fmt where
  /-- `is_human_readable` -/
  human : Bool
  /-- whether `deserialize_struct` is answered by `visit_map` or by `visit_seq` -/
  structAsMap : Bool
  /-- whether a signed number that is not negative is given to `visit_u64` (as JSON does) or to `visit_i64` -/
  posAsUint : Bool
  /-- whether `size_hint` knows the length -/
  sized : Bool
  /-- whether byte strings are lent out -/
  lends : Bool
  /-- the answer to a hint that does not fit; `none` is an error -/
  other : Hint → SVal → Option Visit

/-- The hint asks for what was written.  Text formats need not have byte strings, so nothing is promised about those. -/
def fits (F : Fmt) : Hint → SVal → Bool
  | .uint w, .uint w' _ => w == w'
  | .sint w, .sint w' _ => w == w'
  | .f64, .f64 _ => true
  | .str, .str _ => true
  | .string, .str _ => true
  | .bytes, .bytes _ => !F.human
  | .byteBuf, .bytes _ => !F.human
  | .option, .none => true
  | .option, .some _ => true
  | .seq, .seq _ => true
  | .tuple n, .tuple vs => vs.length == n
  | .newtype, .newtype _ => true
  | .struct ns, .struct fs => fs.map (·.1) == ns
  | .enum ns, .unitVariant i n => ns[i]? == some n
  | .enum ns, .newtypeVariant i n _ => ns[i]? == some n
  | .enum ns, .tupleVariant i n _ => ns[i]? == some n
  | _, _ => false

/-- The value, as a visitor sees it. -/
def canon (F : Fmt) : SVal → Visit
  | .uint _ n => .uint n
  | .sint _ z => if F.posAsUint && decide (0 ≤ z) then .uint z.toNat else .int z
  | .f64 x => .f64 x
  | .str s => .str s
  | .bytes b => .bytes F.lends b
  | .none => .none
  | .some v => .some v
  | .seq vs => .seq (if F.sized then some vs.length else none) vs
  | .tuple vs => .seq (if F.sized then some vs.length else none) vs
  | .newtype v => .newtype v
  | .struct fs => if F.structAsMap then .map fs else .seq (if F.sized then some fs.length else none) (fs.map (·.2))
  | .unitVariant _ n => .enum n .unit
  | .newtypeVariant _ n v => .enum n (.newtype v)
  | .tupleVariant _ n vs => .enum n (.tuple vs)

/-- The contract of a format. -/
def Fmt.visit (F : Fmt) (h : Hint) (v : SVal) : Option Visit := if fits F h v then some (canon F v) else F.other h v

/-- Every failure that is not a panic is one error. -/
inductive Err where
  | refused
  | panic
deriving DecidableEq

abbrev R (α : Type) := Except Err α

/-- `Err(_)` of a conversion or a parser. -/
def ofOpt {α : Type} : Option α → R α
  | some x => .ok x
  | none => .error .refused

def ofExcept {ε α : Type} : Except ε α → R α
  | .ok x => .ok x
  | .error _ => .error .refused

/-! ### The implementations of the crate `serde` for the types of the standard library -/

/-- `u8::deserialize` … `u64::deserialize`. -/
def deUint (w : Nat) (F : Fmt) (v : SVal) : R Nat :=
  match F.visit (.uint w) v with
  | some (.uint n) => if n < 2 ^ w then .ok n else .error .refused
  | some (.int z) => if 0 ≤ z ∧ z.toNat < 2 ^ w then .ok z.toNat else .error .refused
  | _ => .error .refused

/-- `i32::deserialize`, `i64::deserialize`. -/
def deSint (w : Nat) (F : Fmt) (v : SVal) : R Int :=
  match F.visit (.sint w) v with
  | some (.uint n) => if n < 2 ^ (w - 1) then .ok n else .error .refused
  | some (.int z) => if -(2 ^ (w - 1) : Nat) ≤ z ∧ z < (2 ^ (w - 1) : Nat) then .ok z else .error .refused
  | _ => .error .refused

/-- `f64::deserialize`; `cast` is `as f64` on integers. -/
def deF64 (cast : Int → Nat) (F : Fmt) (v : SVal) : R Nat :=
  match F.visit .f64 v with
  | some (.f64 b) => .ok b
  | some (.uint n) => .ok (cast n)
  | some (.int z) => .ok (cast z)
  | _ => .error .refused

/-- `String::deserialize`. -/
def deString (F : Fmt) (v : SVal) : R Bytes :=
  match F.visit .string v with
  | some (.str s) => .ok s
  | some (.bytes _ b) => if (ByteArray.mk b.toArray).validateUTF8 then .ok b else .error .refused
  | _ => .error .refused

/-- `while let Some(x) = seq.next_element()?`. -/
def readAll {α : Type} (de : SVal → R α) : List SVal → R (List α)
  | [] => .ok []
  | v :: vs =>
    match de v with
    | .error e => .error e
    | .ok x =>
      match readAll de vs with
      | .error e => .error e
      | .ok xs => .ok (x :: xs)

/-- `Vec::<T>::deserialize`. -/
def deVec {α : Type} (de : SVal → R α) (F : Fmt) (v : SVal) : R (List α) :=
  match F.visit .seq v with
  | some (.seq _ vs) => readAll de vs
  | _ => .error .refused

/-- `isize::MAX` on a 64-bit target. -/
def isizeMax : Nat := 2 ^ 63 - 1

/-- `Vec::with_capacity(seq.size_hint().unwrap_or(0))` for elements of `size` bytes, which panics if that is more than `isize::MAX` bytes,
then `while let Some(x) = seq.next_element()?`. -/
def readVec {α : Type} (size : Nat) (de : SVal → R α) (hint : Option Nat) (vs : List SVal) : R (List α) :=
  if size * hint.getD 0 > isizeMax then .error .panic else readAll de vs

/-- `<[T; N]>::deserialize`: reads `N` elements. -/
def deArray {α : Type} (n : Nat) (de : SVal → R α) (F : Fmt) (v : SVal) : R (List α) :=
  match F.visit (.tuple n) v with
  | some (.seq _ vs) => if vs.length < n then .error .refused else readAll de (vs.take n)
  | _ => .error .refused

/-- `d.deserialize_option` with a visitor that has `visit_none` and `visit_some`. -/
def deOption {α : Type} (de : SVal → R α) (F : Fmt) (v : SVal) : R (Option α) :=
  match F.visit .option v with
  | some .none => .ok none
  | some (.some v) =>
    match de v with
    | .ok x => .ok (some x)
    | .error e => .error e
  | _ => .error .refused

/-- The derived implementation for `struct T(U)`. -/
def deNewtype {α : Type} (de : SVal → R α) (F : Fmt) (v : SVal) : R α :=
  match F.visit .newtype v with
  | some (.newtype v) => de v
  | some (.seq _ (v :: _)) => de v
  | _ => .error .refused

/-- A field in the derived `visit_map`: exactly one entry; other keys are ignored. -/
def field (fs : List (Bytes × SVal)) (name : Bytes) : R SVal :=
  match fs.filter (·.1 == name) with
  | [(_, v)] => .ok v
  | _ => .error .refused

/-- `u8` elements, as in `Vec<u8>` and `[u8; N]`. -/
def serU8s (b : Bytes) : List SVal := b.map fun x => .uint 8 x.toNat
def deU8 (F : Fmt) (v : SVal) : R UInt8 :=
  match deUint 8 F v with
  | .ok n => .ok (UInt8.ofNat n)
  | .error e => .error e

/-! ### What holds for every format -/

theorem visit_fit {F : Fmt} {h : Hint} {v : SVal} (hf : fits F h v = true) : F.visit h v = some (canon F v) := by
  unfold Fmt.visit; rw [if_pos hf]

theorem visit_misfit {F : Fmt} {h : Hint} {v : SVal} (hf : fits F h v = false) : F.visit h v = F.other h v := by
  unfold Fmt.visit; rw [hf]; rfl

theorem deUint_ser (F : Fmt) (w n : Nat) (h : n < 2 ^ w) : deUint w F (.uint w n) = .ok n := by
  unfold deUint
  rw [visit_fit (by simp [fits])]
  simp [canon, h]

theorem deUint_lt {F : Fmt} {w n : Nat} {v : SVal} (h : deUint w F v = .ok n) : n < 2 ^ w := by
  unfold deUint at h
  split at h
  · split at h
    · cases h; assumption
    · cases h
  · split at h
    · rename_i hz
      cases h; exact hz.2
    · cases h
  · cases h

theorem deSint_ser (F : Fmt) (w : Nat) (z : Int) (h : -(2 ^ (w - 1) : Nat) ≤ z ∧ z < (2 ^ (w - 1) : Nat)) :
    deSint w F (.sint w z) = .ok z := by
  unfold deSint
  rw [visit_fit (by simp [fits])]
  simp only [canon]
  by_cases hz : F.posAsUint = true ∧ 0 ≤ z
  · rw [if_pos (by simpa using hz)]
    simp only []
    rw [if_pos (by omega), Int.toNat_of_nonneg hz.2]
  · rw [if_neg (by simpa using hz)]
    simp only []
    rw [if_pos h]

theorem deF64_ser (cast : Int → Nat) (F : Fmt) (b : Nat) : deF64 cast F (.f64 b) = .ok b := by
  unfold deF64
  rw [visit_fit rfl]
  rfl

theorem deString_ser (F : Fmt) (s : Bytes) : deString F (.str s) = .ok s := by
  unfold deString
  rw [visit_fit rfl]
  rfl

theorem readAll_map {α : Type} (de : SVal → R α) (ser : α → SVal) : ∀ (xs : List α), (∀ x ∈ xs, de (ser x) = .ok x) →
    readAll de (xs.map ser) = .ok xs
  | [], _ => rfl
  | x :: xs, h => by
    rw [List.map_cons, readAll, h x (by simp)]
    simp only []
    rw [readAll_map de ser xs fun y hy => h y (by simp [hy])]

theorem readAll_ok {α : Type} (de : SVal → R α) : ∀ (vs : List SVal) (xs : List α), readAll de vs = .ok xs ↔
    vs.length = xs.length ∧ ∀ p ∈ vs.zip xs, de p.1 = .ok p.2
  | [], xs => by
    cases xs with
    | nil => simp [readAll]
    | cons x xs => simp [readAll]
  | v :: vs, xs => by
    have ih := readAll_ok de vs
    rw [readAll]
    cases hd : de v with
    | error e =>
      simp only []
      constructor
      · intro h; cases h
      · rintro ⟨hl, hz⟩
        cases xs with
        | nil => simp at hl
        | cons x xs =>
          have := hz (v, x) (by simp)
          rw [hd] at this; cases this
    | ok x =>
      simp only []
      cases hr : readAll de vs with
      | error e =>
        simp only []
        constructor
        · intro h; cases h
        · rintro ⟨hl, hz⟩
          cases xs with
          | nil => simp at hl
          | cons y ys =>
            have := (ih ys).2 ⟨by simpa using hl, fun p hp => hz p (by simp [hp])⟩
            rw [hr] at this; cases this
      | ok ys =>
        simp only []
        have h1 := (ih ys).1 hr
        constructor
        · intro h
          cases h
          refine ⟨by simp [h1.1], ?_⟩
          intro p hp
          simp only [List.zip_cons_cons, List.mem_cons] at hp
          rcases hp with rfl | hp
          · exact hd
          · exact h1.2 p hp
        · rintro ⟨hl, hz⟩
          cases xs with
          | nil => simp at hl
          | cons z zs =>
            have e1 := hz (v, z) (by simp)
            rw [hd] at e1
            cases e1
            have e2 := (ih zs).2 ⟨by simpa using hl, fun p hp => hz p (by simp [hp])⟩
            rw [hr] at e2
            cases e2
            rfl

theorem deVec_ser {α : Type} (F : Fmt) (de : SVal → R α) (ser : α → SVal) (xs : List α) (h : ∀ x ∈ xs, de (ser x) = .ok x) :
    deVec de F (.seq (xs.map ser)) = .ok xs := by
  unfold deVec
  rw [visit_fit rfl]
  exact readAll_map de ser xs h

theorem deArray_ser {α : Type} (n : Nat) (F : Fmt) (de : SVal → R α) (ser : α → SVal) (xs : List α) (hn : xs.length = n)
    (h : ∀ x ∈ xs, de (ser x) = .ok x) : deArray n de F (.tuple (xs.map ser)) = .ok xs := by
  unfold deArray
  rw [visit_fit (by simp [fits, hn])]
  simp only [canon, List.length_map]
  rw [if_neg (by omega), List.take_of_length_le (by simp [hn])]
  exact readAll_map de ser xs h

theorem deOption_none {α : Type} (F : Fmt) (de : SVal → R α) : deOption de F .none = .ok none := by
  unfold deOption
  rw [visit_fit rfl]
  rfl

theorem deOption_some {α : Type} (F : Fmt) (de : SVal → R α) (v : SVal) (x : α) (h : de v = .ok x) :
    deOption de F (.some v) = .ok (some x) := by
  unfold deOption
  rw [visit_fit rfl]
  simp only [canon, h]

theorem deNewtype_ser {α : Type} (F : Fmt) (de : SVal → R α) (v : SVal) : deNewtype de F (.newtype v) = de v := by
  unfold deNewtype
  rw [visit_fit rfl]
  rfl

theorem deU8_ser (F : Fmt) (b : UInt8) : deU8 F (.uint 8 b.toNat) = .ok b := by
  unfold deU8
  rw [deUint_ser F 8 _ b.toNat_lt]
  simp

end Btc.Serde
