import Verif.Internals.ArrayVec
/-!
# C57: `ArrayVec` is a list of bounded length
-/
namespace Btc
namespace AVec

variable {T : Type} {cap : Nat}

/-! ## The specification: a list, and what each operation does to it -/

/-- The operations on a vector. -/
inductive Op (T : Type) where
  | push (x : T)
  | tryPush (x : T)
  | pop
  | extend (xs : List T)
  /-- `v[i] = x`, through `DerefMut`. -/
  | set (i : Nat) (x : T)
  /-- `v.spare_capacity_mut()[i].write(x)`, or overwriting it with an uninitialised value. -/
  | spare (i : Nat) (x : Option T)
  /-- `v = v.clone()`. -/
  | clone
  /-- Reading the slice. -/
  | read

/-- What an operation shows its caller. -/
inductive Ret (T : Type) where
  | unit
  | panicked
  | full (cap : Nat)
  | popped (x : Option T)
  | slice (xs : List T)
  deriving DecidableEq

/-- What each operation does to a list with room for `cap` elements. -/
def spec (cap : Nat) (l : List T) : Op T → List T × Ret T
  | .push x => if l.length < cap then (l ++ [x], .unit) else (l, .panicked)
  | .tryPush x => if l.length < cap then (l ++ [x], .unit) else (l, .full cap)
  | .pop => (l.dropLast, .popped l.getLast?)
  | .extend xs => if l.length + xs.length ≤ cap then (l ++ xs, .unit) else (l, .panicked)
  | .set i x => if i < l.length then (l.set i x, .unit) else (l, .panicked)
  | .spare i _ => if i < cap - l.length then (l, .unit) else (l, .panicked)
  | .clone => (l, .unit)
  | .read => (l, .slice l)

def specs (cap : Nat) (l : List T) : List (Op T) → List T × List (Ret T)
  | [] => (l, [])
  | op :: ops => ((specs cap (spec cap l op).1 ops).1, (spec cap l op).2 :: (specs cap (spec cap l op).1 ops).2)

/-! ## The model: the same operations on the array -/

/-- An operation that panics leaves the vector as it was (it is still there after `catch_unwind`). -/
def AV.step (a : AV T cap) : Op T → Option (AV T cap × Ret T)
  | .push x => (a.push x).map fun (a, p) => (a, if p then .panicked else .unit)
  | .tryPush x => (a.tryPush x).map fun (a, r) => (a, match r with | .ok () => .unit | .error (.capacityExceeded n) => .full n)
  | .pop => (a.pop).map fun (a, r) => (a, .popped r)
  | .extend xs => (a.extendFromSlice xs).map fun (a, p) => (a, if p then .panicked else .unit)
  | .set i x => (a.setAt i x).map fun | some a => (a, .unit) | none => (a, .panicked)
  | .spare i x => (a.setSpare i x).map fun | some a => (a, .unit) | none => (a, .panicked)
  | .clone => (a.clone).map fun | some a => (a, .unit) | none => (a, .panicked)
  | .read => a.asSlice.map fun s => (a, .slice s)

def AV.steps (a : AV T cap) : List (Op T) → Option (AV T cap × List (Ret T))
  | [] => some (a, [])
  | op :: ops => match a.step op with
    | none => none
    | some (a, r) => (a.steps ops).map fun (a, rs) => (a, r :: rs)

/-! ## Proof -/

/-- The vector holds `l`: enough slots, and the first ones are `l`. -/
structure AV.Holds (a : AV T cap) (l : List T) : Prop where
  len : a.len = l.length
  slots : a.data.length = cap
  le : l.length ≤ cap
  init : a.data.take l.length = l.map some

theorem mapM_some (l : List T) : (l.map some).mapM id = some l := by
  induction l with
  | nil => rfl
  | cons x xs ih => simp only [List.map_cons, List.mapM_cons, id, ih]; rfl

theorem AV.Holds.asSlice {a : AV T cap} {l : List T} (h : a.Holds l) : a.asSlice = some l := by
  unfold AV.asSlice
  rw [if_pos (by rw [h.len, h.slots]; exact h.le), h.len, h.init, mapM_some]

theorem new_holds : (new : AV T cap).Holds [] := ⟨rfl, by simp [new], by simp, by simp⟩

theorem writeFrom_eq : ∀ (xs : List T) (data : List (Option T)) (i : Nat), i + xs.length ≤ data.length →
    writeFrom data i xs = some (data.take i ++ xs.map some ++ data.drop (i + xs.length))
  | [], data, i, h => by simp [writeFrom]
  | x :: xs, data, i, h => by
    simp only [List.length_cons] at h
    unfold writeFrom
    rw [if_pos (by omega), writeFrom_eq xs _ _ (by simp; omega)]
    have h1 : List.take (i + 1) (data.set i (some x)) = data.take i ++ [some x] := by
      rw [List.take_add_one, List.take_set_of_le (by omega)]
      simp [List.getElem?_set, show i < data.length by omega]
    have h2 : List.drop (i + 1 + xs.length) (data.set i (some x)) = data.drop (i + 1 + xs.length) := List.drop_set_of_lt (by omega)
    rw [h1, h2]
    simp only [List.map_cons, List.append_assoc, List.length_cons, List.cons_append, List.nil_append]
    rw [show i + 1 + xs.length = i + (xs.length + 1) by omega]

theorem fromSlice_holds (l : List T) (h : l.length ≤ cap) : ∃ a : AV T cap, fromSlice l = some a ∧ a.Holds l := by
  unfold fromSlice
  rw [if_pos h, writeFrom_eq l _ 0 (by simpa using h)]
  refine ⟨_, rfl, rfl, ?_, h, ?_⟩
  · simp; omega
  · simp

theorem AV.Holds.spare {a : AV T cap} {l : List T} (h : a.Holds l) : a.spare = some (cap - l.length) := by
  unfold AV.spare
  rw [if_pos (by rw [h.len, h.slots]; exact h.le), h.len, h.slots]

theorem take_set_end (data : List (Option T)) (n : Nat) (x : Option T) (h : n < data.length) : (data.set n x).take (n + 1) = data.take n ++ [x] := by
  rw [List.take_add_one, List.take_set_of_le (by omega)]
  simp [List.getElem?_set, h]

theorem AV.Holds.tryPush {a : AV T cap} {l : List T} (h : a.Holds l) (x : T) :
    ∃ b, a.tryPush x = some (b, if l.length < cap then .ok () else .error (.capacityExceeded cap)) ∧ b.Holds (if l.length < cap then l ++ [x] else l) := by
  have hle := h.le
  unfold AV.tryPush
  rw [h.spare]
  simp only [Option.map_some]
  by_cases hc : l.length < cap
  · rw [if_neg (by omega), if_pos hc, if_pos hc]
    refine ⟨_, rfl, by simp [AV.setLen, h.len], by simp [AV.setLen, h.slots], by simp; omega, ?_⟩
    simp only [AV.setLen, List.length_append, List.length_singleton, List.map_append, List.map_cons, List.map_nil]
    rw [h.len, take_set_end _ _ _ (by rw [h.slots]; exact hc), h.init]
  · rw [if_pos (by omega), if_neg hc, if_neg hc]
    exact ⟨_, rfl, h⟩

theorem AV.Holds.pop {a : AV T cap} {l : List T} (h : a.Holds l) : ∃ b, a.pop = some (b, l.getLast?) ∧ b.Holds l.dropLast := by
  have hle := h.le
  unfold AV.pop
  rw [h.asSlice]
  simp only [Option.map_some]
  cases hl : l.getLast? with
  | none =>
    rw [List.getLast?_eq_none_iff] at hl
    subst hl
    exact ⟨_, rfl, h⟩
  | some x =>
    refine ⟨_, rfl, by simp [AV.setLen, h.len], by simp [AV.setLen, h.slots], by simp; omega, ?_⟩
    simp only [AV.setLen, List.length_dropLast]
    have := congrArg (List.take (l.length - 1)) h.init
    rw [List.take_take, Nat.min_eq_left (by omega)] at this
    rw [this, ← List.map_take, List.dropLast_eq_take]

theorem AV.Holds.extend {a : AV T cap} {l : List T} (h : a.Holds l) (xs : List T) :
    ∃ b, a.extendFromSlice xs = some (b, decide (¬ l.length + xs.length ≤ cap)) ∧ b.Holds (if l.length + xs.length ≤ cap then l ++ xs else l) := by
  have hle := h.le
  unfold AV.extendFromSlice
  rw [h.spare]
  simp only [Option.map_some]
  by_cases hc : l.length + xs.length ≤ cap
  · rw [if_pos (by omega), if_pos hc]
    refine ⟨_, by rw [show decide (¬ l.length + xs.length ≤ cap) = false by simpa using hc], by simp [AV.setLen, h.len], ?_, by simpa using hc, ?_⟩
    · have := h.slots
      simp [AV.setLen, copyAt, h.len]; omega
    · simp only [AV.setLen, copyAt, h.len, h.init, List.length_append, List.map_append]
      rw [List.take_append_of_le_length (by simp), List.take_of_length_le (by simp)]
  · rw [if_neg (by omega), if_neg hc]
    exact ⟨_, by rw [show decide (¬ l.length + xs.length ≤ cap) = true by simpa using hc], h⟩

theorem AV.Holds.setAt {a : AV T cap} {l : List T} (h : a.Holds l) (i : Nat) (x : T) :
    (i < l.length → ∃ b, a.setAt i x = some (some b) ∧ b.Holds (l.set i x)) ∧ (¬ i < l.length → a.setAt i x = some none) := by
  have hle := h.le
  unfold AV.setAt
  rw [if_pos (by rw [h.len, h.slots]; exact h.le), h.len]
  constructor
  · intro hi
    rw [if_pos hi]
    refine ⟨_, rfl, by simp [h.len], by simp [h.slots], by simpa using hle, ?_⟩
    simp only [List.length_set]
    rw [List.take_set, h.init, List.map_set]
  · intro hi
    rw [if_neg hi]

theorem AV.Holds.setSpare {a : AV T cap} {l : List T} (h : a.Holds l) (i : Nat) (x : Option T) :
    (i < cap - l.length → ∃ b, a.setSpare i x = some (some b) ∧ b.Holds l) ∧ (¬ i < cap - l.length → a.setSpare i x = some none) := by
  unfold AV.setSpare
  rw [h.spare]
  simp only [Option.map_some]
  constructor
  · intro hi
    rw [if_pos hi]
    refine ⟨_, rfl, h.len, by simp [h.slots], h.le, ?_⟩
    simp only
    rw [List.take_set_of_le (by rw [h.len]; omega), h.init]
  · intro hi
    rw [if_neg hi]

theorem AV.Holds.step {a : AV T cap} {l : List T} (h : a.Holds l) (op : Op T) :
    ∃ b, a.step op = some (b, (spec cap l op).2) ∧ b.Holds (spec cap l op).1 := by
  cases op with
  | push x =>
    obtain ⟨b, e, hb⟩ := h.tryPush x
    simp only [AV.step, AV.push, e, Option.map_some, spec]
    by_cases hc : l.length < cap
    · rw [if_pos hc] at hb ⊢
      simp only [if_pos hc]
      exact ⟨b, rfl, hb⟩
    · rw [if_neg hc] at hb ⊢
      simp only [if_neg hc]
      exact ⟨b, rfl, hb⟩
  | tryPush x =>
    obtain ⟨b, e, hb⟩ := h.tryPush x
    simp only [AV.step, e, Option.map_some, spec]
    by_cases hc : l.length < cap
    · rw [if_pos hc] at hb ⊢
      simp only [if_pos hc]
      exact ⟨b, rfl, hb⟩
    · rw [if_neg hc] at hb ⊢
      simp only [if_neg hc]
      exact ⟨b, rfl, hb⟩
  | pop =>
    obtain ⟨b, e, hb⟩ := h.pop
    exact ⟨b, by simp only [AV.step, e, Option.map_some, spec], hb⟩
  | extend xs =>
    obtain ⟨b, e, hb⟩ := h.extend xs
    simp only [AV.step, e, Option.map_some, spec]
    by_cases hc : l.length + xs.length ≤ cap
    · rw [if_pos hc] at hb
      simp only [if_pos hc, hc, not_true, decide_false]
      exact ⟨b, rfl, hb⟩
    · rw [if_neg hc] at hb
      simp only [if_neg hc, hc, not_false_iff, decide_true]
      exact ⟨b, rfl, hb⟩
  | set i x =>
    obtain ⟨h1, h2⟩ := h.setAt i x
    simp only [AV.step, spec]
    by_cases hi : i < l.length
    · obtain ⟨b, e, hb⟩ := h1 hi
      rw [e, if_pos hi]
      exact ⟨b, rfl, hb⟩
    · rw [h2 hi, if_neg hi]
      exact ⟨a, rfl, h⟩
  | spare i x =>
    obtain ⟨h1, h2⟩ := h.setSpare i x
    simp only [AV.step, spec]
    by_cases hi : i < cap - l.length
    · obtain ⟨b, e, hb⟩ := h1 hi
      rw [e, if_pos hi]
      exact ⟨b, rfl, hb⟩
    · rw [h2 hi, if_neg hi]
      exact ⟨a, rfl, h⟩
  | clone =>
    obtain ⟨b, e, hb⟩ := fromSlice_holds (cap := cap) l h.le
    exact ⟨b, by simp only [AV.step, AV.clone, h.asSlice, Option.map_some, e, spec], hb⟩
  | read => exact ⟨a, by simp only [AV.step, h.asSlice, Option.map_some, spec], h⟩

theorem AV.Holds.steps : ∀ (ops : List (Op T)) {a : AV T cap} {l : List T}, a.Holds l →
    ∃ b, a.steps ops = some (b, (specs cap l ops).2) ∧ b.Holds (specs cap l ops).1
  | [], a, l, h => ⟨a, rfl, h⟩
  | op :: ops, a, l, h => by
    obtain ⟨b, e, hb⟩ := h.step op
    obtain ⟨c, e', hc⟩ := AV.Holds.steps ops hb
    exact ⟨c, by simp only [AV.steps, e, e', Option.map_some, specs], hc⟩

/-! ## Theorems -/

/-- A vector made from a slice, under every sequence of operations, never touches memory it must not, shows what a list with room for
`cap` elements would show, and holds that list. -/
theorem C57_refines (l : List T) (h : l.length ≤ cap) (ops : List (Op T)) :
    ∃ a b : AV T cap, fromSlice l = some a ∧ a.steps ops = some (b, (specs cap l ops).2) ∧
      b.asSlice = some (specs cap l ops).1 ∧ b.len = (specs cap l ops).1.length ∧ b.len ≤ cap := by
  obtain ⟨a, e, ha⟩ := fromSlice_holds (cap := cap) l h
  obtain ⟨b, e', hb⟩ := ha.steps ops
  exact ⟨a, b, e, e', hb.asSlice, hb.len, by rw [hb.len]; exact hb.le⟩

/-- The same from `new`. -/
theorem C57_refines_new (ops : List (Op T)) :
    ∃ b : AV T cap, (new : AV T cap).steps ops = some (b, (specs cap [] ops).2) ∧ b.asSlice = some (specs cap [] ops).1 ∧
      b.len = (specs cap [] ops).1.length ∧ b.len ≤ cap := by
  obtain ⟨b, e', hb⟩ := new_holds.steps ops
  exact ⟨b, e', hb.asSlice, hb.len, by rw [hb.len]; exact hb.le⟩

/-- `from_slice` refuses exactly the slices that do not fit. -/
theorem C57_from_slice (l : List T) : (fromSlice l : Option (AV T cap)) = none ↔ cap < l.length := by
  constructor
  · intro h
    apply Classical.byContradiction
    intro hc
    obtain ⟨a, e, -⟩ := fromSlice_holds (cap := cap) l (by omega)
    rw [e] at h
    cases h
  · intro h
    unfold fromSlice
    rw [if_neg (by omega)]

/-- Equality and order depend on the elements only: not on the capacities, nor on what popped or spare slots hold. -/
theorem C57_eq [DecidableEq T] {cap₁ cap₂ : Nat} (ops₁ ops₂ : List (Op T)) :
    ∃ (a : AV T cap₁) (b : AV T cap₂), ((new : AV T cap₁).steps ops₁).map Prod.fst = some a ∧ ((new : AV T cap₂).steps ops₂).map Prod.fst = some b ∧
      (a.eq b = some true ↔ (specs cap₁ [] ops₁).1 = (specs cap₂ [] ops₂).1) ∧
      (a.eq b = some false ↔ (specs cap₁ [] ops₁).1 ≠ (specs cap₂ [] ops₂).1) := by
  obtain ⟨a, e, ha⟩ := (new_holds (T := T) (cap := cap₁)).steps ops₁
  obtain ⟨b, e', hb⟩ := (new_holds (T := T) (cap := cap₂)).steps ops₂
  refine ⟨a, b, by rw [e]; rfl, by rw [e']; rfl, ?_, ?_⟩ <;> simp [AV.eq, ha.asSlice, hb.asSlice]

/-- The order is total on what is held and consistent with equality, whenever that of the elements is. -/
theorem C57_cmp {cap₁ cap₂ : Nat} (c : T → T → Ordering) (hc : ∀ x y, c x y = .eq ↔ x = y) (ops₁ ops₂ : List (Op T)) :
    ∃ (a : AV T cap₁) (b : AV T cap₂), ((new : AV T cap₁).steps ops₁).map Prod.fst = some a ∧ ((new : AV T cap₂).steps ops₂).map Prod.fst = some b ∧
      (a.cmp c b = some .eq ↔ (specs cap₁ [] ops₁).1 = (specs cap₂ [] ops₂).1) ∧
      (a.cmp c b = some .lt ↔
        (∃ p x y s t, (specs cap₁ [] ops₁).1 = p ++ x :: s ∧ (specs cap₂ [] ops₂).1 = p ++ y :: t ∧ c x y = .lt) ∨
        (∃ y t, (specs cap₂ [] ops₂).1 = (specs cap₁ [] ops₁).1 ++ y :: t)) := by
  obtain ⟨a, e, ha⟩ := (new_holds (T := T) (cap := cap₁)).steps ops₁
  obtain ⟨b, e', hb⟩ := (new_holds (T := T) (cap := cap₂)).steps ops₂
  have key : ∀ (s t : List T), (sliceCmp c s t = .eq ↔ s = t) ∧
      (sliceCmp c s t = .lt ↔ (∃ p x y s' t', s = p ++ x :: s' ∧ t = p ++ y :: t' ∧ c x y = .lt) ∨ (∃ y t', t = s ++ y :: t')) := by
    intro s
    induction s with
    | nil =>
      intro t
      cases t with
      | nil => simp [sliceCmp]
      | cons y t => simp [sliceCmp]
    | cons x s ih =>
      intro t
      cases t with
      | nil => simp [sliceCmp]
      | cons y t =>
        obtain ⟨i1, i2⟩ := ih t
        simp only [sliceCmp]
        cases hxy : c x y with
        | eq =>
          have := (hc x y).mp hxy
          subst this
          simp only [Ordering.then]
          refine ⟨by rw [i1]; simp, ?_⟩
          rw [i2]
          constructor
          · rintro (⟨p, u, v, s', t', h1, h2, h3⟩ | ⟨v, t', h⟩)
            · exact .inl ⟨x :: p, u, v, s', t', by rw [h1]; rfl, by rw [h2]; rfl, h3⟩
            · exact .inr ⟨v, t', by rw [h]; rfl⟩
          · rintro (⟨p, u, v, s', t', h1, h2, h3⟩ | ⟨v, t', h⟩)
            · cases p with
              | nil =>
                simp only [List.nil_append, List.cons.injEq] at h1 h2
                rw [← h1.1, ← h2.1, hxy] at h3
                cases h3
              | cons w p =>
                simp only [List.cons_append, List.cons.injEq] at h1 h2
                exact .inl ⟨p, u, v, s', t', h1.2, h2.2, h3⟩
            · simp only [List.cons_append, List.cons.injEq] at h
              exact .inr ⟨v, t', h.2⟩
        | lt =>
          simp only [Ordering.then, true_iff]
          refine ⟨⟨fun h => (by cases h), fun h => ?_⟩, .inl ⟨[], x, y, s, t, rfl, rfl, hxy⟩⟩
          simp only [List.cons.injEq] at h
          rw [(hc x y).mpr h.1] at hxy
          cases hxy
        | gt =>
          simp only [Ordering.then]
          refine ⟨⟨fun h => (by cases h), fun h => ?_⟩, ⟨fun h => (by cases h), ?_⟩⟩
          · simp only [List.cons.injEq] at h
            rw [(hc x y).mpr h.1] at hxy
            cases hxy
          · rintro (⟨p, u, v, s', t', h1, h2, h3⟩ | ⟨v, t', h⟩)
            · cases p with
              | nil =>
                simp only [List.nil_append, List.cons.injEq] at h1 h2
                rw [← h1.1, ← h2.1, hxy] at h3
                cases h3
              | cons w p =>
                simp only [List.cons_append, List.cons.injEq] at h1 h2
                rw [(hc x y).mpr (h1.1.trans h2.1.symm)] at hxy
                cases hxy
            · simp only [List.cons_append, List.cons.injEq] at h
              rw [(hc x y).mpr h.1.symm] at hxy
              cases hxy
  refine ⟨a, b, by rw [e]; rfl, by rw [e']; rfl, ?_, ?_⟩
  · simp [AV.cmp, ha.asSlice, hb.asSlice, (key _ _).1]
  · simp [AV.cmp, ha.asSlice, hb.asSlice, (key _ _).2]

theorem visitLoop_ok {E : Type} : ∀ (xs : List T) {a : AV T cap} {l : List T}, a.Holds l → l.length + xs.length ≤ cap →
    ∃ b, (visitLoop a (xs.map Except.ok) : Option (Except (SeqErr E) (AV T cap))) = some (.ok b) ∧ b.Holds (l ++ xs)
  | [], a, l, h, _ => ⟨a, rfl, by simpa using h⟩
  | x :: xs, a, l, h, hl => by
    simp only [List.length_cons] at hl
    obtain ⟨b, e, hb⟩ := h.tryPush x
    rw [if_pos (by omega)] at e hb
    obtain ⟨c, e', hc⟩ := visitLoop_ok xs hb (by simp; omega)
    exact ⟨c, by simp only [List.map_cons, visitLoop, e]; exact e', by simpa using hc⟩

theorem visitLoop_long {E : Type} : ∀ (xs : List T) {a : AV T cap} {l : List T}, a.Holds l → cap < l.length + xs.length →
    ∀ rest, (visitLoop a (xs.map Except.ok ++ rest) : Option (Except (SeqErr E) (AV T cap))) = some (.error (.invalidLength (cap + 1)))
  | [], a, l, h, hl, _ => by
    have := h.le
    simp at hl; omega
  | x :: xs, a, l, h, hl, rest => by
    simp only [List.length_cons] at hl
    have hle := h.le
    obtain ⟨b, e, hb⟩ := h.tryPush x
    simp only [List.map_cons, List.cons_append, visitLoop, e]
    by_cases hc : l.length < cap
    · rw [if_pos hc] at hb
      simp only [if_pos hc]
      exact visitLoop_long xs hb (by simp; omega) rest
    · rw [if_neg hc] at hb
      simp only [if_neg hc, hb.asSlice, Option.map_some]
      rw [show l.length = cap by omega]

/-- Deserializing: a sequence of elements gives the vector that holds them exactly when it fits, whatever honest size hint came with it. -/
theorem C57_deserialize {E : Type} (xs : List T) (hint : Option Nat) (hh : ∀ n, hint = some n → n ≤ xs.length) :
    (xs.length ≤ cap → ∃ b : AV T cap, (visitSeq hint (xs.map Except.ok) : Option (Except (SeqErr E) (AV T cap))) = some (.ok b) ∧ b.asSlice = some xs) ∧
    (cap < xs.length → ∃ n, (visitSeq hint (xs.map Except.ok) : Option (Except (SeqErr E) (AV T cap))) = some (.error (.invalidLength n)) ∧ cap < n) := by
  constructor
  · intro h
    obtain ⟨b, e, hb⟩ := visitLoop_ok (E := E) xs (new_holds (T := T) (cap := cap)) (by simpa using h)
    refine ⟨b, ?_, by simpa using hb.asSlice⟩
    unfold visitSeq
    cases hint with
    | none => exact e
    | some n =>
      have := hh n rfl
      simp only
      rw [if_neg (by omega)]
      exact e
  · intro h
    have e := visitLoop_long (E := E) xs (new_holds (T := T) (cap := cap)) (by simpa using h) []
    rw [List.append_nil] at e
    unfold visitSeq
    cases hint with
    | none => exact ⟨cap + 1, e, by omega⟩
    | some n =>
      simp only
      by_cases hn : n > cap
      · rw [if_pos hn]
        exact ⟨n, rfl, hn⟩
      · rw [if_neg hn]
        exact ⟨cap + 1, e, by omega⟩

/-! ## Examples -/

example : specs 3 [1, 2] [.push 3, .tryPush 4, .push 5, .pop, .extend [6, 7], .extend [8], .set 0 9, .set 3 1, .read] =
    ([9, 2, 8], [.unit, .full 3, .panicked, .popped (some 3), .panicked, .unit, .unit, .panicked, .slice [9, 2, 8]]) := by decide
example : ∃ a b : AV Nat 3, fromSlice [1, 2] = some a ∧ a.steps [.push 3, .tryPush 4, .spare 0 none, .pop, .read] = some (b, [.unit, .full 3, .panicked, .popped (some 3), .slice [1, 2]]) ∧
    b.asSlice = some [1, 2] := by
  obtain ⟨a, b, h1, h2, h3, -⟩ := C57_refines (cap := 3) [1, 2] (by decide) [.push 3, .tryPush 4, .spare 0 none, .pop, .read]
  exact ⟨a, b, h1, h2, h3⟩
/-- The popped 3 still in its slot makes no difference. -/
example : ∃ (a : AV Nat 3) (b : AV Nat 8), ((new : AV Nat 3).steps [.push 1, .push 3, .pop]).map Prod.fst = some a ∧
    ((new : AV Nat 8).steps [.extend [1]]).map Prod.fst = some b ∧ a.eq b = some true := by
  obtain ⟨a, b, h1, h2, h3, -⟩ := C57_eq (cap₁ := 3) (cap₂ := 8) [.push 1, .push 3, .pop] [.extend [1]]
  exact ⟨a, b, h1, h2, h3.mpr (by decide)⟩
example : (fromSlice [1, 2, 3] : Option (AV Nat 2)) = none := (C57_from_slice _).mpr (by decide)
/-- A dishonest length would be undefined behaviour: the model can tell. -/
example : (((new : AV Nat 3).setLen 1).asSlice, ((new : AV Nat 3).setLen 4).asSlice) = (none, none) := by decide

end AVec
end Btc
