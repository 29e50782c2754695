import Verif.Internals.Slice
/-!
# C104: cutting slices and arrays
-/
namespace Btc
namespace SliceM

variable {T : Type}

/-- The window lies in its region. -/
def InBounds (s : Slice T) : Prop := s.start + s.len ≤ s.mem.length

theorem elems_length {s : Slice T} (h : InBounds s) : s.elems.length = s.len := by
  unfold InBounds at h
  simp only [Slice.elems, List.length_take, List.length_drop]
  omega

theorem chunk_eq (s : Slice T) (n i : Nat) (h : i * n + n ≤ s.len) :
    (s.mem.drop (s.start + i * n)).take n = (s.elems.drop (i * n)).take n := by
  simp only [Slice.elems, List.drop_take, List.drop_drop, List.take_take]
  rw [Nat.min_eq_left (by omega)]

theorem asChunks_eq (n : Nat) (hn : 0 < n) (s : Slice T) : asChunks n s =
    some ((List.range (s.len / n)).map (fun i => (s.mem.drop (s.start + i * n)).take n),
      ⟨s.mem, s.start + s.len / n * n, s.len - s.len / n * n⟩) := by
  have : s.len / n * n ≤ s.len := Nat.div_mul_le_self _ _
  simp [asChunks, Slice.splitAt, rawParts, this, Nat.ne_of_gt hn]

theorem flatten_chunks (n : Nat) : ∀ (k : Nat) (l : List T), k * n ≤ l.length →
    ((List.range k).map fun i => (l.drop (i * n)).take n).flatten = l.take (k * n)
  | 0, l, _ => by simp
  | k + 1, l, h => by
    rw [Nat.succ_mul] at h
    rw [List.range_succ, List.map_append, List.flatten_append, flatten_chunks n k l (by omega)]
    simp only [List.map_cons, List.map_nil, List.flatten_cons, List.flatten_nil, List.append_nil]
    rw [Nat.succ_mul, List.take_add]

/-- `bitcoin_as_chunks` never leaves the slice; the arrays have `n` elements each, and with a remainder shorter than `n`
they are the slice. -/
theorem C104_chunks (n : Nat) (hn : 0 < n) (s : Slice T) (hs : InBounds s) : ∃ l r, asChunks n s = some (l, r) ∧
    InBounds r ∧ (∀ a ∈ l, a.length = n) ∧ r.elems.length < n ∧ l.flatten ++ r.elems = s.elems := by
  have hle : s.len / n * n ≤ s.len := Nat.div_mul_le_self _ _
  have hmod : s.len - s.len / n * n < n := by
    have := Nat.mod_lt s.len hn
    have h2 := Nat.div_add_mod s.len n
    rw [Nat.mul_comm] at h2
    omega
  have hr : InBounds (⟨s.mem, s.start + s.len / n * n, s.len - s.len / n * n⟩ : Slice T) := by
    unfold InBounds at hs ⊢
    simp only
    omega
  have hidx : ∀ i, i < s.len / n → i * n + n ≤ s.len := by
    intro i hi
    have : (i + 1) * n ≤ s.len / n * n := Nat.mul_le_mul_right n hi
    rw [Nat.succ_mul] at this
    omega
  refine ⟨_, _, asChunks_eq n hn s, hr, ?_, by rw [elems_length hr]; exact hmod, ?_⟩
  · intro a ha
    obtain ⟨i, hi, rfl⟩ := List.mem_map.1 ha
    have := hidx i (List.mem_range.1 hi)
    unfold InBounds at hs
    simp only [List.length_take, List.length_drop]
    omega
  · have e1 : (List.range (s.len / n)).map (fun i => (s.mem.drop (s.start + i * n)).take n) =
        (List.range (s.len / n)).map fun i => (s.elems.drop (i * n)).take n :=
      List.map_congr_left fun i hi => chunk_eq s n i (hidx i (List.mem_range.1 hi))
    rw [e1, flatten_chunks n _ _ (by rw [elems_length hs]; exact hle)]
    have e2 : (⟨s.mem, s.start + s.len / n * n, s.len - s.len / n * n⟩ : Slice T).elems = s.elems.drop (s.len / n * n) := by
      simp only [Slice.elems, List.drop_take, List.drop_drop]
    rw [e2, List.take_append_drop]

theorem store_get (n : Nat) (s : Slice T) (hs : InBounds s) (i : Nat) (a : List T) (ha : a.length = n) (hi : i * n + n ≤ s.len) (j : Nat) :
    (storeChunk n s i a).mem[j]? = if s.start + i * n ≤ j ∧ j < s.start + i * n + n then a[j - (s.start + i * n)]? else s.mem[j]? := by
  unfold InBounds at hs
  have hl : (s.mem.take (s.start + i * n)).length = s.start + i * n := by rw [List.length_take]; omega
  simp only [storeChunk]
  split
  · next h =>
    rw [List.append_assoc, List.getElem?_append_right (by omega), hl, List.getElem?_append_left (by omega)]
  · next h =>
    by_cases hj : j < s.start + i * n
    · rw [List.append_assoc, List.getElem?_append_left (by omega), List.getElem?_take_of_lt hj]
    · rw [List.getElem?_append_right (by simp only [List.length_append, hl]; omega), List.getElem?_drop]
      simp only [List.length_append, hl, ha]
      congr 1
      omega

/-- Storing an array through the `i`-th chunk of `bitcoin_as_chunks_mut` replaces that chunk, and no other, and nothing of
the remainder or of the region outside the slice. -/
theorem C104_chunks_mut (n : Nat) (hn : 0 < n) (s : Slice T) (hs : InBounds s) (i : Nat) (hi : i < s.len / n) (a : List T)
    (ha : a.length = n) : ∃ l r r', asChunks n s = some (l, r) ∧ asChunks n (storeChunk n s i a) = some (l.set i a, r') ∧
      r'.elems = r.elems ∧ (storeChunk n s i a).mem.length = s.mem.length ∧
      ∀ j, (j < s.start ∨ s.start + s.len ≤ j) → (storeChunk n s i a).mem[j]? = s.mem[j]? := by
  have hle : s.len / n * n ≤ s.len := Nat.div_mul_le_self _ _
  have hidx : ∀ i, i < s.len / n → i * n + n ≤ s.len / n * n := by
    intro i hi
    have : (i + 1) * n ≤ s.len / n * n := Nat.mul_le_mul_right n hi
    rw [Nat.succ_mul] at this
    omega
  have hi' := hidx i hi
  have get := store_get n s hs i a ha (by omega)
  have hb := hs
  unfold InBounds at hb
  refine ⟨_, _, ⟨s.mem.take (s.start + i * n) ++ a ++ s.mem.drop (s.start + i * n + n), s.start + s.len / n * n, s.len - s.len / n * n⟩,
    asChunks_eq n hn s, ?_, ?_, ?_, ?_⟩
  · have h1 := asChunks_eq n hn (storeChunk n s i a)
    rw [h1]
    simp only [Option.some.injEq, Prod.mk.injEq]
    refine ⟨?_, rfl⟩
    apply List.ext_getElem?
    intro k
    simp only [show (storeChunk n s i a).len = s.len from rfl, show (storeChunk n s i a).start = s.start from rfl]
    rw [List.getElem?_set]
    simp only [List.getElem?_map, List.length_map, List.length_range]
    by_cases hk : k < s.len / n
    · have hk' := hidx k hk
      simp only [List.getElem?_range hk, Option.map_some]
      split
      · next hik =>
        subst hik
        simp only [hk, if_true, Option.some.injEq]
        apply List.ext_getElem?
        intro j
        rw [List.getElem?_take]
        split
        · next hj =>
          rw [List.getElem?_drop, get, if_pos (by omega)]
          congr 1
          omega
        · next hj => rw [List.getElem?_eq_none (by omega)]
      · next hik =>
        simp only [Option.some.injEq]
        apply List.ext_getElem?
        intro j
        rw [List.getElem?_take, List.getElem?_take]
        split
        · next hj =>
          rw [List.getElem?_drop, List.getElem?_drop, get, if_neg]
          rcases Nat.lt_or_gt_of_ne hik with h | h
          · have : (i + 1) * n ≤ k * n := Nat.mul_le_mul_right n h
            rw [Nat.succ_mul] at this
            omega
          · have : (k + 1) * n ≤ i * n := Nat.mul_le_mul_right n h
            rw [Nat.succ_mul] at this
            omega
        · rfl
    · have : (List.range (s.len / n))[k]? = none := List.getElem?_eq_none (by simpa using hk)
      rw [this]
      simp only [Option.map_none]
      split
      · next hik => omega
      · rfl
  · apply List.ext_getElem?
    intro j
    simp only [Slice.elems, List.getElem?_take]
    split
    · rw [List.getElem?_drop, List.getElem?_drop]
      have := get (s.start + s.len / n * n + j)
      rw [if_neg (by omega)] at this
      exact this
    · rfl
  · simp only [storeChunk, List.length_append, List.length_take, List.length_drop, ha]
    omega
  · intro j hj
    rw [get, if_neg (by omega)]

/-- `get_array`: an array exactly when it lies in the slice; a panic only when `offset + n` overflows in builds with
overflow checks. -/
theorem C104_get_array (checks : Bool) (n : Nat) (s : Slice T) (hs : InBounds s) (hl : s.len < 2 ^ 64) (offset : Nat) (ho : offset < 2 ^ 64)
    (hn : n < 2 ^ 64) :
    (∀ a, getArray checks n s offset = some (some a) ↔ ∃ x y, s.elems = x ++ a ++ y ∧ x.length = offset ∧ a.length = n) ∧
    (getArray checks n s offset = none ↔ checks = true ∧ 2 ^ 64 ≤ offset + n) := by
  have hlen := elems_length hs
  by_cases hov : 2 ^ 64 ≤ offset + n
  · have hnot : ∀ a : List T, ¬ ∃ x y, s.elems = x ++ a ++ y ∧ x.length = offset ∧ a.length = n := by
      rintro a ⟨x, y, h1, h2, h3⟩
      have := congrArg List.length h1
      simp only [List.length_append] at this
      omega
    cases checks with
    | true => simp only [getArray, hov, and_self, if_true, reduceCtorEq, false_iff, and_true]; exact hnot
    | false =>
      have hg : s.get offset ((offset + n) % 2 ^ 64) = none := by
        unfold Slice.get
        rw [if_neg]
        omega
      simp only [getArray, Bool.false_eq_true, false_and, if_false, hg, Option.some.injEq, reduceCtorEq, false_iff, and_true, and_false]
      exact hnot
  · have hc : ¬ (checks = true ∧ 2 ^ 64 ≤ offset + n) := fun h => hov h.2
    rw [Nat.not_le] at hov
    unfold getArray
    rw [if_neg hc, Nat.mod_eq_of_lt hov]
    unfold Slice.get
    by_cases hin : offset + n ≤ s.len
    · rw [if_pos ⟨by omega, hin⟩]
      have hl2 : ((s.elems.drop offset).take (offset + n - offset)).length = n := by
        rw [List.length_take, List.length_drop]; omega
      simp only [hl2, if_true, Option.some.injEq, reduceCtorEq, false_iff]
      refine ⟨fun a => ⟨?_, ?_⟩, hc⟩
      · rintro rfl
        refine ⟨s.elems.take offset, s.elems.drop (offset + n), ?_, by rw [List.length_take]; omega, hl2⟩
        rw [show offset + n - offset = n by omega, ← List.take_add, List.take_append_drop]
      · rintro ⟨x, y, h1, h2, h3⟩
        rw [h1, show offset + n - offset = n by omega, List.append_assoc, ← h2, List.drop_left, ← h3, List.take_left]
    · rw [if_neg (fun h => hin h.2)]
      simp only [Option.some.injEq, reduceCtorEq, false_iff]
      refine ⟨?_, hc⟩
      rintro a ⟨x, y, h1, h2, h3⟩
      have := congrArg List.length h1
      simp only [List.length_append] at this
      omega

/-- The two splits: no panic; `None` exactly for slices that are too short. -/
theorem C104_split (n : Nat) (s : Slice T) (hs : InBounds s) :
    (∀ a r, splitFirstChunk n s = some (some (a, r)) ↔ s.elems = a ++ r ∧ a.length = n) ∧
    (∀ r a, splitLastChunk n s = some (some (r, a)) ↔ s.elems = r ++ a ∧ a.length = n) ∧
    (splitFirstChunk n s = some none ↔ s.len < n) ∧ (splitLastChunk n s = some none ↔ s.len < n) ∧
    splitFirstChunk n s ≠ none ∧ splitLastChunk n s ≠ none := by
  have hlen := elems_length hs
  by_cases hn : s.len < n
  · have h0 : ∀ a b : List T, s.elems = a ++ b → ¬ a.length = n ∧ ¬ b.length = n := by
      intro a b h
      have := congrArg List.length h
      simp only [List.length_append] at this
      omega
    simp only [splitFirstChunk, splitLastChunk, hn, if_true, Option.some.injEq, reduceCtorEq, false_iff, ne_eq, not_false_eq_true, and_true]
    exact ⟨fun a r h => (h0 a r h.1).1 h.2, fun r a h => (h0 r a h.1).2 h.2⟩
  · rw [Nat.not_lt] at hn
    have e1 : (⟨s.mem, s.start, n⟩ : Slice T).elems = s.elems.take n := by
      simp only [Slice.elems, List.take_take, Nat.min_eq_left hn]
    have e2 : ∀ k, (⟨s.mem, s.start + k, s.len - k⟩ : Slice T).elems = s.elems.drop k := by
      intro k
      simp only [Slice.elems, List.drop_take, List.drop_drop]
    have e3 : (⟨s.mem, s.start, s.len - n⟩ : Slice T).elems = s.elems.take (s.len - n) := by
      simp only [Slice.elems, List.take_take, Nat.min_eq_left (Nat.sub_le _ _)]
    have f1 : splitFirstChunk n s = some (some (s.elems.take n, s.elems.drop n)) := by
      unfold splitFirstChunk Slice.splitAt
      rw [if_neg (by omega), if_pos hn]
      simp only [e1, e2]
      rw [if_pos (by rw [List.length_take]; omega)]
    have f2 : splitLastChunk n s = some (some (s.elems.take (s.len - n), s.elems.drop (s.len - n))) := by
      unfold splitLastChunk Slice.splitAt
      rw [if_neg (by omega), if_pos (Nat.sub_le _ _)]
      simp only [e2, e3]
      rw [if_pos (by rw [List.length_drop]; omega)]
    rw [f1, f2]
    simp only [Option.some.injEq, Prod.mk.injEq, reduceCtorEq, ne_eq, not_false_eq_true, and_true, false_iff]
    refine ⟨fun a r => ⟨?_, ?_⟩, fun r a => ⟨?_, ?_⟩, by omega⟩
    · rintro ⟨rfl, rfl⟩
      exact ⟨(List.take_append_drop _ _).symm, by rw [List.length_take]; omega⟩
    · rintro ⟨h, rfl⟩
      rw [h]
      simp
    · rintro ⟨rfl, rfl⟩
      exact ⟨(List.take_append_drop _ _).symm, by rw [List.length_drop]; omega⟩
    · rintro ⟨h, h2⟩
      have h3 := congrArg List.length h
      rw [List.length_append] at h3
      rw [show s.len - n = r.length by omega, h]
      simp

/-- Arrays: where the compiler accepts the call, the parts make up the array. -/
theorem C104_array (a : List T) :
    (∀ x y z : List T, subArray (x ++ y ++ z) x.length y.length = some y) ∧
    (∀ o l r, subArray a o l = some r → ∃ x z, a = x ++ r ++ z ∧ x.length = o ∧ r.length = l) ∧
    (∀ x y : List T, splitArray (x ++ y) x.length y.length = some (x, y)) ∧
    (∀ l r x y, splitArray a l r = some (x, y) → a = x ++ y ∧ x.length = l ∧ y.length = r) ∧
    (∀ i, i < a.length → getStatic a i = a[i]?) ∧ (∀ (x : T) (r : List T), first (x :: r) = some x) ∧
    (∀ (x : T) (r : List T), splitFirst (x :: r) r.length = some (x, r)) ∧ (∀ (x : T) (l : List T), splitLast (l ++ [x]) l.length = some (x, l)) := by
  have sub : ∀ x y z : List T, subArray (x ++ y ++ z) x.length y.length = some y := by
    intro x y z
    unfold subArray
    rw [if_pos (by simp only [List.length_append]; omega)]
    simp
  have sub' : ∀ (a : List T) o l r, subArray a o l = some r → ∃ x z, a = x ++ r ++ z ∧ x.length = o ∧ r.length = l := by
    intro a o l r h
    simp only [subArray] at h
    split at h
    · next h1 =>
      split at h
      · next h2 =>
        cases h
        refine ⟨a.take o, a.drop (o + l), ?_, by rw [List.length_take]; omega, h2⟩
        rw [← List.take_add, List.take_append_drop]
      · cases h
    · cases h
  have spl : ∀ x y : List T, splitArray (x ++ y) x.length y.length = some (x, y) := by
    intro x y
    have h1 := sub [] x y
    have h2 := sub x y []
    simp only [List.nil_append, List.length_nil, List.append_nil] at h1 h2
    unfold splitArray
    rw [if_pos (by simp), h1, h2]
  refine ⟨sub, sub' a, spl, ?_, ?_, ?_, ?_, ?_⟩
  · intro l r x y h
    unfold splitArray at h
    split at h
    · next h1 =>
      split at h
      · next u v hu hv =>
        cases h
        obtain ⟨p, q, h2, h3, h4⟩ := sub' a 0 l _ hu
        obtain ⟨p', q', h5, h6, h7⟩ := sub' a l r _ hv
        have hp : p = [] := List.eq_nil_of_length_eq_zero h3
        subst hp
        have hq : q' = [] := by
          apply List.eq_nil_of_length_eq_zero
          have := congrArg List.length h5
          simp only [List.length_append] at this
          omega
        subst hq
        have hpx : p' = x := by
          have e := congrArg (List.take l) h5
          rw [h2] at e
          simp only [List.nil_append, List.append_nil] at e
          rw [← h4, List.take_left, h4, ← h6, List.take_left] at e
          exact e.symm
        subst hpx
        exact ⟨by simpa using h5, h4, h7⟩
      · cases h
    · cases h
  · intro i hi
    have := sub (a.take i) [a[i]] (a.drop (i + 1))
    rw [show a.take i ++ [a[i]] ++ a.drop (i + 1) = a by simp] at this
    rw [show (a.take i).length = i by rw [List.length_take]; omega] at this
    unfold getStatic
    rw [show (1 : Nat) = [a[i]].length from rfl, this]
    simp [List.getElem?_eq_getElem hi]
  · intro x r
    have := sub [] [x] r
    simp only [List.nil_append, List.length_nil, List.length_cons, Nat.zero_add, List.cons_append] at this
    simp [first, getStatic, this]
  · intro x r
    have := spl [x] r
    simp only [List.cons_append, List.nil_append, List.length_cons, List.length_nil, Nat.zero_add] at this
    simp [splitFirst, this]
  · intro x l
    have := spl l [x]
    simp only [List.length_cons, List.length_nil, Nat.zero_add] at this
    simp [splitLast, this]

/-! ### Examples -/

/-- Seven elements in a region of ten, in arrays of three. -/
def window : Slice Nat := ⟨[90, 1, 2, 3, 4, 5, 6, 7, 98, 99], 1, 7⟩
theorem window_in : InBounds window := by unfold InBounds; decide
example : asChunks 3 window = some ([[1, 2, 3], [4, 5, 6]], ⟨window.mem, 7, 1⟩) := rfl
example : ∃ l r, asChunks 3 window = some (l, r) ∧ InBounds r ∧ (∀ a ∈ l, a.length = 3) ∧ r.elems.length < 3 ∧
    l.flatten ++ r.elems = window.elems := C104_chunks 3 (by decide) window window_in
example : (storeChunk 3 window 1 [10, 11, 12]).mem = [90, 1, 2, 3, 10, 11, 12, 7, 98, 99] := rfl
example := C104_chunks_mut 3 (by decide) window window_in 1 (by decide) [10, 11, 12] rfl
example : getArray true 2 window 5 = some (some [6, 7]) := rfl
example : getArray true 2 window 6 = some none := rfl
example := C104_get_array true 2 window window_in (by decide) 5 (by decide) (by decide)
/-- The documentation says `None` for accesses out of bounds. -/
example : getArray true 2 window (2 ^ 64 - 1) = none ∧ getArray false 2 window (2 ^ 64 - 1) = some none := by decide
example : splitLastChunk 4 window = some (some ([1, 2, 3], [4, 5, 6, 7])) := ((C104_split 4 window window_in).2.1 _ _).2 ⟨rfl, rfl⟩
example : splitFirstChunk 8 window = some none := (C104_split 8 window window_in).2.2.1.2 (by decide)
example : splitArray [1, 2, 3, 4, 5] 2 3 = some ([1, 2], [3, 4, 5]) := (C104_array [1]).2.2.1 [1, 2] [3, 4, 5]

end SliceM
end Btc
