import Verif.Primitives.Merkle
/-!
# C20, C21: merkle roots
-/
namespace Btc
namespace Merkle
variable {α : Type} [DecidableEq α] (c : α → α → α)

/-! ## The Bitcoin definition -/

/-- One level up; an odd last node is paired with itself. -/
def level : List α → List α
  | a :: b :: t => c a b :: level t
  | [a] => [c a a]
  | [] => []

omit [DecidableEq α] in
theorem level_length : ∀ l : List α, (level c l).length = (l.length + 1) / 2
  | [] => by simp [level]
  | [_] => by simp [level]
  | _ :: _ :: t => by simp only [level, List.length_cons, level_length t]; omega

/-- The merkle root of a nonempty list of nodes. -/
def root : List α → Option α
  | [] => none
  | [a] => some a
  | a :: b :: t => root (level c (a :: b :: t))
termination_by l => l.length
decreasing_by simp [level, level_length]; omega

/-- Two equal siblings, both present (not counting the padding). -/
def HasTwins : List α → Prop
  | a :: b :: t => a = b ∨ HasTwins t
  | _ => False

/-- Some level contains two equal siblings. -/
def TwinsSomewhere : List α → Prop
  | [] => False
  | [_] => False
  | a :: b :: t => HasTwins (a :: b :: t) ∨ TwinsSomewhere (level c (a :: b :: t))
termination_by l => l.length
decreasing_by simp [level, level_length]; omega

/-- One level up, without padding: only nodes whose subtree is complete. -/
def complete : List α → List α
  | a :: b :: t => c a b :: complete t
  | _ => []

omit [DecidableEq α] in
theorem complete_length : ∀ l : List α, (complete c l).length = l.length / 2
  | [] => by simp [complete]
  | [_] => by simp [complete]
  | _ :: _ :: t => by simp only [complete, List.length_cons, complete_length t]; omega

/-- Two equal siblings with complete subtrees on some level. -/
def CompleteTwins : List α → Prop
  | [] => False
  | [_] => False
  | a :: b :: t => HasTwins (a :: b :: t) ∨ CompleteTwins (complete c (a :: b :: t))
termination_by l => l.length
decreasing_by simp [complete, complete_length]; omega

/-- The pairs of siblings of a level; the last node of an odd level is its own sibling. -/
def pairs : List α → List (α × α)
  | a :: b :: t => (a, b) :: pairs t
  | [a] => [(a, a)]
  | [] => []

/-- The pairs of siblings of the whole tree: what is combined to compute its root. -/
def combined : List α → List (α × α)
  | [] => []
  | [_] => []
  | a :: b :: t => pairs (a :: b :: t) ++ combined (level c (a :: b :: t))
termination_by l => l.length
decreasing_by simp [level, level_length]; omega

/-- Two different pairs of nodes, among the pairs `S`, with the same parent. -/
def Clash (S : List (α × α)) : Prop := ∃ p ∈ S, ∃ q ∈ S, p ≠ q ∧ c p.1 p.2 = c q.1 q.2

omit [DecidableEq α] in
theorem Clash.mono {c : α → α → α} {S T : List (α × α)} (h : Clash c S) (hs : ∀ x ∈ S, x ∈ T) : Clash c T :=
  let ⟨x, hx, y, hy, hxy⟩ := h
  ⟨x, hs x hx, y, hs y hy, hxy⟩

omit [DecidableEq α] in
theorem combined_eq {l : List α} (h : 1 < l.length) : combined c l = pairs l ++ combined c (level c l) := by
  match l, h with
  | _ :: _ :: _, _ => rw [combined]

omit [DecidableEq α] in
theorem pairs_snoc_even (p : α) : ∀ l : List α, l.length % 2 = 0 → pairs (l ++ [p]) = pairs l ++ [(p, p)]
  | [], _ => rfl
  | [_], h => by simp at h
  | _ :: _ :: t, h => by
    simp only [List.cons_append, pairs]
    rw [pairs_snoc_even p t (by simp only [List.length_cons] at h; omega)]

omit [DecidableEq α] in
theorem pairs_snoc2 (y p : α) : ∀ l : List α, l.length % 2 = 0 → pairs (l ++ [y, p]) = pairs l ++ [(y, p)]
  | [], _ => rfl
  | [_], h => by simp at h
  | _ :: _ :: t, h => by
    simp only [List.cons_append, pairs]
    rw [pairs_snoc2 y p t (by simp only [List.length_cons] at h; omega)]

omit [DecidableEq α] in
theorem root_eq {l : List α} (h : 1 < l.length) : root c l = root c (level c l) := by
  match l, h with
  | _ :: _ :: _, _ => rw [root]

omit [DecidableEq α] in
theorem twins_eq {l : List α} (h : 1 < l.length) :
    TwinsSomewhere c l ↔ HasTwins l ∨ TwinsSomewhere c (level c l) := by
  match l, h with
  | _ :: _ :: _, _ => rw [TwinsSomewhere]

omit [DecidableEq α] in
theorem not_twins_small {l : List α} (h : l.length ≤ 1) : ¬ TwinsSomewhere c l := by
  match l, h with
  | [], _ => rw [TwinsSomewhere]; exact id
  | [_], _ => rw [TwinsSomewhere]; exact id
  | _ :: _ :: _, h => simp at h

omit [DecidableEq α] in
theorem completeTwins_eq {l : List α} (h : 1 < l.length) :
    CompleteTwins c l ↔ HasTwins l ∨ CompleteTwins c (complete c l) := by
  match l, h with
  | _ :: _ :: _, _ => rw [CompleteTwins]

omit [DecidableEq α] in
theorem not_completeTwins_small {l : List α} (h : l.length ≤ 1) : ¬ CompleteTwins c l := by
  match l, h with
  | [], _ => rw [CompleteTwins]; exact id
  | [_], _ => rw [CompleteTwins]; exact id
  | _ :: _ :: _, h => simp at h

/-! ## The batched algorithm -/

theorem any_chunks (l : List α) : (chunks2 (fun a b => decide (a = b)) l).any id = true ↔ HasTwins l := by
  match l with
  | [] => simp [chunks2, HasTwins]
  | [_] => simp [chunks2, HasTwins]
  | a :: b :: t => simp [chunks2, HasTwins, any_chunks t]

omit [DecidableEq α] in
theorem chunks2_even : ∀ l : List α, l.length % 2 = 0 → chunks2 c l = level c l
  | [], _ => rfl
  | [_], h => by simp at h
  | _ :: _ :: t, h => by
    simp only [chunks2, level]
    rw [chunks2_even t (by simp only [List.length_cons] at h; omega)]

omit [DecidableEq α] in
theorem chunks2_padded : ∀ (l : List α) (x : α), l.length % 2 = 0 →
    chunks2 c ((l ++ [x]) ++ [x]) = level c (l ++ [x])
  | [], _, _ => rfl
  | [_], _, h => by simp at h
  | _ :: _ :: t, x, h => by
    simp only [List.cons_append, chunks2, level]
    rw [chunks2_padded t x (by simp only [List.length_cons] at h; omega)]

theorem batchLoop_spec : ∀ (fuel : Nat) (l : List α), l.length ≤ fuel → l ≠ [] →
    (TwinsSomewhere c l → batchLoop c fuel l = none) ∧
    (¬ TwinsSomewhere c l → ∃ r, batchLoop c fuel l = some [r] ∧ root c l = some r) := by
  intro fuel
  induction fuel with
  | zero => intro l h hne; exact absurd (List.length_eq_zero_iff.mp (by omega)) hne
  | succ fuel ih =>
    intro l h hne
    unfold batchLoop
    by_cases h1 : 1 < l.length
    · rw [if_pos h1]
      have hpad : chunks2 c (pad l) = level c l := by
        unfold pad
        by_cases he : l.length % 2 = 0
        · rw [if_neg (by omega), chunks2_even c l he]
        · rw [if_pos he]
          obtain ⟨i, x, rfl⟩ : ∃ i x, l = i ++ [x] :=
            ⟨l.dropLast, l.getLast hne, (List.dropLast_concat_getLast hne).symm⟩
          rw [List.getLast?_concat]
          simp only
          rw [chunks2_padded c i x (by simp only [List.length_append, List.length_singleton] at he; omega)]
      simp only [hpad]
      have hl := level_length c l
      have hln : level c l ≠ [] := by
        intro hc; rw [hc] at hl; simp at hl; omega
      obtain ⟨g1, g2⟩ := ih (level c l) (by omega) hln
      rw [twins_eq c h1, root_eq c h1]
      by_cases ht : HasTwins l
      · rw [if_pos ((any_chunks l).mpr ht)]
        exact ⟨fun _ => rfl, fun hn => absurd (.inl ht) hn⟩
      · rw [if_neg (by rw [any_chunks]; exact ht)]
        refine ⟨fun hh => ?_, fun hh => ?_⟩
        · rcases hh with hh | hh
          · exact absurd hh ht
          · exact g1 hh
        · exact g2 (fun hc => hh (.inr hc))
    · rw [if_neg h1]
      refine ⟨fun hc => absurd hc (not_twins_small c (by omega)), fun _ => ?_⟩
      match l, hne, h1 with
      | [a], _, _ => exact ⟨a, rfl, by rw [root]⟩
      | _ :: _ :: _, _, h1 => simp at h1

/-- The batched algorithm returns the merkle root, or `None` exactly for the empty list and when some
level has equal siblings. -/
theorem C20_batched (l : List α) :
    ((l = [] ∨ TwinsSomewhere c l) ∧ calculateRootBatched c l = none) ∨
    (l ≠ [] ∧ ¬ TwinsSomewhere c l ∧ ∃ r, calculateRootBatched c l = some r ∧ root c l = some r) := by
  unfold calculateRootBatched
  cases hl : l with
  | nil => left; simp
  | cons a t =>
    rw [← hl]
    have hne : l ≠ [] := by simp [hl]
    obtain ⟨g1, g2⟩ := batchLoop_spec c l.length l (Nat.le_refl _) hne
    rw [if_neg (by simp [hne])]
    by_cases ht : TwinsSomewhere c l
    · left
      exact ⟨.inr ht, by rw [g1 ht]; rfl⟩
    · right
      obtain ⟨r, h1, h2⟩ := g2 ht
      exact ⟨hne, ht, r, by rw [h1]; rfl, h2⟩

/-! ## The streaming algorithm -/

/-- The stack after the nodes `l` of level `k`: one complete subtree per binary digit of the length. -/
def stackOf (k : Nat) (l : List α) : List (Nat × α) :=
  if h : l = [] then [] else
    (if l.length % 2 = 1 then [(k, l.getLast h)] else []) ++ stackOf (k + 1) (complete c l)
termination_by l.length
decreasing_by
  rw [complete_length]
  have := List.length_pos_iff.mpr h
  omega

omit [DecidableEq α] in
theorem complete_snoc_even : ∀ (l : List α) (x : α), l.length % 2 = 0 →
    complete c (l ++ [x]) = complete c l
  | [], _, _ => rfl
  | [_], _, h => by simp at h
  | _ :: _ :: t, x, h => by
    simp only [List.cons_append, complete]
    rw [complete_snoc_even t x (by simp only [List.length_cons] at h; omega)]

omit [DecidableEq α] in
theorem complete_snoc2 : ∀ (l : List α) (y x : α), l.length % 2 = 0 →
    complete c (l ++ [y, x]) = complete c l ++ [c y x]
  | [], _, _, _ => rfl
  | [_], _, _, h => by simp at h
  | _ :: _ :: t, y, x, h => by
    simp only [List.cons_append, complete]
    rw [complete_snoc2 t y x (by simp only [List.length_cons] at h; omega)]

omit [DecidableEq α] in
theorem hasTwins_snoc_even : ∀ (l : List α) (x : α), l.length % 2 = 0 →
    (HasTwins (l ++ [x]) ↔ HasTwins l)
  | [], _, _ => by simp [HasTwins]
  | [_], _, h => by simp at h
  | a :: b :: t, x, h => by
    simp only [List.cons_append, HasTwins]
    rw [hasTwins_snoc_even t x (by simp only [List.length_cons] at h; omega)]

omit [DecidableEq α] in
theorem hasTwins_snoc2 : ∀ (l : List α) (y x : α), l.length % 2 = 0 →
    (HasTwins (l ++ [y, x]) ↔ HasTwins l ∨ y = x)
  | [], _, _, _ => by simp [HasTwins]
  | [_], _, _, h => by simp at h
  | a :: b :: t, y, x, h => by
    simp only [List.cons_append, HasTwins]
    rw [hasTwins_snoc2 t y x (by simp only [List.length_cons] at h; omega), or_assoc]

omit [DecidableEq α] in
theorem stackOf_even (k : Nat) (l : List α) (h : l.length % 2 = 0) :
    stackOf c k l = stackOf c (k + 1) (complete c l) := by
  by_cases hl : l = []
  · subst hl
    rw [stackOf, stackOf]; simp [complete]
  · rw [stackOf, dif_neg hl, if_neg (by omega)]; rfl

omit [DecidableEq α] in
theorem stackOf_odd (k : Nat) (l : List α) (x : α) (h : l.length % 2 = 0) :
    stackOf c k (l ++ [x]) = (k, x) :: stackOf c (k + 1) (complete c l) := by
  rw [stackOf, dif_neg (by simp), if_pos (by simp; omega), complete_snoc_even c l x h]
  simp

omit [DecidableEq α] in
theorem completeTwins_any (l : List α) :
    CompleteTwins c l ↔ HasTwins l ∨ CompleteTwins c (complete c l) := by
  by_cases h : 1 < l.length
  · exact completeTwins_eq c h
  · have h1 := not_completeTwins_small c (show l.length ≤ 1 by omega)
    have h2 := not_completeTwins_small c (show (complete c l).length ≤ 1 by rw [complete_length]; omega)
    have h3 : ¬ HasTwins l := by
      match l, h with
      | [], _ => exact id
      | [_], _ => exact id
      | _ :: _ :: _, h => simp at h
    exact ⟨fun h => absurd h h1, fun h => h.elim (fun h => absurd h h3) (fun h => absurd h h2)⟩

theorem mergeUp_spec : ∀ (n : Nat) (fuel : Nat) (l : List α) (k : Nat) (x : α), l.length = n → n ≤ fuel →
    ¬ CompleteTwins c l →
    (CompleteTwins c (l ++ [x]) → mergeUp c fuel n ((k, x) :: stackOf c k l) = .error .dup) ∧
    (¬ CompleteTwins c (l ++ [x]) →
      mergeUp c fuel n ((k, x) :: stackOf c k l) = .ok (stackOf c k (l ++ [x]))) := by
  intro n
  induction n using Nat.strongRecOn with
  | _ n ih =>
    intro fuel l k x hl hf hnt
    have hnt' := hnt
    rw [completeTwins_any] at hnt'
    by_cases he : n % 2 = 0
    · have hm : mergeUp c fuel n ((k, x) :: stackOf c k l) = .ok ((k, x) :: stackOf c k l) := by
        cases fuel <;> simp [mergeUp, he]
      rw [hm, completeTwins_any c (l ++ [x]), hasTwins_snoc_even l x (by omega),
        complete_snoc_even c l x (by omega), stackOf_odd c k l x (by omega),
        stackOf_even c k l (by omega)]
      exact ⟨fun h => absurd h hnt', fun _ => rfl⟩
    · have hne : l ≠ [] := by rintro rfl; simp at hl; omega
      obtain ⟨i, y, rfl⟩ : ∃ i y, l = i ++ [y] :=
        ⟨l.dropLast, l.getLast hne, (List.dropLast_concat_getLast hne).symm⟩
      have hi : i.length % 2 = 0 := by
        simp only [List.length_append, List.length_singleton] at hl; omega
      have hlen : i.length + 1 = n := by simpa using hl
      rw [hasTwins_snoc_even i y hi, complete_snoc_even c i y hi] at hnt'
      have hnt1 : ¬ HasTwins i := fun h => hnt' (.inl h)
      have hnt2 : ¬ CompleteTwins c (complete c i) := fun h => hnt' (.inr h)
      match fuel, hf with
      | 0, hf => omega
      | fuel + 1, hf =>
        rw [stackOf_odd c k i y hi]
        rw [show i ++ [y] ++ [x] = i ++ [y, x] by simp, completeTwins_any c (i ++ [y, x]),
          hasTwins_snoc2 i y x hi, complete_snoc2 c i y x hi]
        unfold mergeUp
        rw [if_pos (by omega)]
        simp only
        by_cases hyx : y = x
        · rw [if_pos hyx]
          exact ⟨fun _ => rfl, fun h => absurd (.inl (.inr hyx)) h⟩
        · rw [if_neg hyx]
          obtain ⟨g1, g2⟩ := ih (n / 2) (by omega) fuel (complete c i) (k + 1) (c y x)
            (by rw [complete_length]; omega) (by omega) hnt2
          have hst : stackOf c k (i ++ [y, x]) = stackOf c (k + 1) (complete c i ++ [c y x]) := by
            rw [stackOf_even c k _ (by simp; omega), complete_snoc2 c i y x hi]
          rw [hst]
          refine ⟨fun h => g1 ?_, fun h => g2 ?_⟩
          · rcases h with (h | h) | h
            · exact absurd h hnt1
            · exact absurd h hyx
            · exact h
          · exact fun hc => h (.inr hc)

omit [DecidableEq α] in
theorem completeTwins_mono : ∀ (n : Nat) (l : List α) (x : α), l.length = n → CompleteTwins c l →
    CompleteTwins c (l ++ [x]) := by
  intro n
  induction n using Nat.strongRecOn with
  | _ n ih =>
    intro l x hl h
    rw [completeTwins_any] at h ⊢
    by_cases he : n % 2 = 0
    · rwa [hasTwins_snoc_even l x (by omega), complete_snoc_even c l x (by omega)]
    · have hne : l ≠ [] := by rintro rfl; simp at hl; omega
      obtain ⟨i, y, rfl⟩ : ∃ i y, l = i ++ [y] :=
        ⟨l.dropLast, l.getLast hne, (List.dropLast_concat_getLast hne).symm⟩
      have hi : i.length % 2 = 0 := by
        simp only [List.length_append, List.length_singleton] at hl; omega
      have hlen : i.length + 1 = n := by simpa using hl
      rw [hasTwins_snoc_even i y hi, complete_snoc_even c i y hi] at h
      rw [show i ++ [y] ++ [x] = i ++ [y, x] by simp, hasTwins_snoc2 i y x hi, complete_snoc2 c i y x hi]
      rcases h with h | h
      · exact .inl (.inl h)
      · exact .inr (ih _ (by rw [complete_length]; omega) _ _ rfl h)

omit [DecidableEq α] in
theorem completeTwins_append (l m : List α) (h : CompleteTwins c l) : CompleteTwins c (l ++ m) := by
  induction m generalizing l with
  | nil => simpa using h
  | cons x m ih =>
    rw [show l ++ x :: m = (l ++ [x]) ++ m by simp]
    exact ih _ (completeTwins_mono c _ l x rfl h)

theorem pushAll_spec : ∀ (todo donel : List α), ¬ CompleteTwins c donel →
    (CompleteTwins c (donel ++ todo) → pushAll c none donel.length todo (stackOf c 0 donel) = .error .dup) ∧
    (¬ CompleteTwins c (donel ++ todo) →
      pushAll c none donel.length todo (stackOf c 0 donel) = .ok (stackOf c 0 (donel ++ todo))) := by
  intro todo
  induction todo with
  | nil =>
    intro donel h
    rw [List.append_nil]
    exact ⟨fun h' => absurd h' h, fun _ => rfl⟩
  | cons x todo ih =>
    intro donel h
    obtain ⟨g1, g2⟩ := mergeUp_spec c donel.length donel.length donel 0 x rfl (Nat.le_refl _) h
    unfold pushAll
    rw [if_neg (by simp)]
    rw [show donel ++ x :: todo = (donel ++ [x]) ++ todo by simp]
    by_cases hx : CompleteTwins c (donel ++ [x])
    · rw [g1 hx]
      exact ⟨fun _ => rfl, fun h' => absurd (completeTwins_append c _ _ hx) h'⟩
    · rw [g2 hx]
      have := ih (donel ++ [x]) hx
      rw [List.length_append, List.length_singleton] at this
      exact this

/-! ### The flush -/

omit [DecidableEq α] in
/-- All levels on the stack are at least `k`. -/
theorem stackOf_head (l : List α) : ∀ (k : Nat), ∀ e ∈ stackOf c k l, k ≤ e.1 := by
  induction hn : l.length using Nat.strongRecOn generalizing l with
  | _ n ih =>
    intro k e he
    by_cases hl : l = []
    · subst hl; rw [stackOf] at he; simp at he
    · rw [stackOf, dif_neg hl] at he
      have hpos := List.length_pos_iff.mpr hl
      rcases List.mem_append.mp he with he | he
      · split at he
        · simp only [List.mem_singleton] at he; rw [he]; exact Nat.le_refl k
        · cases he
      · have := ih (complete c l).length (by rw [complete_length]; omega) _ rfl (k + 1) e he
        omega

omit [DecidableEq α] in
theorem stackOf_ne_nil (l : List α) : ∀ (k : Nat), l ≠ [] → stackOf c k l ≠ [] := by
  induction hn : l.length using Nat.strongRecOn generalizing l with
  | _ n ih =>
    intro k hl
    have hpos := List.length_pos_iff.mpr hl
    rw [stackOf, dif_neg hl]
    split
    · simp
    · have hc : complete c l ≠ [] := by
        intro hc
        have := complete_length c l
        rw [hc] at this
        simp at this; omega
      simpa using ih _ (by rw [complete_length]; omega) _ rfl (k + 1) hc

omit [DecidableEq α] in
theorem flush_cons (fuel : Nat) (right left : Nat × α) (st : List (Nat × α)) :
    flush c (fuel + 1) (right :: left :: st) =
      match raise c (left.1 - right.1) right left.1 with
      | .error e => .error e
      | .ok right => flush c fuel ((left.1 + 1, c left.2 right.2) :: st) := rfl

omit [DecidableEq α] in
/-- Doubling first does not change the outcome. -/
theorem flush_double (k : Nat) (p : α) (l : List α) (hl : l ≠ []) (fuel : Nat) :
    flush c (fuel + 1) ((k, p) :: stackOf c (k + 1) l) =
      flush c (fuel + 1) ((k + 1, c p p) :: stackOf c (k + 1) l) := by
  cases hs : stackOf c (k + 1) l with
  | nil => exact absurd hs (stackOf_ne_nil c l (k + 1) hl)
  | cons e st =>
    have hk := stackOf_head c l (k + 1) e (by rw [hs]; simp)
    rw [flush_cons, flush_cons]
    obtain ⟨d, hd⟩ : ∃ d, e.1 = k + 1 + d := ⟨e.1 - (k + 1), by omega⟩
    rw [show e.1 - (k, p).1 = d + 1 by simp only; omega, show e.1 - (k + 1, c p p).1 = d by simp only; omega]
    conv => lhs; unfold raise
    rw [if_neg (by simp only; omega), if_pos (by simp only; omega)]

omit [DecidableEq α] in
theorem flush_pad : ∀ (n : Nat) (l : List α) (k : Nat) (p : α) (fuel : Nat), l.length = n →
    (stackOf c k l).length ≤ fuel →
    ∃ j r, flush c fuel ((k, p) :: stackOf c k l) = .ok [(j, r)] ∧ root c (l ++ [p]) = some r := by
  intro n
  induction n using Nat.strongRecOn with
  | _ n ih =>
    intro l k p fuel hl hf
    by_cases hnil : l = []
    · subst hnil
      rw [stackOf, dif_pos rfl]
      refine ⟨k, p, ?_, ?_⟩
      · cases fuel <;> rfl
      · show root c [p] = _
        rw [root]
    · have hpos := List.length_pos_iff.mpr hnil
      have hroot : root c (l ++ [p]) = root c (level c (l ++ [p])) :=
        root_eq c (by simp; omega)
      by_cases he : n % 2 = 0
      · rw [stackOf_even c k l (by omega)] at hf ⊢
        have hcne : complete c l ≠ [] := by
          intro hc
          have := complete_length c l
          rw [hc] at this; simp at this; omega
        have hlev : level c (l ++ [p]) = complete c l ++ [c p p] := by
          clear hf hnil hpos hroot hcne ih
          have : ∀ l : List α, l.length % 2 = 0 → level c (l ++ [p]) = complete c l ++ [c p p] := by
            intro l
            induction l using complete.induct with
            | case1 a b t ih =>
              intro h
              simp only [List.cons_append, level, complete]
              rw [ih (by simp only [List.length_cons] at h; omega)]
            | case2 l hne =>
              intro h
              match l, hne, h with
              | [], _, _ => rfl
              | [_], _, h => simp at h
              | a :: b :: t, hne, _ => exact absurd rfl (hne a b t)
          exact this l (by omega)
        match fuel, hf with
        | 0, hf =>
          exact absurd (List.length_eq_zero_iff.mp (Nat.le_zero.mp hf)) (stackOf_ne_nil c _ _ hcne)
        | fuel + 1, hf =>
          rw [flush_double c k p _ hcne]
          rw [hroot, hlev]
          exact ih _ (by rw [complete_length]; omega) (complete c l) (k + 1) (c p p) (fuel + 1) rfl hf
      · obtain ⟨i, y, rfl⟩ : ∃ i y, l = i ++ [y] :=
          ⟨l.dropLast, l.getLast hnil, (List.dropLast_concat_getLast hnil).symm⟩
        have hi : i.length % 2 = 0 := by
          simp only [List.length_append, List.length_singleton] at hl; omega
        have hlen : i.length + 1 = n := by simpa using hl
        rw [stackOf_odd c k i y hi] at hf ⊢
        have hlev : level c (i ++ [y] ++ [p]) = complete c i ++ [c y p] := by
          rw [show i ++ [y] ++ [p] = i ++ [y, p] by simp]
          clear hf hnil hpos hroot ih hl hlen he
          induction i using complete.induct with
          | case1 a b t ih =>
            simp only [List.cons_append, level, complete]
            rw [ih (by simp only [List.length_cons] at hi; omega)]
          | case2 l hne =>
            match l, hne, hi with
            | [], _, _ => rfl
            | [_], _, h => simp at h
            | a :: b :: t, hne, _ => exact absurd rfl (hne a b t)
        match fuel, hf with
        | 0, hf => simp at hf
        | fuel + 1, hf =>
          rw [flush_cons]
          have hr : raise c ((k, y).1 - (k, p).1) (k, p) (k, y).1 = .ok (k, p) := by
            rw [show (k, y).1 - (k, p).1 = 0 by simp]
            simp [raise]
          rw [hr, hroot, hlev]
          exact ih _ (by rw [complete_length]; omega) (complete c i) (k + 1) (c y p) fuel rfl
            (by simpa using hf)

omit [DecidableEq α] in
theorem flush_spec : ∀ (n : Nat) (l : List α) (k : Nat), l.length = n → l ≠ [] →
    ∃ j r, flush c (stackOf c k l).length (stackOf c k l) = .ok [(j, r)] ∧ root c l = some r := by
  intro n
  induction n using Nat.strongRecOn with
  | _ n ih =>
    intro l k hl hnil
    have hpos := List.length_pos_iff.mpr hnil
    by_cases he : n % 2 = 0
    · have hcne : complete c l ≠ [] := by
        intro hc
        have := complete_length c l
        rw [hc] at this; simp at this; omega
      rw [stackOf_even c k l (by omega), root_eq c (by omega)]
      have hlev : level c l = complete c l := by
        have : ∀ l : List α, l.length % 2 = 0 → level c l = complete c l := by
          intro l
          induction l using complete.induct with
          | case1 a b t ih =>
            intro h
            simp only [level, complete]
            rw [ih (by simp only [List.length_cons] at h; omega)]
          | case2 l hne =>
            intro h
            match l, hne, h with
            | [], _, _ => rfl
            | [_], _, h => simp at h
            | a :: b :: t, hne, _ => exact absurd rfl (hne a b t)
        exact this l (by omega)
      rw [hlev]
      exact ih _ (by rw [complete_length]; omega) _ _ rfl hcne
    · obtain ⟨i, y, rfl⟩ : ∃ i y, l = i ++ [y] :=
        ⟨l.dropLast, l.getLast hnil, (List.dropLast_concat_getLast hnil).symm⟩
      have hi : i.length % 2 = 0 := by
        simp only [List.length_append, List.length_singleton] at hl; omega
      rw [stackOf_odd c k i y hi, ← stackOf_even c k i hi]
      exact flush_pad c _ i k y _ rfl (by simp)

/-- The streaming algorithm never panics; it returns the merkle root, or `None` exactly for the empty
list and when two siblings with complete subtrees are equal. -/
theorem C20_streaming (l : List α) :
    ((l = [] ∨ CompleteTwins c l) ∧ calculateRoot c none l = some none) ∨
    (l ≠ [] ∧ ¬ CompleteTwins c l ∧ ∃ r, calculateRoot c none l = some (some r) ∧ root c l = some r) := by
  have h0 : ¬ CompleteTwins c ([] : List α) := not_completeTwins_small c (by simp)
  obtain ⟨g1, g2⟩ := pushAll_spec c l [] h0
  have hst : stackOf c 0 ([] : List α) = [] := by rw [stackOf, dif_pos rfl]
  rw [hst, List.length_nil, List.nil_append] at g1 g2
  unfold calculateRoot
  by_cases ht : CompleteTwins c l
  · left
    rw [g1 ht]
    exact ⟨.inr ht, rfl⟩
  · rw [g2 ht]
    by_cases hl : l = []
    · left
      subst hl
      rw [hst]
      exact ⟨.inl rfl, rfl⟩
    · right
      obtain ⟨j, r, h1, h2⟩ := flush_spec c _ l 0 rfl hl
      simp only [h1]
      exact ⟨hl, ht, r, rfl, h2⟩

/-! ## Agreement -/

omit [DecidableEq α] in
theorem mem_complete : ∀ (l : List α) (z : α), z ∈ complete c l →
    ∃ a b, a ∈ l ∧ b ∈ l ∧ z = c a b ∧ (a = b → HasTwins l) ∧ (a, b) ∈ pairs l
  | [], _, h => by simp [complete] at h
  | [_], _, h => by simp [complete] at h
  | a :: b :: t, z, h => by
    simp only [complete, List.mem_cons] at h
    rcases h with h | h
    · exact ⟨a, b, by simp, by simp, h, fun e => .inl e, by simp [pairs]⟩
    · obtain ⟨a', b', h1, h2, h3, h4, h5⟩ := mem_complete t z h
      exact ⟨a', b', by simp [h1], by simp [h2], h3, fun e => .inr (h4 e), by simp [pairs, h5]⟩

omit [DecidableEq α] in
theorem level_snoc_even (p : α) : ∀ l : List α, l.length % 2 = 0 →
    level c (l ++ [p]) = complete c l ++ [c p p]
  | [], _ => rfl
  | [_], h => by simp at h
  | _ :: _ :: t, h => by
    simp only [List.cons_append, level, complete]
    rw [level_snoc_even p t (by simp only [List.length_cons] at h; omega)]

omit [DecidableEq α] in
theorem level_snoc2 (y p : α) : ∀ l : List α, l.length % 2 = 0 →
    level c (l ++ [y, p]) = complete c l ++ [c y p]
  | [], _ => rfl
  | [_], h => by simp at h
  | _ :: _ :: t, h => by
    simp only [List.cons_append, level, complete]
    rw [level_snoc2 y p t (by simp only [List.length_cons] at h; omega)]

omit [DecidableEq α] in
theorem level_even : ∀ l : List α, l.length % 2 = 0 → level c l = complete c l
  | [], _ => rfl
  | [_], h => by simp at h
  | _ :: _ :: t, h => by
    simp only [level, complete]
    rw [level_even t (by simp only [List.length_cons] at h; omega)]

omit [DecidableEq α] in
theorem snoc_of_ne_nil {l : List α} (h : l ≠ []) : ∃ i y, l = i ++ [y] :=
  ⟨l.dropLast, l.getLast h, (List.dropLast_concat_getLast h).symm⟩

omit [DecidableEq α] in
/-- Equal siblings of which one is padded up: only with a clash.  `C` are the complete nodes of a
level, `p` the incomplete one. -/
theorem twins_padded : ∀ (n : Nat) (C : List α) (p : α), C.length = n → ¬ CompleteTwins c C →
    p ∉ C → TwinsSomewhere c (C ++ [p]) → Clash c (combined c (C ++ [p])) := by
  intro n
  induction n using Nat.strongRecOn with
  | _ n ih =>
    intro C p hn hc hp ht
    by_cases hnil : C = []
    · subst hnil
      exact absurd ht (not_twins_small c (by simp))
    have hpos := List.length_pos_iff.mpr hnil
    rw [twins_eq c (by simp; omega)] at ht
    rw [combined_eq c (by simp; omega)]
    have hc' := hc
    rw [completeTwins_any] at hc'
    have hc1 : ¬ HasTwins C := fun h => hc' (.inl h)
    have hc2 : ¬ CompleteTwins c (complete c C) := fun h => hc' (.inr h)
    by_cases he : n % 2 = 0
    · rw [hasTwins_snoc_even C p (by omega), level_snoc_even c p C (by omega)] at ht
      rcases ht with ht | ht
      · exact absurd ht hc1
      · by_cases hm : c p p ∈ complete c C
        · obtain ⟨a, b, ha, hb, hab, htw, hmem⟩ := mem_complete c C _ hm
          refine ⟨(p, p), by rw [pairs_snoc_even p C (by omega)]; simp, (a, b), by rw [pairs_snoc_even p C (by omega)]; simp [hmem],
            fun e => ?_, hab⟩
          injection e with h1 h2
          exact hp (h1 ▸ ha)
        · refine (ih _ (by rw [complete_length]; omega) _ _ rfl hc2 hm ht).mono fun x hx => ?_
          rw [level_snoc_even c p C (by omega)]
          exact List.mem_append_right _ hx
    · obtain ⟨i, y, rfl⟩ := snoc_of_ne_nil hnil
      have hi : i.length % 2 = 0 := by
        simp only [List.length_append, List.length_singleton] at hn; omega
      have hlen : i.length + 1 = n := by simpa using hn
      rw [show i ++ [y] ++ [p] = i ++ [y, p] by simp, hasTwins_snoc2 i y p hi, level_snoc2 c y p i hi] at ht
      rw [hasTwins_snoc_even i y hi] at hc1
      rw [complete_snoc_even c i y hi] at hc2
      rcases ht with (ht | ht) | ht
      · exact absurd ht hc1
      · exact absurd (show p ∈ i ++ [y] by simp [ht]) hp
      · by_cases hm : c y p ∈ complete c i
        · obtain ⟨a, b, ha, hb, hab, htw, hmem⟩ := mem_complete c i _ hm
          rw [show i ++ [y] ++ [p] = i ++ [y, p] by simp]
          refine ⟨(y, p), by rw [pairs_snoc2 y p i hi]; simp, (a, b), by rw [pairs_snoc2 y p i hi]; simp [hmem], fun e => ?_, hab⟩
          injection e with h1 h2
          exact hp (by rw [h2]; simp [hb])
        · refine (ih _ (by rw [complete_length]; omega) _ _ rfl hc2 hm ht).mono fun x hx => ?_
          rw [show i ++ [y] ++ [p] = i ++ [y, p] by simp, level_snoc2 c y p i hi]
          exact List.mem_append_right _ hx

omit [DecidableEq α] in
theorem twins_complete : ∀ (n : Nat) (l : List α), l.length = n → TwinsSomewhere c l →
    CompleteTwins c l ∨ Clash c (combined c l) := by
  intro n
  induction n using Nat.strongRecOn with
  | _ n ih =>
    intro l hn ht
    by_cases h1 : 1 < l.length
    · rw [twins_eq c h1] at ht
      rw [completeTwins_eq c h1, combined_eq c h1]
      rcases ht with ht | ht
      · exact .inl (.inl ht)
      · by_cases he : n % 2 = 0
        · rw [level_even c l (by omega)] at ht
          rcases ih _ (by rw [complete_length]; omega) _ rfl ht with h | h
          · exact .inl (.inr h)
          · rw [level_even c l (by omega)]
            exact .inr (h.mono fun x hx => List.mem_append_right _ hx)
        · obtain ⟨i, y, rfl⟩ := snoc_of_ne_nil (show l ≠ [] by rintro rfl; simp at h1)
          have hi : i.length % 2 = 0 := by
            simp only [List.length_append, List.length_singleton] at hn; omega
          rw [hasTwins_snoc_even i y hi, complete_snoc_even c i y hi]
          rw [level_snoc_even c y i hi] at ht
          by_cases hw : HasTwins i
          · exact .inl (.inl hw)
          by_cases hw' : CompleteTwins c (complete c i)
          · exact .inl (.inr hw')
          right
          by_cases hm : c y y ∈ complete c i
          · obtain ⟨a, b, ha, hb, hab, htw, hmem⟩ := mem_complete c i _ hm
            refine ⟨(y, y), by rw [pairs_snoc_even y i hi]; simp, (a, b), by rw [pairs_snoc_even y i hi]; simp [hmem], fun e => ?_, hab⟩
            injection e with h1 h2
            exact hw (htw (h1.symm.trans h2))
          · refine (twins_padded c _ _ _ rfl hw' hm ht).mono fun x hx => ?_
            rw [level_snoc_even c y i hi]
            exact List.mem_append_right _ hx
    · exact absurd ht (not_twins_small c (by omega))

omit [DecidableEq α] in
theorem complete_twins : ∀ (n : Nat) (l m : List α), l.length = n → CompleteTwins c l → m.length ≤ 1 →
    TwinsSomewhere c (l ++ m) := by
  intro n
  induction n using Nat.strongRecOn with
  | _ n ih =>
    intro l m hn h hm
    have h1 : 1 < l.length := by
      rcases Nat.lt_or_ge 1 l.length with h1 | h1
      · exact h1
      · exact absurd h (not_completeTwins_small c h1)
    rw [completeTwins_eq c h1] at h
    rw [twins_eq c (by simp; omega)]
    rcases Nat.mod_two_eq_zero_or_one n with he | he
    · match m, hm with
      | [], _ =>
        rw [List.append_nil]
        rcases h with h | h
        · exact .inl h
        · right
          rw [level_even c l (by omega)]
          have := ih _ (by rw [complete_length]; omega) _ [] rfl h (by simp)
          rwa [List.append_nil] at this
      | [p], _ =>
        rw [hasTwins_snoc_even l p (by omega), level_snoc_even c p l (by omega)]
        rcases h with h | h
        · exact .inl h
        · exact .inr (ih _ (by rw [complete_length]; omega) _ _ rfl h (by simp))
    · obtain ⟨i, y, rfl⟩ := snoc_of_ne_nil (show l ≠ [] by rintro rfl; simp at h1)
      have hi : i.length % 2 = 0 := by
        simp only [List.length_append, List.length_singleton] at hn; omega
      have hlen : i.length + 1 = n := by simpa using hn
      rw [hasTwins_snoc_even i y hi, complete_snoc_even c i y hi] at h
      match m, hm with
      | [], _ =>
        rw [List.append_nil, hasTwins_snoc_even i y hi, level_snoc_even c y i hi]
        rcases h with h | h
        · exact .inl h
        · exact .inr (ih _ (by rw [complete_length]; omega) _ _ rfl h (by simp))
      | [p], _ =>
        rw [show i ++ [y] ++ [p] = i ++ [y, p] by simp, hasTwins_snoc2 i y p hi, level_snoc2 c y p i hi]
        rcases h with h | h
        · exact .inl (.inl h)
        · exact .inr (ih _ (by rw [complete_length]; omega) _ _ rfl h (by simp))

/-- The two algorithms return the same answer on every list of leaves, or two different pairs of siblings in its tree have the same
parent. -/
theorem C20_agree (l : List α) :
    calculateRoot c none l = some (calculateRootBatched c l) ∨ Clash c (combined c l) := by
  rcases C20_batched c l with ⟨h1, h2⟩ | ⟨h1, h2, r, h3, h4⟩ <;>
    rcases C20_streaming c l with ⟨g1, g2⟩ | ⟨g1, g2, r', g3, g4⟩
  · exact .inl (by rw [h2, g2])
  · rcases h1 with h1 | h1
    · exact absurd h1 g1
    · rcases twins_complete c _ l rfl h1 with h | h
      · exact absurd h g2
      · exact .inr h
  · rcases g1 with g1 | g1
    · exact absurd g1 h1
    · have := complete_twins c _ l [] rfl g1 (by simp)
      rw [List.append_nil] at this
      exact absurd this h2
  · left
    rw [h3, g3]
    rw [h4] at g4
    rw [Option.some.inj g4]

/-- Without the clash-freedom the algorithms can differ: with a constant combining function and three
leaves the padded top pair is equal, which only the batched algorithm checks. -/
theorem C20_differ_on_clash :
    calculateRoot (fun _ _ : Nat => 0) none [1, 2, 3] = some (some 0) ∧
    calculateRootBatched (fun _ _ : Nat => 0) [1, 2, 3] = none := by decide

/-! ### The fixed stack of builds without `alloc` -/

omit [DecidableEq α] in
theorem stackOf_length (m : Nat) : ∀ (k : Nat) (l : List α),
    (l.length + 1 = 2 ^ m → (stackOf c k l).length = m) ∧
    (l.length + 1 < 2 ^ m → (stackOf c k l).length < m) := by
  induction m with
  | zero =>
    intro k l
    refine ⟨fun h => ?_, fun h => by simp at h⟩
    have : l = [] := List.length_eq_zero_iff.mp (by simp at h; simp [h])
    subst this
    rw [stackOf, dif_pos rfl]; rfl
  | succ m ih =>
    intro k l
    have hpow : 2 ^ (m + 1) = 2 ^ m * 2 := Nat.pow_succ 2 m
    have hm : 0 < 2 ^ m := Nat.pow_pos (by omega)
    rw [hpow]
    rcases Nat.mod_two_eq_zero_or_one l.length with he | he
    · rw [stackOf_even c k l he]
      obtain ⟨g1, g2⟩ := ih (k + 1) (complete c l)
      rw [complete_length] at g1 g2
      refine ⟨fun h => by omega, fun h => ?_⟩
      rcases Nat.lt_or_eq_of_le (show l.length / 2 + 1 ≤ 2 ^ m by omega) with h' | h'
      · have := g2 h'; omega
      · have := g1 h'; omega
    · obtain ⟨i, y, rfl⟩ := snoc_of_ne_nil (show l ≠ [] by rintro rfl; simp at he)
      simp only [List.length_append, List.length_singleton] at he ⊢
      rw [stackOf_odd c k i y (by omega)]
      obtain ⟨g1, g2⟩ := ih (k + 1) (complete c i)
      rw [complete_length] at g1 g2
      rw [List.length_cons]
      refine ⟨fun h => ?_, fun h => ?_⟩
      · have := g1 (by omega); omega
      · have := g2 (by omega); omega

theorem pushAll_cap (m : Nat) : ∀ (todo donel : List α), ¬ CompleteTwins c donel →
    donel.length + 1 ≤ 2 ^ m →
    (donel.length + todo.length + 1 ≤ 2 ^ m →
      pushAll c (some m) donel.length todo (stackOf c 0 donel) =
        pushAll c none donel.length todo (stackOf c 0 donel)) ∧
    (2 ^ m ≤ donel.length + todo.length →
      pushAll c (some m) donel.length todo (stackOf c 0 donel) = .error .dup ∨
      pushAll c (some m) donel.length todo (stackOf c 0 donel) = .error .full) := by
  intro todo
  induction todo with
  | nil =>
    intro donel h hle
    refine ⟨fun _ => rfl, fun h' => ?_⟩
    simp only [List.length_nil] at h'
    omega
  | cons x todo ih =>
    intro donel h hle
    obtain ⟨s1, s2⟩ := stackOf_length c m 0 donel
    rcases Nat.lt_or_eq_of_le hle with hlt | heq
    · have hs := s2 hlt
      obtain ⟨g1, g2⟩ := mergeUp_spec c donel.length donel.length donel 0 x rfl (Nat.le_refl _) h
      unfold pushAll
      rw [if_neg (by simp only [Option.some.injEq]; omega), if_neg (by simp)]
      by_cases hx : CompleteTwins c (donel ++ [x])
      · rw [g1 hx]
        exact ⟨fun _ => rfl, fun _ => .inl rfl⟩
      · rw [g2 hx]
        have := ih (donel ++ [x]) hx (by simp; omega)
        rw [List.length_append, List.length_singleton] at this
        simp only [List.length_cons]
        refine ⟨fun h => this.1 (by omega), fun h => this.2 (by omega)⟩
    · refine ⟨fun h' => ?_, fun _ => ?_⟩
      · simp only [List.length_cons] at h'; omega
      · right
        unfold pushAll
        rw [if_pos (by rw [s1 heq])]

/-- With the fixed stack of 15 entries the answer is the same up to 32767 leaves, and `None` beyond. -/
theorem C20_no_alloc (l : List α) :
    calculateRoot c (some 15) l = if l.length ≤ 32767 then calculateRoot c none l else some none := by
  have h0 : ¬ CompleteTwins c ([] : List α) := not_completeTwins_small c (by simp)
  obtain ⟨g1, g2⟩ := pushAll_cap c 15 l [] h0 (by simp)
  have hst : stackOf c 0 ([] : List α) = [] := by rw [stackOf, dif_pos rfl]
  rw [hst] at g1 g2
  simp only [List.length_nil, Nat.zero_add] at g1 g2
  unfold calculateRoot
  by_cases hl : l.length ≤ 32767
  · rw [if_pos hl, g1 (by omega)]
  · rw [if_neg hl]
    rcases g2 (by omega) with h | h <;> rw [h]

/-! ## C21 -/

omit [DecidableEq α] in
/-- Equal levels come from equal lists, unless there are twins or a clash. -/
theorem level_inj : ∀ (l m : List α), level c l = level c m → ¬ HasTwins l → ¬ HasTwins m →
    l = m ∨ Clash c (pairs l ++ pairs m)
  | [], [], _, _, _ => .inl rfl
  | [], [_], h, _, _ => by simp [level] at h
  | [], _ :: _ :: _, h, _, _ => by simp [level] at h
  | [_], [], h, _, _ => by simp [level] at h
  | _ :: _ :: _, [], h, _, _ => by simp [level] at h
  | [a], [b], h, _, _ => by
    simp only [level, List.cons.injEq, and_true] at h
    by_cases hab : a = b
    · exact .inl (by rw [hab])
    · exact .inr ⟨(a, a), by simp [pairs], (b, b), by simp [pairs], fun e => hab (by injection e), h⟩
  | [a], x :: y :: t, h, _, hm => by
    simp only [level, List.cons.injEq] at h
    by_cases hab : a = x ∧ a = y
    · exact absurd (.inl (hab.1.symm.trans hab.2)) hm
    · exact .inr ⟨(a, a), by simp [pairs], (x, y), by simp [pairs], fun e => hab (by injection e with h1 h2; exact ⟨h1, h2⟩), h.1⟩
  | x :: y :: t, [a], h, hl, _ => by
    simp only [level, List.cons.injEq] at h
    by_cases hab : a = x ∧ a = y
    · exact absurd (.inl (hab.1.symm.trans hab.2)) hl
    · exact .inr ⟨(a, a), by simp [pairs], (x, y), by simp [pairs], fun e => hab (by injection e with h1 h2; exact ⟨h1, h2⟩), h.1.symm⟩
  | a :: b :: t, x :: y :: u, h, hl, hm => by
    simp only [level, List.cons.injEq] at h
    by_cases hab : a = x ∧ b = y
    · rcases level_inj t u h.2 (fun h => hl (.inr h)) (fun h => hm (.inr h)) with h | h
      · exact .inl (by rw [hab.1, hab.2, h])
      · exact .inr (h.mono fun z hz => by
          simp only [pairs, List.mem_append, List.mem_cons] at hz ⊢
          rcases hz with hz | hz
          · exact .inl (.inr hz)
          · exact .inr (.inr hz))
    · exact .inr ⟨(a, b), by simp [pairs], (x, y), by simp [pairs], fun e => hab (by injection e with h1 h2; exact ⟨h1, h2⟩), h.1⟩

omit [DecidableEq α] in
theorem root_inj : ∀ (h : Nat) (l m : List α) (r : α),
    2 ^ h < 2 * l.length → l.length ≤ 2 ^ h → 2 ^ h < 2 * m.length → m.length ≤ 2 ^ h →
    ¬ TwinsSomewhere c l → ¬ TwinsSomewhere c m → root c l = some r → root c m = some r →
    l = m ∨ Clash c (combined c l ++ combined c m) := by
  intro h
  induction h with
  | zero =>
    intro l m r hl1 hl2 hm1 hm2 _ _ hrl hrm
    match l, m, hl1, hl2, hm1, hm2, hrl, hrm with
    | [a], [b], _, _, _, _, hrl, hrm =>
      rw [root] at hrl hrm
      exact .inl (by rw [Option.some.inj hrl, Option.some.inj hrm])
    | [], _, hl1, _, _, _, _, _ => simp at hl1
    | _ :: _ :: _, _, _, hl2, _, _, _, _ => simp at hl2
    | _, [], _, _, hm1, _, _, _ => simp at hm1
    | _, _ :: _ :: _, _, _, _, hm2, _, _ => simp at hm2
  | succ h ih =>
    intro l m r hl1 hl2 hm1 hm2 htl htm hrl hrm
    have hpow : 2 ^ (h + 1) = 2 ^ h * 2 := Nat.pow_succ 2 h
    have hp : 0 < 2 ^ h := Nat.pow_pos (by omega)
    have h1l : 1 < l.length := by omega
    have h1m : 1 < m.length := by omega
    rw [root_eq c h1l] at hrl
    rw [root_eq c h1m] at hrm
    rw [twins_eq c h1l] at htl
    rw [twins_eq c h1m] at htm
    have hll := level_length c l
    have hlm := level_length c m
    rcases ih (level c l) (level c m) r (by omega) (by omega) (by omega) (by omega)
      (fun h => htl (.inr h)) (fun h => htm (.inr h)) hrl hrm with h | h
    · refine (level_inj c l m h (fun h => htl (.inl h)) (fun h => htm (.inl h))).imp id fun hc => hc.mono fun x hx => ?_
      rw [combined_eq c h1l, combined_eq c h1m]
      simp only [List.mem_append] at hx ⊢
      exact hx.imp .inl .inl
    · refine .inr (h.mono fun x hx => ?_)
      rw [combined_eq c h1l, combined_eq c h1m]
      simp only [List.mem_append] at hx ⊢
      exact hx.imp .inr .inr

/-- Two lists of leaves whose trees have the same height `h` and for which the batched algorithm
returns the same root are equal, or two different pairs of siblings in the two trees have the same parent. -/
theorem C21_batched (h : Nat) (l m : List α) (r : α)
    (hl : 2 ^ h < 2 * l.length ∧ l.length ≤ 2 ^ h) (hm : 2 ^ h < 2 * m.length ∧ m.length ≤ 2 ^ h)
    (hrl : calculateRootBatched c l = some r) (hrm : calculateRootBatched c m = some r) :
    l = m ∨ Clash c (combined c l ++ combined c m) := by
  rcases C20_batched c l with ⟨_, h2⟩ | ⟨_, h2, r1, h3, h4⟩
  · rw [hrl] at h2; cases h2
  rcases C20_batched c m with ⟨_, g2⟩ | ⟨_, g2, r2, g3, g4⟩
  · rw [hrm] at g2; cases g2
  rw [hrl] at h3
  rw [hrm] at g3
  cases h3
  cases g3
  exact root_inj c h l m r hl.1 hl.2 hm.1 hm.2 h2 g2 h4 g4

/-- The same for the streaming algorithm, with any stack capacity. -/
theorem C21_streaming (h : Nat) (l m : List α) (r : α)
    (hl : 2 ^ h < 2 * l.length ∧ l.length ≤ 2 ^ h) (hm : 2 ^ h < 2 * m.length ∧ m.length ≤ 2 ^ h)
    (hrl : calculateRoot c none l = some (some r)) (hrm : calculateRoot c none m = some (some r)) :
    l = m ∨ Clash c (combined c l ++ combined c m) := by
  rcases C20_agree c l with h1 | h1
  · rcases C20_agree c m with h2 | h2
    · rw [hrl] at h1
      rw [hrm] at h2
      exact C21_batched c h l m r hl hm (Option.some.inj h1).symm (Option.some.inj h2).symm
    · exact .inr (h2.mono fun x hx => List.mem_append_right _ hx)
  · exact .inr (h1.mono fun x hx => List.mem_append_left _ hx)

example : (calculateRootBatched (fun a b : Nat => 100 * a + b + 7) [1, 2, 3, 4, 5]).isSome = true ∧
    2 ^ 3 < 2 * [1, 2, 3, 4, 5].length ∧ [1, 2, 3, 4, 5].length ≤ 2 ^ 3 ∧
    calculateRoot (fun a b : Nat => 100 * a + b + 7) none [1, 2, 3, 4, 5] =
      some (calculateRootBatched (fun a b : Nat => 100 * a + b + 7) [1, 2, 3, 4, 5]) ∧
    -- the list of CVE-2012-2459: repeating the tail is rejected
    calculateRootBatched (fun a b : Nat => 100 * a + b + 7) [1, 2, 3, 4, 5, 6, 5, 6] = none ∧
    calculateRoot (fun a b : Nat => 100 * a + b + 7) none [1, 2, 3, 4, 5, 6, 5, 6] = some none := by
  decide

end Merkle
end Btc
