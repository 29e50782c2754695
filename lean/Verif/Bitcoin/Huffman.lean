/-!
# Huffman trees

Weighted binary trees and the exchange argument: for weights `a`, `b` that are least among `a :: b :: rest`, some tree over
`(a + b) :: rest` is at least `a + b` cheaper than any given tree over `a :: b :: rest`.
-/
namespace Btc.Huff

/-- A binary tree with weights at its leaves. -/
inductive WT where
  | leaf (w : Nat)
  | node (l r : WT)

/-- The leaves as (depth, weight), the root being at depth `d`. -/
def WT.items : WT → Nat → List (Nat × Nat)
  | .leaf w, d => [(d, w)]
  | .node l r, d => l.items (d + 1) ++ r.items (d + 1)

def WT.height : WT → Nat
  | .leaf _ => 0
  | .node l r => max l.height r.height + 1

/-- The sum of depth times weight. -/
def dot : List (Nat × Nat) → Nat
  | [] => 0
  | (d, w) :: r => d * w + dot r

/-- The weighted path length. -/
def WT.cost (t : WT) : Nat := dot (t.items 0)

def WT.weights (t : WT) : List Nat := (t.items 0).map (·.2)

theorem dot_append : ∀ a b : List (Nat × Nat), dot (a ++ b) = dot a + dot b
  | [], b => by simp [dot]
  | (d, w) :: r, b => by simp only [List.cons_append, dot]; rw [dot_append r b]; omega

theorem dot_perm {a b : List (Nat × Nat)} (p : a.Perm b) : dot a = dot b := by
  induction p with
  | nil => rfl
  | cons x _ ih => obtain ⟨d, w⟩ := x; simp only [dot]; omega
  | swap x y _ => obtain ⟨d, w⟩ := x; obtain ⟨e, v⟩ := y; simp only [dot]; omega
  | trans _ _ h1 h2 => omega

/-- A permutation of the image of a list is the image of a permutation of it. -/
theorem perm_lift {α β : Type} (f : α → β) {a b : List β} (p : a.Perm b) : ∀ l : List α, l.map f = a → ∃ l' : List α, l'.Perm l ∧ l'.map f = b := by
  induction p with
  | nil => intro l h; exact ⟨l, .refl _, h⟩
  | cons x p ih =>
    intro l h
    match l, h with
    | y :: ys, h =>
      simp only [List.map_cons, List.cons.injEq] at h
      obtain ⟨l', h1, h2⟩ := ih ys h.2
      exact ⟨y :: l', h1.cons y, by simp [h2, h.1]⟩
  | swap x y r =>
    intro l h
    match l, h with
    | u :: v :: ys, h =>
      simp only [List.map_cons, List.cons.injEq] at h
      exact ⟨v :: u :: ys, .swap _ _ _, by simp [h.1, h.2.1, h.2.2]⟩
  | trans _ _ ih1 ih2 =>
    intro l h
    obtain ⟨l1, h1, h2⟩ := ih1 l h
    obtain ⟨l2, h3, h4⟩ := ih2 l1 h2
    exact ⟨l2, h3.trans h1, h4⟩

theorem items_le : ∀ (t : WT) (d : Nat), ∀ p ∈ t.items d, p.1 ≤ d + t.height
  | .leaf w, d, p, h => by simp [WT.items] at h; subst h; simp
  | .node l r, d, p, h => by
    simp only [WT.items, List.mem_append] at h
    simp only [WT.height]
    rcases h with h | h
    · have := items_le l (d + 1) p h; omega
    · have := items_le r (d + 1) p h; omega

/-- The weights at the leaves can be chosen freely. -/
theorem relabel : ∀ (t : WT) (d : Nat) (L : List (Nat × Nat)), L.map (·.1) = (t.items d).map (·.1) → ∃ t' : WT, t'.items d = L
  | .leaf w, d, L, h => by
    match L, h with
    | [(e, v)], h =>
      simp only [WT.items, List.map_cons, List.map_nil, List.cons.injEq, and_true] at h
      subst h
      exact ⟨.leaf v, rfl⟩
    | [], h => simp [WT.items] at h
    | _ :: _ :: _, h => simp [WT.items] at h
  | .node l r, d, L, h => by
    simp only [WT.items, List.map_append] at h
    obtain ⟨L1, L2, rfl, h1, h2⟩ := List.map_eq_append_iff.mp h
    obtain ⟨l', hl⟩ := relabel l (d + 1) L1 h1
    obtain ⟨r', hr⟩ := relabel r (d + 1) L2 h2
    exact ⟨.node l' r', by simp only [WT.items, hl, hr]⟩

theorem relabel_perm (t : WT) (d : Nat) (P P' : List (Nat × Nat)) (h : (t.items d).Perm P) (h' : P'.map (·.1) = P.map (·.1)) :
    ∃ t' : WT, (t'.items d).Perm P' := by
  obtain ⟨L, h1, h2⟩ := perm_lift (·.1) (h.symm.map (·.1)) P' h'
  obtain ⟨t', ht⟩ := relabel t d L h2
  exact ⟨t', by rw [ht]; exact h1⟩

/-- In a tree with two leaves or more, two leaves of greatest depth are siblings; contracting them gives a tree. -/
theorem deepest : ∀ (t : WT) (d : Nat), 0 < t.height → ∃ (D x y : Nat) (Q : List (Nat × Nat)), D + 1 = d + t.height ∧
    (t.items d).Perm ((D + 1, x) :: (D + 1, y) :: Q) ∧ (∀ p ∈ Q, p.1 ≤ D + 1) ∧ ∃ t0 : WT, (t0.items d).Perm ((D, x + y) :: Q)
  | .leaf _, _, h => by simp [WT.height] at h
  | .node l r, d, _ => by
    by_cases hb : l.height = 0 ∧ r.height = 0
    · match l, r, hb with
      | .leaf x, .leaf y, _ => exact ⟨d, x, y, [], by simp [WT.height], .refl _, by simp, .leaf (x + y), .refl _⟩
      | .node _ _, _, hb => simp [WT.height] at hb
      | .leaf _, .node _ _, hb => simp [WT.height] at hb
    · by_cases hc : r.height ≤ l.height
      · obtain ⟨D, x, y, Q, h1, h2, h3, t0, h4⟩ := deepest l (d + 1) (by omega)
        refine ⟨D, x, y, Q ++ r.items (d + 1), by simp only [WT.height]; omega, ?_, ?_, .node t0 r, ?_⟩
        · simp only [WT.items]; exact h2.append_right _
        · intro p hp
          rcases List.mem_append.mp hp with hp | hp
          · exact h3 p hp
          · have := items_le r (d + 1) p hp; omega
        · simp only [WT.items]; exact h4.append_right _
      · obtain ⟨D, x, y, Q, h1, h2, h3, t0, h4⟩ := deepest r (d + 1) (by omega)
        refine ⟨D, x, y, Q ++ l.items (d + 1), by simp only [WT.height]; omega, ?_, ?_, .node l t0, ?_⟩
        · simp only [WT.items]; exact List.perm_append_comm.trans (h2.append_right _)
        · intro p hp
          rcases List.mem_append.mp hp with hp | hp
          · exact h3 p hp
          · have := items_le l (d + 1) p hp; omega
        · simp only [WT.items]; exact List.perm_append_comm.trans (h4.append_right _)

/-- Swapping a least weight to the greatest depth does not cost more. -/
theorem swap_down (D x a : Nat) (hx : a ≤ x) : ∀ P : List (Nat × Nat), (∀ p ∈ P, p.1 ≤ D) → a ∈ x :: P.map (·.2) →
    ∃ P', P'.map (·.1) = P.map (·.1) ∧ (x :: P.map (·.2)).Perm (a :: P'.map (·.2)) ∧ D * a + dot P' ≤ D * x + dot P := by
  intro P hP ha
  by_cases hax : a = x
  · subst hax; exact ⟨P, rfl, .refl _, Nat.le_refl _⟩
  · have ha : a ∈ P.map (·.2) := by simpa [hax] using ha
    clear hax
    induction P with
    | nil => simp at ha
    | cons q P ih =>
      obtain ⟨e, w⟩ := q
      by_cases haw : a = w
      · subst haw
        refine ⟨(e, x) :: P, rfl, .swap _ _ _, ?_⟩
        have he : e ≤ D := hP (e, a) (List.mem_cons_self ..)
        simp only [dot]
        obtain ⟨k, rfl⟩ := Nat.exists_eq_add_of_le he
        obtain ⟨j, rfl⟩ := Nat.exists_eq_add_of_le hx
        simp only [Nat.add_mul, Nat.mul_add]
        omega
      · have ha : a ∈ P.map (·.2) := by
          rcases List.mem_cons.mp ha with h | h
          · exact absurd h haw
          · exact h
        obtain ⟨P', h1, h2, h3⟩ := ih (fun p hp => hP p (List.mem_cons_of_mem _ hp)) (List.mem_cons_of_mem _ ha) ha
        refine ⟨(e, w) :: P', by simp only [List.map_cons, h1], ?_, ?_⟩
        · simp only [List.map_cons]
          exact (List.Perm.swap _ _ _).trans ((h2.cons w).trans (.swap _ _ _))
        · simp only [dot]; omega

/-- The exchange argument. -/
theorem exchange (t : WT) (a b : Nat) (rest : List Nat) (hw : t.weights.Perm (a :: b :: rest)) (ha : ∀ x ∈ b :: rest, a ≤ x)
    (hb : ∀ x ∈ rest, b ≤ x) : ∃ t' : WT, t'.weights.Perm ((a + b) :: rest) ∧ t'.cost + (a + b) ≤ t.cost := by
  have hh : 0 < t.height := by
    match t, hw with
    | .leaf w, hw => have := hw.length_eq; simp [WT.weights, WT.items] at this
    | .node l r, _ => simp [WT.height]
  obtain ⟨D, x, y, Q, -, h2, h3, t0, h4⟩ := deepest t 0 hh
  have hxy : (x :: y :: Q.map (·.2)).Perm (a :: b :: rest) := List.Perm.trans (h2.map Prod.snd).symm hw
  have hax : a ≤ x := by
    have : x ∈ a :: b :: rest := hxy.mem_iff.mp (List.mem_cons_self ..)
    rcases List.mem_cons.mp this with h | h
    · omega
    · exact ha x h
  obtain ⟨P1, p1, p2, p3⟩ := swap_down (D + 1) x a hax ((D + 1, y) :: Q)
    (by intro p hp; rcases List.mem_cons.mp hp with h | h
        · subst h; exact Nat.le_refl _
        · exact h3 p h)
    (hxy.mem_iff.mpr (List.mem_cons_self ..))
  match P1, p1, p2, p3 with
  | (e, y') :: Q1, p1, p2, p3 =>
    simp only [List.map_cons, List.cons.injEq] at p1 p2
    obtain ⟨rfl, p1⟩ := p1
    have hyb : (y' :: Q1.map (·.2)).Perm (b :: rest) := (p2.symm.trans hxy).cons_inv
    have hby : b ≤ y' := by
      have : y' ∈ b :: rest := hyb.mem_iff.mp (List.mem_cons_self ..)
      rcases List.mem_cons.mp this with h | h
      · omega
      · exact hb y' h
    have hQ1 : ∀ p ∈ Q1, p.1 ≤ D + 1 := by
      intro p hp
      have : p.1 ∈ Q.map (·.1) := by rw [← p1]; exact List.mem_map_of_mem hp
      obtain ⟨q, hq, e⟩ := List.mem_map.mp this
      have := h3 q hq
      omega
    obtain ⟨Q2, q1, q2, q3⟩ := swap_down (D + 1) y' b hby Q1 hQ1 (hyb.mem_iff.mpr (List.mem_cons_self ..))
    obtain ⟨t', ht⟩ := relabel_perm t0 0 _ ((D, a + b) :: Q2) h4 (by simp only [List.map_cons, q1, p1])
    refine ⟨t', ?_, ?_⟩
    · refine (ht.map (·.2)).trans ?_
      exact ((q2.symm.trans hyb).cons_inv).cons _
    · unfold WT.cost
      rw [dot_perm ht, dot_perm h2]
      simp only [dot] at p3 ⊢
      have : (D + 1) * (a + b) = D * (a + b) + (a + b) := Nat.succ_mul D (a + b)
      have : (D + 1) * (a + b) = (D + 1) * a + (D + 1) * b := Nat.mul_add _ _ _
      omega
  | [], p1, _, _ => simp at p1

/-! ## Fibonacci numbers -/

def fib : Nat → Nat
  | 0 => 0
  | 1 => 1
  | n + 2 => fib n + fib (n + 1)

theorem fib_mono : ∀ n, fib n ≤ fib (n + 1)
  | 0 => by decide
  | 1 => by decide
  | n + 2 => by show fib (n + 2) ≤ fib (n + 1) + fib (n + 2); omega

theorem fib_le {m n : Nat} (h : m ≤ n) : fib m ≤ fib n := by
  induction n with
  | zero => rw [Nat.le_zero.mp h]; exact Nat.le_refl _
  | succ n ih =>
    by_cases e : m = n + 1
    · rw [e]; exact Nat.le_refl _
    · exact Nat.le_trans (ih (by omega)) (fib_mono n)

end Btc.Huff
