import Verif.Props.C50
import Verif.Bitcoin.Huffman
/-!
# C66: `with_huffman_tree` minimises the expected depth

No binary tree with the same weights at its leaves has a smaller sum of weight times depth, as long as the weights do not sum to more
than `u32::MAX`; and under mild conditions the function cannot fail.
-/
namespace Btc.Taproot

open Btc.Huff (WT fib dot)

/-! ## Weighted script trees -/

/-- A binary tree of scripts with their weights. -/
inductive LT where
  | leaf (w : Nat) (s : Bytes)
  | node (l r : LT)

namespace LT

def toTree : LT → Tree
  | .leaf _ s => .leaf (.script s .tapScript)
  | .node l r => .node l.toTree r.toTree

def wt : LT → Nat
  | .leaf w _ => w
  | .node l r => l.wt + r.wt

def height : LT → Nat
  | .leaf _ _ => 0
  | .node l r => max l.height r.height + 1

def leaves : LT → List (Nat × Bytes)
  | .leaf w s => [(w, s)]
  | .node l r => l.leaves ++ r.leaves

/-- (depth, weight, script) of the leaves. -/
def items : LT → Nat → List (Nat × Nat × Bytes)
  | .leaf w s, d => [(d, w, s)]
  | .node l r, d => l.items (d + 1) ++ r.items (d + 1)

def cost : LT → Nat
  | .leaf _ _ => 0
  | .node l r => l.cost + r.cost + (l.wt + r.wt)

theorem height_toTree : ∀ T : LT, T.toTree.height = T.height
  | .leaf _ _ => rfl
  | .node l r => by simp only [toTree, Tree.height, height, height_toTree l, height_toTree r]

theorem not_hidden : ∀ T : LT, T.toTree.hasHidden = false
  | .leaf _ _ => rfl
  | .node l r => by simp only [toTree, Tree.hasHidden, not_hidden l, not_hidden r]; rfl

theorem items_leaves : ∀ (T : LT) (d : Nat), (T.items d).map (fun x => (x.2.1, x.2.2)) = T.leaves
  | .leaf _ _, _ => rfl
  | .node l r, d => by simp only [items, leaves, List.map_append, items_leaves l, items_leaves r]

theorem items_cost : ∀ (T : LT) (d : Nat), ((T.items d).map fun x => x.1 * x.2.1).sum = T.cost + d * T.wt
  | .leaf w s, d => by simp [items, cost, wt]
  | .node l r, d => by
    simp only [items, List.map_append, List.sum_append, items_cost l, items_cost r, cost, wt]
    simp only [Nat.add_mul, Nat.mul_add]
    omega

theorem height_leaves : ∀ T : LT, T.height + 1 ≤ T.leaves.length
  | .leaf _ _ => by simp [height, leaves]
  | .node l r => by
    have := height_leaves l
    have := height_leaves r
    simp only [height, leaves, List.length_append]
    omega

theorem wt_eq : ∀ T : LT, (T.leaves.map (·.1)).sum = T.wt
  | .leaf _ _ => by simp [leaves, wt]
  | .node l r => by simp only [leaves, List.map_append, List.sum_append, wt_eq l, wt_eq r, wt]

end LT

/-- The (depth, leaf) pairs of the node built for a tree are the tree's. -/
theorem serialize_leafDepths (H : Bytes → Hash) : ∀ (T : LT) (d : Nat), ((serialize (nodeOf H T.toTree)).map fun p => (p.1 + d, p.2)).Perm
    ((T.items d).map fun x => (x.1, TapLeaf.script x.2.2 .tapScript))
  | .leaf w s, d => by simp [serialize, LT.toTree, nodeOf, newLeaf, LT.items]
  | .node l r, d => by
    have hl := serialize_leafDepths H l (d + 1)
    have hr := serialize_leafDepths H r (d + 1)
    simp only [LT.items, List.map_append]
    have key : ((serialize (nodeOf H (LT.node l r).toTree)).map fun p => (p.1 + d, p.2)).Perm
        (((serialize (nodeOf H l.toTree)).map fun p => (p.1 + (d + 1), p.2)) ++ ((serialize (nodeOf H r.toTree)).map fun p => (p.1 + (d + 1), p.2))) := by
      unfold serialize
      conv => lhs; unfold LT.toTree nodeOf
      have e : ∀ (x : LeafNode) (h : Hash), (x.branch ++ [h]).length + d = x.branch.length + (d + 1) := by intro x h; simp; omega
      simp only []
      split
      · simp only [List.map_append, List.map_map, Function.comp_def, e]
        exact List.perm_append_comm
      · simp only [List.map_append, List.map_map, Function.comp_def, e]
        exact List.Perm.refl _
    exact key.trans (hl.append hr)

/-! ## The loop -/

theorem popMin_le (tie : NodeInfo → NodeInfo → Bool) : ∀ (xs : List (Nat × NodeInfo)) (x : Nat × NodeInfo),
    (popMin tie x xs).1.1 ≤ x.1 ∧ ∀ y ∈ (popMin tie x xs).2, (popMin tie x xs).1.1 ≤ y.1
  | [], x => ⟨Nat.le_refl _, by simp [popMin]⟩
  | y :: ys, x => by
    unfold popMin
    split
    · rename_i h
      obtain ⟨h1, h2⟩ := popMin_le tie ys y
      simp only [List.mem_cons]
      refine ⟨by omega, ?_⟩
      rintro z (rfl | hz)
      · omega
      · exact h2 z hz
    · rename_i h
      obtain ⟨h1, h2⟩ := popMin_le tie ys x
      simp only [List.mem_cons]
      refine ⟨h1, ?_⟩
      rintro z (rfl | hz)
      · omega
      · exact h2 z hz

/-- `u32::MAX`. -/
abbrev u32Max : Nat := 0xFFFFFFFF

def conc2 (H : Bytes → Hash) (p : Nat × LT) : Nat × NodeInfo := (p.1, nodeOf H p.2.toTree)

/-- An invariant kept by joining two elements of least weight holds of the result; the loop stops early only if it would join
a tree of height 128. -/
theorem loop_inv (H : Bytes → Hash) (tie : NodeInfo → NodeInfo → Bool) (J : List (Nat × LT) → Prop)
    (hperm : ∀ F F' : List (Nat × LT), F.Perm F' → J F → J F')
    (hstep : ∀ a b R, J (a :: b :: R) → (∀ x ∈ b :: R, a.1 ≤ x.1) → (∀ x ∈ R, b.1 ≤ x.1) → J ((min (a.1 + b.1) u32Max, .node b.2 a.2) :: R)) :
    ∀ (fuel : Nat) (F : List (Nat × LT)), J F → F ≠ [] → F.length ≤ fuel + 1 →
      (∃ p, huffmanLoop H tie fuel (F.map (conc2 H)) = .ok (nodeOf H p.2.toTree) ∧ J [p]) ∨
      ((∃ n, huffmanLoop H tie fuel (F.map (conc2 H)) = .error (.depth n)) ∧
        ∃ a b R, J (a :: b :: R) ∧ (128 ≤ a.2.height ∨ 128 ≤ b.2.height)) := by
  intro fuel
  induction fuel with
  | zero =>
    intro F h hne hl
    match F, h with
    | [], _ => exact absurd rfl hne
    | [p], h => exact Or.inl ⟨p, rfl, h⟩
    | _ :: _ :: _, _ => simp at hl
  | succ fuel ih =>
    intro F h hne hl
    match F, h with
    | [], _ => exact absurd rfl hne
    | [p], h => exact Or.inl ⟨p, rfl, h⟩
    | x :: y :: r, h =>
      simp only [List.map_cons]
      unfold huffmanLoop
      have q1 := popMin_perm tie (conc2 H y :: r.map (conc2 H)) (conc2 H x)
      have m1 := (popMin_le tie (conc2 H y :: r.map (conc2 H)) (conc2 H x)).2
      have l1 := popMin_length tie (conc2 H y :: r.map (conc2 H)) (conc2 H x)
      generalize popMin tie (conc2 H x) (conc2 H y :: r.map (conc2 H)) = q at q1 m1 l1
      obtain ⟨e1, r1⟩ := q
      simp only [] at q1 m1 l1 ⊢
      obtain ⟨F1, f1, f2⟩ := Huff.perm_lift (conc2 H) q1.symm (x :: y :: r) rfl
      match F1, f2 with
      | [], f2 => simp at f2
      | a :: F1, f2 =>
        simp only [List.map_cons, List.cons.injEq] at f2
        obtain ⟨rfl, rfl⟩ := f2
        match F1, f1, m1, l1 with
        | [], _, _, l1 => simp at l1
        | z :: F2, f1, m1, l1 =>
          simp only [List.map_cons] at m1 ⊢
          have q2 := popMin_perm tie (F2.map (conc2 H)) (conc2 H z)
          have m2 := (popMin_le tie (F2.map (conc2 H)) (conc2 H z)).2
          have l2 := popMin_length tie (F2.map (conc2 H)) (conc2 H z)
          generalize popMin tie (conc2 H z) (F2.map (conc2 H)) = q at q2 m2 l2
          obtain ⟨e2, r2⟩ := q
          simp only [] at q2 m2 l2 ⊢
          obtain ⟨F3, f3, f4⟩ := Huff.perm_lift (conc2 H) q2.symm (z :: F2) rfl
          match F3, f4 with
          | [], f4 => simp at f4
          | b :: R, f4 =>
            simp only [List.map_cons, List.cons.injEq] at f4
            obtain ⟨rfl, rfl⟩ := f4
            have hJ : J (a :: b :: R) := hperm _ _ (f1.symm.trans (f3.symm.cons a)) h
            have hma : ∀ x ∈ b :: R, a.1 ≤ x.1 := by
              intro x hx
              have : conc2 H x ∈ conc2 H z :: F2.map (conc2 H) := by
                rw [← List.map_cons (f := conc2 H)]
                exact List.mem_map_of_mem (f3.mem_iff.mp hx)
              exact m1 _ this
            have hmb : ∀ x ∈ R, b.1 ≤ x.1 := by
              intro x hx
              exact m2 _ (List.mem_map_of_mem hx)
            have hlen : (x :: y :: r).length = (a :: b :: R).length := ((f3.cons a).trans f1).length_eq.symm
            show (∃ p, (match combine H (nodeOf H a.2.toTree) (nodeOf H b.2.toTree) with
              | .error e => Except.error e
              | .ok n => huffmanLoop H tie fuel ((min (a.1 + b.1) 0xFFFFFFFF, n) :: R.map (conc2 H))) = _ ∧ _) ∨
              (∃ n, (match combine H (nodeOf H a.2.toTree) (nodeOf H b.2.toTree) with
              | .error e => Except.error e
              | .ok n => huffmanLoop H tie fuel ((min (a.1 + b.1) 0xFFFFFFFF, n) :: R.map (conc2 H))) = _) ∧ _
            by_cases hh : a.2.height < 128 ∧ b.2.height < 128
            · rw [combine_ok H b.2.toTree a.2.toTree
                (fun x hx => by have := nodeOf_branch_le H b.2.toTree x hx; rw [LT.height_toTree] at this; omega)
                (fun x hx => by have := nodeOf_branch_le H a.2.toTree x hx; rw [LT.height_toTree] at this; omega)]
              simp only [List.length_cons] at hl hlen
              exact ih ((min (a.1 + b.1) u32Max, .node b.2 a.2) :: R) (hstep a b R hJ hma hmb) (by simp)
                (by simp only [List.length_cons]; omega)
            · right
              refine ⟨?_, a, b, R, hJ, by omega⟩
              cases hc : combine H (nodeOf H a.2.toTree) (nodeOf H b.2.toTree) with
              | error e =>
                obtain ⟨n, rfl⟩ := combine_error H _ _ e hc
                exact ⟨n, rfl⟩
              | ok n =>
                exfalso
                obtain ⟨-, c2, c3⟩ := combine_inv H b.2.toTree a.2.toTree n hc
                have h1 := height_lt H b.2.toTree (LT.not_hidden _) 128 c2
                have h2 := height_lt H a.2.toTree (LT.not_hidden _) 128 c3
                rw [LT.height_toTree] at h1 h2
                omega

/-! ## The invariants -/

/-- The scripts in the heap are the given ones. -/
def JLeaves (ws : List (Nat × Bytes)) (F : List (Nat × LT)) : Prop := (F.flatMap fun p => p.2.leaves).Perm ws

/-- Weights have not saturated. -/
def JWt (F : List (Nat × LT)) : Prop := (∀ p ∈ F, p.1 = p.2.wt) ∧ (F.map (·.1)).sum ≤ u32Max

/-- No tree beats the best completion of the heap. -/
def JOpt (ws : List (Nat × Bytes)) (F : List (Nat × LT)) : Prop := ∀ t : WT, t.weights.Perm (ws.map (·.1)) →
  ∃ t' : WT, t'.weights.Perm (F.map (·.1)) ∧ (F.map fun p => p.2.cost).sum + t'.cost ≤ t.cost

def fibRel (p q : Nat × LT) : Prop := fib (p.2.height + 1) ≤ q.1 ∧ fib (q.2.height + 1) ≤ p.1

/-- High trees are heavy. -/
def JFib (F : List (Nat × LT)) : Prop := (∀ p ∈ F, fib (p.2.height + 2) ≤ p.1) ∧ F.Pairwise fibRel

theorem JLeaves.perm {ws} {F F' : List (Nat × LT)} (p : F.Perm F') (h : JLeaves ws F) : JLeaves ws F' :=
  (List.Perm.flatMap_right _ p).symm.trans h

theorem JLeaves.step {ws a b R} (h : JLeaves ws (a :: b :: R)) (w : Nat) : JLeaves ws ((w, .node b.2 a.2) :: R) := by
  unfold JLeaves at h ⊢
  simp only [List.flatMap_cons, LT.leaves] at h ⊢
  refine List.Perm.trans ?_ h
  rw [← List.append_assoc]
  exact List.perm_append_comm.append_right _

theorem JWt.perm {F F' : List (Nat × LT)} (p : F.Perm F') (h : JWt F) : JWt F' :=
  ⟨fun x hx => h.1 x (p.mem_iff.mpr hx), by rw [← (p.map (·.1)).sum_nat]; exact h.2⟩

theorem JWt.step {a b : Nat × LT} {R} (h : JWt (a :: b :: R)) : JWt ((min (a.1 + b.1) u32Max, .node b.2 a.2) :: R) ∧ min (a.1 + b.1) u32Max = a.1 + b.1 := by
  obtain ⟨h1, h2⟩ := h
  have ha := h1 a (by simp)
  have hb := h1 b (by simp)
  simp only [List.map_cons, List.sum_cons] at h2
  have e : min (a.1 + b.1) u32Max = a.1 + b.1 := Nat.min_eq_left (by omega)
  refine ⟨⟨?_, ?_⟩, e⟩
  · intro p hp
    rcases List.mem_cons.mp hp with rfl | hp
    · rw [e, ha, hb]; simp only [LT.wt]; omega
    · exact h1 p (by simp [hp])
  · rw [e]; simp only [List.map_cons, List.sum_cons]; omega

theorem JOpt.perm {ws} {F F' : List (Nat × LT)} (p : F.Perm F') (h : JOpt ws F) : JOpt ws F' := by
  intro t ht
  obtain ⟨t', h1, h2⟩ := h t ht
  exact ⟨t', h1.trans (p.map _), by rw [← (p.map (fun p => p.2.cost)).sum_nat]; exact h2⟩

theorem JOpt.step {ws} {a b : Nat × LT} {R} (h : JOpt ws (a :: b :: R)) (hw : JWt (a :: b :: R)) (ha : ∀ x ∈ b :: R, a.1 ≤ x.1) (hb : ∀ x ∈ R, b.1 ≤ x.1) :
    JOpt ws ((min (a.1 + b.1) u32Max, .node b.2 a.2) :: R) := by
  intro t ht
  obtain ⟨t1, h1, h2⟩ := h t ht
  have e := hw.step.2
  obtain ⟨t2, h3, h4⟩ := Huff.exchange t1 a.1 b.1 (R.map Prod.fst) h1
    (by intro x hx
        obtain ⟨y, hy, rfl⟩ := List.mem_map.mp (show x ∈ (b :: R).map (·.1) from hx)
        exact ha y hy)
    (by intro x hx
        obtain ⟨y, hy, rfl⟩ := List.mem_map.mp hx
        exact hb y hy)
  refine ⟨t2, by rw [e]; exact h3, ?_⟩
  have wa := hw.1 a (by simp)
  have wb := hw.1 b (by simp)
  simp only [List.map_cons, List.sum_cons, LT.cost] at h2 ⊢
  omega

theorem JFib.perm {F F' : List (Nat × LT)} (p : F.Perm F') (h : JFib F) : JFib F' :=
  ⟨fun x hx => h.1 x (p.mem_iff.mpr hx), p.pairwise h.2 (fun ⟨x, y⟩ => ⟨y, x⟩)⟩

theorem JFib.step {a b : Nat × LT} {R} (h : JFib (a :: b :: R)) (hw : JWt (a :: b :: R)) (ha : ∀ x ∈ b :: R, a.1 ≤ x.1) (hb : ∀ x ∈ R, b.1 ≤ x.1) :
    JFib ((min (a.1 + b.1) u32Max, .node b.2 a.2) :: R) := by
  obtain ⟨h1, h2⟩ := h
  rw [hw.step.2]
  rw [List.pairwise_cons, List.pairwise_cons] at h2
  obtain ⟨pa, pb, pR⟩ := h2
  have fa := h1 a (by simp)
  have fb := h1 b (by simp)
  have hab := pa b (by simp)
  have le_ab := ha b (by simp)
  unfold fibRel at hab
  refine ⟨?_, List.pairwise_cons.mpr ⟨?_, pR⟩⟩
  · intro p hp
    rcases List.mem_cons.mp hp with rfl | hp
    · simp only [LT.height]
      by_cases hc : a.2.height ≤ b.2.height
      · rw [Nat.max_eq_left hc]
        show fib (b.2.height + 1) + fib (b.2.height + 2) ≤ _
        omega
      · rw [Nat.max_eq_right (by omega)]
        show fib (a.2.height + 1) + fib (a.2.height + 2) ≤ _
        omega
    · exact h1 p (by simp [hp])
  · intro x hx
    have hxa := pa x (by simp [hx])
    have h3 := hb x hx
    unfold fibRel at hxa
    refine ⟨?_, by simp only []; omega⟩
    simp only [LT.height]
    by_cases hc : a.2.height ≤ b.2.height
    · rw [Nat.max_eq_left hc]
      show fib (b.2.height + 2) ≤ x.1
      omega
    · rw [Nat.max_eq_right (by omega)]
      show fib (a.2.height + 2) ≤ x.1
      omega

/-! ## The start -/

def start (ws : List (Nat × Bytes)) : List (Nat × LT) := ws.map fun w => (w.1, .leaf w.1 w.2)

theorem start_conc (H : Bytes → Hash) (ws : List (Nat × Bytes)) : (start ws).map (conc2 H) = ws.map fun w => (w.1, newLeaf H w.2 .tapScript) := by
  simp only [start, List.map_map]
  apply List.map_congr_left
  intro w _
  rfl

theorem start_leaves : ∀ ws : List (Nat × Bytes), JLeaves ws (start ws)
  | [] => .nil
  | w :: ws => (start_leaves ws).cons w

theorem start_wt (ws : List (Nat × Bytes)) (h : (ws.map (·.1)).sum ≤ u32Max) : JWt (start ws) := by
  refine ⟨?_, ?_⟩
  · intro p hp
    obtain ⟨w, _, rfl⟩ := List.mem_map.mp hp
    rfl
  · have : (start ws).map (·.1) = ws.map (·.1) := by simp [start]
    rw [this]; exact h

theorem start_opt (ws : List (Nat × Bytes)) : JOpt ws (start ws) := by
  intro t ht
  refine ⟨t, by simpa [start, Function.comp_def] using ht, ?_⟩
  have : ((start ws).map fun p => p.2.cost).sum = 0 := by
    unfold start
    clear ht
    induction ws with
    | nil => rfl
    | cons w ws ih => simpa [LT.cost] using ih
  omega

theorem start_fib (ws : List (Nat × Bytes)) (h : ∀ w ∈ ws, 0 < w.1) : JFib (start ws) := by
  refine ⟨?_, ?_⟩
  · intro p hp
    obtain ⟨w, hw, rfl⟩ := List.mem_map.mp hp
    exact h w hw
  · refine List.pairwise_of_forall_mem_list ?_
    intro p hp q hq
    obtain ⟨w, hw, rfl⟩ := List.mem_map.mp hp
    obtain ⟨v, hv, rfl⟩ := List.mem_map.mp hq
    exact ⟨h v hv, h w hw⟩

/-! ## The property -/

/-- The expected depth: the sum of weight times depth over (depth, weight) pairs. -/
def expected : List (Nat × Nat) → Nat
  | [] => 0
  | (d, w) :: r => w * d + expected r

theorem expected_dot : ∀ l : List (Nat × Nat), expected l = dot l
  | [] => rfl
  | (d, w) :: r => by simp only [expected, dot, expected_dot r, Nat.mul_comm]

theorem exists_wt : ∀ (t : Tree) (d : Nat) (l : List (Nat × Nat)), l.map (·.1) = (t.dfs d).map (·.1) → ∃ t' : WT, t'.items d = l
  | .leaf _, d, l, h => by
    match l, h with
    | [(e, v)], h =>
      simp only [Tree.dfs, List.map_cons, List.map_nil, List.cons.injEq, and_true] at h
      subst h
      exact ⟨.leaf v, rfl⟩
    | [], h => simp [Tree.dfs] at h
    | _ :: _ :: _, h => simp [Tree.dfs] at h
  | .node l r, d, L, h => by
    simp only [Tree.dfs, List.map_append] at h
    obtain ⟨L1, L2, rfl, h1, h2⟩ := List.map_eq_append_iff.mp h
    obtain ⟨l', hl⟩ := exists_wt l (d + 1) L1 h1
    obtain ⟨r', hr⟩ := exists_wt r (d + 1) L2 h2
    exact ⟨.node l' r', by simp only [WT.items, hl, hr]⟩

theorem dot_map (l : List (Nat × Nat × Bytes)) : dot (l.map fun x => (x.1, x.2.1)) = (l.map fun x => x.1 * x.2.1).sum := by
  induction l with
  | nil => rfl
  | cons x l ih => simp only [List.map_cons, dot, List.sum_cons, ih]

/-- The tree built has the given scripts at its leaves, each with one of the given weights, and no tree at all with these weights
at its leaves, in whatever order and of whatever depth, has a smaller expected depth. -/
theorem C66_optimal (H : Bytes → Hash) (tie : NodeInfo → NodeInfo → Bool) (ws : List (Nat × Bytes)) (hsum : (ws.map (·.1)).sum ≤ 0xFFFFFFFF)
    (st : Builder) (h : withHuffmanTree H tie ws = .ok st) :
    ∃ (n : NodeInfo) (asg : List (Nat × Nat × Bytes)), st = [some n] ∧
      serialize n = asg.map (fun x => (x.1, TapLeaf.script x.2.2 .tapScript)) ∧
      (asg.map fun x => (x.2.1, x.2.2)).Perm ws ∧
      ∀ (t : Tree) (asg' : List (Nat × Nat)), asg'.map (·.1) = (t.dfs 0).map (·.1) → (asg'.map (·.2)).Perm (ws.map (·.1)) →
        expected (asg.map fun x => (x.1, x.2.1)) ≤ expected asg' := by
  match ws, h with
  | [], h => cases h
  | w :: ws, h =>
    unfold withHuffmanTree at h
    simp only [] at h
    rw [← start_conc H (w :: ws)] at h
    rcases loop_inv H tie (fun F => JLeaves (w :: ws) F ∧ JWt F ∧ JOpt (w :: ws) F) (fun F F' p ⟨a, b, c⟩ => ⟨a.perm p, b.perm p, c.perm p⟩)
      (fun a b R ⟨h1, h2, h3⟩ ha hb => ⟨h1.step _, h2.step.1, h3.step h2 ha hb⟩) (w :: ws).length (start (w :: ws))
      ⟨start_leaves _, start_wt _ hsum, start_opt _⟩ (by simp [start]) (by simp [start]) with ⟨p, h1, hL, hW, hO⟩ | ⟨⟨n, h1⟩, _⟩
    · rw [h1] at h
      injection h with h
      subst h
      obtain ⟨w0, T⟩ := p
      have hs := serialize_leafDepths H T 0
      simp only [Nat.add_zero] at hs
      have hs' : (serialize (nodeOf H T.toTree)).Perm ((T.items 0).map fun x => (x.1, TapLeaf.script x.2.2 .tapScript)) := by
        simpa using hs
      obtain ⟨asg, a1, a2⟩ := Huff.perm_lift (fun x : Nat × Nat × Bytes => (x.1, TapLeaf.script x.2.2 LeafVersion.tapScript)) hs'.symm (T.items 0) rfl
      refine ⟨nodeOf H T.toTree, asg, rfl, a2.symm, ?_, ?_⟩
      · refine (a1.map _).trans ?_
        rw [LT.items_leaves]
        simpa [JLeaves] using hL
      · intro t asg' e1 e2
        obtain ⟨t', ht⟩ := exists_wt t 0 asg' e1
        obtain ⟨t2, -, h3⟩ := hO t' (by unfold WT.weights; rw [ht]; exact e2)
        rw [expected_dot, expected_dot, Huff.dot_perm (a1.map _), dot_map, LT.items_cost]
        unfold WT.cost at h3
        rw [ht] at h3
        simp only [List.map_cons, List.map_nil, List.sum_cons, List.sum_nil] at h3
        omega
    · rw [h1] at h; cases h

/-- So no sequence of calls that adds the same scripts by hand, at depths of one's choice, does better. -/
theorem C66_beats_builder (H : Bytes → Hash) (tie : NodeInfo → NodeInfo → Bool) (ws : List (Nat × Bytes)) (hsum : (ws.map (·.1)).sum ≤ 0xFFFFFFFF)
    (st : Builder) (h : withHuffmanTree H tie ws = .ok st) :
    ∃ (n : NodeInfo) (asg : List (Nat × Nat × Bytes)), st = [some n] ∧
      serialize n = asg.map (fun x => (x.1, TapLeaf.script x.2.2 .tapScript)) ∧
      (asg.map fun x => (x.2.1, x.2.2)).Perm ws ∧
      ∀ (calls : List (Nat × Nat × Bytes)) (st' : Builder), (calls.map fun x => (x.2.1, x.2.2)).Perm ws →
        runCalls H [] (calls.map fun x => (x.1, TapLeaf.script x.2.2 .tapScript)) = .ok st' → isFinalizable st' = true →
        expected (asg.map fun x => (x.1, x.2.1)) ≤ expected (calls.map fun x => (x.1, x.2.1)) := by
  obtain ⟨n, asg, h1, h2, h3, h4⟩ := C66_optimal H tie ws hsum st h
  refine ⟨n, asg, h1, h2, h3, ?_⟩
  intro calls st' hp hr hf
  obtain ⟨t, -, ht⟩ := (C50_builder H _).mp ⟨st', hr, hf⟩
  refine h4 t (calls.map fun x => (x.1, x.2.1)) ?_ ?_
  · rw [ht]; simp
  · have := hp.map (·.1)
    simpa [Function.comp_def] using this

/-- With at most 129 scripts the function cannot fail, whatever the weights. -/
theorem C66_few (H : Bytes → Hash) (tie : NodeInfo → NodeInfo → Bool) (ws : List (Nat × Bytes)) (h0 : ws ≠ []) (hlen : ws.length ≤ 129) :
    ∃ st, withHuffmanTree H tie ws = .ok st := by
  match ws, h0 with
  | w :: ws, _ =>
    unfold withHuffmanTree
    simp only []
    rw [← start_conc H (w :: ws)]
    rcases loop_inv H tie (JLeaves (w :: ws)) (fun F F' p a => a.perm p)
      (fun a b R h1 ha hb => h1.step _) (w :: ws).length (start (w :: ws))
      (start_leaves _) (by simp [start]) (by simp [start]) with ⟨p, h1, -⟩ | ⟨-, a, b, R, hJ, hh⟩
    · rw [h1]; exact ⟨_, rfl⟩
    · exfalso
      have := List.Perm.length_eq hJ
      have h1 := LT.height_leaves a.2
      have h2 := LT.height_leaves b.2
      simp only [List.flatMap_cons, List.length_append, List.length_cons] at this hlen
      omega

/-- With positive weights that do not sum to more than `u32::MAX` the function cannot fail either, whatever the number of scripts,
and no script is deeper than 45. -/
theorem C66_shallow (H : Bytes → Hash) (tie : NodeInfo → NodeInfo → Bool) (ws : List (Nat × Bytes)) (h0 : ws ≠ []) (hpos : ∀ w ∈ ws, 0 < w.1)
    (hsum : (ws.map (·.1)).sum ≤ 0xFFFFFFFF) :
    ∃ n, withHuffmanTree H tie ws = .ok [some n] ∧ ∀ l ∈ n.leaves, l.branch.length ≤ 45 := by
  have hbig : ∀ k w, fib (k + 2) ≤ w → w ≤ u32Max → k ≤ 45 := by
    intro k w h1 h2
    apply Decidable.byContradiction
    intro hk
    have h3 := Huff.fib_le (show 48 ≤ k + 2 by omega)
    have h4 : u32Max < fib 48 := by decide +kernel
    omega
  match ws, h0 with
  | w :: ws, _ =>
    unfold withHuffmanTree
    simp only []
    rw [← start_conc H (w :: ws)]
    rcases loop_inv H tie (fun F => JWt F ∧ JFib F) (fun F F' p ⟨a, b⟩ => ⟨a.perm p, b.perm p⟩)
      (fun a b R ⟨h1, h2⟩ ha hb => ⟨h1.step.1, h2.step h1 ha hb⟩) (w :: ws).length (start (w :: ws))
      ⟨start_wt _ hsum, start_fib _ hpos⟩ (by simp [start]) (by simp [start]) with ⟨p, h1, hW, hF⟩ | ⟨-, a, b, R, ⟨hW, hF⟩, hh⟩
    · rw [h1]
      refine ⟨_, rfl, ?_⟩
      intro l hl
      have h2 := nodeOf_branch_le H p.2.toTree l hl
      rw [LT.height_toTree] at h2
      have h3 := hF.1 p (by simp)
      have h4 := hW.2
      simp only [List.map_cons, List.map_nil, List.sum_cons, List.sum_nil, Nat.add_zero] at h4
      have := hbig _ _ h3 h4
      omega
    · exfalso
      have h4 := hW.2
      simp only [List.map_cons, List.sum_cons] at h4
      have := hbig _ _ (hF.1 a (by simp)) (by omega)
      have := hbig _ _ (hF.1 b (by simp)) (by omega)
      omega

/-- The order of `Ord for NodeInfo` (710-720) up to equal hashes, with SHA-256: of two elements of the same weight the one with the greater hash is
popped first. -/
def byHash (a b : NodeInfo) : Bool := lexLt b.hash.1 a.hash.1

/-- Without the bound on the sum the claim is false: four scripts of weight `u32::MAX` are put at depths 1, 2, 3 and 3, although depths 2, 2, 2 and 2 are
possible. -/
theorem C66_saturation : ∃ (ws : List (Nat × Bytes)) (n : NodeInfo) (asg : List (Nat × Nat × Bytes)) (t : Tree) (asg' : List (Nat × Nat)),
    ws.length = 4 ∧ (∀ w ∈ ws, w.1 = 0xFFFFFFFF) ∧ withHuffmanTree sha byHash ws = .ok [some n] ∧
    serialize n = asg.map (fun x => (x.1, TapLeaf.script x.2.2 .tapScript)) ∧ (asg.map fun x => (x.2.1, x.2.2)).Perm ws ∧
    asg'.map (·.1) = (t.dfs 0).map (·.1) ∧ (asg'.map (·.2)).Perm (ws.map (·.1)) ∧
    expected asg' < expected (asg.map fun x => (x.1, x.2.1)) := by
  let ws : List (Nat × Bytes) := [(0xFFFFFFFF, [0x51]), (0xFFFFFFFF, [0x52]), (0xFFFFFFFF, [0x53]), (0xFFFFFFFF, [0x55])]
  let lf : Tree := .leaf (.script [] .tapScript)
  have key : (match withHuffmanTree sha byHash ws with
      | .ok [some n] => some (serialize n)
      | _ => none) = some [(1, .script [0x55] .tapScript), (3, .script [0x51] .tapScript), (3, .script [0x52] .tapScript), (2, .script [0x53] .tapScript)] := by
    decide +kernel
  have : ∃ n, withHuffmanTree sha byHash ws = .ok [some n] ∧ serialize n =
      [(1, .script [0x55] .tapScript), (3, .script [0x51] .tapScript), (3, .script [0x52] .tapScript), (2, .script [0x53] .tapScript)] := by
    revert key
    split
    · rename_i n hn
      intro key
      exact ⟨n, hn, by injection key⟩
    · intro key; cases key
  obtain ⟨n, h1, h2⟩ := this
  refine ⟨ws, n, [(1, 0xFFFFFFFF, [0x55]), (3, 0xFFFFFFFF, [0x51]), (3, 0xFFFFFFFF, [0x52]), (2, 0xFFFFFFFF, [0x53])],
    .node (.node lf lf) (.node lf lf), [(2, 0xFFFFFFFF), (2, 0xFFFFFFFF), (2, 0xFFFFFFFF), (2, 0xFFFFFFFF)], rfl, by decide, h1, h2, by decide, rfl, by decide, by decide⟩

/-! ## Instances of the hypotheses -/

/-- The documentation's example: weights 3, 2 and 5 give depths 2, 2 and 1. -/
example : (match withHuffmanTree sha byHash [(3, [0x51]), (2, [0x52]), (5, [0x53])] with
    | .ok [some n] => some (serialize n)
    | _ => none) = some [(2, .script [0x51] .tapScript), (2, .script [0x52] .tapScript), (1, .script [0x53] .tapScript)] ∧
    (([(3, [0x51]), (2, [0x52]), (5, [0x53])] : List (Nat × Bytes)).map (·.1)).sum ≤ 0xFFFFFFFF := by decide +kernel
/-- A rival: the same scripts added by hand, one of them differently. -/
example : (match runCalls sha [] ([(2, 3, [0x51]), (2, 5, [0x53]), (1, 2, [0x52])].map fun x => (x.1, TapLeaf.script x.2.2 .tapScript)) with
    | .ok st => isFinalizable st
    | _ => false) = true ∧
    ([(2, 3, [0x51]), (2, 5, [0x53]), (1, 2, [0x52])].map fun x : Nat × Nat × Bytes => (x.2.1, x.2.2)).Perm [(3, [0x51]), (2, [0x52]), (5, [0x53])] ∧
    expected [(1, 5), (2, 3), (2, 2)] < expected [(2, 3), (2, 5), (1, 2)] := by decide +kernel
/-- Weights that double reach a depth of one less than the number of scripts. -/
example : (match withHuffmanTree sha byHash [(1, [0x51]), (1, [0x52]), (2, [0x53]), (4, [0x54]), (8, [0x55])] with
    | .ok [some n] => some ((serialize n).map (·.1))
    | _ => none) = some [4, 4, 3, 2, 1] := by decide +kernel

end Btc.Taproot
