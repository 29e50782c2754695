import Verif.Props.C50
/-!
# C52: sending a script tree through its DFS form is lossless
-/
namespace Btc.Taproot

/-- The tree with children in the order the leaves are listed: smaller hash first. -/
def Tree.sorted (H : Bytes → Hash) : Tree → Tree
  | .leaf l => .leaf l
  | .node l r => if lexLt (r.root H).1 (l.root H).1 then .node (r.sorted H) (l.sorted H) else .node (l.sorted H) (r.sorted H)

theorem height_sorted (H : Bytes → Hash) : ∀ t : Tree, (t.sorted H).height = t.height
  | .leaf _ => rfl
  | .node l r => by
    unfold Tree.sorted
    split <;> simp only [Tree.height, height_sorted H l, height_sorted H r]
    rw [Nat.max_comm]

theorem nodeOf_sorted (H : Bytes → Hash) : ∀ t : Tree, nodeOf H (t.sorted H) = nodeOf H t
  | .leaf _ => rfl
  | .node l r => by
    unfold Tree.sorted
    cases hc : lexLt (r.root H).1 (l.root H).1 with
    | true =>
      simp only [if_true]
      unfold nodeOf
      simp only [nodeOf_sorted H l, nodeOf_sorted H r, nodeOf_hash, hc, lexLt_asymm _ _ hc, if_true, Bool.false_eq_true, if_false]
      rw [fromNodeHashes_comm]
    | false =>
      simp only [Bool.false_eq_true, if_false]
      unfold nodeOf
      simp only [nodeOf_sorted H l, nodeOf_sorted H r, nodeOf_hash, hc, Bool.false_eq_true, if_false]

theorem dfs_shift (t : Tree) : ∀ d k : Nat, t.dfs (d + k) = (t.dfs d).map fun p => (p.1 + k, p.2) := by
  induction t with
  | leaf l => intro d k; rfl
  | node l r ihl ihr =>
    intro d k
    simp only [Tree.dfs, List.map_append]
    rw [← ihl, ← ihr, Nat.add_right_comm]

theorem serialize_nodeOf (H : Bytes → Hash) : ∀ t : Tree, t.hasHidden = false → serialize (nodeOf H t) = (t.sorted H).dfs 0
  | .leaf (.script _ _), _ => rfl
  | .leaf (.hidden _), h => by simp [Tree.hasHidden] at h
  | .node l r, h => by
    simp only [Tree.hasHidden, Bool.or_eq_false_iff] at h
    have hl := serialize_nodeOf H l h.1
    have hr := serialize_nodeOf H r h.2
    have sh : ∀ (ls : List LeafNode) (g : Hash), (ls.map fun x => (⟨x.leaf, x.branch ++ [g]⟩ : LeafNode)).map (fun l => (l.branch.length, l.leaf)) =
        (ls.map fun l => (l.branch.length, l.leaf)).map fun p => (p.1 + 1, p.2) := by
      intro ls g; rw [List.map_map, List.map_map]; congr 1; funext x; simp
    unfold serialize at hl hr ⊢
    unfold nodeOf Tree.sorted
    simp only [nodeOf_hash]
    split
    · simp only [List.map_append, sh, hl, hr, Tree.dfs]
      rw [dfs_shift _ 0 1, dfs_shift _ 0 1]
    · simp only [List.map_append, sh, hl, hr, Tree.dfs]
      rw [dfs_shift _ 0 1, dfs_shift _ 0 1]

/-- Whatever a builder produced, without hidden nodes: serializing and deserializing it gives back exactly the same node —
root hash, leaves in the same order, and merkle branches. -/
theorem C52_round_trip (H : Bytes → Hash) (calls : List (Nat × TapLeaf)) (n : NodeInfo) (h : deserialize H calls = .ok n) (hh : n.hasHidden = false) :
    deserialize H (serialize n) = .ok n := by
  unfold deserialize at h
  cases hr : runCalls H [] calls with
  | error e => rw [hr] at h; cases h
  | ok st =>
    rw [hr] at h
    simp only [] at h
    have hst : st = [some n] := by
      unfold tryIntoNodeInfo at h
      split at h
      · cases h
      · rename_i hl
        match st, hl, h with
        | [some m], _, h => injection h with h; subst h; rfl
        | [none], _, h => cases h
        | [], hl, _ => exact absurd (by simp) hl
        | _ :: _ :: _, hl, _ => exact absurd (by simp) hl
    subst hst
    obtain ⟨t, ht, hd⟩ := (C50_builder H calls).mp ⟨_, hr, rfl⟩
    rw [← hd, run_tree H t ht] at hr
    injection hr with hr
    injection hr with hr
    injection hr with hr
    subst hr
    rw [nodeOf_hasHidden] at hh
    rw [serialize_nodeOf H t hh]
    unfold deserialize
    rw [run_tree H _ (by rw [height_sorted]; exact ht), nodeOf_sorted]
    rfl

/-- The same for trees: the listing of a tree's node rebuilds the tree's root and merkle paths. -/
theorem C52_tree (H : Bytes → Hash) (t : Tree) (ht : t.height ≤ 128) (hh : t.hasHidden = false) :
    ∃ n, deserialize H (t.dfs 0) = .ok n ∧ deserialize H (serialize n) = .ok n ∧ n.hash = t.root H ∧
      (n.leaves.map fun l => (l.leaf, l.branch)).Perm (t.paths H) ∧
      ((serialize n).map (·.2)).Perm (t.scripts.map fun k => TapLeaf.script k.1 k.2) := by
  obtain ⟨n, h1, h2, h3, h4, _, _⟩ := C50_builder_result H t ht
  refine ⟨n, h1, C52_round_trip H _ n h1 (by rw [h3, hh]), h2, h4, ?_⟩
  have := h4.map (·.1)
  rw [paths_scripts] at this
  rw [List.map_map] at this
  unfold serialize
  rw [List.map_map]
  exact this

/-! ### Hidden nodes -/

/-- Kraft sum of a listing, in units of 2^-128. -/
def kraft : List (Nat × TapLeaf) → Nat
  | [] => 0
  | x :: xs => 2 ^ (128 - x.1) + kraft xs

theorem kraft_append (xs ys : List (Nat × TapLeaf)) : kraft (xs ++ ys) = kraft xs + kraft ys := by
  induction xs with
  | nil => simp [kraft]
  | cons x xs ih => simp only [List.cons_append, kraft, ih]; omega

theorem kraft_perm {xs ys : List (Nat × TapLeaf)} (p : xs.Perm ys) : kraft xs = kraft ys := by
  induction p with
  | nil => rfl
  | cons x _ ih => simp only [kraft, ih]
  | swap x y l => simp only [kraft]; omega
  | trans _ _ ih1 ih2 => rw [ih1, ih2]

theorem kraft_dfs (t : Tree) : ∀ d : Nat, t.height + d ≤ 128 → kraft (t.dfs d) = 2 ^ (128 - d) := by
  induction t with
  | leaf l => intro d _; simp [Tree.dfs, kraft]
  | node l r ihl ihr =>
    intro d h
    simp only [Tree.height] at h
    simp only [Tree.dfs, kraft_append]
    rw [ihl (d + 1) (by omega), ihr (d + 1) (by omega)]
    have : 128 - d = (128 - (d + 1)) + 1 := by omega
    rw [this, Nat.pow_succ]; omega

/-- The listing of the script leaves only. -/
theorem paths_kraft (H : Bytes → Hash) (t : Tree) : ∀ d : Nat, t.height + d ≤ 128 →
    kraft ((t.paths H).map fun p => (p.2.length + d, p.1)) ≤ 2 ^ (128 - d) ∧
    (t.hasHidden = true → kraft ((t.paths H).map fun p => (p.2.length + d, p.1)) < 2 ^ (128 - d)) := by
  induction t with
  | leaf l =>
    intro d _
    cases l with
    | script s v => simp [Tree.paths, kraft, Tree.hasHidden]
    | hidden h => simp [Tree.paths, kraft]; exact fun _ => Nat.two_pow_pos _
  | node l r ihl ihr =>
    intro d h
    simp only [Tree.height] at h
    have hl := ihl (d + 1) (by omega)
    have hr := ihr (d + 1) (by omega)
    have e : ∀ (ps : List (TapLeaf × List Hash)) (g : Hash), (ps.map fun p => (p.1, p.2 ++ [g])).map (fun p => (p.2.length + d, p.1)) =
        ps.map fun p => (p.2.length + (d + 1), p.1) := by
      intro ps g; rw [List.map_map]; congr 1; funext x; simp; omega
    simp only [Tree.paths, List.map_append, kraft_append, e, Tree.hasHidden]
    have : 128 - d = (128 - (d + 1)) + 1 := by omega
    rw [this, Nat.pow_succ]
    refine ⟨by omega, fun hh => ?_⟩
    rcases Bool.or_eq_true _ _ ▸ hh with hh | hh
    · have := hl.2 hh; omega
    · have := hr.2 hh; omega

/-- With hidden nodes the form is lossy: it lists the script leaves only, and never deserializes. -/
theorem C52_hidden (H : Bytes → Hash) (calls : List (Nat × TapLeaf)) (n : NodeInfo) (h : deserialize H calls = .ok n) (hh : n.hasHidden = true) :
    ∀ n', deserialize H (serialize n) ≠ .ok n' := by
  have hfin : ∀ calls m, deserialize H calls = .ok m → ∃ t : Tree, t.height ≤ 128 ∧ t.dfs 0 = calls ∧ m = nodeOf H t := by
    intro calls m h
    unfold deserialize at h
    cases hr : runCalls H [] calls with
    | error e => rw [hr] at h; cases h
    | ok st =>
      rw [hr] at h
      simp only [] at h
      have hst : st = [some m] := by
        unfold tryIntoNodeInfo at h
        split at h
        · cases h
        · rename_i hl
          match st, hl, h with
          | [some m], _, h => injection h with h; subst h; rfl
          | [none], _, h => cases h
          | [], hl, _ => exact absurd (by simp) hl
          | _ :: _ :: _, hl, _ => exact absurd (by simp) hl
      subst hst
      obtain ⟨t, ht, hd⟩ := (C50_builder H calls).mp ⟨_, hr, rfl⟩
      rw [← hd, run_tree H t ht] at hr
      injection hr with hr
      injection hr with hr
      injection hr with hr
      exact ⟨t, ht, hd, hr.symm⟩
  obtain ⟨t, ht, _, rfl⟩ := hfin calls n h
  rw [nodeOf_hasHidden] at hh
  intro n' h'
  obtain ⟨u, hu, hud, _⟩ := hfin _ _ h'
  have k1 := kraft_dfs u 0 (by omega)
  rw [hud] at k1
  have k2 := (paths_kraft H t 0 (by omega)).2 hh
  have hp := (nodeOf_paths H t).map fun p => (p.2.length + 0, p.1)
  rw [List.map_map] at hp
  have he : (serialize (nodeOf H t)) = (nodeOf H t).leaves.map ((fun p : TapLeaf × List Hash => (p.2.length + 0, p.1)) ∘ fun x => (x.leaf, x.branch)) := rfl
  rw [he, kraft_perm hp] at k1
  omega

/-- Trees of any shape satisfy the hypotheses; here one with three leaves, and one with a hidden node. -/
example : (Tree.node (.leaf (.script [1] .tapScript)) (.node (.leaf (.script [2] .tapScript)) (.leaf (.script [1] .tapScript)))).height = 2 ∧
    (Tree.node (.leaf (.script [1] .tapScript)) (.node (.leaf (.script [2] .tapScript)) (.leaf (.script [1] .tapScript)))).hasHidden = false := by decide
example (H : Bytes → Hash) (h : Hash) : ∃ n, deserialize H [(1, .script [1] .tapScript), (1, .hidden h)] = .ok n ∧ n.hasHidden = true := by
  obtain ⟨n, h1, _, h3, _⟩ := C50_builder_result H (.node (.leaf (.script [1] .tapScript)) (.leaf (.hidden h))) (by simp [Tree.height])
  exact ⟨n, h1, by rw [h3]; rfl⟩

end Btc.Taproot
