import Verif.Props.C52
/-!
# C107: a tap tree lists each of its scripts once, each with a proof of membership

`TapTree::script_leaves` walks the leaves of a tree from either end. The walk is compared with a double-ended queue that
holds the scripts of the tree; the tree is the one the caller described, given by its shape alone.
-/
namespace Btc.Taproot

/-! ### The walk -/

/-- Calls of `next` (`true`) and `next_back` (`false`): what each returns, with the size hint before it. -/
def walk : List Bool → List LeafNode → List (Nat × Option ScriptLeaf)
  | [], _ => []
  | b :: bs, ls =>
    let r := if b then leavesNext ls else leavesNextBack ls
    (leavesLeft ls, r.1) :: walk bs r.2

/-- A double-ended queue, taken from the front or the back, with the number of elements it held. -/
def takeEnds {α : Type} : List Bool → List α → List (Nat × Option α)
  | [], _ => []
  | true :: bs, q => (q.length, q.head?) :: takeEnds bs q.tail
  | false :: bs, q => (q.length, q.getLast?) :: takeEnds bs q.dropLast

theorem walk_queue : ∀ (bs : List Bool) (ls : List LeafNode) (q : List ScriptLeaf), ls.map ScriptLeaf.fromLeafNode = q.map some →
    walk bs ls = takeEnds bs q
  | [], _, _, _ => rfl
  | true :: bs, ls, q, h => by
    have hn : ls.length = q.length := by simpa using congrArg List.length h
    cases ls with
    | nil =>
      cases q with
      | nil =>
        have := walk_queue bs [] [] rfl
        simpa [walk, takeEnds, leavesNext, leavesLeft] using this
      | cons a q => simp at hn
    | cons l ls =>
      cases q with
      | nil => simp at hn
      | cons a q =>
        simp only [List.map_cons, List.cons.injEq] at h
        have := walk_queue bs ls q h.2
        simp only [walk, takeEnds, leavesNext, leavesLeft, if_true, this, h.1, List.head?_cons, List.tail_cons]
        simp only [hn]
  | false :: bs, ls, q, h => by
    have hn : ls.length = q.length := by simpa using congrArg List.length h
    have hg : ls.getLast?.map ScriptLeaf.fromLeafNode = q.getLast?.map some := by rw [← List.getLast?_map, h, List.getLast?_map]
    have hd : ls.dropLast.map ScriptLeaf.fromLeafNode = q.dropLast.map some := by rw [List.map_dropLast, h, List.map_dropLast]
    cases hl : ls.getLast? with
    | none =>
      rw [hl] at hg
      have hq : q.getLast? = none := by cases hq : q.getLast? with
        | none => rfl
        | some a => rw [hq] at hg; cases hg
      have e1 : ls = [] := List.getLast?_eq_none_iff.mp hl
      have e2 : q = [] := List.getLast?_eq_none_iff.mp hq
      subst e1; subst e2
      have := walk_queue bs [] [] rfl
      simpa [walk, takeEnds, leavesNextBack, leavesLeft] using this
    | some l =>
      rw [hl] at hg
      cases hq : q.getLast? with
      | none => rw [hq] at hg; cases hg
      | some a =>
        rw [hq] at hg
        simp only [Option.map_some, Option.some.injEq] at hg
        have := walk_queue bs ls.dropLast q.dropLast hd
        simp only [walk, takeEnds, leavesNextBack, leavesLeft, hl, hq, Bool.false_eq_true, if_false, this, hg, hn]

/-- Taking from the ends returns elements of the queue, and each at most once. -/
theorem takeEnds_once {α : Type} : ∀ (bs : List Bool) (q : List α),
    ∃ rest, (((takeEnds bs q).filterMap (·.2)) ++ rest).Perm q ∧ rest.length = q.length - bs.length
  | [], q => ⟨q, List.Perm.refl _, rfl⟩
  | true :: bs, [] => by
    obtain ⟨rest, h, hl⟩ := takeEnds_once bs ([] : List α)
    exact ⟨rest, by simpa [takeEnds] using h, by simpa using hl⟩
  | true :: bs, a :: q => by
    obtain ⟨rest, h, hl⟩ := takeEnds_once bs q
    exact ⟨rest, by simpa [takeEnds] using h, by simp only [List.length_cons]; omega⟩
  | false :: bs, q => by
    obtain ⟨rest, h, hl⟩ := takeEnds_once bs q.dropLast
    refine ⟨rest, ?_, by simp only [List.length_cons]; rw [hl, List.length_dropLast]; omega⟩
    cases hq : q.getLast? with
    | none =>
      have e : q = [] := List.getLast?_eq_none_iff.mp hq
      subst e
      simpa [takeEnds] using h
    | some a =>
      have e : q = q.dropLast ++ [a] := by
        obtain ⟨l, hl⟩ := List.getLast?_eq_some_iff.mp hq
        rw [hl, List.dropLast_concat]
      simp only [takeEnds, List.filterMap_cons, hq, List.cons_append]
      have h2 : (a :: q.dropLast).Perm q := by
        conv => rhs; rw [e]
        exact (List.perm_append_comm (l₁ := [a]) (l₂ := q.dropLast))
      exact ((List.Perm.cons a h).trans h2)

/-! ### The leaves of a tree -/

theorem sorted_root (H : Bytes → Hash) (t : Tree) : (t.sorted H).root H = t.root H := by
  rw [← nodeOf_hash, ← nodeOf_hash, nodeOf_sorted]

theorem leaves_sorted (H : Bytes → Hash) : ∀ t : Tree, (nodeOf H t).leaves.map (fun x => (x.leaf, x.branch)) = (t.sorted H).paths H
  | .leaf (.script _ _) => rfl
  | .leaf (.hidden _) => rfl
  | .node l r => by
    have hl := congrArg (List.map (fun p : TapLeaf × List Hash => (p.1, p.2 ++ [r.root H]))) (leaves_sorted H l)
    have hr := congrArg (List.map (fun p : TapLeaf × List Hash => (p.1, p.2 ++ [l.root H]))) (leaves_sorted H r)
    rw [List.map_map] at hl hr
    unfold nodeOf Tree.sorted
    simp only [nodeOf_hash]
    split
    · simp only [List.map_append, List.map_map, Tree.paths, sorted_root, ← hl, ← hr, nodeOf_hash]
      rfl
    · simp only [List.map_append, List.map_map, Tree.paths, sorted_root, ← hl, ← hr, nodeOf_hash]
      rfl

/-- What a leaf and its branch look like to the caller. -/
def ScriptLeaf.entry (x : ScriptLeaf) : TapLeaf × List Hash := (.script x.script x.version, x.branch)

theorem queue_exists : ∀ (ls : List LeafNode), (∀ l ∈ ls, ∃ s v, l.leaf = .script s v) →
    ∃ q : List ScriptLeaf, ls.map ScriptLeaf.fromLeafNode = q.map some ∧ q.map ScriptLeaf.entry = ls.map fun x => (x.leaf, x.branch)
  | [], _ => ⟨[], rfl, rfl⟩
  | l :: ls, h => by
    obtain ⟨q, h1, h2⟩ := queue_exists ls fun x hx => h x (List.mem_cons_of_mem _ hx)
    obtain ⟨s, v, he⟩ := h l List.mem_cons_self
    refine ⟨⟨v, s, l.branch⟩ :: q, ?_, ?_⟩
    · simp only [List.map_cons, h1, ScriptLeaf.fromLeafNode, he]
    · simp only [List.map_cons, h2, ScriptLeaf.entry, he]

/-- A script tree of height at most 128 that hides nothing, given by its depth-first listing, is accepted as a tap tree. Its
`script_leaves` then behaves, under every sequence of calls to `next` and `next_back`, as a double-ended queue. The queue
holds the scripts in the depth-first order of the tree whose children are sorted by hash. Each entry carries a branch that
leads from its leaf hash to the root of the tree, and `depth` of it does not panic. -/
theorem C107_walk (H : Bytes → Hash) (t : Tree) (ht : t.height ≤ 128) (hh : t.hasHidden = false) :
    ∃ n q, deserialize H (t.dfs 0) = .ok n ∧ tapTreeOf n = .ok n ∧ n.hash = t.root H ∧
      q.map ScriptLeaf.entry = (t.sorted H).paths H ∧
      (q.map fun x => (x.script, x.version)).Perm t.scripts ∧
      (∀ x ∈ q, x.branch.foldl (fromNodeHashes H) (leafHash H x.script x.version) = t.root H ∧ x.branch.length ≤ t.height) ∧
      (∀ l ∈ n.leaves, l.depth = some (UInt8.ofNat l.branch.length) ∧ l.leafHash H = some (l.nodeHash H) ∧
        l.branch.foldl (fromNodeHashes H) (l.nodeHash H) = n.hash) ∧
      ∀ calls, walk calls n.leaves = takeEnds calls q := by
  have hmem : ∀ l ∈ (nodeOf H t).leaves, (l.leaf, l.branch) ∈ t.paths H := fun l hl =>
    (nodeOf_paths H t).mem_iff.mp (List.mem_map_of_mem (f := fun x : LeafNode => (x.leaf, x.branch)) hl)
  obtain ⟨q, h1, h2⟩ := queue_exists (nodeOf H t).leaves fun l hl => by
    obtain ⟨s, v, h, _⟩ := C50_branch_root H t _ _ (hmem l hl)
    exact ⟨s, v, h⟩
  have hq : q.map ScriptLeaf.entry = (t.sorted H).paths H := by rw [h2, leaves_sorted]
  refine ⟨nodeOf H t, q, ?_, ?_, nodeOf_hash H t, hq, ?_, ?_, ?_, fun calls => walk_queue calls _ q h1⟩
  · unfold deserialize; rw [run_tree H t ht]; rfl
  · unfold tapTreeOf; rw [nodeOf_hasHidden, hh]; rfl
  · have hp : (q.map ScriptLeaf.entry).Perm (t.paths H) := by rw [h2]; exact nodeOf_paths H t
    have h3 := hp.map (·.1)
    rw [paths_scripts, List.map_map] at h3
    have h4 := h3.map fun l : TapLeaf => match l with | .script s v => (s, v) | .hidden _ => ([], LeafVersion.tapScript)
    rw [List.map_map, List.map_map] at h4
    have e : (fun k : Bytes × LeafVersion => k) = id := rfl
    have h5 : t.scripts.map ((fun l : TapLeaf => match l with | .script s v => (s, v) | .hidden _ => ([], LeafVersion.tapScript)) ∘
        fun k => TapLeaf.script k.1 k.2) = t.scripts := by
      conv => rhs; rw [← List.map_id t.scripts]
      rfl
    rw [h5] at h4
    exact h4
  · intro x hx
    have hm : ScriptLeaf.entry x ∈ t.paths H := by
      have : ScriptLeaf.entry x ∈ q.map ScriptLeaf.entry := List.mem_map_of_mem hx
      rw [h2] at this
      exact (nodeOf_paths H t).mem_iff.mp this
    obtain ⟨s, v, he, hf⟩ := C50_branch_root H t _ _ hm
    injection he with e1 e2
    subst e1; subst e2
    exact ⟨hf, paths_length H t _ hm⟩
  · intro l hl
    obtain ⟨s, v, he, hf⟩ := C50_branch_root H t _ _ (hmem l hl)
    have hb := paths_length H t _ (hmem l hl)
    simp only at hb
    refine ⟨?_, ?_, ?_⟩
    · unfold LeafNode.depth; rw [if_pos (by omega)]
    · simp only [LeafNode.leafHash, LeafNode.nodeHash, he]
    · simp only [LeafNode.nodeHash, he, hf, nodeOf_hash]

/-- However the two ends are mixed, as many calls as there are scripts return every script of the tree, each exactly as often
as the tree holds it; fewer calls leave exactly the difference. -/
theorem C107_each_once (H : Bytes → Hash) (t : Tree) (ht : t.height ≤ 128) (hh : t.hasHidden = false) (calls : List Bool) :
    ∃ n rest, deserialize H (t.dfs 0) = .ok n ∧ tapTreeOf n = .ok n ∧
      (((walk calls n.leaves).filterMap (·.2)).map (fun x => (x.script, x.version)) ++ rest).Perm t.scripts ∧
      rest.length = t.scripts.length - calls.length := by
  obtain ⟨n, q, h1, h2, _, _, hp, _, _, hw⟩ := C107_walk H t ht hh
  obtain ⟨rest, hr, hl⟩ := takeEnds_once calls q
  refine ⟨n, rest.map fun x => (x.script, x.version), h1, h2, ?_, ?_⟩
  · rw [hw calls, ← List.map_append]
    exact (hr.map _).trans hp
  · rw [List.length_map, hl, ← hp.length_eq, List.length_map]

/-- A tree that hides a part is refused by both conversions. -/
theorem C107_hidden_refused (H : Bytes → Hash) (t : Tree) (ht : t.height ≤ 128) (hh : t.hasHidden = true) :
    ∃ n, deserialize H (t.dfs 0) = .ok n ∧ tapTreeOf n = .error .hiddenParts ∧ tryIntoTapTree [some n] = .error .hiddenParts := by
  obtain ⟨n, h1, _, h3, _, _, h6⟩ := C50_builder_result H t ht
  refine ⟨n, h1, ?_, ?_⟩
  · unfold tapTreeOf; rw [h3, hh]; rfl
  · rw [h6, hh]; rfl

/-- Three scripts, one at depth 1 and two at depth 2. -/
example : (Tree.node (.leaf (.script [0x51] .tapScript)) (.node (.leaf (.script [0x52] .tapScript)) (.leaf (.script [0x51] .tapScript)))).height ≤ 128 ∧
    (Tree.node (.leaf (.script [0x51] .tapScript)) (.node (.leaf (.script [0x52] .tapScript)) (.leaf (.script [0x51] .tapScript)))).hasHidden = false ∧
    takeEnds [true, false, true, false] [1, 2, 3] = [(3, some 1), (2, some 3), (1, some 2), (0, none)] := by decide
example : (Tree.node (.leaf (.script [0x51] .tapScript)) (.leaf (.hidden ⟨List.replicate 32 7, by simp⟩))).hasHidden = true := rfl

end Btc.Taproot
