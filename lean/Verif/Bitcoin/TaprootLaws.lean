import Verif.Bitcoin.Taproot
/-!
# Binary trees and the taproot builder

`Tree` is the specification: BIP-341 script trees with their root, depth-first listing and merkle paths.
-/
namespace Btc.Taproot

/-- A BIP-341 script tree; a leaf is a script or a hash whose preimage is not known. -/
inductive Tree where
  | leaf (l : TapLeaf)
  | node (l r : Tree)

namespace Tree

/-- The hash of a tree (BIP-341): children are hashed smaller first. -/
def root (H : Bytes → Hash) : Tree → Hash
  | .leaf (.script s v) => tagged H leafTag ([v.toConsensus] ++ (csEncode s.length ++ s))
  | .leaf (.hidden h) => h
  | .node l r => tagged H branchTag (if lexLt (r.root H).1 (l.root H).1 then (r.root H).1 ++ (l.root H).1 else (l.root H).1 ++ (r.root H).1)

/-- Leaves in depth-first order, each with its depth; the root of the tree is at depth `d`. -/
def dfs : Tree → Nat → List (Nat × TapLeaf)
  | .leaf l, d => [(d, l)]
  | .node l r, d => l.dfs (d + 1) ++ r.dfs (d + 1)

def height : Tree → Nat
  | .leaf _ => 0
  | .node l r => max l.height r.height + 1

def hasHidden : Tree → Bool
  | .leaf (.script _ _) => false
  | .leaf (.hidden _) => true
  | .node l r => l.hasHidden || r.hasHidden

/-- The script leaves with their merkle paths: sibling hashes from the leaf up to the root. -/
def paths (H : Bytes → Hash) : Tree → List (TapLeaf × List Hash)
  | .leaf (.script s v) => [(.script s v, [])]
  | .leaf (.hidden _) => []
  | .node l r => (l.paths H).map (fun p => (p.1, p.2 ++ [r.root H])) ++ (r.paths H).map (fun p => (p.1, p.2 ++ [l.root H]))

/-- The script leaves in depth-first order. -/
def scripts : Tree → List (Bytes × LeafVersion)
  | .leaf (.script s v) => [(s, v)]
  | .leaf (.hidden _) => []
  | .node l r => l.scripts ++ r.scripts

end Tree

/-! ## The order on hashes -/

theorem lexLt_asymm : ∀ a b : Bytes, lexLt a b = true → lexLt b a = false
  | [], [], h => by simp [lexLt] at h
  | [], _ :: _, _ => rfl
  | _ :: _, [], h => by simp [lexLt] at h
  | a :: as, b :: bs, h => by
    unfold lexLt at h ⊢
    by_cases h1 : a < b
    · have h2 : ¬ b < a := by
        intro h; rw [UInt8.lt_iff_toNat_lt] at *; omega
      simp [h1, h2]
    · simp only [h1, if_false] at h
      by_cases h2 : b < a
      · simp [h2] at h
      · simp only [h2, if_false] at h
        simp only [h1, h2, if_false]
        exact lexLt_asymm as bs h

theorem lexLt_total : ∀ a b : Bytes, lexLt a b = false → lexLt b a = false → a = b
  | [], [], _, _ => rfl
  | [], _ :: _, h, _ => by simp [lexLt] at h
  | _ :: _, [], _, h => by simp [lexLt] at h
  | a :: as, b :: bs, h, h' => by
    unfold lexLt at h h'
    by_cases h1 : a < b
    · simp [h1] at h
    · by_cases h2 : b < a
      · simp [h2] at h'
      · simp only [h1, h2, if_false] at h h'
        have : a = b := by
          rw [UInt8.lt_iff_toNat_lt] at *
          exact UInt8.toNat_inj.mp (by omega)
        rw [this, lexLt_total as bs h h']

theorem branchLt_total : ∀ a b : List Hash, branchLt a b = false → branchLt b a = false → a = b
  | [], [], _, _ => rfl
  | [], _ :: _, h, _ => by simp [branchLt] at h
  | _ :: _, [], _, h => by simp [branchLt] at h
  | a :: as, b :: bs, h, h' => by
    unfold branchLt at h h'
    cases h1 : lexLt a.1 b.1 with
    | true => simp [h1] at h
    | false =>
      cases h2 : lexLt b.1 a.1 with
      | true => simp [h2] at h'
      | false =>
        simp only [h1, h2] at h h'
        rw [Subtype.ext (lexLt_total _ _ h1 h2), branchLt_total as bs h h']

theorem fromNodeHashes_comm (H : Bytes → Hash) (a b : Hash) : fromNodeHashes H a b = fromNodeHashes H b a := by
  unfold fromNodeHashes combineHashes
  cases h1 : lexLt a.1 b.1 with
  | true => simp [lexLt_asymm _ _ h1]
  | false =>
    cases h2 : lexLt b.1 a.1 with
    | true => simp
    | false => simp [lexLt_total _ _ h1 h2]

theorem fromNodeHashes_root (H : Bytes → Hash) (l r : Tree) : fromNodeHashes H (l.root H) (r.root H) = (Tree.node l r).root H := by
  rw [fromNodeHashes_comm]
  unfold fromNodeHashes combineHashes
  simp only [Tree.root]
  split <;> simp_all

/-! ## Combining nodes -/

theorem pushAll_ok (h : Hash) : ∀ (ls : List LeafNode), (∀ l ∈ ls, l.branch.length < 128) →
    pushAll h ls = .ok (ls.map fun l => ⟨l.leaf, l.branch ++ [h]⟩)
  | [], _ => rfl
  | l :: ls, hl => by
    unfold pushAll
    rw [pushAll_ok h ls fun x hx => hl x (List.mem_cons_of_mem _ hx)]
    have := hl l List.mem_cons_self
    unfold pushBranch maxNodes
    rw [if_neg (by omega)]
    rfl

theorem pushAll_inv (h : Hash) : ∀ (ls r : List LeafNode), pushAll h ls = .ok r → ∀ l ∈ ls, l.branch.length < 128
  | [], _, _ => by simp
  | l :: ls, r, hr => by
    unfold pushAll at hr
    unfold pushBranch maxNodes at hr
    by_cases hc : l.branch.length ≥ 128
    · rw [if_pos hc] at hr; cases hr
    · rw [if_neg hc] at hr
      cases hp : pushAll h ls with
      | error e => rw [hp] at hr; cases hr
      | ok q =>
        intro x hx
        rcases List.mem_cons.mp hx with rfl | hx
        · omega
        · exact pushAll_inv h ls q hp x hx

/-- The node a tree stands for; `combine` is called with the right subtree first. -/
def nodeOf (H : Bytes → Hash) : Tree → NodeInfo
  | .leaf (.script s v) => newLeaf H s v
  | .leaf (.hidden h) => newHidden h
  | .node l r =>
    let a := nodeOf H r
    let b := nodeOf H l
    let (a', b') := if lexLt a.hash.1 b.hash.1 then (a, b) else (b, a)
    ⟨fromNodeHashes H a.hash b.hash, (a'.leaves.map fun x => ⟨x.leaf, x.branch ++ [b'.hash]⟩) ++
      (b'.leaves.map fun x => ⟨x.leaf, x.branch ++ [a'.hash]⟩), a'.hasHidden || b'.hasHidden⟩

theorem nodeOf_hash (H : Bytes → Hash) : ∀ t : Tree, (nodeOf H t).hash = t.root H
  | .leaf (.script _ _) => rfl
  | .leaf (.hidden _) => rfl
  | .node l r => by
    unfold nodeOf
    simp only [nodeOf_hash H l, nodeOf_hash H r]
    rw [fromNodeHashes_comm, fromNodeHashes_root]

theorem nodeOf_hasHidden (H : Bytes → Hash) : ∀ t : Tree, (nodeOf H t).hasHidden = t.hasHidden
  | .leaf (.script _ _) => rfl
  | .leaf (.hidden _) => rfl
  | .node l r => by
    unfold nodeOf Tree.hasHidden
    simp only []
    split <;> simp [nodeOf_hasHidden H l, nodeOf_hasHidden H r, Bool.or_comm]

theorem nodeOf_branch_le (H : Bytes → Hash) : ∀ t : Tree, ∀ x ∈ (nodeOf H t).leaves, x.branch.length ≤ t.height
  | .leaf (.script _ _) => by simp [nodeOf, newLeaf, Tree.height]
  | .leaf (.hidden _) => by simp [nodeOf, newHidden]
  | .node l r => by
    intro x hx
    unfold nodeOf at hx
    simp only [] at hx
    unfold Tree.height
    have hl := nodeOf_branch_le H l
    have hr := nodeOf_branch_le H r
    split at hx <;>
    · simp only [List.mem_append, List.mem_map] at hx
      rcases hx with ⟨y, hy, rfl⟩ | ⟨y, hy, rfl⟩ <;>
      · simp only [List.length_append, List.length_cons, List.length_nil]
        first
          | (have := hl y hy; omega)
          | (have := hr y hy; omega)

/-- `combine` succeeds when no leaf is at depth 128 already. -/
theorem combine_ok (H : Bytes → Hash) (l r : Tree) (hl : ∀ x ∈ (nodeOf H l).leaves, x.branch.length < 128)
    (hr : ∀ x ∈ (nodeOf H r).leaves, x.branch.length < 128) : combine H (nodeOf H r) (nodeOf H l) = .ok (nodeOf H (.node l r)) := by
  unfold combine combineHashes
  conv => rhs; unfold nodeOf
  simp only []
  unfold fromNodeHashes combineHashes
  cases hc : lexLt (nodeOf H r).hash.1 (nodeOf H l).hash.1 with
  | true => simp only [if_true]; rw [pushAll_ok _ _ hl, pushAll_ok _ _ hr]; rfl
  | false => simp only [Bool.false_eq_true, if_false]; rw [pushAll_ok _ _ hl, pushAll_ok _ _ hr]; rfl

/-- If `combine` succeeds, it builds the node of the combined tree. -/
theorem combine_inv (H : Bytes → Hash) (l r : Tree) (n : NodeInfo) (h : combine H (nodeOf H r) (nodeOf H l) = .ok n) :
    n = nodeOf H (.node l r) ∧ (∀ x ∈ (nodeOf H l).leaves, x.branch.length < 128) ∧ (∀ x ∈ (nodeOf H r).leaves, x.branch.length < 128) := by
  have hh : (∀ x ∈ (nodeOf H l).leaves, x.branch.length < 128) ∧ (∀ x ∈ (nodeOf H r).leaves, x.branch.length < 128) := by
    unfold combine at h
    simp only [] at h
    cases hc : (combineHashes H (nodeOf H r).hash (nodeOf H l).hash).2 with
    | true =>
      simp only [hc, if_true] at h
      cases h1 : pushAll (nodeOf H l).hash (nodeOf H r).leaves with
      | error e => rw [h1] at h; cases h
      | ok a =>
        cases h2 : pushAll (nodeOf H r).hash (nodeOf H l).leaves with
        | error e => rw [h1, h2] at h; cases h
        | ok b => exact ⟨pushAll_inv _ _ _ h2, pushAll_inv _ _ _ h1⟩
    | false =>
      simp only [hc, Bool.false_eq_true, if_false] at h
      cases h1 : pushAll (nodeOf H r).hash (nodeOf H l).leaves with
      | error e => rw [h1] at h; cases h
      | ok a =>
        cases h2 : pushAll (nodeOf H l).hash (nodeOf H r).leaves with
        | error e => rw [h1, h2] at h; cases h
        | ok b => exact ⟨pushAll_inv _ _ _ h1, pushAll_inv _ _ _ h2⟩
  rw [combine_ok H l r hh.1 hh.2] at h
  injection h with h
  exact ⟨h.symm, hh⟩

theorem nodeOf_paths (H : Bytes → Hash) : ∀ t : Tree, ((nodeOf H t).leaves.map fun x => (x.leaf, x.branch)).Perm (t.paths H)
  | .leaf (.script _ _) => List.Perm.refl _
  | .leaf (.hidden _) => List.Perm.refl _
  | .node l r => by
    have hl := (nodeOf_paths H l).map (fun p => (p.1, p.2 ++ [r.root H]))
    have hr := (nodeOf_paths H r).map (fun p => (p.1, p.2 ++ [l.root H]))
    rw [List.map_map] at hl hr
    unfold nodeOf Tree.paths
    simp only []
    split
    · simp only [List.map_append, List.map_map, nodeOf_hash]
      exact (hr.append hl).trans List.perm_append_comm
    · simp only [List.map_append, List.map_map, nodeOf_hash]
      exact hl.append hr

theorem paths_fold (H : Bytes → Hash) : ∀ t : Tree, ∀ x ∈ t.paths H, ∃ s v, x.1 = .script s v ∧
    x.2.foldl (fromNodeHashes H) (leafHash H s v) = t.root H
  | .leaf (.script s v) => by
    intro x hx
    simp only [Tree.paths, List.mem_singleton] at hx
    subst hx
    exact ⟨s, v, rfl, rfl⟩
  | .leaf (.hidden _) => by simp [Tree.paths]
  | .node l r => by
    intro x hx
    simp only [Tree.paths, List.mem_append, List.mem_map] at hx
    rcases hx with ⟨y, hy, rfl⟩ | ⟨y, hy, rfl⟩
    · obtain ⟨s, v, h1, h2⟩ := paths_fold H l y hy
      refine ⟨s, v, h1, ?_⟩
      simp only [List.foldl_append, h2, List.foldl_cons, List.foldl_nil]
      exact fromNodeHashes_root H l r
    · obtain ⟨s, v, h1, h2⟩ := paths_fold H r y hy
      refine ⟨s, v, h1, ?_⟩
      simp only [List.foldl_append, h2, List.foldl_cons, List.foldl_nil]
      rw [fromNodeHashes_comm]
      exact fromNodeHashes_root H l r

theorem paths_length (H : Bytes → Hash) (t : Tree) : ∀ x ∈ t.paths H, x.2.length ≤ t.height := by
  intro x hx
  obtain ⟨y, hy, rfl⟩ := List.mem_map.mp ((nodeOf_paths H t).mem_iff.mpr hx)
  exact nodeOf_branch_le H t y hy

theorem paths_scripts (H : Bytes → Hash) : ∀ t : Tree, (t.paths H).map (·.1) = t.scripts.map fun k => TapLeaf.script k.1 k.2
  | .leaf (.script _ _) => rfl
  | .leaf (.hidden _) => rfl
  | .node l r => by
    simp only [Tree.paths, Tree.scripts, List.map_append, List.map_map]
    rw [← paths_scripts H l, ← paths_scripts H r]
    rfl

/-! ## The builder on trees -/

abbrev TBuilder := List (Option Tree)

def conc (H : Bytes → Hash) (ts : TBuilder) : Builder := ts.map (Option.map (nodeOf H))

def loopT : TBuilder → Tree → Nat → Except BErr TBuilder
  | [], t, d => .ok (some t :: List.replicate d none)
  | e :: rest, t, d =>
    if rest.length = d then
      match e with
      | none => .ok (some t :: rest)
      | some c => if d = 0 then .error .overComplete else loopT rest (.node c t) (d - 1)
    else .ok (some t :: (List.replicate (d - (rest.length + 1)) none ++ e :: rest))

def insT (ts : TBuilder) (t : Tree) (d : Nat) : Except BErr TBuilder :=
  if d > maxNodes then .error (.depth d) else if d + 1 < ts.length then .error .notDfs else loopT ts t d

def runT : TBuilder → List (Nat × TapLeaf) → Except BErr TBuilder
  | ts, [] => .ok ts
  | ts, (d, l) :: cs =>
    match insT ts (.leaf l) d with
    | .error e => .error e
    | .ok ts => runT ts cs

theorem place_lt (st : Builder) (n : NodeInfo) (d : Nat) (h : st.length ≤ d) :
    place st n d = some n :: (List.replicate (d - st.length) none ++ st) := by
  unfold place
  simp only []
  rw [if_pos (by omega)]
  have h1 : (List.replicate (d + 1 - st.length) (none : Option NodeInfo) ++ st).length - 1 - d = 0 := by
    rw [List.length_append, List.length_replicate]; omega
  rw [h1]
  have h2 : d + 1 - st.length = (d - st.length) + 1 := by omega
  rw [h2, List.replicate_succ]
  rfl

theorem place_eq (e : Option NodeInfo) (rest : Builder) (n : NodeInfo) (d : Nat) (h : rest.length = d) :
    place (e :: rest) n d = some n :: rest := by
  unfold place
  simp only [List.length_cons]
  rw [if_neg (by omega)]
  have h1 : rest.length + 1 - 1 - d = 0 := by omega
  simp only [List.length_cons, h1, List.set_cons_zero]

/-- Every stored subtree fits under depth 128. -/
def Fits : TBuilder → Prop
  | [] => True
  | e :: rest => (∀ t ∈ e, t.height + rest.length ≤ 128) ∧ Fits rest

theorem fits_replicate (rest : TBuilder) (h : Fits rest) : ∀ n, Fits (List.replicate n none ++ rest)
  | 0 => h
  | n + 1 => by
    rw [List.replicate_succ, List.cons_append]
    exact ⟨by simp, fits_replicate rest h n⟩

theorem map_conc_replicate (H : Bytes → Hash) (n : Nat) (ts : TBuilder) :
    conc H (List.replicate n none ++ ts) = List.replicate n none ++ conc H ts := by
  unfold conc
  rw [List.map_append, List.map_replicate]
  rfl

theorem loop_refine (H : Bytes → Hash) : ∀ (ts : TBuilder) (t : Tree) (d : Nat), Fits ts → t.height + d ≤ 128 → ts.length ≤ d + 1 →
    insertLoop H (conc H ts) (nodeOf H t) d = (loopT ts t d).map (conc H) ∧ ∀ ts', loopT ts t d = .ok ts' → Fits ts'
  | [], t, d, _, ht, _ => by
    constructor
    · show Except.ok (place [] (nodeOf H t) d) = _
      rw [place_lt _ _ _ (Nat.zero_le d)]
      have := map_conc_replicate H d []
      simp only [List.append_nil] at this
      show _ = Except.ok (some (nodeOf H t) :: conc H (List.replicate d none))
      rw [this]
      simp [conc]
    · intro ts' h
      injection h with h
      subst h
      refine ⟨?_, ?_⟩
      · intro x hx; injection hx with hx; subst hx; simpa using ht
      · have := fits_replicate [] trivial d
        simpa using this
  | e :: rest, t, d, hf, ht, hlen => by
    have hcl : (conc H rest).length = rest.length := by simp [conc]
    show insertLoop H (e.map (nodeOf H) :: conc H rest) (nodeOf H t) d = _ ∧ _
    unfold insertLoop loopT
    by_cases hr : rest.length = d
    · rw [if_pos (by simp [hcl, hr]), if_pos hr]
      cases e with
      | none =>
        constructor
        · show Except.ok (place (none :: conc H rest) (nodeOf H t) d) = _
          rw [place_eq _ _ _ _ (by rw [hcl, hr])]
          rfl
        · intro ts' h
          injection h with h
          subst h
          refine ⟨?_, hf.2⟩
          intro x hx; injection hx with hx; subst hx; omega
      | some c =>
        simp only [Option.map_some]
        by_cases hd : d = 0
        · rw [if_pos hd, if_pos hd]
          exact ⟨rfl, fun _ h => by cases h⟩
        · rw [if_neg hd, if_neg hd]
          have hc := hf.1 c rfl
          rw [combine_ok H c t (fun x hx => by have := nodeOf_branch_le H c x hx; omega)
            (fun x hx => by have := nodeOf_branch_le H t x hx; omega)]
          simp only []
          exact loop_refine H rest (.node c t) (d - 1) hf.2 (by simp only [Tree.height]; omega) (by omega)
    · rw [if_neg (by simp [hcl]; omega), if_neg hr]
      simp only [List.length_cons] at hlen
      constructor
      · rw [place_lt _ _ _ (by simp [hcl]; omega)]
        have := map_conc_replicate H (d - (rest.length + 1)) (e :: rest)
        show _ = Except.ok (some (nodeOf H t) :: conc H (List.replicate (d - (rest.length + 1)) none ++ e :: rest))
        rw [this]
        simp [conc]
      · intro ts' h
        injection h with h
        subst h
        refine ⟨?_, fits_replicate _ hf _⟩
        intro x hx; injection hx with hx; subst hx
        simp only [List.length_append, List.length_replicate, List.length_cons]
        omega

theorem ins_refine (H : Bytes → Hash) (ts : TBuilder) (t : Tree) (d : Nat) (hf : Fits ts) (ht : d ≤ 128 → t.height + d ≤ 128) :
    insert H (conc H ts) (nodeOf H t) d = (insT ts t d).map (conc H) ∧ ∀ ts', insT ts t d = .ok ts' → Fits ts' := by
  have hcl : (conc H ts).length = ts.length := by simp [conc]
  unfold insert insT
  by_cases h1 : d > maxNodes
  · rw [if_pos h1, if_pos h1]; exact ⟨rfl, fun _ h => by cases h⟩
  · rw [if_neg h1, if_neg h1, hcl]
    by_cases h2 : d + 1 < ts.length
    · rw [if_pos h2, if_pos h2]; exact ⟨rfl, fun _ h => by cases h⟩
    · rw [if_neg h2, if_neg h2]
      exact loop_refine H ts t d hf (ht (by unfold maxNodes at h1; omega)) (by omega)

theorem run_refine (H : Bytes → Hash) : ∀ (cs : List (Nat × TapLeaf)) (ts : TBuilder), Fits ts →
    runCalls H (conc H ts) cs = (runT ts cs).map (conc H) ∧ ∀ ts', runT ts cs = .ok ts' → Fits ts'
  | [], ts, hf => ⟨rfl, fun ts' h => by injection h with h; subst h; exact hf⟩
  | (d, l) :: cs, ts, hf => by
    have hadd : addLeaf H (conc H ts) d l = insert H (conc H ts) (nodeOf H (.leaf l)) d := by cases l <;> rfl
    have hr := ins_refine H ts (.leaf l) d hf (by simp [Tree.height])
    unfold runCalls runT
    rw [hadd, hr.1]
    cases h : insT ts (.leaf l) d with
    | error e => exact ⟨rfl, fun _ h => by cases h⟩
    | ok ts' => exact run_refine H cs ts' (hr.2 ts' h)

/-! ### Builder states and depth-first listings -/

/-- The leaves a state holds, in the order they were added. -/
def items : TBuilder → List (Nat × TapLeaf)
  | [] => []
  | e :: rest => items rest ++ (match e with | none => [] | some t => t.dfs rest.length)

theorem items_replicate (rest : TBuilder) : ∀ n, items (List.replicate n none ++ rest) = items rest
  | 0 => rfl
  | n + 1 => by
    rw [List.replicate_succ, List.cons_append]
    show items (List.replicate n none ++ rest) ++ [] = _
    rw [List.append_nil, items_replicate rest n]

theorem loopT_items : ∀ (ts : TBuilder) (t : Tree) (d : Nat) (ts' : TBuilder), ts.length ≤ d + 1 → loopT ts t d = .ok ts' →
    items ts' = items ts ++ t.dfs d
  | [], t, d, ts', _, h => by
    injection h with h
    subst h
    have := items_replicate [] d
    simp only [List.append_nil] at this
    show items (List.replicate d none) ++ t.dfs (List.replicate d (none : Option Tree)).length = _
    rw [this, List.length_replicate]
  | e :: rest, t, d, ts', hl, h => by
    unfold loopT at h
    by_cases hr : rest.length = d
    · rw [if_pos hr] at h
      cases e with
      | none =>
        injection h with h
        subst h
        show items rest ++ t.dfs rest.length = (items rest ++ []) ++ t.dfs d
        rw [hr, List.append_nil]
      | some c =>
        simp only [] at h
        by_cases hd : d = 0
        · rw [if_pos hd] at h; cases h
        · rw [if_neg hd] at h
          rw [loopT_items rest (.node c t) (d - 1) ts' (by omega) h]
          show items rest ++ (c.dfs (d - 1 + 1) ++ t.dfs (d - 1 + 1)) = (items rest ++ c.dfs rest.length) ++ t.dfs d
          rw [hr, Nat.sub_add_cancel (by omega), List.append_assoc]
    · rw [if_neg hr] at h
      injection h with h
      subst h
      simp only [List.length_cons] at hl
      show items (List.replicate (d - (rest.length + 1)) none ++ e :: rest) ++ t.dfs (List.replicate (d - (rest.length + 1)) none ++ e :: rest).length = _
      rw [items_replicate, List.length_append, List.length_replicate, List.length_cons]
      congr 2
      omega

theorem insT_items (ts : TBuilder) (t : Tree) (d : Nat) (ts' : TBuilder) (h : insT ts t d = .ok ts') : items ts' = items ts ++ t.dfs d := by
  unfold insT at h
  split at h
  · cases h
  · split at h
    · cases h
    · exact loopT_items ts t d ts' (by omega) h

theorem runT_items : ∀ (cs : List (Nat × TapLeaf)) (ts ts' : TBuilder), runT ts cs = .ok ts' → items ts' = items ts ++ cs
  | [], ts, ts', h => by injection h with h; subst h; simp
  | (d, l) :: cs, ts, ts', h => by
    unfold runT at h
    cases h1 : insT ts (.leaf l) d with
    | error e => rw [h1] at h; cases h
    | ok t1 =>
      rw [h1] at h
      rw [runT_items cs t1 ts' h, insT_items _ _ _ _ h1, List.append_assoc]
      rfl

theorem runT_append : ∀ (xs ys : List (Nat × TapLeaf)) (ts : TBuilder), runT ts (xs ++ ys) =
    match runT ts xs with | .error e => .error e | .ok t => runT t ys
  | [], _, _ => rfl
  | (d, l) :: xs, ys, ts => by
    have h := runT_append xs ys
    simp only [List.cons_append, runT]
    cases insT ts (.leaf l) d with
    | error e => rfl
    | ok t => exact h t

/-- Adding the leaves of a tree one by one is the same as adding the whole tree. -/
theorem runT_dfs : ∀ (t : Tree) (d : Nat) (ts : TBuilder), t.height + d ≤ 128 → ts.length ≤ d + 1 → runT ts (t.dfs d) = insT ts t d
  | .leaf l, d, ts, _, _ => by
    show (match insT ts (.leaf l) d with | .error e => Except.error e | .ok ts => runT ts []) = _
    cases insT ts (.leaf l) d <;> rfl
  | .node l r, d, ts, hh, hl => by
    simp only [Tree.height] at hh
    show runT ts (l.dfs (d + 1) ++ r.dfs (d + 1)) = _
    have h1 : insT ts l (d + 1) = .ok (some l :: (List.replicate (d + 1 - ts.length) none ++ ts)) := by
      unfold insT maxNodes
      rw [if_neg (by omega), if_neg (by omega)]
      cases ts with
      | nil => simp [loopT]
      | cons e rest =>
        unfold loopT
        simp only [List.length_cons] at hl ⊢
        rw [if_neg (by omega)]
    rw [runT_append, runT_dfs l (d + 1) ts (by omega) (by omega), h1]
    simp only []
    have hlen : (List.replicate (d + 1 - ts.length) none ++ ts).length = d + 1 := by
      rw [List.length_append, List.length_replicate]; omega
    rw [runT_dfs r (d + 1) _ (by omega) (by rw [List.length_cons, hlen]; omega)]
    unfold insT maxNodes
    rw [if_neg (by omega), if_neg (by rw [List.length_cons, hlen]; omega), if_neg (by omega), if_neg (by omega)]
    conv => lhs; unfold loopT
    rw [if_pos hlen]
    simp only []
    rw [if_neg (by omega), Nat.add_sub_cancel]
    by_cases hc : ts.length = d + 1
    · rw [hc, Nat.sub_self]; rfl
    · have h2 : d + 1 - ts.length = (d - ts.length) + 1 := by omega
      rw [h2, List.replicate_succ, List.cons_append]
      conv => lhs; unfold loopT
      have h3 : (List.replicate (d - ts.length) none ++ ts).length = d := by
        rw [List.length_append, List.length_replicate]; omega
      rw [if_pos h3]
      simp only []
      cases ts with
      | nil => simp [loopT]
      | cons e rest =>
        unfold loopT
        simp only [List.length_cons] at hl hc ⊢
        rw [if_neg (by omega)]

end Btc.Taproot
