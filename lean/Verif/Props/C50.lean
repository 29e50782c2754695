import Verif.Bitcoin.TaprootLaws
import Verif.Codec.WireDec
import Verif.Props.C08_C12
import Verif.Props.C62
/-!
# C50: taproot trees

The builder accepts exactly the depth-first listings of binary trees of height at most 128, and computes the tree's
BIP-341 root and merkle paths; every script leaf gets a control block that verifies against the output key, and only
the tree's own leaves verify (or SHA-256 has a collision).
-/
namespace Btc.Taproot

/-! ## The builder -/

theorem run_tree (H : Bytes → Hash) (t : Tree) (h : t.height ≤ 128) : runCalls H [] (t.dfs 0) = .ok [some (nodeOf H t)] := by
  have h1 := (run_refine H (t.dfs 0) [] trivial).1
  rw [runT_dfs t 0 [] (by omega) (by simp)] at h1
  exact h1

/-- A call sequence ends in a finalizable builder exactly when it is the depth-first listing of a binary tree of height at
most 128. -/
theorem C50_builder (H : Bytes → Hash) (calls : List (Nat × TapLeaf)) :
    (∃ st, runCalls H [] calls = .ok st ∧ isFinalizable st = true) ↔ ∃ t : Tree, t.height ≤ 128 ∧ t.dfs 0 = calls := by
  constructor
  · rintro ⟨st, h, hf⟩
    have hr := run_refine H calls [] trivial
    rw [show conc H [] = [] from rfl, h] at hr
    cases hT : runT [] calls with
    | error e => rw [hT] at hr; cases hr.1
    | ok ts =>
      rw [hT] at hr
      have hst : st = conc H ts := by have := hr.1; injection this
      have hi := runT_items calls [] ts hT
      have hfit := hr.2 ts rfl
      match ts, hst with
      | [], hst => subst hst; cases hf
      | [none], hst => subst hst; cases hf
      | [some t], _ =>
        refine ⟨t, ?_, ?_⟩
        · have := hfit.1 t rfl; simpa using this
        · have hi' : [] ++ t.dfs 0 = [] ++ calls := hi
          simpa using hi'
      | a :: b :: r, hst => subst hst; cases a <;> cases hf
  · rintro ⟨t, h, rfl⟩
    exact ⟨_, run_tree H t h, rfl⟩

/-- What the builder computes for a tree: its BIP-341 root, whether it has hidden parts, and the script leaves with their merkle paths
(in some order). -/
theorem C50_builder_result (H : Bytes → Hash) (t : Tree) (h : t.height ≤ 128) :
    ∃ n, deserialize H (t.dfs 0) = .ok n ∧ n.hash = t.root H ∧ n.hasHidden = t.hasHidden ∧
      (n.leaves.map fun l => (l.leaf, l.branch)).Perm (t.paths H) ∧ (∀ l ∈ n.leaves, l.branch.length ≤ 128) ∧
      (tryIntoTapTree [some n] = if t.hasHidden then .error .hiddenParts else .ok n) := by
  refine ⟨nodeOf H t, ?_, nodeOf_hash H t, nodeOf_hasHidden H t, nodeOf_paths H t, fun l hl => by
    have := nodeOf_branch_le H t l hl; omega, ?_⟩
  · unfold deserialize; rw [run_tree H t h]; rfl
  · unfold tryIntoTapTree tryIntoNodeInfo; simp [nodeOf_hasHidden]

/-- Following a leaf's merkle path from its hash gives the root. -/
theorem C50_branch_root (H : Bytes → Hash) (t : Tree) : ∀ l p, (l, p) ∈ t.paths H → ∃ s v, l = .script s v ∧
    p.foldl (fromNodeHashes H) (leafHash H s v) = t.root H := fun l p hx => paths_fold H t (l, p) hx

/-! ### Which sequences are accepted so far -/

def Good (ts : TBuilder) : Prop := ts = [] ∨ ∃ t r, ts = some t :: r ∧ (r = [] ∨ r.getLast? = some none) ∧ r.length ≤ 128

theorem loopT_good : ∀ (ts : TBuilder) (t : Tree) (d : Nat), ts.length = d + 1 → ts.getLast? = some none → d ≤ 128 →
    ∃ t' r, loopT ts t d = .ok (some t' :: r) ∧ (r = [] ∨ r.getLast? = some none) ∧ r.length ≤ d
  | [], _, _, h, _, _ => by simp at h
  | e :: rest, t, d, hl, hg, hd => by
    simp only [List.length_cons, Nat.add_right_cancel_iff] at hl
    unfold loopT
    rw [if_pos hl]
    have hg' : rest = [] ∨ rest.getLast? = some none := by
      cases rest with
      | nil => exact Or.inl rfl
      | cons a b => right; rw [List.getLast?_cons_cons] at hg; exact hg
    cases e with
    | none => exact ⟨t, rest, rfl, hg', by omega⟩
    | some c =>
      simp only []
      have hd0 : d ≠ 0 := by
        rintro rfl
        rw [List.length_eq_zero_iff.mp hl] at hg
        simp at hg
      rw [if_neg hd0]
      rcases hg' with h | h
      · subst h; simp at hl; omega
      · obtain ⟨t', r, h1, h2, h3⟩ := loopT_good rest (.node c t) (d - 1) (by omega) h (by omega)
        exact ⟨t', r, h1, h2, by omega⟩

theorem complete_run : ∀ (n : Nat) (r : TBuilder) (t : Tree), r.length ≤ n → (r = [] ∨ r.getLast? = some none) → r.length ≤ 128 →
    ∃ more t', runT (some t :: r) more = .ok [some t'] := by
  intro n
  induction n with
  | zero =>
    intro r t hn _ _
    rw [List.length_eq_zero_iff.mp (by omega : r.length = 0)]
    exact ⟨[], t, rfl⟩
  | succ n ih =>
    intro r t hn hg hl
    rcases hg with rfl | hg
    · exact ⟨[], t, rfl⟩
    · have hr : r ≠ [] := by rintro rfl; simp at hg
      have hpos : 0 < r.length := List.length_pos_iff.mpr hr
      let hid : TapLeaf := .hidden ⟨List.replicate 32 0, by simp⟩
      obtain ⟨t', r', h1, h2, h3⟩ := loopT_good r (.node t (.leaf hid)) (r.length - 1) (by omega) hg (by omega)
      obtain ⟨more, t'', hm⟩ := ih r' t' (by omega) h2 (by omega)
      refine ⟨(r.length, hid) :: more, t'', ?_⟩
      unfold runT
      have : insT (some t :: r) (.leaf hid) r.length = .ok (some t' :: r') := by
        unfold insT maxNodes
        rw [if_neg (by omega), if_neg (by simp)]
        unfold loopT
        rw [if_pos rfl]
        simp only []
        rw [if_neg (by omega)]
        exact h1
      rw [this]
      exact hm

theorem insT_good (ts ts' : TBuilder) (t : Tree) (d : Nat) (hg : Good ts) (h : insT ts t d = .ok ts') : Good ts' ∨ ∃ c, ts = [some c] := by
  unfold insT maxNodes at h
  by_cases hd : d > 128
  · rw [if_pos hd] at h; cases h
  rw [if_neg hd] at h
  by_cases hl : d + 1 < ts.length
  · rw [if_pos hl] at h; cases h
  rw [if_neg hl] at h
  rcases hg with rfl | ⟨c, r, rfl, hr, hrl⟩
  · injection h with h
    subst h
    refine Or.inl (Or.inr ⟨t, _, rfl, ?_, by simp; omega⟩)
    cases d with
    | zero => exact Or.inl rfl
    | succ d => right; simp [List.getLast?_replicate]
  · rcases hr with rfl | hr
    · exact Or.inr ⟨c, rfl⟩
    · left
      have hne : r ≠ [] := by rintro rfl; simp at hr
      unfold loopT at h
      by_cases he : r.length = d
      · rw [if_pos he] at h
        simp only [] at h
        have hd0 : d ≠ 0 := by have := List.length_pos_iff.mpr hne; omega
        rw [if_neg hd0] at h
        obtain ⟨t', r', h1, h2, h3⟩ := loopT_good r (.node c t) (d - 1) (by omega) hr (by omega)
        rw [h1] at h
        injection h with h
        exact Or.inr ⟨t', r', h.symm, h2, by omega⟩
      · rw [if_neg he] at h
        injection h with h
        simp only [List.length_cons] at hl
        refine Or.inr ⟨t, _, h.symm, Or.inr ?_, by simp; omega⟩
        obtain ⟨a, b, rfl⟩ := List.exists_cons_of_ne_nil hne
        rw [List.getLast?_append, List.getLast?_cons_cons, hr]
        rfl

theorem run_good : ∀ (cs pre0 : List (Nat × TapLeaf)) (ts0 ts : TBuilder), runT [] pre0 = .ok ts0 → Good ts0 → runT ts0 cs = .ok ts →
    Good ts ∨ ∃ pre post t, pre0 ++ cs = pre ++ post ∧ post ≠ [] ∧ runT [] pre = .ok [some t]
  | [], _, ts0, ts, _, hg, h => by injection h with h; subst h; exact Or.inl hg
  | (d, l) :: cs, pre0, ts0, ts, hp, hg, h => by
    unfold runT at h
    cases h1 : insT ts0 (.leaf l) d with
    | error e => rw [h1] at h; cases h
    | ok t1 =>
      rw [h1] at h
      rcases insT_good ts0 t1 _ d hg h1 with hg1 | ⟨c, rfl⟩
      · have hp1 : runT [] (pre0 ++ [(d, l)]) = .ok t1 := by
          rw [runT_append, hp]
          simp only [runT, h1]
        have := run_good cs (pre0 ++ [(d, l)]) t1 ts hp1 hg1 h
        rw [List.append_assoc] at this
        exact this
      · exact Or.inr ⟨pre0, (d, l) :: cs, c, rfl, by simp, hp⟩

/-- A call sequence is accepted so far only if it can be completed to the listing of a tree, or already contains one and
goes on after it. -/
theorem C50_accepted (H : Bytes → Hash) (cs : List (Nat × TapLeaf)) (st : Builder) (h : runCalls H [] cs = .ok st) :
    (∃ (t : Tree) (more : List (Nat × TapLeaf)), t.height ≤ 128 ∧ cs ++ more = t.dfs 0) ∨
    (∃ (t : Tree) (post : List (Nat × TapLeaf)), t.height ≤ 128 ∧ post ≠ [] ∧ cs = t.dfs 0 ++ post) := by
  have hr := run_refine H cs [] trivial
  rw [show conc H [] = [] from rfl, h] at hr
  have hlast : ∀ (xs : List (Nat × TapLeaf)) t, runT [] xs = .ok [some t] → t.height ≤ 128 ∧ xs = t.dfs 0 := by
    intro xs t hx
    have h1 := (run_refine H xs [] trivial).2 _ hx
    have h2 : [] ++ t.dfs 0 = [] ++ xs := runT_items xs [] _ hx
    have h3 := h1.1 t rfl
    simp only [List.nil_append] at h2
    exact ⟨by simpa using h3, h2.symm⟩
  cases hT : runT [] cs with
  | error e => rw [hT] at hr; cases hr.1
  | ok ts =>
    rcases run_good cs [] [] ts rfl (Or.inl rfl) hT with hg | ⟨pre, post, t, h1, h2, h3⟩
    · left
      rcases hg with rfl | ⟨t, r, rfl, hr1, hr2⟩
      · have hi := runT_items cs [] [] hT
        have hc : cs = [] := by simpa using hi.symm
        let hid : TapLeaf := .hidden ⟨List.replicate 32 0, by simp⟩
        exact ⟨.leaf hid, [(0, hid)], by simp [Tree.height], by rw [hc]; rfl⟩
      · obtain ⟨more, t', hm⟩ := complete_run r.length r t (Nat.le_refl _) hr1 hr2
        have : runT [] (cs ++ more) = .ok [some t'] := by rw [runT_append, hT]; exact hm
        exact ⟨t', more, hlast _ _ this⟩
    · right
      obtain ⟨h4, h5⟩ := hlast _ _ h3
      refine ⟨t, post, h4, h2, ?_⟩
      rw [← h5]
      exact h1

theorem runCalls_append (H : Bytes → Hash) : ∀ (xs ys : List (Nat × TapLeaf)) (st : Builder), runCalls H st (xs ++ ys) =
    match runCalls H st xs with | .error e => .error e | .ok t => runCalls H t ys
  | [], _, _ => rfl
  | (d, l) :: xs, ys, st => by
    have h := runCalls_append H xs ys
    simp only [List.cons_append, runCalls]
    cases addLeaf H st d l with
    | error e => rfl
    | ok t => exact h t

/-- Every beginning of a tree's listing is accepted. -/
theorem C50_prefix_accepted (H : Bytes → Hash) (t : Tree) (ht : t.height ≤ 128) (cs more : List (Nat × TapLeaf)) (h : cs ++ more = t.dfs 0) :
    ∃ st, runCalls H [] cs = .ok st := by
  have h1 := run_tree H t ht
  rw [← h, runCalls_append] at h1
  cases hc : runCalls H [] cs with
  | error e => rw [hc] at h1; cases h1
  | ok st => exact ⟨st, rfl⟩

/-- Going on after a complete tree is not noticed at once: a leaf at depth 1 after one at depth 0 is accepted, although no tree begins so
(and by `C50_builder` the builder can never be finalized again). -/
theorem C50_late_error (H : Bytes → Hash) (a b : TapLeaf) :
    (∃ st, runCalls H [] [(0, a), (1, b)] = .ok st ∧ isFinalizable st = false) ∧
    ¬ ∃ (t : Tree) (more : List (Nat × TapLeaf)), [(0, a), (1, b)] ++ more = t.dfs 0 := by
  constructor
  · cases a <;> cases b <;> exact ⟨_, rfl, rfl⟩
  · have hpos : ∀ (t : Tree) (d : Nat), ∀ x ∈ t.dfs d, d ≤ x.1 := by
      intro t
      induction t with
      | leaf l => intro d x hx; simp only [Tree.dfs, List.mem_singleton] at hx; subst hx; exact Nat.le_refl _
      | node l r ihl ihr =>
        intro d x hx
        simp only [Tree.dfs, List.mem_append] at hx
        rcases hx with hx | hx
        · have := ihl _ _ hx; omega
        · have := ihr _ _ hx; omega
    rintro ⟨t, more, h⟩
    cases t with
    | leaf l => simp [Tree.dfs] at h
    | node l r =>
      have : (0, a) ∈ (Tree.node l r).dfs 0 := by rw [← h]; simp
      simp only [Tree.dfs, List.mem_append] at this
      rcases this with hx | hx
      · have := hpos l 1 _ hx; simp at this
      · have := hpos r 1 _ hx; simp at this

/-! ## Huffman trees -/

theorem popMin_perm (tie : NodeInfo → NodeInfo → Bool) : ∀ (xs : List (Nat × NodeInfo)) (x : Nat × NodeInfo),
    ((popMin tie x xs).1 :: (popMin tie x xs).2).Perm (x :: xs)
  | [], x => List.Perm.refl _
  | y :: ys, x => by
    unfold popMin
    split
    · have := popMin_perm tie ys y
      simp only []
      exact (List.Perm.swap _ _ _).trans (this.cons x)
    · have := popMin_perm tie ys x
      simp only []
      exact (List.Perm.swap _ _ _).trans ((this.cons y).trans (List.Perm.swap _ _ _))

theorem popMin_length (tie : NodeInfo → NodeInfo → Bool) (xs : List (Nat × NodeInfo)) (x : Nat × NodeInfo) :
    (popMin tie x xs).2.length = xs.length := by
  have := (popMin_perm tie xs x).length_eq
  simpa using this

theorem height_reached (H : Bytes → Hash) : ∀ t : Tree, t.hasHidden = false → ∃ x ∈ t.paths H, x.2.length = t.height
  | .leaf (.script s v), _ => ⟨(.script s v, []), by simp only [Tree.paths, List.mem_singleton], rfl⟩
  | .leaf (.hidden _), h => by simp [Tree.hasHidden] at h
  | .node l r, h => by
    simp only [Tree.hasHidden, Bool.or_eq_false_iff] at h
    obtain ⟨x, hx, hxl⟩ := height_reached H l h.1
    obtain ⟨y, hy, hyl⟩ := height_reached H r h.2
    simp only [Tree.paths, Tree.height, List.mem_append, List.mem_map]
    by_cases hc : l.height ≤ r.height
    · exact ⟨_, Or.inr ⟨y, hy, rfl⟩, by simp [hyl]; omega⟩
    · exact ⟨_, Or.inl ⟨x, hx, rfl⟩, by simp [hxl]; omega⟩

theorem height_lt (H : Bytes → Hash) (t : Tree) (h : t.hasHidden = false) (n : Nat) (hl : ∀ x ∈ (nodeOf H t).leaves, x.branch.length < n) :
    t.height < n := by
  obtain ⟨x, hx, hxl⟩ := height_reached H t h
  obtain ⟨y, hy, rfl⟩ := List.mem_map.mp ((nodeOf_paths H t).mem_iff.mpr hx)
  rw [← hxl]
  exact hl y hy

/-- A heap of nodes of trees, with the scripts in it. -/
inductive Heap (H : Bytes → Hash) : List (Nat × NodeInfo) → List (Bytes × LeafVersion) → Prop
  | nil : Heap H [] []
  | cons (w : Nat) (t : Tree) {xs ss} : t.hasHidden = false → t.height ≤ 128 → Heap H xs ss → Heap H ((w, nodeOf H t) :: xs) (t.scripts ++ ss)

theorem Heap.perm {H : Bytes → Hash} {xs ys : List (Nat × NodeInfo)} (p : xs.Perm ys) : ∀ {ss}, Heap H xs ss → ∃ ss', Heap H ys ss' ∧ ss.Perm ss' := by
  induction p with
  | nil => intro ss h; exact ⟨ss, h, .refl _⟩
  | cons x p ih =>
    intro ss h
    cases h with
    | cons w t h1 h2 h3 =>
      obtain ⟨ss', h4, h5⟩ := ih h3
      exact ⟨_, .cons w t h1 h2 h4, h5.append_left _⟩
  | swap x y l =>
    intro ss h
    cases h with
    | cons w t h1 h2 h3 =>
      cases h3 with
      | cons w' t' h4 h5 h6 =>
        refine ⟨_, .cons w' t' h4 h5 (.cons w t h1 h2 h6), ?_⟩
        rw [← List.append_assoc, ← List.append_assoc]
        exact List.perm_append_comm.append_right _
  | trans _ _ ih1 ih2 =>
    intro ss h
    obtain ⟨s1, h1, h2⟩ := ih1 h
    obtain ⟨s2, h3, h4⟩ := ih2 h1
    exact ⟨s2, h3, h2.trans h4⟩

theorem pushAll_error (g : Hash) : ∀ (ls : List LeafNode) (e : BErr), pushAll g ls = .error e → ∃ n, e = .depth n
  | [], _, he => by cases he
  | l :: ls, e, he => by
    unfold pushAll pushBranch at he
    by_cases hx : l.branch.length ≥ maxNodes
    · rw [if_pos hx] at he
      cases he
      exact ⟨_, rfl⟩
    · rw [if_neg hx] at he
      cases hy : pushAll g ls with
      | error e' => rw [hy] at he; cases he; exact pushAll_error g ls _ hy
      | ok v => rw [hy] at he; cases he

theorem combine_error (H : Bytes → Hash) (a b : NodeInfo) (e : BErr) (h : combine H a b = .error e) : ∃ n, e = .depth n := by
  unfold combine at h
  simp only [] at h
  generalize (if (combineHashes H a.hash b.hash).2 = true then (a, b) else (b, a)) = p at h
  cases hA : pushAll p.2.hash p.1.leaves with
  | error e1 =>
    rw [hA] at h
    have h' : (Except.error e1 : Except BErr NodeInfo) = .error e := h
    injection h' with h'
    subst h'
    exact pushAll_error _ _ _ hA
  | ok v =>
    rw [hA] at h
    cases hB : pushAll p.1.hash p.2.leaves with
    | error e1 =>
      rw [hB] at h
      have h' : (Except.error e1 : Except BErr NodeInfo) = .error e := h
      injection h' with h'
      subst h'
      exact pushAll_error _ _ _ hB
    | ok w => rw [hB] at h; cases h

theorem huffmanLoop_spec (H : Bytes → Hash) (tie : NodeInfo → NodeInfo → Bool) : ∀ (fuel : Nat) (xs : List (Nat × NodeInfo)) (ss : List (Bytes × LeafVersion)),
    Heap H xs ss → xs ≠ [] → xs.length ≤ fuel + 1 →
    (∃ t : Tree, huffmanLoop H tie fuel xs = .ok (nodeOf H t) ∧ t.hasHidden = false ∧ t.height ≤ 128 ∧ t.scripts.Perm ss) ∨
    ∃ n, huffmanLoop H tie fuel xs = .error (.depth n) := by
  intro fuel
  induction fuel with
  | zero =>
    intro xs ss h hne hl
    match xs, h with
    | [], _ => exact absurd rfl hne
    | [_], .cons w t h1 h2 .nil => exact Or.inl ⟨t, rfl, h1, h2, by simp⟩
    | _ :: _ :: _, _ => simp at hl
  | succ fuel ih =>
    intro xs ss h hne hl
    match xs, h with
    | [], _ => exact absurd rfl hne
    | [_], .cons w t h1 h2 .nil => exact Or.inl ⟨t, rfl, h1, h2, by simp⟩
    | x :: y :: r, h =>
      unfold huffmanLoop
      obtain ⟨s1, h1, p1⟩ := h.perm (popMin_perm tie (y :: r) x).symm
      have hl1 := popMin_length tie (y :: r) x
      generalize popMin tie x (y :: r) = q at h1 hl1
      obtain ⟨m1, r1⟩ := q
      cases h1 with
      | @cons w t _ ss1 a1 a2 a3 =>
        cases r1 with
        | nil => simp at hl1
        | cons z r2 =>
          simp only []
          obtain ⟨s2, h2, p2⟩ := a3.perm (popMin_perm tie r2 z).symm
          have hl2 := popMin_length tie r2 z
          generalize popMin tie z r2 = q2 at h2 hl2
          obtain ⟨m2, r3⟩ := q2
          cases h2 with
          | @cons w' t' _ ss2 b1 b2 b3 =>
            simp only []
            cases hc : combine H (nodeOf H t) (nodeOf H t') with
            | error e =>
              right
              have := combine_error H (nodeOf H t) (nodeOf H t') e hc
              obtain ⟨n, rfl⟩ := this
              exact ⟨n, rfl⟩
            | ok n =>
              simp only []
              obtain ⟨c1, c2, c3⟩ := combine_inv H t' t n hc
              subst c1
              have hh1 := height_lt H t' b1 128 c2
              have hh2 := height_lt H t a1 128 c3
              have hnew : Heap H ((min (w + w') 0xFFFFFFFF, nodeOf H (.node t' t)) :: r3) ((Tree.node t' t).scripts ++ ss2) :=
                .cons _ _ (by simp [Tree.hasHidden, a1, b1]) (by simp only [Tree.height]; omega) b3
              simp only [List.length_cons] at hl hl1 hl2
              rcases ih _ _ hnew (by simp) (by simp only [List.length_cons]; omega) with ⟨u, u1, u2, u3, u4⟩ | herr
              · refine Or.inl ⟨u, u1, u2, u3, u4.trans ?_⟩
                refine List.Perm.trans ?_ p1.symm
                refine List.Perm.trans ?_ (p2.append_left _).symm
                show ((t'.scripts ++ t.scripts) ++ ss2).Perm (t.scripts ++ (t'.scripts ++ ss2))
                rw [← List.append_assoc]
                exact List.perm_append_comm.append_right _
              · exact Or.inr herr

/-- `with_huffman_tree`: whatever the tie-breaking, the result is the builder of a tree whose leaves are exactly the
given scripts; it fails only on an empty list or because a leaf would be deeper than 128. -/
theorem C50_huffman (H : Bytes → Hash) (tie : NodeInfo → NodeInfo → Bool) (ws : List (Nat × Bytes)) :
    (ws = [] ∧ withHuffmanTree H tie ws = .error .emptyTree) ∨
    (ws ≠ [] ∧ ∃ n, withHuffmanTree H tie ws = .error (.depth n)) ∨
    (ws ≠ [] ∧ ∃ t : Tree, withHuffmanTree H tie ws = runCalls H [] (t.dfs 0) ∧ t.height ≤ 128 ∧ t.hasHidden = false ∧
      t.scripts.Perm (ws.map fun w => (w.2, .tapScript))) := by
  cases ws with
  | nil => exact Or.inl ⟨rfl, rfl⟩
  | cons w ws =>
    have hh : ∀ ws : List (Nat × Bytes), Heap H (ws.map fun w => (w.1, newLeaf H w.2 .tapScript)) (ws.map fun w => (w.2, .tapScript)) := by
      intro ws
      induction ws with
      | nil => exact .nil
      | cons w ws ih =>
        exact Heap.cons w.1 (.leaf (.script w.2 .tapScript)) rfl (by simp [Tree.height]) ih
    unfold withHuffmanTree
    simp only []
    rcases huffmanLoop_spec H tie (w :: ws).length _ _ (hh (w :: ws)) (by simp) (by simp) with ⟨t, h1, h2, h3, h4⟩ | ⟨n, h⟩
    · refine Or.inr (Or.inr ⟨by simp, t, ?_, h3, h2, h4⟩)
      rw [h1, run_tree H t h3]
    · refine Or.inr (Or.inl ⟨by simp, n, ?_⟩)
      rw [h]

/-! ## Control blocks -/

theorem mem_setInsert (b x : List Hash) : ∀ s : List (List Hash), x ∈ setInsert b s ↔ x = b ∨ x ∈ s
  | [] => by simp [setInsert]
  | c :: cs => by
    unfold setInsert
    cases h1 : branchLt b c with
    | true => simp
    | false =>
      cases h2 : branchLt c b with
      | true => simp only [Bool.false_eq_true, if_false, if_true, List.mem_cons, mem_setInsert b x cs]; grind
      | false =>
        simp only [Bool.false_eq_true, if_false, List.mem_cons]
        have := branchLt_total b c h1 h2
        grind

theorem setInsert_ne (b : List Hash) (s : List (List Hash)) : setInsert b s ≠ [] := by
  have := (mem_setInsert b b s).mpr (Or.inl rfl)
  intro h; rw [h] at this; simp at this

def getSet (m : ScriptMap) (k : Bytes × LeafVersion) : List (List Hash) := (m.lookup k).getD []

theorem lookup_mapInsert (k : Bytes × LeafVersion) (b : List Hash) (k' : Bytes × LeafVersion) : ∀ m : ScriptMap,
    (mapInsert k b m).lookup k' = if k' = k then some (setInsert b (getSet m k)) else m.lookup k'
  | [] => by
    unfold mapInsert getSet
    by_cases h : k' = k
    · subst h; simp [List.lookup]
    · rw [if_neg h]
      have : (k' == k) = false := by simpa using h
      simp [List.lookup, this]
  | (c, s) :: m => by
    unfold mapInsert
    by_cases hc : c = k
    · rw [if_pos hc]
      subst hc
      by_cases h : k' = c
      · subst h; simp [List.lookup, getSet]
      · have : (k' == c) = false := by simpa using h
        simp [List.lookup, this, h]
    · rw [if_neg hc]
      have ih := lookup_mapInsert k b k' m
      by_cases h : k' = c
      · subst h
        rw [if_neg hc]; simp [List.lookup]
      · have h1 : (k' == c) = false := by simpa using h
        have h2 : (k == c) = false := by simpa using fun e => hc e.symm
        simp only [List.lookup, h1, ih, getSet, h2]

theorem lookup_addLeaves : ∀ (ls : List LeafNode) (m : ScriptMap), (∀ k, m.lookup k ≠ some []) →
    (∀ k, (addLeaves m ls).lookup k ≠ some []) ∧
    ∀ k x, x ∈ getSet (addLeaves m ls) k ↔ x ∈ getSet m k ∨ (⟨.script k.1 k.2, x⟩ : LeafNode) ∈ ls
  | [], m, hm => ⟨hm, by simp [addLeaves]⟩
  | l :: ls, m, hm => by
    unfold addLeaves
    obtain ⟨leaf, br⟩ := l
    cases leaf with
    | hidden h =>
      obtain ⟨h1, h2⟩ := lookup_addLeaves ls m hm
      refine ⟨h1, fun k x => ?_⟩
      rw [h2 k x, List.mem_cons]
      simp
    | script s v =>
      have hm' : ∀ k, (mapInsert (s, v) br m).lookup k ≠ some [] := by
        intro k
        rw [lookup_mapInsert]
        split
        · intro h; injection h with h; exact setInsert_ne _ _ h
        · exact hm k
      obtain ⟨h1, h2⟩ := lookup_addLeaves ls (mapInsert (s, v) br m) hm'
      refine ⟨h1, fun k x => ?_⟩
      simp only []
      rw [h2 k x, List.mem_cons]
      have : x ∈ getSet (mapInsert (s, v) br m) k ↔ (k = (s, v) ∧ x = br) ∨ x ∈ getSet m k := by
        unfold getSet
        rw [lookup_mapInsert]
        by_cases hk : k = (s, v)
        · subst hk; simp [mem_setInsert, getSet]
        · simp [hk]
      rw [this]
      constructor
      · rintro ((⟨rfl, rfl⟩ | h) | h)
        · exact Or.inr (Or.inl rfl)
        · exact Or.inl h
        · exact Or.inr (Or.inr h)
      · rintro (h | h | h)
        · exact Or.inl (Or.inr h)
        · injection h with h3 h4
          injection h3 with h5 h6
          exact Or.inl (Or.inl ⟨Prod.ext h5 h6, h4⟩)
        · exact Or.inr h

theorem shortest_spec : ∀ (cs : List (List Hash)) (b : List Hash), shortest b cs ∈ b :: cs ∧ ∀ x ∈ b :: cs, (shortest b cs).length ≤ x.length
  | [], b => by simp [shortest]
  | c :: cs, b => by
    unfold shortest
    split
    · rename_i h
      obtain ⟨h1, h2⟩ := shortest_spec cs c
      refine ⟨List.mem_cons_of_mem _ h1, fun x hx => ?_⟩
      rcases List.mem_cons.mp hx with rfl | hx
      · have := h2 c List.mem_cons_self; omega
      · exact h2 x hx
    · rename_i h
      obtain ⟨h1, h2⟩ := shortest_spec cs b
      constructor
      · rcases List.mem_cons.mp h1 with h1 | h1
        · rw [h1]; exact List.mem_cons_self
        · exact List.mem_cons_of_mem _ (List.mem_cons_of_mem _ h1)
      · intro x hx
        rcases List.mem_cons.mp hx with rfl | hx
        · exact h2 x List.mem_cons_self
        · rcases List.mem_cons.mp hx with rfl | hx
          · have := h2 b List.mem_cons_self; omega
          · exact h2 x (List.mem_cons_of_mem _ hx)

/-- Finalizing the builder of a tree: the output key is the internal key tweaked with the tree's root (a panic if the
tweak is impossible); every script leaf has a control block, with a shortest path among the leaves with that script, and it verifies
against the output key; other scripts have none. -/
theorem C50_control_block (H : Bytes → Hash) (S : Secp) (k : XOnly S) (t : Tree) (ht : t.height ≤ 128) :
    ∃ st, runCalls H [] (t.dfs 0) = .ok st ∧
    match tapTweak H k (some (t.root H)) with
    | none => finalize H st k = none
    | some q => ∃ info, finalize H st k = some (.ok info) ∧ info.merkleRoot = some (t.root H) ∧ info.outputKey = q ∧
        (∀ s v, (s, v) ∈ t.scripts → ∃ cb, controlBlock info (s, v) = some (some cb) ∧ cb.verify H q s = some true ∧
          cb.leafVersion = v ∧ cb.internalKey = k ∧ cb.parity = q.parity ∧
          (.script s v, cb.branch) ∈ t.paths H ∧ (∀ p, (.script s v, p) ∈ t.paths H → cb.branch.length ≤ p.length) ∧ cb.branch.length ≤ 128) ∧
        (∀ s v, (s, v) ∉ t.scripts → controlBlock info (s, v) = none) := by
  refine ⟨_, run_tree H t ht, ?_⟩
  cases hq : tapTweak H k (some (t.root H)) with
  | none =>
    show (fromNodeInfo H k (nodeOf H t)).map Except.ok = none
    unfold fromNodeInfo newKeySpend
    rw [nodeOf_hash, hq]
    rfl
  | some q =>
    have hinfo : finalize H [some (nodeOf H t)] k = some (.ok ⟨k, some (t.root H), q.parity, q, addLeaves [] (nodeOf H t).leaves⟩) := by
      show (fromNodeInfo H k (nodeOf H t)).map Except.ok = _
      unfold fromNodeInfo newKeySpend
      rw [nodeOf_hash, hq]
      rfl
    refine ⟨_, hinfo, rfl, rfl, ?_, ?_⟩
    all_goals
      have hl := lookup_addLeaves (nodeOf H t).leaves [] (by intro k; simp)
      have hmem : ∀ s v x, x ∈ getSet (addLeaves [] (nodeOf H t).leaves) (s, v) ↔ (TapLeaf.script s v, x) ∈ t.paths H := by
        intro s v x
        rw [hl.2]
        rw [← (nodeOf_paths H t).mem_iff, List.mem_map]
        constructor
        · rintro (h | h)
          · simp [getSet] at h
          · exact ⟨_, h, rfl⟩
        · rintro ⟨y, hy, h⟩
          right
          injection h with h1 h2
          obtain ⟨yl, yb⟩ := y
          simp only at h1 h2
          subst h1; subst h2
          exact hy
      intro s v hsv
      unfold controlBlock
      simp only []
      have h0 := hl.1 (s, v)
      have hm := hmem s v
      unfold getSet at hm
    · cases hlk : (addLeaves [] (nodeOf H t).leaves).lookup (s, v) with
      | none =>
        exfalso
        rw [hlk] at hm
        have : (TapLeaf.script s v) ∈ (t.paths H).map (·.1) := by
          rw [paths_scripts]; exact List.mem_map.mpr ⟨(s, v), hsv, rfl⟩
        obtain ⟨⟨a, b⟩, hp, hpe⟩ := List.mem_map.mp this
        simp only at hpe
        subst hpe
        have := (hm b).mpr hp
        simp at this
      | some set =>
        rw [hlk] at h0 hm
        simp only [Option.getD_some] at hm
        cases set with
        | nil => exact absurd rfl h0
        | cons b bs =>
          obtain ⟨hs1, hs2⟩ := shortest_spec bs b
          have hp := (hm _).mp hs1
          refine ⟨_, rfl, ?_, rfl, rfl, rfl, hp, fun p hp' => hs2 p ((hm p).mpr hp'), ?_⟩
          · obtain ⟨s', v', he, hf⟩ := paths_fold H t _ hp
            injection he with e1 e2
            subst e1; subst e2
            unfold ControlBlock.verify
            simp only [] at hf ⊢
            rw [hf]
            unfold tapTweak at hq
            cases hsc : toScalar S (tweakHash H k (some (t.root H))) with
            | none => rw [hsc] at hq; cases hq
            | some tw =>
              rw [hsc] at hq
              simp only [] at hq ⊢
              cases hat : S.addTweak k.inner tw with
              | none => rw [hat] at hq; cases hq
              | some qp =>
                rw [hat] at hq
                simp only [Option.some.injEq] at hq
                subst hq
                have htw : S.isScalar tw = true := by
                  unfold toScalar at hsc
                  split at hsc
                  · rename_i h; injection hsc with h2; rw [← h2]; exact h
                  · cases hsc
                rw [(S.check_iff _ _ _ _ htw).mpr hat]
          · have := paths_length H t _ hp
            simp only at this ⊢
            omega
    · cases hlk : (addLeaves [] (nodeOf H t).leaves).lookup (s, v) with
      | none => rfl
      | some set =>
        exfalso
        rw [hlk] at h0 hm
        simp only [Option.getD_some] at hm
        cases set with
        | nil => exact absurd rfl h0
        | cons b bs =>
          have hp := (hm b).mp List.mem_cons_self
          have : (TapLeaf.script s v) ∈ (t.paths H).map (·.1) := List.mem_map.mpr ⟨_, hp, rfl⟩
          rw [paths_scripts] at this
          obtain ⟨⟨a, c⟩, hac, he⟩ := List.mem_map.mp this
          injection he with e1 e2
          simp only at e1 e2
          subst e1; subst e2
          exact hsv hac

/-! ## Binding -/

/-- The two strings hashed for a tagged hash. -/
def taggedInputs (H : Bytes → Hash) (tag msg : Bytes) : List Bytes := [tag, (H tag).1 ++ (H tag).1 ++ msg]

/-- What BIP-341 hashes for a leaf and for a branch. -/
def leafInputs (H : Bytes → Hash) (s : Bytes) (v : LeafVersion) : List Bytes :=
  taggedInputs H leafTag ([v.toConsensus] ++ (csEncode s.length ++ s))
def branchInputs (H : Bytes → Hash) (a b : Hash) : List Bytes :=
  taggedInputs H branchTag (if lexLt a.1 b.1 then a.1 ++ b.1 else b.1 ++ a.1)

/-- The strings hashed for the root of a tree. -/
def _root_.Btc.Taproot.Tree.inputs (H : Bytes → Hash) : Tree → List Bytes
  | .leaf (.script s v) => leafInputs H s v
  | .leaf (.hidden _) => []
  | .node l r => branchInputs H (l.root H) (r.root H) ++ (l.inputs H ++ r.inputs H)

/-- The strings hashed along a merkle path that starts at a node. -/
def pathInputs (H : Bytes → Hash) : Hash → List Hash → List Bytes
  | _, [] => []
  | x, g :: p => branchInputs H x g ++ pathInputs H (fromNodeHashes H x g) p

theorem pathInputs_snoc (H : Bytes → Hash) (g : Hash) : ∀ (p : List Hash) (x : Hash),
    pathInputs H x (p ++ [g]) = pathInputs H x p ++ branchInputs H (p.foldl (fromNodeHashes H) x) g
  | [], x => by simp [pathInputs]
  | y :: p, x => by simp [pathInputs, pathInputs_snoc H g p, List.append_assoc]

theorem tagged_inj (H : Bytes → Hash) (tag x y : Bytes) (h : tagged H tag x = tagged H tag y) :
    x = y ∨ Collision H (taggedInputs H tag x ++ taggedInputs H tag y) := by
  by_cases hxy : x = y
  · exact Or.inl hxy
  · exact Or.inr ⟨_, by simp [taggedInputs], _, by simp [taggedInputs], fun he => hxy (List.append_cancel_left he), h⟩

theorem tagged_cross (H : Bytes → Hash) (t1 t2 x y : Bytes) (ht : t1 ≠ t2) (h : tagged H t1 x = tagged H t2 y) :
    Collision H (taggedInputs H t1 x ++ taggedInputs H t2 y) := by
  by_cases he : (H t1).1 ++ (H t1).1 ++ x = (H t2).1 ++ (H t2).1 ++ y
  · rw [List.append_assoc, List.append_assoc] at he
    have := (List.append_inj he (by rw [(H t1).2, (H t2).2])).1
    exact ⟨t1, by simp [taggedInputs], t2, by simp [taggedInputs], ht, Subtype.ext this⟩
  · exact ⟨_, by simp [taggedInputs], _, by simp [taggedInputs], he, h⟩

theorem fromNodeHashes_tagged (H : Bytes → Hash) (a b : Hash) :
    fromNodeHashes H a b = tagged H branchTag (if lexLt a.1 b.1 then a.1 ++ b.1 else b.1 ++ a.1) := by
  unfold fromNodeHashes combineHashes
  split <;> rfl

theorem leafVersion_inj (a b : LeafVersion) (h : a.toConsensus = b.toConsensus) : a = b := by
  cases a with
  | tapScript =>
    cases b with
    | tapScript => rfl
    | future v => exact absurd h.symm v.2.2.2
  | future u =>
    cases b with
    | tapScript => exact absurd h u.2.2.2
    | future v => exact congrArg _ (Subtype.ext h)

theorem leafHash_inj (H : Bytes → Hash) (s s' : Bytes) (v v' : LeafVersion) (hs : s.length < 2 ^ 64) (hs' : s'.length < 2 ^ 64)
    (h : leafHash H s v = leafHash H s' v') : (s = s' ∧ v = v') ∨ Collision H (leafInputs H s v ++ leafInputs H s' v') := by
  rcases tagged_inj H _ _ _ h with he | hc
  · left
    simp only [List.cons_append, List.nil_append, List.cons.injEq] at he
    exact ⟨(Wire.prefix_free csU64_wire hs hs' he.2).2, leafVersion_inj _ _ he.1⟩
  · exact Or.inr hc

theorem fromNodeHashes_inj (H : Bytes → Hash) (a b c d : Hash) (h : fromNodeHashes H a b = fromNodeHashes H c d) :
    (a = c ∧ b = d) ∨ (a = d ∧ b = c) ∨ Collision H (branchInputs H a b ++ branchInputs H c d) := by
  rw [fromNodeHashes_tagged, fromNodeHashes_tagged] at h
  rcases tagged_inj H _ _ _ h with he | hc
  · have key : ∀ a b : Hash, ∃ x y : Hash, (if lexLt a.1 b.1 then a.1 ++ b.1 else b.1 ++ a.1) = x.1 ++ y.1 ∧ ((x = a ∧ y = b) ∨ (x = b ∧ y = a)) := by
      intro a b
      split
      · exact ⟨a, b, rfl, Or.inl ⟨rfl, rfl⟩⟩
      · exact ⟨b, a, rfl, Or.inr ⟨rfl, rfl⟩⟩
    obtain ⟨x, y, e1, c1⟩ := key a b
    obtain ⟨z, w, e2, c2⟩ := key c d
    rw [e1, e2] at he
    obtain ⟨h1, h2⟩ := List.append_inj he (by rw [x.2, z.2])
    have h1 := Subtype.ext h1
    have h2 := Subtype.ext h2
    grind
  · exact Or.inr (Or.inr hc)

theorem root_cross (H : Bytes → Hash) (s : Bytes) (v : LeafVersion) (a b : Hash) (h : leafHash H s v = fromNodeHashes H a b) :
    Collision H (leafInputs H s v ++ branchInputs H a b) := by
  rw [fromNodeHashes_tagged] at h
  exact tagged_cross H _ _ _ _ (by decide) h

theorem fold_binding (H : Bytes → Hash) (s : Bytes) (v : LeafVersion) (hs : s.length < 2 ^ 64) : ∀ (n : Nat) (t : Tree) (p : List Hash), p.length = n →
    t.hasHidden = false → (∀ k ∈ t.scripts, k.1.length < 2 ^ 64) → p.foldl (fromNodeHashes H) (leafHash H s v) = t.root H →
    (.script s v, p) ∈ t.paths H ∨ Collision H (leafInputs H s v ++ pathInputs H (leafHash H s v) p ++ t.inputs H) := by
  intro n
  induction n with
  | zero =>
    intro t p hp hh hsl h
    rw [List.length_eq_zero_iff.mp hp] at h ⊢
    simp only [List.foldl_nil] at h
    match t with
    | .leaf (.script s' v') =>
      rcases leafHash_inj H s s' v v' hs (hsl (s', v') (by simp [Tree.scripts])) h with ⟨rfl, rfl⟩ | hc
      · left; simp [Tree.paths]
      · exact Or.inr (hc.mono fun x hx => by simpa [pathInputs, Tree.inputs] using hx)
    | .leaf (.hidden _) => simp [Tree.hasHidden] at hh
    | .node l r =>
      rw [← fromNodeHashes_root] at h
      refine Or.inr ((root_cross H _ _ _ _ h).mono fun x hx => ?_)
      simp only [pathInputs, Tree.inputs, List.mem_append, List.append_nil] at hx ⊢
      exact hx.imp id .inl
  | succ n ih =>
    intro t p hp hh hsl h
    have hne : p ≠ [] := by rintro rfl; simp at hp
    obtain ⟨q, g, rfl⟩ : ∃ q g, p = q ++ [g] := ⟨_, _, (List.dropLast_concat_getLast hne).symm⟩
    simp only [List.length_append, List.length_cons, List.length_nil] at hp
    rw [List.foldl_append, List.foldl_cons, List.foldl_nil] at h
    rw [pathInputs_snoc]
    match t with
    | .leaf (.script s' v') =>
      refine Or.inr ((root_cross H _ _ _ _ h.symm).mono fun x hx => ?_)
      simp only [Tree.inputs, List.mem_append] at hx ⊢
      exact hx.elim .inr fun hx => .inl (.inr (.inr hx))
    | .leaf (.hidden _) => simp [Tree.hasHidden] at hh
    | .node l r =>
      simp only [Tree.hasHidden, Bool.or_eq_false_iff] at hh
      simp only [Tree.scripts, List.mem_append] at hsl
      rw [← fromNodeHashes_root] at h
      rcases fromNodeHashes_inj H _ _ _ _ h with ⟨h1, h2⟩ | ⟨h1, h2⟩ | hc
      · rcases ih l q (by omega) hh.1 (fun k hk => hsl k (Or.inl hk)) h1 with hm | hc
        · left
          simp only [Tree.paths, List.mem_append, List.mem_map]
          exact Or.inl ⟨_, hm, by rw [h2]⟩
        · refine Or.inr (hc.mono fun x hx => ?_)
          simp only [Tree.inputs, List.mem_append] at hx ⊢
          rcases hx with (hx | hx) | hx
          · exact .inl (.inl hx)
          · exact .inl (.inr (.inl hx))
          · exact .inr (.inr (.inl hx))
      · rcases ih r q (by omega) hh.2 (fun k hk => hsl k (Or.inr hk)) h1 with hm | hc
        · left
          simp only [Tree.paths, List.mem_append, List.mem_map]
          exact Or.inr ⟨_, hm, by rw [h2]⟩
        · refine Or.inr (hc.mono fun x hx => ?_)
          simp only [Tree.inputs, List.mem_append] at hx ⊢
          rcases hx with (hx | hx) | hx
          · exact .inl (.inl hx)
          · exact .inl (.inr (.inl hx))
          · exact .inr (.inr (.inr hx))
      · refine Or.inr (hc.mono fun x hx => ?_)
        simp only [Tree.inputs, List.mem_append] at hx ⊢
        exact hx.elim (fun hx => .inl (.inr (.inr hx))) fun hx => .inr (.inl hx)

/-- The strings hashed to verify a control block, and to tweak an internal key. -/
def tweakInputs (H : Bytes → Hash) {S : Secp} (k : XOnly S) (root : Hash) : List Bytes :=
  taggedInputs H tweakTag ((S.ser k.inner).1 ++ root.1)
def controlInputs (H : Bytes → Hash) {S : Secp} (cb : ControlBlock S) (s : Bytes) : List Bytes :=
  leafInputs H s cb.leafVersion ++ pathInputs H (leafHash H s cb.leafVersion) cb.branch ++
    tweakInputs H cb.internalKey (cb.branch.foldl (fromNodeHashes H) (leafHash H s cb.leafVersion))

/-- Only the tree's own leaves, with their own paths, verify against its output key (with the same internal key and
parity bit), or two of the strings hashed for the control block and for the output key collide.  `hinj` is injectivity of tweaking, a fact about the curve. -/
theorem C50_binding (H : Bytes → Hash) (S : Secp)
    (hinj : ∀ k t t' o, S.isScalar t = true → S.isScalar t' = true → S.addTweak k t = some o → S.addTweak k t' = some o → t = t')
    (k q : XOnly S) (t : Tree) (hh : t.hasHidden = false) (hsl : ∀ x ∈ t.scripts, x.1.length < 2 ^ 64)
    (hq : tapTweak H k (some (t.root H)) = some q) (cb : ControlBlock S) (s : Bytes) (hs : s.length < 2 ^ 64)
    (hk : cb.internalKey.inner = k.inner) (hp : cb.parity = q.parity) (hv : cb.verify H q s = some true) :
    (.script s cb.leafVersion, cb.branch) ∈ t.paths H ∨
      Collision H (controlInputs H cb s ++ (t.inputs H ++ tweakInputs H k (t.root H))) := by
  have hsc : ∀ h tw, toScalar S h = some tw → tw = h ∧ S.isScalar h = true := by
    intro h tw e
    unfold toScalar at e
    split at e
    · rename_i hc; injection e with e; exact ⟨e.symm, hc⟩
    · cases e
  unfold ControlBlock.verify at hv
  simp only [] at hv
  generalize hcur : cb.branch.foldl (fromNodeHashes H) (leafHash H s cb.leafVersion) = cur at hv
  cases h1 : toScalar S (tweakHash H cb.internalKey (some cur)) with
  | none => rw [h1] at hv; cases hv
  | some tw =>
    rw [h1] at hv
    simp only [Option.some.injEq] at hv
    obtain ⟨rfl, ht1⟩ := hsc _ _ h1
    have hv' := (S.check_iff _ _ _ _ ht1).mp hv
    unfold tapTweak at hq
    cases h2 : toScalar S (tweakHash H k (some (t.root H))) with
    | none => rw [h2] at hq; cases hq
    | some tw =>
      rw [h2] at hq
      obtain ⟨rfl, ht2⟩ := hsc _ _ h2
      simp only [] at hq
      cases h3 : S.addTweak k.inner (tweakHash H k (some (t.root H))) with
      | none => rw [h3] at hq; cases hq
      | some qp =>
        rw [h3] at hq
        simp only [Option.some.injEq] at hq
        subst hq
        rw [hk, hp] at hv'
        have := hinj _ _ _ _ ht1 ht2 hv' h3
        unfold tweakHash at this
        rw [hk] at this
        rcases tagged_inj H _ _ _ this with he | hc
        · have he' := Subtype.ext (List.append_cancel_left he)
          rw [← hcur] at he'
          refine (fold_binding H s cb.leafVersion hs _ t cb.branch rfl hh hsl he').imp id fun hc => hc.mono fun x hx => ?_
          simp only [controlInputs, List.mem_append] at hx ⊢
          exact hx.elim (fun hx => .inl (.inl hx)) fun hx => .inr (.inl hx)
        · refine Or.inr (hc.mono fun x hx => ?_)
          simp only [controlInputs, tweakInputs, hcur, hk, List.mem_append] at hx ⊢
          exact hx.elim (fun hx => .inl (.inr hx)) fun hx => .inr (.inr hx)

/-! ## Examples -/

/-- A toy stand-in for secp256k1, to show the laws can be met: tweaking returns the tweak. -/
def toySecp : Secp where
  Key := Hash
  ser := id
  parse := some
  isScalar := fun _ => true
  addTweak := fun _ t => some (t, false)
  check := fun _ q p t => decide (t = q ∧ false = p)
  parse_ser := fun _ => rfl
  ser_parse := fun b k h => by injection h with h; exact h.symm
  check_iff := fun k q p t _ => by simp

def sha (m : Bytes) : Hash := ⟨Sha2.sha256 m, Sha2.St.bytes_length 4 _⟩

/-- BIP-341 test vector: a tree with a tapscript leaf and a leaf of version 0xfa. -/
def exScript1 : Bytes := [0x20, 0x38, 0x76, 0x71, 0x35, 0x3e, 0x27, 0x32, 0x64, 0xc4, 0x95, 0x65, 0x6e, 0x27, 0xe3, 0x9b, 0xa8, 0x99, 0xea, 0x8f, 0xee,
  0x3b, 0xb6, 0x9f, 0xb2, 0xa6, 0x80, 0xe2, 0x20, 0x93, 0x44, 0x7d, 0x48, 0xac]
def exScript2 : Bytes := [0x06, 0x42, 0x49, 0x50, 0x33, 0x34, 0x31]
def exV2 : LeafVersion := .future ⟨250, by decide, by decide, by decide⟩
def exTree : Tree := .node (.leaf (.script exScript1 .tapScript)) (.leaf (.script exScript2 exV2))

example : (exTree.root sha).1 = [0x6c, 0x2d, 0xc1, 0x06, 0xab, 0x81, 0x6b, 0x73, 0xf9, 0xd0, 0x7e, 0x3c, 0xd1, 0xef, 0x2c, 0x8c, 0x12, 0x56, 0xf5, 0x19,
  0x74, 0x8e, 0x08, 0x13, 0xe4, 0xed, 0xd2, 0x40, 0x5d, 0x27, 0x7b, 0xef] := by decide +kernel
example : exTree.height ≤ 128 ∧ exTree.hasHidden = false ∧ (exScript2, exV2) ∈ exTree.scripts ∧ exTree.dfs 0 =
    [(1, .script exScript1 .tapScript), (1, .script exScript2 exV2)] := by decide +kernel
/-- The same tree through the model's builder, including a control block that verifies. -/
example : (match runCalls sha [] [(1, .script exScript1 .tapScript), (1, .script exScript2 exV2)] with
    | .ok st => match finalize sha (S := toySecp) st ⟨sha [], true⟩ with
      | some (.ok info) => match controlBlock info (exScript2, exV2) with
        | some (some cb) => (cb.verify sha info.outputKey exScript2, cb.branch.length)
        | _ => (none, 0)
      | _ => (none, 0)
    | _ => (none, 0)) = (some true, 1) := by decide +kernel
example : (withHuffmanTree sha (fun a b => lexLt b.hash.1 a.hash.1) [(10, [0x51]), (20, [0x52]), (20, [0x53]), (30, [0x54])]).toOption.map
    (fun st => (st.map fun n => n.map serialize)) =
    some [some [(2, .script [0x51] .tapScript), (2, .script [0x52] .tapScript), (2, .script [0x54] .tapScript), (2, .script [0x53] .tapScript)]] := by
  decide +kernel
/-- The hypothesis of `C50_binding` on tweaking can be met, and so can the other ones (`exTree`, above). -/
example : ∀ k t t' o, toySecp.isScalar t = true → toySecp.isScalar t' = true → toySecp.addTweak k t = some o → toySecp.addTweak k t' = some o → t = t' := by
  intro k t t' o _ _ h h'
  rw [← h'] at h
  injection h with h
  exact congrArg Prod.fst h

end Btc.Taproot
