import Verif.Primitives.Order
import Verif.Bitcoin.TaprootLaws
import Verif.Props.C50
import Verif.Props.C70
/-!
# C97: comparisons are lawful
-/
namespace Btc

/-- A total order in which only equal values compare as equal: what `Ord` and `Eq` promise together. -/
structure TotalCmp {α : Type} (cmp : α → α → Ordering) : Prop where
  eq_iff : ∀ a b, cmp a b = .eq ↔ a = b
  swap : ∀ a b, cmp b a = (cmp a b).swap
  trans : ∀ a b c, cmp a b ≠ .gt → cmp b c ≠ .gt → cmp a c ≠ .gt

namespace TotalCmp

theorem classes {α : Type} {cmp : α → α → Ordering} (h : TotalCmp cmp) : Std.TransCmp cmp ∧ Std.LawfulEqCmp cmp := by
  refine ⟨{ eq_swap := fun {a b} => h.swap b a, isLE_trans := fun {a b c} h1 h2 => ?_ },
    { compare_self := fun {a} => (h.eq_iff a a).2 rfl, eq_of_compare := fun {a b} e => (h.eq_iff a b).1 e }⟩
  have := h.trans a b c (by intro e; rw [e] at h1; cases h1) (by intro e; rw [e] at h2; cases h2)
  cases hc : cmp a c <;> simp_all

theorem of_classes {α : Type} (cmp : α → α → Ordering) [Std.TransCmp cmp] [Std.LawfulEqCmp cmp] : TotalCmp cmp where
  eq_iff a b := ⟨Std.LawfulEqCmp.eq_of_compare, fun e => e ▸ Std.ReflCmp.compare_self⟩
  swap a b := Std.OrientedCmp.eq_swap
  trans a b c h1 h2 h3 := by
    have h1' : (cmp a b).isLE := by cases hc : cmp a b <;> simp_all
    have h2' : (cmp b c).isLE := by cases hc : cmp b c <;> simp_all
    have := Std.TransCmp.isLE_trans h1' h2'
    rw [h3] at this; cases this

theorem ord {α : Type} [Ord α] [Std.TransOrd α] [Std.LawfulEqOrd α] : TotalCmp (compare : α → α → Ordering) := of_classes _

theorem list {α : Type} {cmp : α → α → Ordering} (h : TotalCmp cmp) : TotalCmp (List.compareLex cmp) := by
  have := h.classes.1
  have := h.classes.2
  exact of_classes _

/-- Comparing by an injective key. -/
theorem key {α β : Type} {cmp : β → β → Ordering} (h : TotalCmp cmp) (f : α → β) (hf : ∀ a b, f a = f b → a = b) :
    TotalCmp fun a b => cmp (f a) (f b) where
  eq_iff a b := (h.eq_iff _ _).trans ⟨hf a b, fun e => e ▸ rfl⟩
  swap a b := h.swap _ _
  trans a b c := h.trans _ _ _

/-- Comparing by two keys that are injective together. -/
theorem keys {α β γ : Type} {c1 : β → β → Ordering} {c2 : γ → γ → Ordering} (h1 : TotalCmp c1) (h2 : TotalCmp c2)
    (f : α → β) (g : α → γ) (hfg : ∀ a b, f a = f b → g a = g b → a = b) :
    TotalCmp fun a b => (c1 (f a) (f b)).then (c2 (g a) (g b)) where
  eq_iff a b := by
    rw [Ordering.then_eq_eq, h1.eq_iff, h2.eq_iff]
    exact ⟨fun e => hfg a b e.1 e.2, fun e => e ▸ ⟨rfl, rfl⟩⟩
  swap a b := by rw [h1.swap (f a) (f b), h2.swap (g a) (g b), Ordering.swap_then]
  trans a b c hab hbc := by
    intro hac
    have t1 := h1.trans (f a) (f b) (f c)
    have t2 := h2.trans (g a) (g b) (g c)
    cases e1 : c1 (f a) (f b) with
    | gt => rw [e1] at hab; exact hab rfl
    | eq =>
      have e := (h1.eq_iff _ _).1 e1
      rw [e1] at hab
      rw [e] at hac
      cases e2 : c1 (f b) (f c) with
      | gt => rw [e2] at hbc; exact hbc rfl
      | eq => rw [e2] at hbc hac; exact t2 hab hbc hac
      | lt => rw [e2] at hac; cases hac
    | lt =>
      cases e2 : c1 (f b) (f c) with
      | gt => rw [e2] at hbc; exact hbc rfl
      | eq =>
        have e := (h1.eq_iff _ _).1 e2
        rw [← e, e1] at hac; cases hac
      | lt =>
        cases e3 : c1 (f a) (f c) with
        | lt => rw [e3] at hac; cases hac
        | gt => exact t1 (by rw [e1]; decide) (by rw [e2]; decide) e3
        | eq =>
          have e := (h1.eq_iff _ _).1 e3
          have s := h1.swap (f b) (f c)
          rw [← e, e1, e, e2] at s
          cases s

end TotalCmp

theorem arr_cmp {n : Nat} : TotalCmp (fun a b : Arr n => compare a.1 b.1) := TotalCmp.key TotalCmp.ord _ fun _ _ => Subtype.ext

theorem wit_cmp : TotalCmp Wit.cmp :=
  TotalCmp.keys TotalCmp.ord (TotalCmp.keys (α := Nat × Nat) TotalCmp.ord TotalCmp.ord (·.1) (·.2) fun _ _ h1 h2 => Prod.ext h1 h2)
    Wit.content (fun w => (w.elems, w.idx)) fun a b h1 h2 => by
      cases a; cases b; simp only [Prod.mk.injEq] at h1 h2; simp [h1, h2.1, h2.2]

theorem outPoint_cmp : TotalCmp OutPoint.cmp :=
  TotalCmp.keys arr_cmp TotalCmp.ord OutPoint.txid OutPoint.vout fun a b h1 h2 => by cases a; cases b; simp_all

theorem txIn_cmp : TotalCmp TxIn.cmp :=
  TotalCmp.keys outPoint_cmp (TotalCmp.keys (α := Bytes × UInt32 × Wit) TotalCmp.ord
      (TotalCmp.keys (α := UInt32 × Wit) TotalCmp.ord wit_cmp (·.1) (·.2) fun _ _ h1 h2 => Prod.ext h1 h2) (·.1) (·.2)
      fun _ _ h1 h2 => Prod.ext h1 h2)
    TxIn.prev (fun i => (i.scriptSig, i.sequence, i.witness)) fun a b h1 h2 => by cases a; cases b; simp_all

theorem txOut_cmp : TotalCmp TxOut.cmp :=
  TotalCmp.keys (c1 := fun a b : Amount => compare a.1 b.1) (TotalCmp.key TotalCmp.ord _ fun _ _ => Subtype.ext) TotalCmp.ord
    TxOut.amount TxOut.spk fun a b h1 h2 => by cases a; cases b; simp_all

/-- Transactions, their inputs, outputs, out points and witnesses are totally ordered, and compare as equal exactly when they
are equal. -/
theorem C97_transaction : TotalCmp Tx.cmp ∧ TotalCmp TxIn.cmp ∧ TotalCmp TxOut.cmp ∧ TotalCmp OutPoint.cmp ∧ TotalCmp Wit.cmp := by
  refine ⟨?_, txIn_cmp, txOut_cmp, outPoint_cmp, wit_cmp⟩
  have h2 : TotalCmp (fun a b : UInt32 × UInt32 => (compare a.1 b.1).then (compare a.2 b.2)) :=
    TotalCmp.keys TotalCmp.ord TotalCmp.ord (·.1) (·.2) fun _ _ h1 h2 => Prod.ext h1 h2
  have h3 : TotalCmp (fun a b : (UInt32 × UInt32) × List TxIn => ((compare a.1.1 b.1.1).then (compare a.1.2 b.1.2)).then
      (List.compareLex TxIn.cmp a.2 b.2)) :=
    TotalCmp.keys h2 txIn_cmp.list (·.1) (·.2) fun _ _ h1 h2 => Prod.ext h1 h2
  exact TotalCmp.keys h3 txOut_cmp.list (fun t : Tx => ((t.version, t.lockTime), t.inputs)) Tx.outputs fun a b h1 h2 => by
    cases a; cases b; simp_all

/-- Witnesses made of elements are equal, and compare as equal, exactly when the elements are the same. -/
theorem C97_witness_elements (a b : List Bytes) (ha : OffsetsFit a) (hb : OffsetsFit b) (ha' : ∀ x ∈ a, x.length < 2 ^ 64)
    (hb' : ∀ x ∈ b, x.length < 2 ^ 64) : ∃ v w, Wit.fromSlice a = some v ∧ Wit.fromSlice b = some w ∧ (v = w ↔ a = b) ∧
      (v.cmp w = .eq ↔ a = b) := by
  refine ⟨_, _, Wit.fromSlice_eq a ha, Wit.fromSlice_eq b hb, ?_, ?_⟩
  · exact ⟨Wit.ofList_inj ha' hb', fun e => e ▸ rfl⟩
  · rw [wit_cmp.eq_iff]
    exact ⟨Wit.ofList_inj ha' hb', fun e => e ▸ rfl⟩

/-- Elements whose offsets fit. -/
example : OffsetsFit [[1], [2, 3]] := by
  intro a x b h
  match a, h with
  | [], _ => decide
  | [y], h => simp at h; rw [← h.1]; decide
  | y :: z :: a, h => simp at h

/-! ### Byte order of the platform

`encode_cursor` (witness.rs 261-266) stores offsets with `to_ne_bytes`; the model takes that as little endian.  `tableOf be` is
the offset table on a big-endian platform when `be` is true. -/

def tableOf (be : Bool) : Nat → List Bytes → Bytes
  | _, [] => []
  | p, x :: l => (if be then (leBytes 4 p).reverse else leBytes 4 p) ++ tableOf be (p + (elemEnc x).length) l

def witOn (be : Bool) (l : List Bytes) : Wit := ⟨elemsEnc l ++ tableOf be 0 l, l.length, (elemsEnc l).length⟩

theorem witOn_le (l : List Bytes) : witOn false l = Wit.ofList l := by
  have : ∀ (l : List Bytes) (p : Nat), tableOf false p l = offTable p l := by
    intro l
    induction l with
    | nil => intro p; rfl
    | cons x l ih => intro p; simp only [tableOf, offTable, ih]; rfl
  simp only [witOn, Wit.ofList, this]

/-- The order of witnesses depends on the platform: the offset table takes part in the comparison. -/
theorem C97_witness_platform_false : ¬ ∀ a b : List Bytes, (witOn true a).cmp (witOn true b) = (witOn false a).cmp (witOn false b) := by
  intro h
  have := h [[], []] [[], [], [], [], [], [], [], [1, 2]]
  revert this
  decide +kernel

theorem compare_append_of_ne : ∀ (a b c d : Bytes), a.length = b.length → a ≠ b → compare (a ++ c) (b ++ d) = compare a b
  | [], [], _, _, _, h => absurd rfl h
  | x :: a, y :: b, c, d, hl, h => by
    rw [List.cons_append, List.cons_append, List.compare_cons_cons, List.compare_cons_cons]
    by_cases hxy : x = y
    · subst hxy
      rw [compare_append_of_ne a b c d (by simpa using hl) (fun e => h (by rw [e]))]
    · have : compare x y ≠ .eq := fun e => hxy (TotalCmp.ord.eq_iff x y |>.1 e)
      cases hc : compare x y <;> simp_all

/-- Witnesses of the same serialized size compare the same way everywhere. -/
theorem C97_witness_platform_partial (a b : List Bytes) (ha : ∀ x ∈ a, x.length < 2 ^ 64) (hb : ∀ x ∈ b, x.length < 2 ^ 64)
    (hn : a.length = b.length) (h : (elemsEnc a).length = (elemsEnc b).length) :
    (witOn true a).cmp (witOn true b) = (witOn false a).cmp (witOn false b) := by
  by_cases hab : a = b
  · subst hab
    rw [(wit_cmp.eq_iff _ _).2 rfl, (wit_cmp.eq_iff _ _).2 rfl]
  · have hne : elemsEnc a ≠ elemsEnc b := by
      intro e
      apply hab
      exact (Wit.elemsEnc_inj (r := []) (s := []) ha hb hn (by simpa using e)).1
    simp only [Wit.cmp, witOn]
    rw [compare_append_of_ne _ _ _ _ h hne, compare_append_of_ne _ _ _ _ h hne]

/-! ### Serialized signatures -/

namespace Crypto

/-- A serialized signature compares, with another or with a byte string, as its bytes in use do: whatever lies in the rest of
the buffer has no influence. -/
theorem C97_serialized (a b c : TapSer) (s : Bytes) :
    (a.eq b = true ↔ a.bytes = b.bytes) ∧ (a.cmp b = .eq ↔ a.eq b = true) ∧ b.cmp a = (a.cmp b).swap ∧
    (a.cmp b ≠ .gt → b.cmp c ≠ .gt → a.cmp c ≠ .gt) ∧ (a.eqSlice s = true ↔ a.bytes = s) ∧
    (∀ d : TapSer, d.bytes = s → a.eqSlice s = a.eq d ∧ a.cmpSlice s = a.cmp d) := by
  have h := TotalCmp.ord (α := Bytes)
  refine ⟨by simp [TapSer.eq], ?_, h.swap _ _, h.trans _ _ _, by simp [TapSer.eqSlice], ?_⟩
  · rw [show (a.eq b = true ↔ a.bytes = b.bytes) from by simp [TapSer.eq]]
    exact h.eq_iff _ _
  · rintro d rfl; exact ⟨rfl, rfl⟩

/-- The same for ECDSA; nothing panics for a length within the buffer. -/
theorem C97_serialized_ecdsa (a b : EcdsaSer) (ha : a.len ≤ 73) (hb : b.len ≤ 73) :
    a.eq b = some (decide (a.data.1.take a.len = b.data.1.take b.len)) ∧
    a.cmp b = some (compare (a.data.1.take a.len) (b.data.1.take b.len)) := by
  simp only [EcdsaSer.eq, EcdsaSer.cmp, EcdsaSer.bytes, if_pos ha, if_pos hb, Option.bind_some, Option.map_some]
  refine ⟨?_, trivial⟩
  congr 1
  rw [Bool.eq_iff_iff]
  simp

/-- Two buffers that differ only beyond the length. -/
example : TapSer.eq ⟨⟨List.replicate 64 7 ++ [1], rfl⟩, 64⟩ ⟨⟨List.replicate 64 7 ++ [9], rfl⟩, 64⟩ = true ∧
    TapSer.cmp ⟨⟨List.replicate 64 7 ++ [1], rfl⟩, 64⟩ ⟨⟨List.replicate 64 7 ++ [9], rfl⟩, 65⟩ = .lt := by decide +kernel

end Crypto

/-- Seeds and authentication codes are equal exactly when their bytes are, and comparing them never panics. -/
theorem C97_seed (a b : Bytes) : seedEq a b = some (decide (a = b)) := by
  unfold seedEq
  by_cases h : a.length = b.length
  · rw [if_pos h, Cmp.C70_fixed_time_eq, if_pos h]
  · rw [if_neg h]
    have : a ≠ b := fun e => h (e ▸ rfl)
    simp [this]

example : seedEq [1, 2, 3] [1, 2] = some false ∧ seedEq [1, 2, 3] [1, 2, 3] = some true := by
  rw [C97_seed, C97_seed]; decide

/-! ### Taproot nodes -/

namespace Taproot

theorem leafVersion_cmp : TotalCmp LeafVersion.cmp where
  eq_iff a b := by
    cases a <;> cases b <;> simp [LeafVersion.cmp, Subtype.ext_iff]
  swap a b := by
    cases a with
    | tapScript => cases b <;> rfl
    | future x =>
      cases b with
      | tapScript => rfl
      | future y => exact (TotalCmp.ord (α := UInt8)).swap _ _
  trans a b c := by
    cases a with
    | tapScript => cases c <;> simp [LeafVersion.cmp]
    | future x =>
      cases b with
      | tapScript => simp [LeafVersion.cmp]
      | future y =>
        cases c with
        | tapScript => simp [LeafVersion.cmp]
        | future z => exact (TotalCmp.ord (α := UInt8)).trans _ _ _

theorem tapLeaf_cmp : TotalCmp TapLeaf.cmp := by
  have hs : TotalCmp (fun a b : Bytes × LeafVersion => (compare a.1 b.1).then (a.2.cmp b.2)) :=
    TotalCmp.keys TotalCmp.ord leafVersion_cmp (·.1) (·.2) fun _ _ h1 h2 => Prod.ext h1 h2
  have hh : TotalCmp (fun a b : Hash => compare a.1 b.1) := arr_cmp
  refine ⟨fun a b => ?_, fun a b => ?_, fun a b c => ?_⟩
  · cases a with
    | script s v =>
      cases b with
      | script s' v' => exact (hs.eq_iff (s, v) (s', v')).trans (by simp)
      | hidden h => simp [TapLeaf.cmp]
    | hidden h =>
      cases b with
      | script s v => simp [TapLeaf.cmp]
      | hidden h' => exact (hh.eq_iff h h').trans (by simp)
  · cases a with
    | script s v =>
      cases b with
      | script s' v' => exact hs.swap (s, v) (s', v')
      | hidden h => rfl
    | hidden h =>
      cases b with
      | script s v => rfl
      | hidden h' => exact hh.swap h h'
  · cases a with
    | script s v =>
      cases c with
      | hidden h => simp [TapLeaf.cmp]
      | script s'' v'' =>
        cases b with
        | script s' v' => exact hs.trans (s, v) (s', v') (s'', v'')
        | hidden h => simp [TapLeaf.cmp]
    | hidden h =>
      cases b with
      | script s v => simp [TapLeaf.cmp]
      | hidden h' =>
        cases c with
        | script s v => simp [TapLeaf.cmp]
        | hidden h'' => exact hh.trans h h' h''

theorem leafNode_cmp : TotalCmp LeafNode.cmp :=
  TotalCmp.keys tapLeaf_cmp (TotalCmp.list arr_cmp) LeafNode.leaf LeafNode.branch fun a b h1 h2 => by cases a; cases b; simp_all

theorem nodeInfo_cmp_then (a b : NodeInfo) : a.cmp b = (compare a.hash.1 b.hash.1).then
    ((List.compareLex LeafNode.cmp a.leaves b.leaves).then (compare a.hasHidden b.hasHidden)) := by
  unfold NodeInfo.cmp
  cases compare a.hash.1 b.hash.1 <;> cases List.compareLex LeafNode.cmp a.leaves b.leaves <;> rfl

/-- `Ord` of nodes is a total order of their contents. -/
theorem C97_node_order : TotalCmp NodeInfo.cmp := by
  have h : TotalCmp (fun a b : NodeInfo => (compare a.hash.1 b.hash.1).then
      ((List.compareLex LeafNode.cmp a.leaves b.leaves).then (compare a.hasHidden b.hasHidden))) :=
    TotalCmp.keys (c1 := fun a b : Hash => compare a.1 b.1) arr_cmp
      (TotalCmp.keys (α := List LeafNode × Bool) (TotalCmp.list leafNode_cmp) TotalCmp.ord (·.1) (·.2) fun _ _ h1 h2 => Prod.ext h1 h2)
      NodeInfo.hash (fun n => (n.leaves, n.hasHidden)) fun a b h1 h2 => by cases a; cases b; simp_all
  exact (funext fun a => funext fun b => nodeInfo_cmp_then a b : NodeInfo.cmp = _) ▸ h

/-- `Eq` of nodes is not the equality of that order: a script leaf and its hash as a hidden node are equal, but compare as
different.  `Ord` requires the two to agree. -/
theorem C97_node_eq_false (H : Bytes → Hash) : ¬ ∀ a b : NodeInfo, a.eq b = true ↔ a.cmp b = .eq := by
  intro h
  have := (h (newLeaf H [] .tapScript) (newHidden (leafHash H [] .tapScript))).1 (by simp [NodeInfo.eq, newLeaf, newHidden])
  rw [C97_node_order.eq_iff] at this
  simp [newLeaf, newHidden] at this

theorem nodeOf_node (H : Bytes → Hash) (l r l' r' : Tree) (hl : nodeOf H l = nodeOf H l') (hr : nodeOf H r = nodeOf H r') :
    nodeOf H (.node l r) = nodeOf H (.node l' r') := by
  simp only [nodeOf, hl, hr]

theorem nodeOf_comm (H : Bytes → Hash) (l r : Tree) (h : l.root H ≠ r.root H) : nodeOf H (.node l r) = nodeOf H (.node r l) := by
  simp only [nodeOf, nodeOf_hash]
  rw [fromNodeHashes_comm]
  cases h1 : lexLt (r.root H).1 (l.root H).1 with
  | true => simp [lexLt_asymm _ _ h1]
  | false =>
    cases h2 : lexLt (l.root H).1 (r.root H).1 with
    | true => simp
    | false => exact absurd (Subtype.ext (lexLt_total _ _ h2 h1)) h

/-- For trees without hidden parts the two agree: nodes with the same hash are the same node, or two of the strings hashed for
them collide. -/
theorem C97_node_eq_partial (H : Bytes → Hash) : ∀ t u : Tree, t.hasHidden = false → u.hasHidden = false →
    (∀ k ∈ t.scripts, k.1.length < 2 ^ 64) → (∀ k ∈ u.scripts, k.1.length < 2 ^ 64) →
    ((nodeOf H t).eq (nodeOf H u) = true ↔ (nodeOf H t).cmp (nodeOf H u) = .eq) ∨ Collision H (t.inputs H ++ u.inputs H) := by
  have key : ∀ t u : Tree, t.hasHidden = false → u.hasHidden = false → (∀ k ∈ t.scripts, k.1.length < 2 ^ 64) →
      (∀ k ∈ u.scripts, k.1.length < 2 ^ 64) → t.root H = u.root H →
      nodeOf H t = nodeOf H u ∨ Collision H (t.inputs H ++ u.inputs H) := by
    intro t
    induction t with
    | leaf x =>
      intro u ht hu st su h
      cases x with
      | hidden _ => cases ht
      | script s v =>
        match u with
        | .leaf (.hidden _) => cases hu
        | .leaf (.script s' v') =>
          rcases leafHash_inj H s s' v v' (st (s, v) (by simp [Tree.scripts])) (su (s', v') (by simp [Tree.scripts])) h with ⟨rfl, rfl⟩ | hc
          · exact .inl rfl
          · exact .inr hc
        | .node l r =>
          rw [← fromNodeHashes_root] at h
          refine .inr ((root_cross H _ _ _ _ h).mono fun x hx => ?_)
          simp only [Tree.inputs, List.mem_append] at hx ⊢
          exact hx.imp id .inl
    | node l r ihl ihr =>
      intro u ht hu st su h
      match u with
      | .leaf (.hidden _) => cases hu
      | .leaf (.script s' v') =>
        rw [← fromNodeHashes_root] at h
        refine .inr ((root_cross H _ _ _ _ h.symm).mono fun x hx => ?_)
        simp only [Tree.inputs, List.mem_append] at hx ⊢
        exact hx.elim .inr fun hx => .inl (.inl hx)
      | .node l' r' =>
        simp only [Tree.hasHidden, Bool.or_eq_false_iff] at ht hu
        simp only [Tree.scripts, List.mem_append] at st su
        have sl := fun k hk => st k (.inl hk)
        have sr := fun k hk => st k (.inr hk)
        have sl' := fun k hk => su k (.inl hk)
        have sr' := fun k hk => su k (.inr hk)
        rw [← fromNodeHashes_root, ← fromNodeHashes_root] at h
        have straight : l.root H = l'.root H → r.root H = r'.root H →
            nodeOf H (.node l r) = nodeOf H (.node l' r') ∨ Collision H ((Tree.node l r).inputs H ++ (Tree.node l' r').inputs H) := by
          intro h1 h2
          rcases ihl l' ht.1 hu.1 sl sl' h1 with e1 | hc
          · rcases ihr r' ht.2 hu.2 sr sr' h2 with e2 | hc
            · exact .inl (nodeOf_node H _ _ _ _ e1 e2)
            · exact .inr (hc.mono fun x hx => by
                simp only [Tree.inputs, List.mem_append] at hx ⊢
                exact hx.elim (fun hx => .inl (.inr (.inr hx))) fun hx => .inr (.inr (.inr hx)))
          · exact .inr (hc.mono fun x hx => by
              simp only [Tree.inputs, List.mem_append] at hx ⊢
              exact hx.elim (fun hx => .inl (.inr (.inl hx))) fun hx => .inr (.inr (.inl hx)))
        rcases fromNodeHashes_inj H _ _ _ _ h with ⟨h1, h2⟩ | ⟨h1, h2⟩ | hc
        · exact straight h1 h2
        · by_cases hlr : l.root H = r.root H
          · exact straight (hlr.trans h2) (hlr.symm.trans h1)
          · rcases ihl r' ht.1 hu.2 sl sr' h1 with e1 | hc
            · rcases ihr l' ht.2 hu.1 sr sl' h2 with e2 | hc
              · exact .inl ((nodeOf_comm H l r hlr).trans (nodeOf_node H _ _ _ _ e2 e1))
              · exact .inr (hc.mono fun x hx => by
                  simp only [Tree.inputs, List.mem_append] at hx ⊢
                  exact hx.elim (fun hx => .inl (.inr (.inr hx))) fun hx => .inr (.inr (.inl hx)))
            · exact .inr (hc.mono fun x hx => by
                simp only [Tree.inputs, List.mem_append] at hx ⊢
                exact hx.elim (fun hx => .inl (.inr (.inl hx))) fun hx => .inr (.inr (.inr hx)))
        · refine .inr (hc.mono fun x hx => ?_)
          simp only [Tree.inputs, List.mem_append] at hx ⊢
          exact hx.elim (fun hx => .inl (.inl hx)) fun hx => .inr (.inl hx)
  intro t u ht hu st su
  by_cases h : t.root H = u.root H
  · rcases key t u ht hu st su h with e | hc
    · left; rw [e]; simp [NodeInfo.eq, (C97_node_order.eq_iff _ _).2 rfl]
    · exact .inr hc
  · left
    have h1 : (nodeOf H t).eq (nodeOf H u) ≠ true := by
      simp only [NodeInfo.eq, nodeOf_hash, beq_iff_eq, ne_eq]
      exact fun e => h (Subtype.ext e)
    have h2 : (nodeOf H t).cmp (nodeOf H u) ≠ .eq := by
      rw [Ne, C97_node_order.eq_iff]
      exact fun e => h (by rw [← nodeOf_hash, ← nodeOf_hash, e])
    exact ⟨fun x => absurd x h1, fun x => absurd x h2⟩

/-- Two trees that differ in the order of siblings. -/
example : ∃ t u : Tree, t.hasHidden = false ∧ u.hasHidden = false ∧ t.scripts ≠ u.scripts ∧
    (∀ k ∈ t.scripts, k.1.length < 2 ^ 64) ∧ (∀ k ∈ u.scripts, k.1.length < 2 ^ 64) :=
  ⟨.node (.leaf (.script [1] .tapScript)) (.leaf (.script [2] .tapScript)),
    .node (.leaf (.script [2] .tapScript)) (.leaf (.script [1] .tapScript)), by decide, by decide, by decide, by decide +kernel, by decide +kernel⟩

end Taproot

/-- Two witnesses of the same serialized size. -/
example : ([[1], [2, 3]] : List Bytes).length = ([[4, 5], [6]] : List Bytes).length ∧
    (elemsEnc [[1], [2, 3]]).length = (elemsEnc [[4, 5], [6]]).length ∧
    (witOn true [[1], [2, 3]]).cmp (witOn true [[4, 5], [6]]) = .lt := by decide +kernel

end Btc
