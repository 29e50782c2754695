import Verif.Serde.Taproot
import Verif.Props.C91
import Verif.Props.C51
import Verif.Props.C52
/-!
# C93: taproot trees, merkle branches and control blocks in serde's data formats

`F` ranges over all data formats that keep serde's contract, text and binary.
-/
namespace Btc.Serde
open Taproot

/-! ### Leaves and branches -/

theorem C93_leaf (F : Fmt) (l : TapLeaf) : deTapLeaf F (serTapLeaf F l) = .ok l := by
  unfold deTapLeaf
  cases l with
  | script s v =>
    rw [serTapLeaf, visit_fit (by rfl)]
    simp only [canon, if_true, (C91_script F s).1, (C91_checked F).2.2.2.2.2 v]
  | hidden h =>
    rw [serTapLeaf, visit_fit (by rfl)]
    simp only [canon, if_neg (show ¬ hiddenName = scriptName by decide), if_true, C91_hash]

/-- A branch is read back, and only branches of at most 128 hashes are read. -/
theorem C93_branch (F : Fmt) :
    (∀ b : List Hash, b.length ≤ 128 → deBranch F (serBranch F b) = .ok b) ∧
    (∀ b : List Hash, 128 < b.length → deBranch F (serBranch F b) = .error .refused) ∧
    (∀ v b, deBranch F v = .ok b → b.length ≤ 128) := by
  have key : ∀ b : List Hash, deVec (deHash false 32 F) F (serBranch F b) = .ok b := fun b =>
    deVec_ser F _ _ b fun x _ => C91_hash false F x
  refine ⟨fun b hb => ?_, fun b hb => ?_, fun v b h => ?_⟩
  · unfold deBranch
    rw [key]
    exact if_neg (show ¬ b.length > 128 by omega)
  · unfold deBranch
    rw [key]
    exact if_pos (show b.length > 128 from hb)
  · unfold deBranch at h
    split at h
    · cases h
    · split at h
      · cases h
      · rename_i hl
        cases h
        simp only [maxNodes] at hl
        omega

/-! ### Trees -/

/-- The pairs of depth and leaf, with the depth written in `w` bits. -/
def pairs (w : Nat) (F : Fmt) (calls : List (Nat × TapLeaf)) : List SVal := calls.flatMap fun c => [.uint w c.1, serTapLeaf F c.2]

theorem nodeLoop_pairs (H : Bytes → Hash) (F : Fmt) (w : Nat) (hd : ∀ n, n < 256 → deU8 F (.uint w n) = .ok (UInt8.ofNat n)) :
    ∀ (calls : List (Nat × TapLeaf)) (st : Builder), (∀ c ∈ calls, c.1 < 256) →
      nodeLoop H F st (pairs w F calls) = ofBuilder (runCalls H st calls)
  | [], st, _ => rfl
  | (d, l) :: calls, st, h => by
    have e : pairs w F ((d, l) :: calls) = .uint w d :: serTapLeaf F l :: pairs w F calls := by
      simp [pairs]
    rw [e, nodeLoop, hd d (h (d, l) (by simp))]
    have hdd : (UInt8.ofNat d).toNat = d := by
      have : d < 256 := h (d, l) (by simp)
      simp; omega
    simp only [C93_leaf, hdd]
    rw [runCalls]
    cases ha : addLeaf H st d l with
    | error b => cases b <;> rfl
    | ok st' =>
      simp only [ofBuilder]
      exact nodeLoop_pairs H F w hd calls st' fun c hc => h c (by simp [hc])

theorem deNode_pairs (H : Bytes → Hash) (F : Fmt) (w : Nat) (hd : ∀ n, n < 256 → deU8 F (.uint w n) = .ok (UInt8.ofNat n))
    (calls : List (Nat × TapLeaf)) (h : ∀ c ∈ calls, c.1 < 256) :
    deNodeInfo H F (.seq (pairs w F calls)) = ofBuilder (Taproot.deserialize H calls) := by
  unfold deNodeInfo
  rw [visit_fit rfl]
  simp only [canon, nodeLoop_pairs H F w hd calls [] h, Taproot.deserialize]
  cases runCalls H [] calls with
  | error b => cases b <;> rfl
  | ok st => rfl

theorem serNode_pairs (F : Fmt) (n : NodeInfo) : serNodeInfo F n = .seq (pairs 64 F (Taproot.serialize n)) := by
  unfold serNodeInfo pairs Taproot.serialize
  rw [List.flatMap_map]

theorem deserialize_iff (H : Bytes → Hash) (calls : List (Nat × TapLeaf)) (n : NodeInfo) :
    Taproot.deserialize H calls = .ok n ↔ ∃ t : Tree, t.height ≤ 128 ∧ t.dfs 0 = calls ∧ Taproot.deserialize H (t.dfs 0) = .ok n := by
  constructor
  · intro h
    have h' := h
    unfold Taproot.deserialize at h'
    cases hr : runCalls H [] calls with
    | error e => rw [hr] at h'; cases h'
    | ok st =>
      rw [hr] at h'
      simp only [] at h'
      have hf : isFinalizable st = true := by
        unfold tryIntoNodeInfo at h'
        split at h'
        · cases h'
        · rename_i hl
          match st, hl, h' with
          | [some m], _, _ => rfl
          | [none], _, h' => cases h'
          | [], hl, _ => simp at hl
          | _ :: _ :: _, hl, _ => simp at hl
      obtain ⟨t, h1, h2⟩ := (C50_builder H calls).1 ⟨st, hr, hf⟩
      exact ⟨t, h1, h2, by rw [h2]; exact h⟩
  · rintro ⟨t, _, h2, h3⟩
    rw [← h2]; exact h3

/-- The leaves of a deserialized tree lie at most 128 deep. -/
theorem deserialize_branches (H : Bytes → Hash) (calls : List (Nat × TapLeaf)) (n : NodeInfo) (h : Taproot.deserialize H calls = .ok n) :
    ∀ c ∈ Taproot.serialize n, c.1 ≤ 128 := by
  obtain ⟨t, h1, _, h3⟩ := (deserialize_iff H calls n).1 h
  obtain ⟨m, e1, _, _, _, e5, _⟩ := C50_builder_result H t h1
  rw [h3] at e1
  cases e1
  intro c hc
  unfold Taproot.serialize at hc
  obtain ⟨l, hl, rfl⟩ := List.mem_map.1 hc
  exact e5 l hl

/-- A format that hands a number to whoever asks for a number, whatever the width it was written with, as the self-describing formats do. -/
def NumbersAreNumbers (F : Fmt) : Prop := ∀ n, F.other (.uint 8) (.uint 64 n) = some (.uint n)

theorem deU8_wide {F : Fmt} (hF : NumbersAreNumbers F) (n : Nat) (h : n < 256) : deU8 F (.uint 64 n) = .ok (UInt8.ofNat n) := by
  unfold deU8 deUint
  rw [visit_misfit (by simp [fits]), hF n]
  simp only [show n < 2 ^ 8 from h, if_true]

/-! Full statement: a tree without hidden nodes is read back, in every data format.  Proved for the formats that do not tell the widths of
numbers apart; false in the others (`C93_tree_refuted`), since the depth is written as a `u64` and read as a `u8`. -/

/-- A tree without hidden nodes is read back: `TapTree` and `NodeInfo`. -/
theorem C93_tree_partial (H : Bytes → Hash) (F : Fmt) (hF : NumbersAreNumbers F) (t : Tree) (ht : t.height ≤ 128) (hh : t.hasHidden = false) :
    ∃ n, runCalls H [] (t.dfs 0) = .ok [some n] ∧ n.hash = t.root H ∧
      deNodeInfo H F (serNodeInfo F n) = .ok n ∧ deTapTree H F (serTapTree F n) = .ok n := by
  obtain ⟨n, h1, h2, h3, _⟩ := C50_builder_result H t ht
  have hr := run_tree H t ht
  have hn : n = nodeOf H t := by
    unfold Taproot.deserialize at h1
    rw [hr] at h1
    simp only [tryIntoNodeInfo, List.length_singleton, ne_eq, not_true, if_false] at h1
    injection h1 with h1
    exact h1.symm
  have e : deNodeInfo H F (serNodeInfo F n) = .ok n := by
    rw [serNode_pairs, deNode_pairs H F 64 (fun n h => deU8_wide hF n h) _ fun c hc => by
      have := deserialize_branches H _ n h1 c hc; omega]
    rw [C52_round_trip H _ n h1 (by rw [h3, hh])]
    rfl
  refine ⟨n, by rw [hr, hn], h2, e, ?_⟩
  unfold deTapTree serTapTree
  rw [e]
  simp only [h3, hh, Bool.false_eq_true, if_false]

/-- In a format that answers only what was asked for no tree is read back. -/
theorem C93_tree_refuted (H : Bytes → Hash) (F : Fmt) (hn : ∀ h v, F.other h v = none) (n : NodeInfo) :
    deNodeInfo H F (serNodeInfo F n) = .error .refused ∧ deTapTree H F (serTapTree F n) = .error .refused := by
  have e : deNodeInfo H F (serNodeInfo F n) = .error .refused := by
    unfold deNodeInfo serNodeInfo
    rw [visit_fit rfl]
    simp only [canon]
    cases n.leaves with
    | nil => rfl
    | cons l ls =>
      simp only [List.flatMap_cons, List.cons_append]
      rw [nodeLoop]
      have : deU8 F (.uint 64 l.branch.length) = .error .refused := by
        unfold deU8 deUint
        rw [visit_misfit (by simp [fits]), hn]
      simp only [this]
  refine ⟨e, ?_⟩
  unfold deTapTree serTapTree
  rw [e]

/-- With hidden nodes in it, a `NodeInfo` is written but not read back as itself, whatever the format. -/
theorem C93_hidden (H : Bytes → Hash) (F : Fmt) (hF : NumbersAreNumbers F) (t : Tree) (ht : t.height ≤ 128) (hh : t.hasHidden = true) :
    ∃ n, runCalls H [] (t.dfs 0) = .ok [some n] ∧ ∀ m, deNodeInfo H F (serNodeInfo F n) ≠ .ok m := by
  obtain ⟨n, h1, h2, h3, _⟩ := C50_builder_result H t ht
  have hr := run_tree H t ht
  have hn : n = nodeOf H t := by
    unfold Taproot.deserialize at h1
    rw [hr] at h1
    simp only [tryIntoNodeInfo, List.length_singleton, ne_eq, not_true, if_false] at h1
    injection h1 with h1
    exact h1.symm
  refine ⟨n, by rw [hr, hn], fun m hm => ?_⟩
  rw [serNode_pairs, deNode_pairs H F 64 (fun n h => deU8_wide hF n h) _ fun c hc => by
    have := deserialize_branches H _ n h1 c hc; omega] at hm
  cases hd : Taproot.deserialize H (Taproot.serialize n) with
  | error b => rw [hd] at hm; cases b <;> cases hm
  | ok m' => exact C52_hidden H _ n h1 (by rw [h3, hh]) m' hd

/-! ### Whatever is stored, what is read is a tree -/

theorem deUint_no_panic (w : Nat) (F : Fmt) (v : SVal) : deUint w F v ≠ .error .panic := by
  unfold deUint
  split
  · split <;> simp
  · split <;> simp
  · simp

theorem deU8_no_panic (F : Fmt) (v : SVal) : deU8 F v ≠ .error .panic := by
  unfold deU8
  cases h : deUint 8 F v with
  | ok n => simp
  | error e => intro h'; cases h'; exact deUint_no_panic 8 F v h

theorem deTapLeaf_no_panic (F : Fmt) (v : SVal) : deTapLeaf F v ≠ .error .panic := by
  have h1 : ∀ v, deScriptBuf F v ≠ .error .panic := by
    intro v
    unfold deScriptBuf
    split
    · split
      · rename_i s _; cases unhex s <;> simp [ofOpt]
      · simp
    · split <;> simp
  have h2 : ∀ v, deLeafVersion F v ≠ .error .panic := by
    intro v
    unfold deLeafVersion
    split
    · split
      · rename_i n _ _
        cases Taproot.LeafVersion.fromConsensus (UInt8.ofNat n) <;> simp [ofExcept]
      · simp
    · simp
  have h3 : ∀ v, deHash false 32 F v ≠ .error .panic := by
    intro v
    unfold deHash
    split
    · split
      · rename_i s _; cases hashParse false 32 s <;> simp [ofOpt]
      · rename_i s _; cases hashParse false 32 s <;> simp [ofOpt]
      · simp
    · split
      · split <;> simp
      · simp
  unfold deTapLeaf
  split
  · split
    · split
      · split
        · rename_i he; intro h'; cases h'; exact h1 _ he
        · split
          · rename_i he; intro h'; cases h'; exact h2 _ he
          · simp
      · simp
    · split
      · split
        · split
          · rename_i he; intro h'; cases h'; exact h3 _ he
          · simp
        · simp
      · simp
  · simp

/-- Reading goes through the builder: whatever is stored, there are calls of the builder that explain the result. -/
theorem nodeLoop_calls (H : Bytes → Hash) (F : Fmt) : ∀ (k : Nat) (vs : List SVal) (st : Builder), vs.length ≤ k →
    nodeLoop H F st vs = .error .refused ∨ ∃ calls, nodeLoop H F st vs = ofBuilder (runCalls H st calls)
  | k, [], st, _ => .inr ⟨[], rfl⟩
  | 0, _ :: _, _, hk => by simp at hk
  | k + 1, d :: vs, st, hk => by
    rw [nodeLoop]
    cases hd : deU8 F d with
    | error e =>
      cases e with
      | refused => exact .inl rfl
      | panic => exact absurd hd (deU8_no_panic F d)
    | ok depth =>
      simp only []
      cases vs with
      | nil => exact .inl rfl
      | cons l rest =>
        simp only []
        cases hl : deTapLeaf F l with
        | error e =>
          cases e with
          | refused => exact .inl rfl
          | panic => exact absurd hl (deTapLeaf_no_panic F l)
        | ok leaf =>
          simp only []
          cases ha : addLeaf H st depth.toNat leaf with
          | error b =>
            refine .inr ⟨[(depth.toNat, leaf)], ?_⟩
            rw [runCalls, ha]
            cases b <;> rfl
          | ok st' =>
            simp only [ofBuilder]
            rcases nodeLoop_calls H F k rest st' (by simp at hk; omega) with h | ⟨calls, h⟩
            · exact .inl h
            · refine .inr ⟨(depth.toNat, leaf) :: calls, ?_⟩
              rw [h, runCalls, ha]
              rfl
theorem loopT_head : ∀ (ts : TBuilder) (t : Tree) (d : Nat), (∃ t' r, loopT ts t d = .ok (some t' :: r)) ∨ loopT ts t d = .error .overComplete
  | [], t, d => .inl ⟨_, _, rfl⟩
  | e :: rest, t, d => by
    rw [loopT.eq_def]
    simp only []
    split
    · cases e with
      | none => exact .inl ⟨_, _, rfl⟩
      | some c =>
        simp only []
        split
        · exact .inr rfl
        · exact loopT_head rest _ _
    · exact .inl ⟨_, _, rfl⟩

theorem runT_head : ∀ (cs : List (Nat × TapLeaf)) (ts : TBuilder), (ts = [] ∨ ∃ t r, ts = some t :: r) →
    (∃ ts', runT ts cs = .ok ts' ∧ (ts' = [] ∨ ∃ t r, ts' = some t :: r)) ∨ ∃ e, runT ts cs = .error e ∧ e ≠ .panic
  | [], ts, h => .inl ⟨ts, rfl, h⟩
  | (d, l) :: cs, ts, h => by
    rw [runT]
    unfold insT
    by_cases h1 : d > maxNodes
    · rw [if_pos h1]; exact .inr ⟨_, rfl, by simp⟩
    · rw [if_neg h1]
      by_cases h2 : d + 1 < ts.length
      · rw [if_pos h2]; exact .inr ⟨_, rfl, by simp⟩
      · rw [if_neg h2]
        rcases loopT_head ts (.leaf l) d with ⟨t', r, h3⟩ | h3
        · rw [h3]; exact runT_head cs _ (.inr ⟨_, _, rfl⟩)
        · rw [h3]; exact .inr ⟨_, rfl, by simp⟩

theorem deserialize_no_panic (H : Bytes → Hash) (calls : List (Nat × TapLeaf)) : Taproot.deserialize H calls ≠ .error .panic := by
  unfold Taproot.deserialize
  have h := (run_refine H calls [] trivial).1
  rw [show conc H [] = [] from rfl] at h
  rw [h]
  rcases runT_head calls [] (.inl rfl) with ⟨ts, h1, h2⟩ | ⟨e, h1, h2⟩
  · rw [h1]
    rcases h2 with rfl | ⟨t, r, rfl⟩
    · simp [Except.map, conc, tryIntoNodeInfo]
    · simp only [Except.map, conc, List.map_cons, Option.map_some, tryIntoNodeInfo]
      split <;> simp
  · rw [h1]
    simpa [Except.map] using h2

/-- Whatever is stored, in whatever format: reading never panics, and what is read is a taproot tree, that is, the root and the merkle paths of a
binary tree of height at most 128.  A `TapTree` has no hidden nodes. -/
theorem C93_sound (H : Bytes → Hash) (F : Fmt) (v : SVal) :
    deNodeInfo H F v ≠ .error .panic ∧ deTapTree H F v ≠ .error .panic ∧
    (∀ n, deNodeInfo H F v = .ok n → ∃ t : Tree, t.height ≤ 128 ∧ n.hash = t.root H ∧ n.hasHidden = t.hasHidden ∧
      (n.leaves.map fun l => (l.leaf, l.branch)).Perm (t.paths H)) ∧
    (∀ n, deTapTree H F v = .ok n ↔ deNodeInfo H F v = .ok n ∧ n.hasHidden = false) := by
  have key : deNodeInfo H F v = .error .refused ∨ ∃ calls, deNodeInfo H F v = ofBuilder (Taproot.deserialize H calls) := by
    unfold deNodeInfo
    split
    · rename_i vs _
      rcases nodeLoop_calls H F _ vs [] (Nat.le_refl _) with h | ⟨calls, h⟩
      · rw [h]; exact .inl rfl
      · refine .inr ⟨calls, ?_⟩
        rw [h]
        unfold Taproot.deserialize
        cases runCalls H [] calls with
        | error b => cases b <;> rfl
        | ok st => rfl
    · exact .inl rfl
  have np : deNodeInfo H F v ≠ .error .panic := by
    rcases key with h | ⟨calls, h⟩
    · rw [h]; simp
    · rw [h]
      have := deserialize_no_panic H calls
      cases hd : Taproot.deserialize H calls with
      | ok n => simp [ofBuilder]
      | error b =>
        rw [hd] at this
        cases b <;> simp [ofBuilder] at this ⊢
  refine ⟨np, ?_, fun n hn => ?_, fun n => ?_⟩
  · unfold deTapTree
    cases hd : deNodeInfo H F v with
    | error e => rw [hd] at np; exact np
    | ok n => simp only []; split <;> simp
  · rcases key with h | ⟨calls, h⟩
    · rw [h] at hn; cases hn
    · rw [h] at hn
      have hd : Taproot.deserialize H calls = .ok n := by
        cases hd : Taproot.deserialize H calls with
        | error b => rw [hd] at hn; cases b <;> cases hn
        | ok m => rw [hd] at hn; cases hn; rfl
      obtain ⟨t, h1, _, h3⟩ := (deserialize_iff H calls n).1 hd
      obtain ⟨m, e1, e2, e3, e4, _, _⟩ := C50_builder_result H t h1
      rw [h3] at e1
      cases e1
      exact ⟨t, h1, e2, e3, e4⟩
  · unfold deTapTree
    cases hd : deNodeInfo H F v with
    | error e => simp
    | ok m =>
      simp only [Except.ok.injEq]
      cases hm : m.hasHidden with
      | true =>
        simp only [if_true, reduceCtorEq, false_iff, not_and]
        rintro rfl
        simp [hm]
      | false =>
        simp only [Bool.false_eq_true, if_false, Except.ok.injEq]
        constructor
        · rintro rfl; exact ⟨rfl, hm⟩
        · exact fun h => h.1

/-- A tree whose depths are written as `u8` would be read back, in every format, hidden nodes included. -/
theorem C93_narrow (H : Bytes → Hash) (F : Fmt) (t : Tree) (ht : t.height ≤ 128) :
    ∃ n, runCalls H [] (t.dfs 0) = .ok [some n] ∧ deNodeInfo H F (.seq (pairs 8 F (t.dfs 0))) = .ok n := by
  refine ⟨nodeOf H t, run_tree H t ht, ?_⟩
  rw [deNode_pairs H F 8 (fun n h => by unfold deU8; rw [deUint_ser F 8 n h]) _ ?_]
  · unfold Taproot.deserialize
    rw [run_tree H t ht]
    rfl
  · have key : ∀ (t : Tree) (d : Nat), ∀ c ∈ t.dfs d, c.1 ≤ t.height + d := by
      intro t
      induction t with
      | leaf l => intro d c hc; simp only [Tree.dfs, List.mem_singleton] at hc; subst hc; simp
      | node l r ihl ihr =>
        intro d c hc
        simp only [Tree.dfs, List.mem_append] at hc
        simp only [Tree.height]
        rcases hc with hc | hc
        · have := ihl _ _ hc; omega
        · have := ihr _ _ hc; omega
    intro c hc
    have := key t 0 c hc
    omega

/-! ### Keys and control blocks -/

/-! Full statement: an x-only key, and a control block, is read back as itself.  Proved up to the parity of the key, which `Eq` compares and
which is not written; false for keys with odd parity (`C93_xonly_refuted`, `C93_control_refuted`). -/

theorem C93_xonly_partial {S : Secp} (K : Codec S.Key) (F : Fmt) (k : XOnly S) (h : k.parity = false) : deXOnly K F (serXOnly K F k) = .ok k := by
  obtain ⟨x, p⟩ := k
  simp only at h
  subst h
  unfold deXOnly serXOnly
  rw [K.law]

theorem C93_xonly_refuted {S : Secp} (K : Codec S.Key) (F : Fmt) (k : XOnly S) (h : k.parity = true) :
    deXOnly K F (serXOnly K F k) = .ok ⟨k.inner, false⟩ ∧ deXOnly K F (serXOnly K F k) ≠ .ok k := by
  have e : deXOnly K F (serXOnly K F k) = .ok ⟨k.inner, false⟩ := by
    unfold deXOnly serXOnly
    rw [K.law]
  refine ⟨e, ?_⟩
  rw [e]
  intro h'
  injection h' with h'
  rw [← h'] at h
  cases h

theorem filter_name (p : Bytes × SVal) : ∀ fs : List (Bytes × SVal), (fs.map (·.1)).Nodup → p ∈ fs → fs.filter (·.1 == p.1) = [p]
  | [], _, hp => by cases hp
  | q :: fs, hd, hp => by
    simp only [List.map_cons, List.nodup_cons] at hd
    rw [List.filter_cons]
    rcases List.mem_cons.1 hp with rfl | hp
    · rw [if_pos (by simp)]
      rw [List.filter_eq_nil_iff.2]
      intro a ha hq
      apply hd.1
      have := eq_of_beq hq
      rw [← this]
      exact List.mem_map_of_mem ha
    · rw [if_neg, filter_name p fs hd.2 hp]
      intro hq
      apply hd.1
      have := eq_of_beq hq
      rw [this]
      exact List.mem_map_of_mem hp

/-- A struct is read back field by field. -/
theorem deStruct_ser (F : Fmt) (fs : List (Bytes × SVal)) (hd : (fs.map (·.1)).Nodup) :
    deStruct (fs.map (·.1)) F (.struct fs) = .ok (fs.map (·.2)) := by
  unfold deStruct
  rw [visit_fit (by simp [fits])]
  simp only [canon]
  cases F.structAsMap with
  | false =>
    simp only [Bool.false_eq_true, if_false, List.length_map, Nat.lt_irrefl]
    rw [List.take_of_length_le (by simp)]
  | true =>
    simp only [if_true]
    have hf : ∀ p ∈ fs, field fs p.1 = .ok p.2 := by
      intro p hp
      have := filter_name p fs hd hp
      unfold field
      rw [this]
    have : ∀ gs : List (Bytes × SVal), (∀ p ∈ gs, p ∈ fs) → deStruct.readNames fs (gs.map (·.1)) = .ok (gs.map (·.2)) := by
      intro gs
      induction gs with
      | nil => intro _; rfl
      | cons g gs ih =>
        intro hg
        rw [List.map_cons, deStruct.readNames, hf g (hg g (by simp)), ih fun p hp => hg p (by simp [hp])]
        rfl
    exact this fs fun p hp => hp

/-- What is read is the control block with the parity of the internal key made even, which validates the same scripts and has the same
encoding. -/
theorem C93_control {S : Secp} (P : Codec Bool) (K : Codec S.Key) (F : Fmt) (cb : ControlBlock S) (h : cb.branch.length ≤ 128) :
    ∃ cb', deControl P K F (serControl P K F cb) = .ok cb' ∧
      cb' = { cb with internalKey := { cb.internalKey with parity := false } } ∧
      cb'.serialize = cb.serialize ∧ ∀ H q s, cb'.verify H q s = cb.verify H q s := by
  refine ⟨_, ?_, rfl, rfl, fun _ _ _ => rfl⟩
  unfold deControl serControl
  rw [show [leafVersionField, parityField, internalKeyField, branchField] =
    ([(leafVersionField, serLeafVersion cb.leafVersion), (parityField, P.ser F cb.parity),
      (internalKeyField, serXOnly K F cb.internalKey), (branchField, serBranch F cb.branch)] : List (Bytes × SVal)).map (·.1) from rfl]
  rw [deStruct_ser F _ (by show [leafVersionField, parityField, internalKeyField, branchField].Nodup; decide)]
  simp only [List.map_cons, List.map_nil, (C91_checked F).2.2.2.2.2, P.law, deXOnly, serXOnly, K.law, (C93_branch F).1 cb.branch h]

theorem C93_control_refuted {S : Secp} (P : Codec Bool) (K : Codec S.Key) (F : Fmt) (cb : ControlBlock S) (h : cb.branch.length ≤ 128)
    (hp : cb.internalKey.parity = true) : deControl P K F (serControl P K F cb) ≠ .ok cb := by
  obtain ⟨cb', h1, h2, _⟩ := C93_control P K F cb h
  rw [h1, h2]
  intro he
  injection he with he
  rw [← he] at hp
  cases hp

/-- Whatever is stored, the branch of a control block that is read has at most 128 hashes. -/
theorem C93_control_sound {S : Secp} (P : Codec Bool) (K : Codec S.Key) (F : Fmt) (v : SVal) (cb : ControlBlock S)
    (h : deControl P K F v = .ok cb) : cb.branch.length ≤ 128 ∧ ControlBlock.decode cb.serialize = .ok cb := by
  have hb : cb.branch.length ≤ 128 ∧ cb.internalKey.parity = false := by
    unfold deControl at h
    split at h
    · split at h
      · cases h
      · split at h
        · cases h
        · split at h
          · cases h
          · rename_i hk
            split at h
            · cases h
            · rename_i hb
              cases h
              refine ⟨(C93_branch F).2.2 _ _ hb, ?_⟩
              unfold deXOnly at hk
              split at hk
              · cases hk
              · cases hk; rfl
    · cases h
    · cases h
  exact ⟨hb.1, C51_decode_serialize_partial cb hb.1 hb.2⟩

/-! ### Examples -/

/-- A text format that keeps no widths, like JSON. -/
def jsonLike : Fmt where
  human := true
  structAsMap := true
  posAsUint := true
  sized := false
  lends := false
  other h v :=
    match h, v with
    | .uint _, .uint _ n => some (.uint n)
    | _, _ => none
example : NumbersAreNumbers jsonLike := fun _ => rfl
example : ∃ t : Tree, t.height = 2 ∧ t.hasHidden = false ∧ (t.dfs 0).length = 3 :=
  ⟨.node (.leaf (.script [0x51] .tapScript)) (.node (.leaf (.script [0x52] .tapScript)) (.leaf (.script [0x53] .tapScript))), rfl, rfl, rfl⟩
example : ∃ t : Tree, t.height = 1 ∧ t.hasHidden = true :=
  ⟨.node (.leaf (.script [0x51] .tapScript)) (.leaf (.hidden ⟨List.replicate 32 7, by simp⟩)), rfl, rfl⟩
def toyHash (b : Bytes) : Hash := ⟨List.replicate 32 (UInt8.ofNat b.length), by simp⟩
/-- Two leaves at depth one, read from a text format; the same with one of them at depth two is refused. -/
example : (∃ n, deNodeInfo toyHash jsonLike (.seq [.uint 64 1, .tupleVariant 0 scriptName [.str [53, 49], .uint 8 0xc0],
      .uint 64 1, .tupleVariant 0 scriptName [.str [53, 50], .uint 8 0xc0]]) = .ok n ∧ n.leaves.length = 2) ∧
    deNodeInfo toyHash jsonLike (.seq [.uint 64 1, .tupleVariant 0 scriptName [.str [53, 49], .uint 8 0xc0],
      .uint 64 2, .tupleVariant 0 scriptName [.str [53, 50], .uint 8 0xc0]]) = .error .refused ∧
    deNodeInfo toyHash (strict true true) (.seq [.uint 64 0, .tupleVariant 0 scriptName [.str [53, 49], .uint 8 0xc0]]) = .error .refused ∧
    deNodeInfo toyHash jsonLike (.seq [.uint 64 0]) = .error .refused := ⟨⟨_, rfl, rfl⟩, rfl, rfl, rfl⟩
/-- Stand-ins for the implementations of the crate `secp256k1`. -/
def toyParity : Codec Bool where
  ser _ b := .uint 8 (if b then 1 else 0)
  de F v :=
    match deUint 8 F v with
    | .ok 0 => .ok false
    | .ok 1 => .ok true
    | .ok _ => .error .refused
    | .error e => .error e
  law F b := by cases b <;> simp [deUint_ser]
def toyKey : Codec toySecp.Key where
  ser F k := serHash false F (show Hash from k)
  de F v := (deHash false 32 F v : R Hash)
  law F k := C91_hash false F (show Hash from k)
def exControl : ControlBlock toySecp := ⟨.tapScript, true, ⟨⟨List.replicate 32 7, by simp⟩, true⟩, [⟨List.replicate 32 1, by simp⟩]⟩
example : exControl.internalKey.parity = true ∧ exControl.branch.length = 1 := ⟨rfl, rfl⟩
example : deControl toyParity toyKey jsonLike (serControl toyParity toyKey jsonLike exControl) =
    .ok ⟨.tapScript, true, ⟨⟨List.replicate 32 7, by simp⟩, false⟩, [⟨List.replicate 32 1, by simp⟩]⟩ := by
  obtain ⟨_, h1, h2, _⟩ := C93_control toyParity toyKey jsonLike exControl (show 1 ≤ 128 by decide)
  rw [h1, h2]
  rfl

end Btc.Serde
