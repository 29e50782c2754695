import Verif.Bitcoin.TaprootErrors
import Verif.Props.C51
import Verif.Props.C56
import Verif.Props.C60
import Verif.Props.C66
import Verif.Props.C76
import Verif.Props.C120
/-!
# C121: the errors of script trees, control blocks, signatures and signature hashes
-/
namespace Btc
namespace SigErr
open Taproot
open KeyErr (exact_of)

/-! ## Script trees -/

/-- Listings are prefix-free. -/
theorem dfs_prefix_free : ∀ (t u : Tree) (d : Nat) (a b : List (Nat × TapLeaf)), t.dfs d ++ a = u.dfs d ++ b → t = u ∧ a = b := by
  have hfirst : ∀ (t : Tree) (d : Nat), ∃ x r, t.dfs d = x :: r ∧ d ≤ x.1 := by
    intro t
    induction t with
    | leaf l => intro d; exact ⟨(d, l), [], rfl, Nat.le_refl _⟩
    | node l r ihl _ =>
      intro d
      obtain ⟨x, s, h1, h2⟩ := ihl (d + 1)
      exact ⟨x, s ++ r.dfs (d + 1), by simp [Tree.dfs, h1], by omega⟩
  intro t
  induction t with
  | leaf l =>
    intro u d a b h
    cases u with
    | leaf m => simp only [Tree.dfs, List.cons_append, List.nil_append, List.cons.injEq, Prod.mk.injEq, true_and] at h; exact ⟨by rw [h.1], h.2⟩
    | node p q =>
      obtain ⟨x, s, h1, h2⟩ := hfirst p (d + 1)
      simp only [Tree.dfs, h1, List.cons_append, List.nil_append, List.cons.injEq] at h
      rw [← h.1] at h2
      simp only [] at h2
      omega
  | node p q ihp ihq =>
    intro u d a b h
    cases u with
    | leaf m =>
      obtain ⟨x, s, h1, h2⟩ := hfirst p (d + 1)
      simp only [Tree.dfs, h1, List.cons_append, List.nil_append, List.cons.injEq] at h
      rw [h.1] at h2
      simp only [] at h2
      omega
    | node p' q' =>
      simp only [Tree.dfs, List.append_assoc] at h
      obtain ⟨rfl, h'⟩ := ihp p' (d + 1) _ _ h
      obtain ⟨rfl, h''⟩ := ihq q' (d + 1) _ _ h'
      exact ⟨rfl, h''⟩

/-- The listings of two trees, one after the other. -/
def Twice (x : List (Nat × TapLeaf)) : Prop := ∃ t u : Tree, t.height ≤ 128 ∧ u.height ≤ 128 ∧ x = t.dfs 0 ++ u.dfs 0

/-- What can be wrong with adding a leaf at depth `d` after the calls `cs`: the depth; the tree was complete and becomes complete a
second time; or the leaf cannot belong to a walk through one tree, nor to one through a second tree after a complete first one. -/
inductive BuildBad (cs : List (Nat × TapLeaf)) (d : Nat) (l : TapLeaf) : BErr → Prop
  | depth : d > 128 → BuildBad cs d l (.depth d)
  | twice : Twice (cs ++ [(d, l)]) → BuildBad cs d l .overComplete
  | order : d ≤ 128 → (∀ more, ¬ Twice (cs ++ [(d, l)] ++ more)) → BuildBad cs d l .notDfs

theorem loopT_error : ∀ (ts : TBuilder) (t : Tree) (d : Nat) (e : BErr), Fits ts → t.height + d ≤ 128 → ts.length ≤ d + 1 → loopT ts t d = .error e →
    e = .overComplete ∧ Twice (items ts ++ t.dfs d)
  | [], t, d, e, _, _, _, h => by cases h
  | x :: rest, t, d, e, hf, ht, hl, h => by
    unfold loopT at h
    by_cases hr : rest.length = d
    · rw [if_pos hr] at h
      cases x with
      | none => cases h
      | some c =>
        have hc := hf.1 c rfl
        simp only [] at h
        by_cases hd : d = 0
        · rw [if_pos hd] at h
          cases h
          subst hd
          have : rest = [] := List.length_eq_zero_iff.mp hr
          subst this
          refine ⟨rfl, c, t, by simpa using hc, by omega, ?_⟩
          show ([] ++ c.dfs 0) ++ t.dfs 0 = _
          rfl
        · rw [if_neg hd] at h
          obtain ⟨h1, h2⟩ := loopT_error rest (.node c t) (d - 1) e hf.2 (by simp only [Tree.height]; omega) (by omega) h
          refine ⟨h1, ?_⟩
          have : items (some c :: rest) ++ t.dfs d = items rest ++ (Tree.node c t).dfs (d - 1) := by
            show (items rest ++ c.dfs rest.length) ++ t.dfs d = items rest ++ (c.dfs (d - 1 + 1) ++ t.dfs (d - 1 + 1))
            rw [hr, Nat.sub_add_cancel (by omega), List.append_assoc]
          rw [this]; exact h2
    · rw [if_neg hr] at h; cases h

theorem loopT_length : ∀ (ts : TBuilder) (t : Tree) (d : Nat) (ts' : TBuilder), ts.length ≤ d + 1 → loopT ts t d = .ok ts' →
    ∃ u r, ts' = some u :: r ∧ r.length ≤ d
  | [], t, d, ts', _, h => by cases h; exact ⟨t, _, rfl, by simp⟩
  | x :: rest, t, d, ts', hl, h => by
    unfold loopT at h
    by_cases hr : rest.length = d
    · rw [if_pos hr] at h
      cases x with
      | none => cases h; exact ⟨t, rest, rfl, by omega⟩
      | some c =>
        simp only [] at h
        by_cases hd : d = 0
        · rw [if_pos hd] at h; cases h
        · rw [if_neg hd] at h
          obtain ⟨u, r, h1, h2⟩ := loopT_length rest (.node c t) (d - 1) ts' (by omega) h
          exact ⟨u, r, h1, by omega⟩
    · rw [if_neg hr] at h
      cases h
      simp only [List.length_cons] at hl
      exact ⟨t, _, rfl, by simp; omega⟩

/-- Reached states. -/
def Reach (ts : TBuilder) : Prop := ts = [] ∨ ∃ t r, ts = some t :: r ∧ r.length ≤ 128

theorem insT_reach {ts ts' : TBuilder} {t : Tree} {d : Nat} (h : insT ts t d = .ok ts') : ∃ u r, ts' = some u :: r ∧ r.length ≤ 128 := by
  unfold insT maxNodes at h
  split at h
  · cases h
  · split at h
    · cases h
    · obtain ⟨u, r, h1, h2⟩ := loopT_length ts t d ts' (by omega) h
      exact ⟨u, r, h1, by omega⟩

theorem runT_reach : ∀ (cs : List (Nat × TapLeaf)) (ts ts' : TBuilder), Reach ts → runT ts cs = .ok ts' → Reach ts'
  | [], ts, ts', hr, h => by cases h; exact hr
  | (d, l) :: cs, ts, ts', hr, h => by
    unfold runT at h
    cases h1 : insT ts (.leaf l) d with
    | error e => rw [h1] at h; cases h
    | ok t1 => rw [h1] at h; exact runT_reach cs t1 ts' (.inr (insT_reach h1)) h

/-- Every reached state can be completed to a second tree. -/
theorem complete_twice : ∀ (n : Nat) (r : TBuilder) (t : Tree), r.length ≤ n → r.length ≤ 128 → Fits (some t :: r) →
    ∃ more, more ≠ [] ∧ Twice (items (some t :: r) ++ more) := by
  let hid : TapLeaf := .hidden ⟨List.replicate 32 0, by simp⟩
  have base : ∀ t : Tree, Fits [some t] → ∃ more, more ≠ [] ∧ Twice (items [some t] ++ more) := by
    intro t hf
    refine ⟨[(0, hid)], by simp, t, .leaf hid, ?_, by simp [Tree.height], rfl⟩
    have := hf.1 t rfl
    simpa using this
  intro n
  induction n with
  | zero =>
    intro r t hn _ hf
    have := List.length_eq_zero_iff.mp (by omega : r.length = 0)
    subst this
    exact base t hf
  | succ n ih =>
    intro r t hn hl hf
    cases r with
    | nil => exact base t hf
    | cons x r =>
      simp only [List.length_cons] at hn hl
      have ht := hf.1 t rfl
      simp only [List.length_cons] at ht
      have hfr : Fits (x :: r) := hf.2
      have hitems : items (some t :: x :: r) ++ [(r.length + 1, hid)] = items (x :: r) ++ (Tree.node t (.leaf hid)).dfs r.length := by
        show (items (x :: r) ++ t.dfs (r.length + 1)) ++ [(r.length + 1, hid)] = items (x :: r) ++ (t.dfs (r.length + 1) ++ [(r.length + 1, hid)])
        rw [List.append_assoc]
      have hh : (Tree.node t (.leaf hid)).height + r.length ≤ 128 := by simp only [Tree.height]; omega
      cases hlp : loopT (x :: r) (.node t (.leaf hid)) r.length with
      | error e =>
        obtain ⟨_, h2⟩ := loopT_error _ _ _ _ hfr hh (by simp) hlp
        refine ⟨[(r.length + 1, hid)], by simp, ?_⟩
        rw [hitems]; exact h2
      | ok ts' =>
        obtain ⟨u, r', rfl, h3⟩ := loopT_length _ _ _ _ (by simp) hlp
        have hit := loopT_items _ _ _ _ (by simp) hlp
        have hf' : Fits (some u :: r') :=
          (loop_refine (fun _ => ⟨List.replicate 32 0, by simp⟩) (x :: r) _ _ hfr hh (by simp)).2 _ hlp
        obtain ⟨more, _, h4⟩ := ih r' u (by omega) (by omega) hf'
        refine ⟨(r.length + 1, hid) :: more, by simp, ?_⟩
        rw [hit, ← hitems, List.append_assoc] at h4
        exact h4

theorem runT_twice {x : List (Nat × TapLeaf)} (h : Twice x) : runT [] x = .error .overComplete := by
  obtain ⟨t, u, ht, hu, rfl⟩ := h
  rw [runT_append, runT_dfs t 0 [] (by omega) (by simp)]
  have h1 : insT [] t 0 = .ok [some t] := by simp [insT, loopT, maxNodes]
  rw [h1]
  simp only []
  rw [runT_dfs u 0 [some t] (by omega) (by simp)]
  simp [insT, loopT, maxNodes]

theorem insT_error {ts : TBuilder} {l : TapLeaf} {d : Nat} {e : BErr} (hf : Fits ts) (h : insT ts (.leaf l) d = .error e) :
    (e = .depth d ∧ d > 128) ∨ (e = .notDfs ∧ d ≤ 128) ∨ (e = .overComplete ∧ Twice (items ts ++ [(d, l)])) := by
  unfold insT maxNodes at h
  by_cases h1 : d > 128
  · rw [if_pos h1] at h; cases h; exact .inl ⟨rfl, h1⟩
  · rw [if_neg h1] at h
    by_cases h2 : d + 1 < ts.length
    · rw [if_pos h2] at h; cases h; exact .inr (.inl ⟨rfl, by omega⟩)
    · rw [if_neg h2] at h
      exact .inr (.inr (loopT_error ts (.leaf l) d e hf (by simp only [Tree.height]; omega) (by omega) h))

/-- A run that fails, fails at one call. -/
theorem runT_fails : ∀ (cs : List (Nat × TapLeaf)) (ts : TBuilder) (e : BErr), runT ts cs = .error e →
    ∃ a d l b ts', cs = a ++ (d, l) :: b ∧ runT ts a = .ok ts' ∧ insT ts' (.leaf l) d = .error e
  | [], ts, e, h => by cases h
  | (d, l) :: cs, ts, e, h => by
    unfold runT at h
    cases h1 : insT ts (.leaf l) d with
    | error e' => rw [h1] at h; cases h; exact ⟨[], d, l, cs, ts, rfl, rfl, h1⟩
    | ok t1 =>
      rw [h1] at h
      obtain ⟨a, d', l', b, ts', h2, h3, h4⟩ := runT_fails cs t1 e h
      refine ⟨(d, l) :: a, d', l', b, ts', by rw [h2]; rfl, ?_, h4⟩
      unfold runT
      rw [h1]; exact h3

theorem runT_fits {cs : List (Nat × TapLeaf)} {ts : TBuilder} (h : runT [] cs = .ok ts) : Fits ts :=
  (run_refine (fun _ => ⟨List.replicate 32 0, by simp⟩) cs [] trivial).2 ts h

theorem runT_items' {cs : List (Nat × TapLeaf)} {ts : TBuilder} (h : runT [] cs = .ok ts) : items ts = cs := by
  rw [runT_items cs [] ts h]; rfl

/-- Accepted sequences are those that something can follow so that a second tree becomes complete. -/
theorem runT_ok_iff (x : List (Nat × TapLeaf)) : (∃ ts, runT [] x = .ok ts) ↔ ∃ more, more ≠ [] ∧ Twice (x ++ more) := by
  constructor
  · rintro ⟨ts, h⟩
    have hf := runT_fits h
    have hi := runT_items' h
    rcases runT_reach x [] ts (.inl rfl) h with rfl | ⟨t, r, rfl, hr⟩
    · have hx : x = [] := hi.symm
      subst hx
      let hid : TapLeaf := .hidden ⟨List.replicate 32 0, by simp⟩
      exact ⟨[(0, hid), (0, hid)], by simp, .leaf hid, .leaf hid, by simp [Tree.height], by simp [Tree.height], rfl⟩
    · rw [← hi]
      exact complete_twice r.length r t (Nat.le_refl _) hr hf
  · rintro ⟨more, hm, hx⟩
    cases h : runT [] x with
    | ok ts => exact ⟨ts, rfl⟩
    | error e =>
      exfalso
      have hfull := runT_twice hx
      rw [runT_append, h] at hfull
      cases hfull
      obtain ⟨a, d, l, b, ts', rfl, h2, h3⟩ := runT_fails x [] _ h
      rcases insT_error (runT_fits h2) h3 with ⟨h4, _⟩ | ⟨h4, _⟩ | ⟨_, h4⟩
      · cases h4
      · cases h4
      · rw [runT_items' h2] at h4
        obtain ⟨t, u, _, _, h5⟩ := h4
        obtain ⟨t', u', _, _, h6⟩ := hx
        have h7 : t.dfs 0 ++ (u.dfs 0 ++ (b ++ more)) = t'.dfs 0 ++ u'.dfs 0 := by
          rw [← h6, ← List.append_assoc, ← h5]; simp
        obtain ⟨rfl, h8⟩ := dfs_prefix_free _ _ _ _ _ h7
        have h9 := (dfs_prefix_free u u' 0 (b ++ more) [] (by rw [h8, List.append_nil])).2
        simp only [List.append_eq_nil_iff] at h9
        exact hm h9.2

/-- The errors of adding a leaf or a hidden node say exactly what is wrong with the sequence of calls. -/
theorem C121_builder (H : Bytes → Hash) (cs : List (Nat × TapLeaf)) (st : Builder) (h : runCalls H [] cs = .ok st) (d : Nat) (l : TapLeaf) (e : BErr) :
    addLeaf H st d l = .error e ↔ BuildBad cs d l e := by
  have hr := (run_refine H cs [] trivial).1
  rw [show conc H [] = [] from rfl, h] at hr
  cases hT : runT [] cs with
  | error e' => rw [hT] at hr; cases hr
  | ok ts =>
    rw [hT] at hr
    have hst : st = conc H ts := by injection hr
    subst hst
    have hf := runT_fits hT
    have hi := runT_items' hT
    have hadd : addLeaf H (conc H ts) d l = (insT ts (.leaf l) d).map (conc H) := by
      rw [← (ins_refine H ts (.leaf l) d hf (by simp [Tree.height])).1]
      cases l <;> rfl
    have hrun : runT [] (cs ++ [(d, l)]) = insT ts (.leaf l) d := by
      rw [runT_append, hT]
      show (match insT ts (.leaf l) d with | .error e => Except.error e | .ok ts => runT ts []) = _
      cases insT ts (.leaf l) d <;> rfl
    have hmap : addLeaf H (conc H ts) d l = .error e ↔ insT ts (.leaf l) d = .error e := by
      rw [hadd]; cases insT ts (.leaf l) d with
      | error x => simp [Except.map]
      | ok x => simp [Except.map]
    rw [hmap]
    have hdepth : ∀ more, Twice (cs ++ [(d, l)] ++ more) → d ≤ 128 := by
      rintro more ⟨t, u, ht, hu, hx⟩
      have hmem : (d, l) ∈ t.dfs 0 ++ u.dfs 0 := by rw [← hx]; simp
      have hle : ∀ (t : Tree) (k : Nat), ∀ x ∈ t.dfs k, x.1 ≤ k + t.height := by
        intro t
        induction t with
        | leaf l => intro k x hx; simp only [Tree.dfs, List.mem_singleton] at hx; subst hx; simp
        | node a b iha ihb =>
          intro k x hx
          simp only [Tree.dfs, List.mem_append] at hx
          simp only [Tree.height]
          rcases hx with hx | hx
          · have := iha _ _ hx; omega
          · have := ihb _ _ hx; omega
      rcases List.mem_append.mp hmem with hm | hm
      · have := hle _ _ _ hm; simp only [] at this; omega
      · have := hle _ _ _ hm; simp only [] at this; omega
    refine exact_of ?_ ?_ ?_ e
    · intro e h
      rcases insT_error hf h with ⟨rfl, h1⟩ | ⟨rfl, h1⟩ | ⟨rfl, h1⟩
      · exact .depth h1
      · refine .order h1 fun more hm => ?_
        by_cases hmore : more = []
        · subst hmore
          rw [List.append_nil] at hm
          have := runT_twice hm
          rw [hrun, h] at this
          cases this
        · obtain ⟨ts', h2⟩ := (runT_ok_iff _).mpr ⟨more, hmore, hm⟩
          rw [hrun, h] at h2
          cases h2
      · rw [hi] at h1; exact .twice h1
    · intro e e' h h'
      cases h with
      | depth h1 =>
        cases h' with
        | depth => rfl
        | twice h2 => have := hdepth [] (by rwa [List.append_nil]); omega
        | order h2 _ => omega
      | twice h1 =>
        cases h' with
        | depth h2 => have := hdepth [] (by rwa [List.append_nil]); omega
        | twice => rfl
        | order _ h2 => exact absurd (by rwa [List.append_nil]) (h2 [])
      | order h1 h2 =>
        cases h' with
        | depth h3 => omega
        | twice h3 => exact absurd (by rwa [List.append_nil]) (h2 [])
        | order => rfl
    · intro ts' e hok he
      obtain ⟨more, hm, htw⟩ := (runT_ok_iff _).mp ⟨ts', by rw [hrun, hok]⟩
      cases he with
      | depth h1 => have := hdepth more htw; omega
      | twice h1 => have := runT_twice h1; rw [hrun, hok] at this; cases this
      | order _ h1 => exact h1 more htw

/-- What the messages about a call say, when they are true. -/
inductive BuildSays (cs : List (Nat × TapLeaf)) (d : Nat) (l : TapLeaf) : String → Prop
  | order : (∀ t : Tree, t.height ≤ 128 → ∀ more, cs ++ [(d, l)] ++ more ≠ t.dfs 0) →
      BuildSays cs d l "add_leaf/add_hidden must be called in DFS walk order"
  | twice (t u : Tree) : cs ++ [(d, l)] = t.dfs 0 ++ u.dfs 0 →
      BuildSays cs d l "attempted to create a tree with two nodes at depth 0. There mustonly be exactly one node at depth 0"
  | depth : (∀ (H : Bytes → Hash) (st : Builder), addLeaf H [] 128 l ≠ .ok st) → 128 ≤ d →
      BuildSays cs d l ("Merkle tree depth(" ++ toString d ++ ") must be less than " ++ toString 128)

/-- Full claim: the messages of the builder are true.  Proved: but for the one about the depth.  Missing: that one names 128 as forbidden,
which is allowed (`C121_depth_fails`). -/
theorem C121_builder_messages_partial (H : Bytes → Hash) (cs : List (Nat × TapLeaf)) (st : Builder) (h : runCalls H [] cs = .ok st) (d : Nat) (l : TapLeaf)
    (e : BErr) (he : addLeaf H st d l = .error e) (hd : d ≤ 128) : ∃ m, Taproot.Msg.builder e = some m ∧ BuildSays cs d l m := by
  cases (C121_builder H cs st h d l e).mp he with
  | depth h1 => omega
  | twice h1 => obtain ⟨t, u, _, _, h2⟩ := h1; exact ⟨_, rfl, .twice t u h2⟩
  | order _ h1 =>
    refine ⟨_, rfl, .order fun t ht more hx => ?_⟩
    let hid : TapLeaf := .hidden ⟨List.replicate 32 0, by simp⟩
    refine h1 (more ++ [(0, hid)]) ⟨t, .leaf hid, ht, by simp [Tree.height], ?_⟩
    rw [← List.append_assoc, hx]; rfl

/-- After leaves at depths 1, 2 a leaf at depth 1 is out of order; after leaves at depths 1, 1 one at depth 0 is a second root. -/
example (a : TapLeaf) : (∃ st, runCalls sha [] [(1, a), (2, a)] = .ok st ∧ addLeaf sha st 1 a = .error .notDfs) ∧
    (∃ st, runCalls sha [] [(0, a)] = .ok st ∧ addLeaf sha st 0 a = .error .overComplete) := by
  constructor
  · cases a <;> exact ⟨_, rfl, rfl⟩
  · cases a <;> exact ⟨_, rfl, rfl⟩

/-- "must be less than 128" is not the rule: a leaf at depth 128 is accepted, and with 128 siblings on its way gives a tree. -/
theorem C121_depth_fails (H : Bytes → Hash) (l : TapLeaf) : addLeaf H [] 129 l = .error (.depth 129) ∧
    Taproot.Msg.builder (.depth 129) = some "Merkle tree depth(129) must be less than 128" ∧
    (∃ st, addLeaf H [] 128 l = .ok st) ∧
    ∃ (t : Tree) (st : Builder), (128, l) ∈ t.dfs 0 ∧ runCalls H [] (t.dfs 0) = .ok st ∧ isFinalizable st = true := by
  refine ⟨by cases l <;> rfl, by decide +kernel, by cases l <;> exact ⟨_, rfl⟩, ?_⟩
  have : ∀ n, ∃ t : Tree, t.height = n ∧ ∀ d, (d + n, l) ∈ t.dfs d := by
    intro n
    induction n with
    | zero => exact ⟨.leaf l, rfl, fun d => by simp [Tree.dfs]⟩
    | succ n ih =>
      obtain ⟨t, h1, h2⟩ := ih
      refine ⟨.node t (.leaf l), by simp [Tree.height, h1], fun d => ?_⟩
      have := h2 (d + 1)
      simp only [Tree.dfs, List.mem_append]
      left
      rwa [Nat.add_right_comm] at this
  obtain ⟨t, h1, h2⟩ := this 128
  exact ⟨t, _, by simpa using h2 0, run_tree H t (by omega), rfl⟩

/-- A finished builder is demanded exactly when the calls are not the listing of a tree. -/
theorem C121_unfinished (H : Bytes → Hash) (cs : List (Nat × TapLeaf)) (st : Builder) (h : runCalls H [] cs = .ok st) (e : BErr) :
    tryIntoNodeInfo st = .error e ↔ e = .notFinalized ∧ ∀ t : Tree, t.height ≤ 128 → t.dfs 0 ≠ cs := by
  have hfin : isFinalizable st = true ↔ ∃ t : Tree, t.height ≤ 128 ∧ t.dfs 0 = cs := by
    rw [← C50_builder H cs]
    exact ⟨fun h1 => ⟨st, h, h1⟩, fun ⟨st', h1, h2⟩ => by rw [h] at h1; cases h1; exact h2⟩
  have hreach : st = [] ∨ ∃ n r, st = some n :: r := by
    have hr := (run_refine H cs [] trivial).1
    rw [show conc H [] = [] from rfl, h] at hr
    cases hT : runT [] cs with
    | error e' => rw [hT] at hr; cases hr
    | ok ts =>
      rw [hT] at hr
      have hst : st = conc H ts := by injection hr
      rcases runT_reach cs [] ts (.inl rfl) hT with rfl | ⟨t, r, rfl, _⟩
      · exact .inl hst
      · exact .inr ⟨_, _, hst⟩
  have hneg : (∀ t : Tree, t.height ≤ 128 → t.dfs 0 ≠ cs) ↔ ¬ isFinalizable st = true := by
    rw [hfin]
    exact ⟨fun h1 ⟨t, h2, h3⟩ => h1 t h2 h3, fun h1 t h2 h3 => h1 ⟨t, h2, h3⟩⟩
  rw [hneg]
  unfold tryIntoNodeInfo
  rcases hreach with rfl | ⟨n, r, rfl⟩
  · simp [isFinalizable]; exact eq_comm
  · cases r with
    | nil => simp [isFinalizable]
    | cons x r => simp [isFinalizable]; exact eq_comm

theorem hasHidden_iff : ∀ (t : Tree) (d : Nat), t.hasHidden = true ↔ ∃ k h, (k, TapLeaf.hidden h) ∈ t.dfs d
  | .leaf (.script s v), d => by simp [Tree.hasHidden, Tree.dfs]
  | .leaf (.hidden h), d => by simp [Tree.hasHidden, Tree.dfs]
  | .node l r, d => by
    simp only [Tree.hasHidden, Bool.or_eq_true, hasHidden_iff l (d + 1), hasHidden_iff r (d + 1), Tree.dfs, List.mem_append]
    constructor
    · rintro (⟨k, h, hm⟩ | ⟨k, h, hm⟩)
      · exact ⟨k, h, .inl hm⟩
      · exact ⟨k, h, .inr hm⟩
    · rintro ⟨k, h, hm | hm⟩
      · exact .inl ⟨k, h, hm⟩
      · exact .inr ⟨k, h, hm⟩

/-- A tree of scripts only: hidden parts are named exactly when the calls are the listing of a tree with a hidden node. -/
theorem C121_hidden (H : Bytes → Hash) (cs : List (Nat × TapLeaf)) (st : Builder) (h : runCalls H [] cs = .ok st) (e : BErr) :
    tryIntoTapTree st = .error e ↔ (e = .notFinalized ∧ ∀ t : Tree, t.height ≤ 128 → t.dfs 0 ≠ cs) ∨
      (e = .hiddenParts ∧ (∃ t : Tree, t.height ≤ 128 ∧ t.dfs 0 = cs) ∧ ∃ d h, (d, TapLeaf.hidden h) ∈ cs) := by
  have hu := C121_unfinished H cs st h
  unfold tryIntoTapTree
  cases hn : tryIntoNodeInfo st with
  | error e' =>
    have h1 := (hu e').mp hn
    have h2 : ¬ ∃ t : Tree, t.height ≤ 128 ∧ t.dfs 0 = cs := fun ⟨t, h3, h4⟩ => h1.2 t h3 h4
    constructor
    · intro h3; cases h3; exact .inl h1
    · rintro (⟨rfl, _⟩ | ⟨_, h3, _⟩)
      · simp [h1.1]
      · exact absurd h3 h2
  | ok n =>
    have hex : ∃ t : Tree, t.height ≤ 128 ∧ t.dfs 0 = cs := by
      apply Classical.byContradiction
      intro hno
      have := (hu .notFinalized).mpr ⟨rfl, fun t h1 h2 => hno ⟨t, h1, h2⟩⟩
      rw [hn] at this; cases this
    obtain ⟨t, ht, rfl⟩ := hex
    rw [run_tree H t ht] at h
    cases h
    have hnn : n = nodeOf H t := by
      simp [tryIntoNodeInfo] at hn; exact hn.symm
    subst hnn
    simp only [nodeOf_hasHidden]
    rw [← hasHidden_iff t 0]
    cases hb : t.hasHidden with
    | true =>
      simp only [if_true]
      constructor
      · intro h3; cases h3; exact .inr ⟨rfl, ⟨t, ht, rfl⟩, trivial⟩
      · rintro (⟨rfl, h3⟩ | ⟨rfl, _⟩)
        · exact absurd rfl (h3 t ht)
        · rfl
    | false =>
      constructor
      · intro h3; simp at h3
      · rintro (⟨rfl, h3⟩ | ⟨_, _, h3⟩)
        · exact absurd rfl (h3 t ht)
        · cases h3

example (h : Hash) : ∃ st, runCalls sha [] [(0, .hidden h)] = .ok st ∧ tryIntoTapTree st = .error .hiddenParts := ⟨_, rfl, rfl⟩

/-- "a builder containing incomplete branches" is said of a builder containing nothing, and "called finalize on an empty tree" when no
script was given to `with_huffman_tree`: `finalize` was not called, and does not fail on an empty tree. -/
theorem C121_empty_fails (H : Bytes → Hash) (tie : NodeInfo → NodeInfo → Bool) :
    (runCalls H [] [] = .ok [] ∧ tryIntoNodeInfo [] = .error .notFinalized ∧
      Taproot.Msg.builder .notFinalized = some "an attempt to construct a Taproot tree from a builder containing incomplete branches") ∧
    (withHuffmanTree H tie [] = .error .emptyTree ∧ Taproot.Msg.builder .emptyTree = some "called finalize on an empty tree") ∧
    ∀ (S : Taproot.Secp) (k : XOnly S) (b : Builder), finalize H [] k ≠ some (.error b) := by
  refine ⟨⟨rfl, rfl, rfl⟩, ⟨rfl, rfl⟩, fun S k b h => ?_⟩
  unfold finalize at h
  simp only [Option.map_eq_some_iff] at h
  obtain ⟨a, _, h⟩ := h
  cases h

theorem pushAll_depth {h : Hash} : ∀ {ls : List LeafNode} {n : Nat}, (∀ l ∈ ls, l.branch.length ≤ 128) → pushAll h ls = .error (.depth n) → n = 128
  | [], _, _, he => by cases he
  | l :: ls, n, hb, he => by
    have hl := hb l (by simp)
    unfold pushAll pushBranch maxNodes at he
    by_cases h1 : l.branch.length ≥ 128
    · rw [if_pos h1] at he
      cases he; omega
    · rw [if_neg h1] at he
      cases hp : pushAll h ls with
      | error e =>
        rw [hp] at he
        cases he
        exact pushAll_depth (fun x hx => hb x (List.mem_cons_of_mem _ hx)) hp
      | ok r => rw [hp] at he; cases he

theorem pushAll_le {h : Hash} : ∀ {ls r : List LeafNode}, pushAll h ls = .ok r → ∀ l ∈ r, l.branch.length ≤ 128
  | [], r, he => by cases he; simp
  | l :: ls, r, he => by
    unfold pushAll pushBranch maxNodes at he
    by_cases h1 : l.branch.length ≥ 128
    · rw [if_pos h1] at he; cases he
    · rw [if_neg h1] at he
      cases hp : pushAll h ls with
      | error e => rw [hp] at he; cases he
      | ok r' =>
        rw [hp] at he
        cases he
        intro x hx
        rcases List.mem_cons.mp hx with rfl | hx
        · simp; omega
        · exact pushAll_le hp x hx

def Short (n : NodeInfo) : Prop := ∀ l ∈ n.leaves, l.branch.length ≤ 128

theorem combine_depth {H : Bytes → Hash} {a b : NodeInfo} (ha : Short a) (hb : Short b) :
    (∀ n, combine H a b = .error (.depth n) → n = 128) ∧ ∀ c, combine H a b = .ok c → Short c := by
  unfold combine
  generalize combineHashes H a.hash b.hash = p
  obtain ⟨hash, first⟩ := p
  have main : ∀ x y : NodeInfo, Short x → Short y →
      (∀ n, (do let la ← pushAll y.hash x.leaves
                let lb ← pushAll x.hash y.leaves
                .ok (⟨hash, la ++ lb, x.hasHidden || y.hasHidden⟩ : NodeInfo) : Except BErr NodeInfo) = .error (.depth n) → n = 128) ∧
      (∀ c, (do let la ← pushAll y.hash x.leaves
                let lb ← pushAll x.hash y.leaves
                .ok (⟨hash, la ++ lb, x.hasHidden || y.hasHidden⟩ : NodeInfo) : Except BErr NodeInfo) = .ok c → Short c) := by
    intro x y hx hy
    cases h1 : pushAll y.hash x.leaves with
    | error e => exact ⟨fun n h => by cases h; exact pushAll_depth hx h1, fun c h => by cases h⟩
    | ok la =>
      cases h2 : pushAll x.hash y.leaves with
      | error e => exact ⟨fun n h => by cases h; exact pushAll_depth hy h2, fun c h => by cases h⟩
      | ok lb =>
        refine ⟨fun n h => (by cases h), fun c h => ?_⟩
        cases h
        intro l hl
        rcases List.mem_append.mp hl with hl | hl
        · exact pushAll_le h1 l hl
        · exact pushAll_le h2 l hl
  cases first with
  | true => exact main a b ha hb
  | false => exact main b a hb ha

theorem huffman_depth (H : Bytes → Hash) (tie : NodeInfo → NodeInfo → Bool) : ∀ (fuel : Nat) (F : List (Nat × NodeInfo)) (n : Nat),
    (∀ p ∈ F, Short p.2) → huffmanLoop H tie fuel F = .error (.depth n) → n = 128
  | 0, [], n, _, h => by cases h
  | _ + 1, [], n, _, h => by cases h
  | 0, [_], n, _, h => by cases h
  | _ + 1, [_], n, _, h => by cases h
  | 0, _ :: _ :: _, n, _, h => by cases h
  | fuel + 1, x :: y :: r, n, hF, h => by
    unfold huffmanLoop at h
    have q1 := popMin_perm tie (y :: r) x
    generalize popMin tie x (y :: r) = q at q1 h
    obtain ⟨m1, r1⟩ := q
    simp only [] at q1 h
    cases r1 with
    | nil => cases h
    | cons z r2 =>
      simp only [] at h
      have q2 := popMin_perm tie r2 z
      generalize popMin tie z r2 = q at q2 h
      obtain ⟨m2, r3⟩ := q
      simp only [] at q2 h
      have hm1 : Short m1.2 := hF m1 (q1.mem_iff.mp (by simp))
      have hz : ∀ p ∈ z :: r2, Short p.2 := fun p hp => hF p (q1.mem_iff.mp (List.mem_cons_of_mem _ hp))
      have hm2 : Short m2.2 := hz m2 (q2.mem_iff.mp (by simp))
      have hr3 : ∀ p ∈ r3, Short p.2 := fun p hp => hz p (q2.mem_iff.mp (List.mem_cons_of_mem _ hp))
      have hc := combine_depth (H := H) hm1 hm2
      cases hcc : combine H m1.2 m2.2 with
      | error e => rw [hcc] at h; cases h; exact hc.1 n hcc
      | ok c =>
        rw [hcc] at h
        refine huffman_depth H tie fuel _ n ?_ h
        intro p hp
        rcases List.mem_cons.mp hp with rfl | hp
        · exact hc.2 c hcc
        · exact hr3 p hp

/-- Trees from weights: no scripts, or more than 129 of which one would get deeper than 128; then the depth named is 128, which is allowed. -/
theorem C121_huffman (H : Bytes → Hash) (tie : NodeInfo → NodeInfo → Bool) (ws : List (Nat × Bytes)) (e : BErr)
    (h : withHuffmanTree H tie ws = .error e) : (e = .emptyTree ∧ ws = []) ∨ (e = .depth 128 ∧ 129 < ws.length) := by
  cases ws with
  | nil => cases h; exact .inl ⟨rfl, rfl⟩
  | cons w ws =>
    right
    have hlen : 129 < (w :: ws).length := by
      apply Nat.lt_of_not_le
      intro hl
      obtain ⟨st, hst⟩ := C66_few H tie (w :: ws) (by simp) hl
      rw [h] at hst; cases hst
    refine ⟨?_, hlen⟩
    unfold withHuffmanTree at h
    simp only [] at h
    have hs := start_conc H (w :: ws)
    rcases loop_inv H tie (JLeaves (w :: ws)) (fun F F' p a => a.perm p)
      (fun a b R h1 ha hb => h1.step _) (w :: ws).length (start (w :: ws))
      (start_leaves _) (by simp [start]) (by simp [start]) with ⟨p, h1, -⟩ | ⟨⟨n, h1⟩, -⟩
    · rw [hs] at h1; rw [h1] at h; cases h
    · rw [hs] at h1
      rw [h1] at h
      cases h
      congr 1
      refine huffman_depth H tie _ _ n ?_ h1
      intro p hp
      obtain ⟨w', _, rfl⟩ := List.mem_map.mp hp
      intro l hl
      simp only [newLeaf, List.mem_singleton] at hl
      subst hl; simp

/-- 130 scripts of weight 0, the joined node being taken first each time. -/
example : withHuffmanTree (fun _ => ⟨List.replicate 32 0, by simp⟩) (fun a b => decide (b.leaves.length < a.leaves.length)) (List.replicate 130 (0, [])) =
    .error (.depth 128) := by
  have : (match withHuffmanTree (fun _ => ⟨List.replicate 32 0, by simp⟩) (fun a b => decide (b.leaves.length < a.leaves.length))
      (List.replicate 130 (0, [])) with | .error (.depth n) => n == 128 | _ => false) = true := by decide +kernel
  split at this
  · rename_i n hn; rw [hn]; simp at this; rw [this]
  · cases this

/-! ## Control blocks -/

/-- What can be wrong with the bytes of a control block. -/
inductive CbBad (S : Taproot.Secp) (bs : Bytes) : CErr → Prop
  | size : bs.length < 33 → CbBad S bs (.size bs.length)
  | version : 33 ≤ bs.length → bs.head? = some 0x50 ∨ bs.head? = some 0x51 → CbBad S bs (.leafVersion 0x50)
  | branchSize (n : Nat) : bs.length = 33 + n → n % 32 ≠ 0 → bs.head? ≠ some 0x50 → bs.head? ≠ some 0x51 → CbBad S bs (.branchSize n)
  | branchDepth (n : Nat) : bs.length = 33 + 32 * n → 128 < n → bs.head? ≠ some 0x50 → bs.head? ≠ some 0x51 → CbBad S bs (.branchDepth n)
  | key (n : Nat) : bs.length = 33 + 32 * n → n ≤ 128 → bs.head? ≠ some 0x50 → bs.head? ≠ some 0x51 →
      (∀ k : S.Key, (S.ser k).1 ≠ (bs.drop 1).take 32) → CbBad S bs .key

theorem cbBad_unique {S : Taproot.Secp} {bs : Bytes} {e e' : CErr} (h : CbBad S bs e) (h' : CbBad S bs e') : e = e' := by
  cases h <;> cases h' <;> first | rfl | omega | (exfalso; simp_all; done) | (congr 1; omega)

theorem decodeBranch_error (bs : Bytes) (e : CErr) : decodeBranch bs = .error e ↔
    (bs.length % 32 ≠ 0 ∧ e = .branchSize bs.length) ∨ ∃ n, bs.length = 32 * n ∧ 128 < n ∧ e = .branchDepth n := by
  obtain ⟨h1, h2⟩ := chunks32_spec bs.length bs (Nat.le_refl _)
  unfold decodeBranch maxNodes
  generalize chunks32 bs.length bs = p at h1 h2
  obtain ⟨cs, r⟩ := p
  simp only [] at h1 h2 ⊢
  have hl := congrArg List.length h1
  rw [List.length_append, flatten_length] at hl
  by_cases hr : r = []
  · subst hr
    simp only [List.length_nil, Nat.add_zero] at hl
    rw [if_neg (by simp)]
    by_cases hc : cs.length > 128
    · rw [if_pos hc]
      constructor
      · intro h; cases h; exact .inr ⟨cs.length, hl, hc, rfl⟩
      · rintro (⟨h, _⟩ | ⟨n, h, _, rfl⟩)
        · omega
        · rw [show cs.length = n by omega]
    · rw [if_neg hc]
      constructor
      · intro h; cases h
      · rintro (⟨h, _⟩ | ⟨n, h, _, rfl⟩) <;> omega
  · have : 0 < r.length := List.length_pos_iff.mpr hr
    rw [if_pos hr]
    constructor
    · intro h; cases h; exact .inl ⟨by omega, rfl⟩
    · rintro (⟨_, rfl⟩ | ⟨n, h, _⟩)
      · rfl
      · omega

theorem version_error (v e : UInt8) : LeafVersion.fromConsensus v = .error e ↔ e = v ∧ (v.toNat % 2 = 1 ∨ v = 0x50) := by
  have h := (C51_leaf_version v).1
  unfold LeafVersion.fromConsensus at h ⊢
  by_cases h1 : v = 0xc0
  · subst h1; simp
  · by_cases h2 : v = 0x50
    · subst h2; simp [eq_comm]
    · by_cases h3 : v &&& 0xfe = v
      · rw [dif_neg h1, dif_neg h2, dif_pos h3] at h ⊢
        have := h.mp ⟨_, rfl⟩
        constructor
        · intro h; cases h
        · rintro ⟨_, h4 | h4⟩
          · omega
          · exact absurd h4 h2
      · rw [dif_neg h1, dif_neg h2, dif_neg h3] at h ⊢
        have : ¬ (v.toNat % 2 = 0 ∧ v ≠ 0x50) := fun h4 => by obtain ⟨l, h5⟩ := h.mpr h4; cases h5
        constructor
        · intro h
          cases h
          have h6 : ¬ v.toNat % 2 = 0 := fun h5 => this ⟨h5, h2⟩
          exact ⟨rfl, .inl (by omega)⟩
        · rintro ⟨rfl, _⟩; rfl

/-- The errors of `ControlBlock::decode` say exactly what is wrong with the bytes. -/
theorem C121_control_block (S : Taproot.Secp) (bs : Bytes) (e : CErr) : (ControlBlock.decode bs : Except _ (ControlBlock S)) = .error e ↔ CbBad S bs e := by
  refine exact_of ?_ (fun _ _ => cbBad_unique) ?_ e
  · intro e h
    cases bs with
    | nil => cases h; exact .size (by simp)
    | cons first rest =>
      unfold ControlBlock.decode at h
      simp only [] at h
      by_cases hl : rest.length < 32
      · rw [dif_pos hl] at h; cases h; exact .size (by simp; omega)
      · rw [dif_neg hl] at h
        have hfirst : ∀ b : UInt8, ((b &&& 0xfe).toNat % 2 = 1 ∨ b &&& 0xfe = 0x50) → b &&& 0xfe = 0x50 ∧ (b = 0x50 ∨ b = 0x51) := by
          set_option maxRecDepth 8000 in
          apply Scr.forall_u8; decide
        cases hv : LeafVersion.fromConsensus (first &&& 0xfe) with
        | error v =>
          rw [hv] at h
          cases h
          obtain ⟨rfl, h1⟩ := (version_error _ _).mp hv
          obtain ⟨h2, h3⟩ := hfirst first h1
          rw [h2]
          exact .version (by simp; omega) (by simpa using h3)
        | ok ver =>
          have hn : first ≠ 0x50 ∧ first ≠ 0x51 := by
            constructor
            · rintro rfl; cases hv
            · rintro rfl; cases hv
          rw [hv] at h
          simp only [] at h
          cases hb : decodeBranch (rest.drop 32) with
          | error e' =>
            rw [hb] at h
            cases h
            rcases (decodeBranch_error _ _).mp hb with ⟨h1, rfl⟩ | ⟨n, h1, h2, rfl⟩
            · exact .branchSize _ (by simp; omega) h1 (by simpa using hn.1) (by simpa using hn.2)
            · simp only [List.length_drop] at h1
              exact .branchDepth n (by simp; omega) h2 (by simpa using hn.1) (by simpa using hn.2)
          | ok br =>
            rw [hb] at h
            simp only [] at h
            obtain ⟨b1, b2⟩ := (C51_branch _ _).mp hb
            have b3 := congrArg List.length b2
            rw [flatten_length, List.length_drop] at b3
            cases hk : S.parse ⟨rest.take 32, by simp; omega⟩ with
            | some k => rw [hk] at h; cases h
            | none =>
              rw [hk] at h
              cases h
              refine .key br.length (by simp; omega) b1 (by simpa using hn.1) (by simpa using hn.2) fun k hkk => ?_
              have h1 := S.parse_ser k
              have h2 : S.ser k = ⟨rest.take 32, by simp; omega⟩ := Subtype.ext (by simpa using hkk)
              rw [h2, hk] at h1
              cases h1
  · intro cb e hok he
    obtain ⟨first, key, br, rfl, h1, h2, h3, h4⟩ := (C51_decodable (S := S) bs).mp ⟨cb, hok⟩
    have hlen : (first :: (key.1 ++ (br.map (·.1)).flatten)).length = 33 + 32 * br.length := by
      rw [List.length_cons, List.length_append, flatten_length, key.2]; omega
    cases he with
    | size h => omega
    | version _ h => simp at h; rcases h with h | h <;> contradiction
    | branchSize n h5 h6 => omega
    | branchDepth n h5 h6 => omega
    | key n _ _ _ _ h5 =>
      obtain ⟨k, hk⟩ := Option.isSome_iff_exists.mp h4
      refine h5 k ?_
      rw [S.ser_parse _ _ hk]
      simp only [List.drop_succ_cons, List.drop_zero]
      exact (List.take_left' key.2).symm

/-- What the messages about the bytes of a control block say, when they are true. -/
inductive CbSays (S : Taproot.Secp) (bs : Bytes) : String → Prop
  | size : (∀ m, m ≤ 128 → bs.length ≠ 33 + 32 * m) →
      CbSays S bs ("Control Block size(" ++ toString bs.length ++ ") must be of the form 33 + 32*m where 0 <= m <= " ++ toString 128 ++ " ")
  | branchSize (n : Nat) : bs.length = 33 + n → n % 32 ≠ 0 → CbSays S bs ("Merkle branch size(" ++ toString n ++ ") must be a multiple of 32")
  | key : (∀ k : S.Key, (S.ser k).1 ≠ (bs.drop 1).take 32) → CbSays S bs "invalid internal x-only key"

/-- Full claim: the messages about control blocks are true.  Proved: but for those about the leaf version and the depth.  Missing: these two
(`C121_version_fails`, `C121_block_depth_fails`). -/
theorem C121_control_messages_partial (S : Taproot.Secp) (bs : Bytes) (e : CErr) (h : (ControlBlock.decode bs : Except _ (ControlBlock S)) = .error e)
    (h1 : ∀ v, e ≠ .leafVersion v) (h2 : ∀ n, e ≠ .branchDepth n) : CbSays S bs (Taproot.Msg.control e) := by
  cases (C121_control_block S bs e).mp h with
  | size h3 => exact .size fun m _ => by omega
  | version => exact absurd rfl (h1 _)
  | branchSize n h3 h4 => exact .branchSize n h3 h4
  | branchDepth n => exact absurd rfl (h2 n)
  | key n _ _ _ _ h3 => exact .key h3

example : (ControlBlock.decode (0xc0 :: List.replicate 33 7) : Except _ (ControlBlock toySecp)) = .error (.branchSize 1) := by
  exact (C121_control_block _ _ _).mpr (.branchSize 1 rfl (by decide) (by decide) (by decide))

/-- Whenever a control block is refused for its leaf version, the version named is 80, whose least significant bit is 0. -/
theorem C121_version_fails (S : Taproot.Secp) (bs : Bytes) (v : UInt8) (h : (ControlBlock.decode bs : Except _ (ControlBlock S)) = .error (.leafVersion v)) :
    Taproot.Msg.control (.leafVersion v) = "leaf version(80) must have the least significant bit 0" ∧ v.toNat = 80 ∧ v.toNat % 2 = 0 := by
  cases (C121_control_block S bs _).mp h with
  | version => exact ⟨by decide +kernel, rfl, rfl⟩

example : (ControlBlock.decode (0x51 :: List.replicate 32 7) : Except _ (ControlBlock toySecp)) = .error (.leafVersion 0x50) :=
  (C121_control_block _ _ _).mpr (.version (by decide) (by decide))

/-- Leaf versions themselves: refused are odd numbers and 80, by their number; for odd ones the message is true. -/
theorem C121_leaf_version_partial (v e : UInt8) : (LeafVersion.fromConsensus v = .error e ↔ e = v ∧ (v.toNat % 2 = 1 ∨ v = 80)) ∧
    (LeafVersion.fromConsensus v = .error e → e ≠ 80 → Taproot.Msg.leafVersion e = "leaf version(" ++ toString v.toNat ++ ") must have the least significant bit 0" ∧
      v.toNat % 2 = 1) := by
  refine ⟨version_error v e, fun h h1 => ?_⟩
  obtain ⟨rfl, h2⟩ := (version_error v e).mp h
  exact ⟨rfl, h2.resolve_right h1⟩

example : LeafVersion.fromConsensus 0xc1 = .error 0xc1 := rfl

/-- "must be less than 128" is not the rule for control blocks either: with every key some of depth 128 decode. -/
theorem C121_block_depth_fails (S : Taproot.Secp) (k : S.Key) : ∃ bad good : Bytes,
    (ControlBlock.decode bad : Except _ (ControlBlock S)) = .error (.branchDepth 129) ∧
    Taproot.Msg.control (.branchDepth 129) = "Merkle tree depth(129) must be less than 128" ∧
    ∃ cb : ControlBlock S, ControlBlock.decode good = .ok cb ∧ cb.branch.length = 128 := by
  let z : Hash := ⟨List.replicate 32 0, by simp⟩
  let blk (n : Nat) : ControlBlock S := ⟨.tapScript, false, ⟨k, false⟩, List.replicate n z⟩
  refine ⟨(blk 129).serialize, (blk 128).serialize, ?_, by decide +kernel, blk 128, ?_, by simp [blk]⟩
  · have hh : (blk 129).serialize.head? = some 0xc0 := by simp [blk, ControlBlock.serialize, LeafVersion.toConsensus]
    refine (C121_control_block _ _ _).mpr (.branchDepth 129 ?_ (by omega) (by rw [hh]; decide) (by rw [hh]; decide))
    rw [C51_size]; simp [ControlBlock.size, blk]
  · exact C51_decode_serialize_partial (blk 128) (by simp [blk]) rfl

/-- Merkle branches alone: the error is a number of bytes that determines the fault, and the message of `DecodeError` is true. -/
theorem C121_branch (bs : Bytes) (e : CErr) (h : decodeBranch bs = .error e) :
    Taproot.Msg.numBytes e = some bs.length ∧ Taproot.Msg.ofNumBytes bs.length = e ∧
    ((bs.length % 32 ≠ 0 ∧ Taproot.Msg.branch bs.length = "the Merkle branch is " ++ toString bs.length ++ " bytes long which is not an integer multiple of 32") ∨
     (∃ n, bs.length = 32 * n ∧ 128 < n ∧ Taproot.Msg.branch bs.length = "the Merkle branch has " ++ toString n ++ " nodes which is more than the limit " ++ toString 128)) := by
  rcases (decodeBranch_error bs e).mp h with ⟨h1, rfl⟩ | ⟨n, h1, h2, rfl⟩
  · refine ⟨rfl, by rw [Taproot.Msg.ofNumBytes, if_neg h1], .inl ⟨h1, by rw [Taproot.Msg.branch, if_neg h1]⟩⟩
  · have h3 : bs.length % 32 = 0 := by omega
    have h4 : bs.length / 32 = n := by omega
    refine ⟨by rw [Taproot.Msg.numBytes, h1, Nat.mul_comm], by rw [Taproot.Msg.ofNumBytes, if_pos h3, h4], .inr ⟨n, h1, h2, ?_⟩⟩
    rw [Taproot.Msg.branch, if_pos h3, h4]; rfl

example : decodeBranch (List.replicate 33 0) = .error (.branchSize 33) := (decodeBranch_error _ _).mpr (.inl ⟨by decide, rfl⟩)

/-! ## Signatures -/
open Crypto

/-- The sighash types of BIP-341 that a signature may name. -/
def named : List UInt8 := [0x01, 0x02, 0x03, 0x81, 0x82, 0x83]

/-- What can be wrong with the bytes of a Taproot signature. -/
inductive TapBad (sl : Bytes) : TapSigErr → Prop
  | size : sl.length ≠ 64 → sl.length ≠ 65 → TapBad sl (.size sl.length)
  | type (s : Bytes) (b : UInt8) : sl = s ++ [b] → s.length = 64 → b ∉ named → TapBad sl (.sighashType b.toUInt32)

/-- The errors of Taproot signatures say exactly what is wrong with the bytes. -/
theorem C121_tap_signature (sl : Bytes) (e : TapSigErr) : TapSig.fromSlice sl = .error e ↔ TapBad sl e := by
  refine exact_of ?_ ?_ ?_ e
  · intro e h
    rcases C60_tap_rejects sl e h with ⟨rfl, h1, h2⟩ | ⟨hl, rfl⟩
    · exact .size h1 h2
    · have hs : sl = sl.take 64 ++ [sl[64]] := by
        rw [List.take_append_getElem]; exact (List.take_of_length_le (by omega)).symm
      refine .type (sl.take 64) sl[64] hs (by simp; omega) fun hm => ?_
      have := (C60_tap_accepts sl).mpr (.inr ⟨hl, hm⟩)
      obtain ⟨s, h3⟩ := this
      rw [h] at h3; cases h3
  · intro e e' h h'
    cases h with
    | size h1 h2 =>
      cases h' with
      | size => rfl
      | type s b h3 h4 => subst h3; simp at h2; omega
    | type s b h1 h2 =>
      cases h' with
      | size h3 h4 => subst h1; simp at h4; omega
      | type s' b' h3 h4 =>
        rw [h1] at h3
        have := (List.append_inj h3 (by omega)).2
        simp only [List.cons.injEq, and_true] at this
        rw [this]
  · intro s e hok he
    rcases (C60_tap_accepts sl).mp ⟨s, hok⟩ with h1 | ⟨h1, h2⟩
    · cases he with
      | size h4 _ => exact h4 h1
      | type s b h4 h5 => subst h4; simp at h1; omega
    · cases he with
      | size _ h4 => exact h4 h1
      | type s' b' h4 h5 h6 =>
        subst h4
        have : (s' ++ [b'])[64]'(by simp; omega) = b' := by rw [List.getElem_append_right (by omega)]; simp
        rw [this] at h2
        exact h6 h2

/-- An ASCII digit of base 16. -/
def HexDigit (c : UInt8) : Prop := (48 ≤ c.toNat ∧ c.toNat ≤ 57) ∨ (65 ≤ c.toNat ∧ c.toNat ≤ 70) ∨ (97 ≤ c.toNat ∧ c.toNat ≤ 102)

theorem digit_some (c : UInt8) : (∃ v, digitVal 16 c = some v) ↔ HexDigit c := by
  unfold digitVal HexDigit
  simp only []
  by_cases h1 : 48 ≤ c.toNat ∧ c.toNat ≤ 57
  · rw [if_pos h1]; simp only []; rw [if_pos (by omega)]; simp [h1]
  · rw [if_neg h1]
    by_cases h2 : 97 ≤ c.toNat ∧ c.toNat ≤ 102
    · rw [if_pos h2]; simp only []; rw [if_pos (by omega)]; simp [h2]
    · rw [if_neg h2]
      by_cases h3 : 65 ≤ c.toNat ∧ c.toNat ≤ 70
      · rw [if_pos h3]; simp only []; rw [if_pos (by omega)]; simp [h3]
      · rw [if_neg h3]; simp [h1, h2, h3]

theorem unhex_some : ∀ s : Bytes, (∃ b, unhex s = some b) ↔ s.length % 2 = 0 ∧ ∀ c ∈ s, HexDigit c
  | [] => by simp [unhex]
  | [_] => by simp [unhex]
  | a :: b :: s => by
    have ih := unhex_some s
    have ha := digit_some a
    have hb := digit_some b
    have hl : (a :: b :: s).length % 2 = s.length % 2 := by simp only [List.length_cons]; omega
    rw [hl]
    simp only [List.mem_cons, forall_eq_or_imp]
    rw [← ha, ← hb]
    unfold unhex
    cases digitVal 16 a with
    | none => simp
    | some x =>
      cases digitVal 16 b with
      | none => simp
      | some y =>
        simp only [Option.some.injEq, exists_eq', true_and]
        rw [← ih]
        cases unhex s with
        | none => simp
        | some r => simp

/-- What can be wrong with the text of a Taproot signature. -/
inductive TapTextBad (s : Bytes) : TapSigParseErr → Prop
  | length : s.length ≠ 128 → s.length ≠ 130 → TapTextBad s (.length s.length)
  | char (c : UInt8) : s.length = 128 ∨ s.length = 130 → c ∈ s → ¬ HexDigit c → TapTextBad s .char
  | type (b : Bytes) (t : UInt8) : unhex s = some (b ++ [t]) → b.length = 64 → t ∉ named → TapTextBad s (.decode (.sighashType t.toUInt32))

/-- The errors of Taproot signatures from text say exactly what is wrong with the text. -/
theorem C121_tap_text (s : Bytes) (e : TapSigParseErr) : TapSig.parse s = .error e ↔ TapTextBad s e := by
  have hlen : ∀ b, unhex s = some b → s.length = 2 * b.length := fun b h => unhex_length s b h
  have hnone : s.length % 2 = 0 → (unhex s = none ↔ ∃ c ∈ s, ¬ HexDigit c) := by
    intro h2
    have := unhex_some s
    constructor
    · intro hn
      apply Classical.byContradiction
      intro hno
      obtain ⟨b, hb⟩ := this.mpr ⟨h2, fun c hc => Classical.byContradiction fun h => hno ⟨c, hc, h⟩⟩
      rw [hn] at hb; cases hb
    · rintro ⟨c, hc, h⟩
      cases hu : unhex s with
      | none => rfl
      | some b => exact absurd ((this.mp ⟨b, hu⟩).2 c hc) h
  have hmain : ∀ n, s.length = 2 * n → (n = 64 ∨ n = 65) → TapSig.parse s = match unhex s with
      | none => .error .char
      | some b => (TapSig.fromSlice b).mapError .decode := by
    intro n hn hc
    unfold TapSig.parse hexToArray
    cases hu : unhex s with
    | none =>
      rcases hc with rfl | rfl
      · rw [if_pos hn]
      · rw [if_neg (by omega)]; simp only []; rw [if_pos hn]
    | some b =>
      have := hlen b hu
      rcases hc with rfl | rfl
      · rw [if_pos hn]; simp only []; rw [dif_pos (by omega)]
      · rw [if_neg (by omega)]; simp only []; rw [if_pos hn, dif_pos (by omega)]
  by_cases h1 : s.length = 128 ∨ s.length = 130
  · have hp := hmain (s.length / 2) (by omega) (by omega)
    rw [hp]
    cases hu : unhex s with
    | none =>
      obtain ⟨c, hc, hx⟩ := (hnone (by omega)).mp hu
      constructor
      · intro h; cases h; exact .char c h1 hc hx
      · intro h
        cases h with
        | length h2 h3 => rcases h1 with h1 | h1 <;> contradiction
        | char => rfl
        | type b t h2 => rw [hu] at h2; cases h2
    | some b =>
      have hl := hlen b hu
      simp only []
      cases hf : TapSig.fromSlice b with
      | ok x =>
        constructor
        · intro h; cases h
        · intro h
          cases h with
          | length h2 h3 => rcases h1 with h1 | h1 <;> contradiction
          | char c _ hc hx => exact absurd (((unhex_some s).mp ⟨b, hu⟩).2 c hc) hx
          | type b' t h2 h3 h4 =>
            rw [hu] at h2; cases h2
            have := (C121_tap_signature _ _).mpr (.type b' t rfl h3 h4)
            rw [hf] at this; cases this
      | error e' =>
        have hb := (C121_tap_signature b e').mp hf
        constructor
        · intro h
          cases h
          cases hb with
          | size h2 h3 => omega
          | type b' t h2 h3 h4 => subst h2; exact .type b' t hu h3 h4
        · intro h
          cases h with
          | length h2 h3 => rcases h1 with h1 | h1 <;> contradiction
          | char c _ hc hx => exact absurd (((unhex_some s).mp ⟨b, hu⟩).2 c hc) hx
          | type b' t h2 h3 h4 =>
            rw [hu] at h2; cases h2
            have := (C121_tap_signature _ _).mpr (.type b' t rfl h3 h4)
            rw [hf] at this; cases this; rfl
  · have hp : TapSig.parse s = .error (.length s.length) := by
      unfold TapSig.parse hexToArray
      rw [if_neg (by omega)]; simp only []; rw [if_neg (by omega)]
    rw [hp]
    constructor
    · intro h; cases h; exact .length (by omega) (by omega)
    · intro h
      cases h with
      | length => rfl
      | char c h2 => exact absurd h2 h1
      | type b t h2 h3 => have := hlen _ h2; simp at this; omega

/-- What the messages about the text of a Taproot signature say. -/
inductive TapSays (s : Bytes) : String → Prop
  | length : s.length ≠ 128 → s.length ≠ 130 →
      TapSays s ("signature must be 128 or 130 ASCII characters long but it had " ++ toString s.length ++ " bytes")
  | char (c : UInt8) : c ∈ s → ¬ HexDigit c → TapSays s "invalid character in signature"
  | type (b : Bytes) (t : UInt8) : unhex s = some (b ++ [t]) → b.length = 64 → t ∉ named → TapSays s ("invalid sighash type " ++ toString t.toNat)

/-- The messages are true. -/
theorem C121_tap_messages (s : Bytes) (e : TapSigParseErr) (h : TapSig.parse s = .error e) : TapSays s (Crypto.Msg.tapSigText e) := by
  cases (C121_tap_text s e).mp h with
  | length h1 h2 => exact .length h1 h2
  | char c _ h1 h2 => exact .char c h1 h2
  | type b t h1 h2 h3 =>
    have : Crypto.Msg.tapSigText (.decode (.sighashType t.toUInt32)) = "invalid sighash type " ++ toString t.toNat := by
      show "invalid sighash type " ++ toString t.toUInt32.toNat = _
      rw [UInt8.toNat_toUInt32]
    rw [this]
    exact .type b t h1 h2 h3

/-- The messages about the bytes of a Taproot signature are true: they name the length, if it is neither 64 nor 65, and otherwise the last byte. -/
theorem C121_tap_bytes_messages (b : Bytes) (e : TapSigErr) (h : TapSig.fromSlice b = .error e) :
    (b.length ≠ 64 ∧ b.length ≠ 65 ∧ Crypto.Msg.tapSig e = "invalid Taproot signature size: " ++ toString b.length) ∨
    (∃ b' t, b = b' ++ [t] ∧ b'.length = 64 ∧ t ∉ named ∧ Crypto.Msg.tapSig e = "invalid sighash type " ++ toString t.toNat) := by
  cases (C121_tap_signature b e).mp h with
  | size h1 h2 => exact Or.inl ⟨h1, h2, rfl⟩
  | type b' t h1 h2 h3 =>
    refine Or.inr ⟨b', t, h1, h2, h3, ?_⟩
    show "invalid sighash type " ++ toString t.toUInt32.toNat = _
    rw [UInt8.toNat_toUInt32]

example : TapSig.fromSlice (List.replicate 63 1) = .error (.size 63) ∧ Crypto.Msg.tapSig (.size 63) = "invalid Taproot signature size: 63" ∧
    TapSig.fromSlice (List.replicate 64 1 ++ [4]) = .error (.sighashType 4) := ⟨rfl, by decide +kernel, rfl⟩

example : TapSig.parse (List.replicate 128 103) = .error .char ∧ TapSig.parse (List.replicate 129 97) = .error (.length 129) ∧
    TapSig.parse (List.replicate 130 48) = .error (.decode (.sighashType 0)) :=
  ⟨(C121_tap_text _ _).mpr (.char 103 (by simp) (by decide) (by unfold HexDigit; decide)), (C121_tap_text _ _).mpr (.length (by simp) (by simp)),
    (C121_tap_text _ _).mpr (.type (List.replicate 64 0) 0 (by decide +kernel) (by simp) (by decide))⟩

/-- What can be wrong with the text of an ECDSA signature, and what the messages about it say: its digits (no text of the repository), nothing in it,
the last byte, or the bytes before. -/
inductive EcdsaTextBad (D : Der) (s : Bytes) : EcdsaSigParseErr → Option String → Prop
  | hex : s.length % 2 = 1 ∨ (∃ c ∈ s, ¬ HexDigit c) → EcdsaTextBad D s .hex none
  | empty : s = [] → EcdsaTextBad D s (.decode .empty) (some "empty ECDSA signature")
  | type (b : Bytes) (t : UInt8) : unhex s = some (b ++ [t]) → t ∉ named →
      EcdsaTextBad D s (.decode (.sighashType t.toUInt32)) (some ("non-standard sighash type " ++ toString t.toNat))
  | der (b : Bytes) (t : UInt8) : unhex s = some (b ++ [t]) → t ∈ named → D.parse b = none →
      EcdsaTextBad D s (.decode .invalidDer) (some "invalid DER encoding")

/-- The errors and messages of ECDSA signatures from text say exactly what is wrong with the text. -/
theorem C121_ecdsa_text (D : Der) (s : Bytes) (e : EcdsaSigParseErr) (m : Option String) :
    (EcdsaSig.parse D s = .error e ∧ m = match e with | .hex => none | .decode e => some (Crypto.Msg.ecdsaSig e)) ↔ EcdsaTextBad D s e m := by
  have hmsg : ∀ t : UInt8, Crypto.Msg.ecdsaSig (.sighashType t.toUInt32) = "non-standard sighash type " ++ toString t.toNat := by
    intro t
    show "non-standard sighash type " ++ toString t.toUInt32.toNat = _
    rw [UInt8.toNat_toUInt32]
  have hus := unhex_some s
  unfold EcdsaSig.parse
  cases hu : unhex s with
  | none =>
    simp only []
    constructor
    · rintro ⟨h, rfl⟩
      cases h
      refine .hex ?_
      by_cases h2 : s.length % 2 = 1
      · exact .inl h2
      · right
        apply Classical.byContradiction
        intro hno
        obtain ⟨b, hb⟩ := hus.mpr ⟨by omega, fun c hc => Classical.byContradiction fun h => hno ⟨c, hc, h⟩⟩
        rw [hu] at hb; cases hb
    · intro h
      cases h with
      | hex => exact ⟨rfl, rfl⟩
      | empty h => subst h; simp [unhex] at hu
      | type b t h => rw [hu] at h; cases h
      | der b t h => rw [hu] at h; cases h
  | some b =>
    simp only []
    have hb := hus.mp ⟨b, hu⟩
    have hl := unhex_length s b hu
    have hmap : ∀ e', (EcdsaSig.fromSlice D b).mapError EcdsaSigParseErr.decode = .error e' ↔ ∃ x, e' = .decode x ∧ EcdsaSig.fromSlice D b = .error x := by
      intro e'
      cases EcdsaSig.fromSlice D b with
      | ok _ => simp [Except.mapError]
      | error x => simp [Except.mapError, eq_comm]
    rw [hmap]
    constructor
    · rintro ⟨⟨x, rfl, h⟩, rfl⟩
      rcases (C60_ecdsa_rejects D b x).mp h with ⟨rfl, rfl⟩ | ⟨d, t, rfl, ⟨rfl, h2⟩ | ⟨rfl, h2, h3⟩⟩
      · exact .empty (List.length_eq_zero_iff.mp (by simpa using hl))
      · simp only [hmsg]; exact .type d t hu h2
      · exact .der d t hu h2 h3
    · intro h
      cases h with
      | hex h =>
        rcases h with h | ⟨c, hc, h⟩
        · omega
        · exact absurd (hb.2 c hc) h
      | empty h =>
        subst h
        simp [unhex] at hu
        subst hu
        exact ⟨⟨_, rfl, (C60_ecdsa_rejects D _ _).mpr (.inl ⟨rfl, rfl⟩)⟩, rfl⟩
      | type d t h h2 =>
        rw [hu] at h; cases h
        exact ⟨⟨_, rfl, (C60_ecdsa_rejects D _ _).mpr (.inr ⟨d, t, rfl, .inl ⟨rfl, h2⟩⟩)⟩, by simp only [hmsg]⟩
      | der d t h h2 h3 =>
        rw [hu] at h; cases h
        exact ⟨⟨_, rfl, (C60_ecdsa_rejects D _ _).mpr (.inr ⟨d, t, rfl, .inr ⟨rfl, h2, h3⟩⟩)⟩, rfl⟩

example (D : Der) : EcdsaSig.parse D [48, 52] = .error (.decode (.sighashType 4)) := ((C121_ecdsa_text D _ _ _).mpr (.type [] 4 rfl (by decide))).1

/-! ## Signature hashes -/
open Sighash

/-- What the messages about a Taproot signature hash say of the transaction, the input index, the spent outputs given and the sighash byte. -/
inductive HashSays (tx : Tx) (i : Nat) (p : Prevouts) (ty : UInt8) : String → Prop
  | input : tx.inputs.length ≤ i → HashSays tx i p ty ("index " ++ toString i ++ " is out-of-bounds for vector with length " ++ toString tx.inputs.length)
  | single : ty &&& 3 = 3 → tx.outputs.length ≤ i →
      HashSays tx i p ty ("sighash single requires an output at the same index as the input (input index: " ++ toString i ++
        ", outputs length: " ++ toString tx.outputs.length ++ ")")
  | number (l : List TxOut) : p = .all l → l.length ≠ tx.inputs.length →
      HashSays tx i p ty "number of supplied prevouts differs from the number of inputs in transaction"
  | one (j : Nat) (o : TxOut) : p = .one j o → j ≠ i → HashSays tx i p ty "invalid index when accessing a Prevouts::One kind"
  | kind (j : Nat) (o : TxOut) : p = .one j o → ty &&& 0x80 = 0 →
      HashSays tx i p ty "single prevout provided but all prevouts are needed without `ANYONECANPAY`"

/-- The messages of Taproot signature hashes are true. -/
theorem C121_tap_hash_messages (H : Bytes → Hash) (tx : Tx) (i : Nat) (p : Prevouts) (annex : Option Annex) (leaf : Option (Hash × UInt32)) (ty : Tap)
    (e : TapErr) (h : (tapHash H (Cache.new tx) i p annex leaf ty).2 = some (.error e)) : HashSays tx i p ty.toU8 (Sighash.Msg.tap e) := by
  have he := (C56_taproot_errors H tx i p annex leaf ty e).2.mp h
  have hlow : ∀ b : UInt8, b < 0x80 → b &&& 0x80 = 0 := by
    set_option maxRecDepth 8000 in
    apply Scr.forall_u8; decide
  unfold tapError at he
  cases p with
  | all l =>
    simp only [] at he
    split at he
    · cases he; exact .number l rfl (by assumption)
    · split at he
      · rename_i h1; cases he; exact .input h1.2
      · split at he
        · rename_i h1; cases he; exact .single h1.1 h1.2
        · cases he
  | one j o =>
    simp only [] at he
    split at he
    · rename_i h1; cases he; exact .kind j o rfl (hlow _ h1)
    · split at he
      · rename_i h1; cases he; exact .input h1
      · split at he
        · rename_i h1; cases he; exact .one j o rfl (fun h => h1 h.symm)
        · split at he
          · rename_i h1; cases he; exact .single h1.1 h1.2
          · cases he

example (H : Bytes → Hash) : (tapHash H (Cache.new Sighash.sampleTx) 2 (.all [out1, out2]) none none .single).2 = some (.error (.singleMissing 2 2)) ∧
    Sighash.Msg.tap (.singleMissing 2 2) = "sighash single requires an output at the same index as the input (input index: 2, outputs length: 2)" :=
  ⟨(C56_taproot_errors H _ _ _ _ _ _ _).2.mpr (by decide), by decide +kernel⟩

/-- Segwit v0: the errors and messages for P2WPKH, and the error for P2WSH, say exactly what is wrong. -/
theorem C121_segwit (H : Bytes → Hash) (tx : Tx) (i : Nat) (spk ws : Bytes) (amount : Amount) (ty : Ecdsa) :
    (∀ m, (∃ e, (p2wpkhHash H (Cache.new tx) i spk amount ty).2 = some (.error e) ∧ Sighash.Msg.p2wpkh e = m) ↔
      ((¬ ∃ h : Arr 20, spk = [0x00, 0x14] ++ h.1) ∧ m = "script is not a script pubkey for a p2wpkh output") ∨
      ((∃ h : Arr 20, spk = [0x00, 0x14] ++ h.1) ∧ tx.inputs.length ≤ i ∧
        m = "index " ++ toString i ++ " is out-of-bounds for vector with length " ++ toString tx.inputs.length)) ∧
    ∀ e, (p2wshHash H (Cache.new tx) i ws amount ty).2 = some (.error e) ↔ tx.inputs.length ≤ i ∧ e = ⟨i, tx.inputs.length⟩ := by
  constructor
  · intro m
    obtain ⟨h1, h2⟩ := C56_p2wpkh H tx i spk amount ty
    by_cases hs : ∃ h : Arr 20, spk = [0x00, 0x14] ++ h.1
    · obtain ⟨h, he⟩ := hs
      rw [h1 h he]
      cases hi : tx.inputs[i]? with
      | none =>
        have hle := List.getElem?_eq_none_iff.mp hi
        constructor
        · rintro ⟨e, h3, rfl⟩
          cases h3
          exact .inr ⟨⟨h, he⟩, hle, rfl⟩
        · rintro (⟨h3, _⟩ | ⟨_, _, rfl⟩)
          · exact absurd ⟨h, he⟩ h3
          · exact ⟨_, rfl, rfl⟩
      | some x =>
        have hlt := (List.getElem?_eq_some_iff.mp hi).1
        constructor
        · rintro ⟨e, h3, _⟩; cases h3
        · rintro (⟨h3, _⟩ | ⟨_, h3, _⟩)
          · exact absurd ⟨h, he⟩ h3
          · omega
    · rw [h2 hs]
      constructor
      · rintro ⟨e, h3, rfl⟩; cases h3; exact .inl ⟨hs, rfl⟩
      · rintro (⟨_, rfl⟩ | ⟨h3, _⟩)
        · exact ⟨_, rfl, rfl⟩
        · exact absurd h3 hs
  · intro e
    rw [C56_p2wsh]
    cases hi : tx.inputs[i]? with
    | none =>
      have hle := List.getElem?_eq_none_iff.mp hi
      simp [hle, eq_comm]
    | some x =>
      have hlt := (List.getElem?_eq_some_iff.mp hi).1
      simp; omega

example (H : Bytes → Hash) : (p2wshHash H (Cache.new Sighash.sampleTx) 2 [0x51] ⟨9, by decide⟩ .all).2 = some (.error ⟨2, 2⟩) :=
  ((C121_segwit H Sighash.sampleTx 2 [] [0x51] _ .all).2 _).mpr ⟨by decide, rfl⟩

/-- Annexes: empty, or not beginning with byte 0x50; the message shows that byte in two hex digits. -/
theorem C121_annex (b : Bytes) (m : String) : (∃ e, Annex.new b = .error e ∧ Sighash.Msg.annex e = m) ↔
    (b = [] ∧ m = "the annex is empty") ∨ ∃ (x : UInt8) (t : Bytes) (hi lo : Char), b = x :: t ∧ x ≠ 0x50 ∧
      m = "incorrect prefix byte in the annex " ++ String.ofList [hi, lo] ++ ", expecting 0x50" ∧
      hi ∈ "0123456789abcdef".toList ∧ lo ∈ "0123456789abcdef".toList ∧
      "0123456789abcdef".toList.idxOf hi * 16 + "0123456789abcdef".toList.idxOf lo = x.toNat := by
  have hhex : ∀ x : UInt8, ∃ hi lo : Char, Sighash.Msg.hex02 x = String.ofList [hi, lo] ∧ hi ∈ "0123456789abcdef".toList ∧ lo ∈ "0123456789abcdef".toList ∧
      "0123456789abcdef".toList.idxOf hi * 16 + "0123456789abcdef".toList.idxOf lo = x.toNat := by
    intro x
    let dig (n : Nat) : Char := Char.ofNat (if n < 10 then 48 + n else 87 + n)
    have hd : ∀ n, n < 16 → dig n ∈ "0123456789abcdef".toList ∧ "0123456789abcdef".toList.idxOf (dig n) = n := by decide
    have hlt := x.toNat_lt
    obtain ⟨a1, a2⟩ := hd (x.toNat / 16) (by omega)
    obtain ⟨b1, b2⟩ := hd (x.toNat % 16) (by omega)
    exact ⟨_, _, rfl, a1, b1, by rw [a2, b2]; omega⟩
  have hinj : ∀ x y : UInt8, ∀ hi lo : Char, hi ∈ "0123456789abcdef".toList → lo ∈ "0123456789abcdef".toList →
      "0123456789abcdef".toList.idxOf hi * 16 + "0123456789abcdef".toList.idxOf lo = x.toNat → Sighash.Msg.hex02 x = String.ofList [hi, lo] := by
    intro x _ hi lo h1 h2 h3
    obtain ⟨hi', lo', h4, h5, h6, h7⟩ := hhex x
    have hidx : ∀ c ∈ "0123456789abcdef".toList, "0123456789abcdef".toList.idxOf c < 16 ∧
        ∀ d ∈ "0123456789abcdef".toList, "0123456789abcdef".toList.idxOf c = "0123456789abcdef".toList.idxOf d → c = d := by decide
    have a := hidx hi h1
    have b := hidx lo h2
    have a' := (hidx hi' h5).1
    have b' := (hidx lo' h6).1
    have hn : ∀ m n m' n' : Nat, n < 16 → n' < 16 → m * 16 + n = m' * 16 + n' → m = m' ∧ n = n' := by intros; omega
    obtain ⟨e1, e2⟩ := hn _ _ _ _ b.1 b' (h3.trans h7.symm)
    have f1 := a.2 hi' h5 e1
    have f2 := b.2 lo' h6 e2
    subst f1 f2
    exact h4
  unfold Annex.new
  cases b with
  | nil =>
    constructor
    · rintro ⟨e, h, rfl⟩; cases h; exact .inl ⟨rfl, rfl⟩
    · rintro (⟨_, rfl⟩ | ⟨_, _, _, _, h, _⟩)
      · exact ⟨_, rfl, rfl⟩
      · cases h
  | cons x t =>
    simp only [List.head?_cons]
    by_cases hx : x = 0x50
    · rw [dif_pos hx]
      constructor
      · rintro ⟨e, h, _⟩; cases h
      · rintro (⟨h, _⟩ | ⟨y, u, _, _, h, h2, _⟩)
        · cases h
        · cases h; exact absurd hx h2
    · rw [dif_neg hx]
      constructor
      · rintro ⟨e, h, rfl⟩
        cases h
        obtain ⟨hi, lo, h1, h2⟩ := hhex x
        refine .inr ⟨x, t, hi, lo, rfl, hx, ?_, h2⟩
        show "incorrect prefix byte in the annex " ++ Sighash.Msg.hex02 x ++ ", expecting 0x50" = _
        rw [h1]
      · rintro (⟨h, _⟩ | ⟨y, u, hi, lo, h, _, rfl, h1, h2, h3⟩)
        · cases h
        · cases h
          refine ⟨_, rfl, ?_⟩
          show "incorrect prefix byte in the annex " ++ Sighash.Msg.hex02 x ++ ", expecting 0x50" = _
          rw [hinj x x hi lo h1 h2 h3]

example : ∃ e, Annex.new [0x4f, 1] = .error e ∧ Sighash.Msg.annex e = "incorrect prefix byte in the annex 4f, expecting 0x50" := ⟨_, rfl, by decide +kernel⟩

/-! ## Signed messages -/

/-- The errors of message signatures from base64 text: of the wrong length exactly when the text is not 88 characters long or is base64 of another number of
bytes than 65 (and no text of another length is the base64 of 65 bytes), bad base64 exactly when it is the base64 of no bytes. -/
theorem C121_message_base64 {S : Crypto.Secp} {R : RecSecp S} (s : Bytes) :
    (MessageSignature.fromBase64 (R := R) s = .error .invalidLength ↔ s.length ≠ 88 ∨ ∃ b, s = B64.encode b ∧ b.length ≠ 65) ∧
    (MessageSignature.fromBase64 (R := R) s = .error .invalidBase64 ↔ s.length = 88 ∧ ∀ b, s ≠ B64.encode b) ∧
    (MessageSignature.fromBase64 (R := R) s = .error .invalidLength → ∀ b, b.length = 65 → s ≠ B64.encode b) ∧
    (∀ t, MessageSignature.fromBase64 (R := R) s ≠ .error (.unsupportedAddressType t)) := by
  have harr : ∀ (b : Arr 65), (MessageSignature.fromByteArray b : Except _ (MessageSignature R)) ≠ .error .invalidLength ∧
      (MessageSignature.fromByteArray b : Except _ (MessageSignature R)) ≠ .error .invalidBase64 ∧
      ∀ t, (MessageSignature.fromByteArray b : Except _ (MessageSignature R)) ≠ .error (.unsupportedAddressType t) := by
    intro b
    unfold MessageSignature.fromByteArray
    refine ⟨?_, ?_, fun t => ?_⟩
    all_goals
      intro h
      split at h
      · cases h
      · split at h
        · cases h
        · simp only [] at h
          split at h <;> cases h
  have h65 : ∀ b : Bytes, b.length = 65 → (B64.encode b).length = 88 := fun b h => by rw [B64.encode_length, h]
  unfold MessageSignature.fromBase64
  by_cases hl : s.length ≠ 88
  · rw [if_pos hl]
    refine ⟨⟨fun _ => .inl hl, fun _ => rfl⟩, ⟨fun h => (by cases h), fun h => absurd h.1 hl⟩, fun _ b hb he => hl (by rw [he]; exact h65 b hb), fun t h => (by cases h)⟩
  · rw [if_neg hl]
    have hl' : s.length = 88 := Classical.not_not.mp hl
    cases hd : B64.decode s with
    | none =>
      have hno : ∀ b, s ≠ B64.encode b := by
        rintro b rfl; rw [B64.decode_encode] at hd; cases hd
      simp only []
      exact ⟨⟨fun h => (by cases h), fun h => h.elim (fun h => absurd h hl) fun ⟨b, h, _⟩ => absurd h (hno b)⟩, ⟨fun _ => ⟨hl', hno⟩, fun _ => trivial⟩,
        fun h => (by cases h), fun t h => (by cases h)⟩
    | some bs =>
      have hs := (B64.encode_decode s bs hd).symm
      have huniq : ∀ b, s = B64.encode b → b = bs := by
        rintro b rfl; rw [B64.decode_encode] at hd; cases hd; rfl
      simp only []
      by_cases hb : bs.length = 65
      · rw [dif_pos hb]
        obtain ⟨a1, a2, a3⟩ := harr ⟨bs, hb⟩
        refine ⟨⟨fun h => absurd h a1, ?_⟩, ⟨fun h => absurd h a2, fun h => absurd hs (h.2 bs)⟩, fun h => absurd h a1, a3⟩
        rintro (h | ⟨b, h, h2⟩)
        · exact absurd h hl
        · rw [huniq b h] at h2; exact absurd hb h2
      · rw [dif_neg hb]
        refine ⟨⟨fun _ => .inr ⟨bs, hs, hb⟩, fun _ => rfl⟩, ⟨fun h => (by cases h), fun h => absurd hs (h.2 bs)⟩, ?_, fun t h => (by cases h)⟩
        intro _ b hb2 he
        rw [huniq b he] at hb2; exact hb hb2

/-- What the messages say of the text. -/
inductive MsgSays (s : Bytes) : String → Prop
  | length : (∀ b, b.length = 65 → s ≠ B64.encode b) → MsgSays s "length not 65 bytes"
  | base64 : (∀ b, s ≠ B64.encode b) → MsgSays s "invalid base64"

theorem C121_message_messages {S : Crypto.Secp} {R : RecSecp S} (s : Bytes) (e : MessageSignatureErr) (m : String)
    (h : MessageSignature.fromBase64 (R := R) s = .error e) (hm : Crypto.Msg.messageSig e = some m) : MsgSays s m := by
  obtain ⟨_, h2, h3, h4⟩ := C121_message_base64 (R := R) s
  cases e with
  | invalidLength => cases hm; exact .length (h3 h)
  | invalidBase64 => cases hm; exact .base64 (h2.mp h).2
  | invalidEncoding => cases hm
  | unsupportedAddressType t => exact absurd h (h4 t)

/-- 88 characters that stand for 64 bytes. -/
example : MessageSignature.fromBase64 (R := RecSecp.toy) (B64.encode (List.replicate 64 7)) = .error .invalidLength :=
  (C121_message_base64 _).1.mpr (.inr ⟨_, rfl, by decide⟩)
example : MessageSignature.fromBase64 (R := RecSecp.toy) (List.replicate 88 0x21) = .error .invalidBase64 := by
  refine (C121_message_base64 _).2.1.mpr ⟨by decide, fun b h => ?_⟩
  have := B64.decode_encode b
  rw [← h] at this
  revert this
  rw [show B64.decode (List.replicate 88 0x21) = none by decide +kernel]
  intro h; cases h

/-- Checking an address: an address type is called unsupported exactly when it is that of the address and not P2PKH. -/
theorem C121_message_address {S : Crypto.Secp} {R : RecSecp S} (H160 : Bytes → Arr 20) (s : MessageSignature R) (a : Addr.Address) (h : Arr 32)
    (t : Addr.AddressType) : (s.isSignedByAddress H160 a h = .error (.unsupportedAddressType t) ↔ a.addressType = some t ∧ t ≠ .p2pkh) ∧
    (t = .p2wpkh → Crypto.Msg.messageSig (.unsupportedAddressType t) = some "unsupported address type: p2wpkh") ∧
    (t = .p2sh → Crypto.Msg.messageSig (.unsupportedAddressType t) = some "unsupported address type: p2sh") ∧
    (t = .p2wsh → Crypto.Msg.messageSig (.unsupportedAddressType t) = some "unsupported address type: p2wsh") ∧
    (t = .p2tr → Crypto.Msg.messageSig (.unsupportedAddressType t) = some "unsupported address type: p2tr") ∧
    (t = .p2a → Crypto.Msg.messageSig (.unsupportedAddressType t) = some "unsupported address type: p2a") := by
  refine ⟨?_, fun h => by subst h; decide +kernel, fun h => by subst h; decide +kernel, fun h => by subst h; decide +kernel,
    fun h => by subst h; decide +kernel, fun h => by subst h; decide +kernel⟩
  have hr : s.recoverPubkey h ≠ .error (.unsupportedAddressType t) := by
    unfold MessageSignature.recoverPubkey
    split <;> simp
  unfold MessageSignature.isSignedByAddress
  cases hat : a.addressType with
  | none => simp
  | some u =>
    cases u with
    | p2pkh =>
      simp only []
      constructor
      · intro h1
        split at h1
        · rename_i e he; cases h1; exact absurd he hr
        · cases h1
      · rintro ⟨h1, h2⟩; cases h1; exact absurd rfl h2
    | _ => simp [eq_comm]; try (intro h1; subst h1; simp)

example : toySig.isSignedByAddress (fun b => ⟨(b ++ List.replicate 20 0).take 20, by simp⟩) (.p2sh ⟨List.replicate 20 0, rfl⟩ .main) ⟨List.replicate 32 9, rfl⟩
    = .error (.unsupportedAddressType .p2sh) := (C121_message_address _ _ _ _ _).1.mpr ⟨rfl, by decide⟩

end SigErr
end Btc
