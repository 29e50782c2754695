import Verif.Props.C131
import Verif.Props.C36
/-!
# C132: the signature operations that are counted bound the signature checks that are made

The rules of evaluation are those of C128 and C129.
-/
namespace Btc
namespace Scr
namespace Core

/-- The number of signature checks in the loop of `OP_CHECKMULTISIG`. -/
def greedyCalls (chk : Bytes → Bytes → Bool) : List Bytes → List Bytes → Nat
  | _, [] => 0
  | [], _ :: _ => 0
  | k :: ks, s :: ss => 1 + if chk k s then greedyCalls chk ks ss else greedyCalls chk ks (s :: ss)

/-- The signature checks that `OP_CHECKMULTISIG` makes on a stack: none if it fails before the loop. -/
def multisigCalls (chk : Bytes → Bytes → Bool) : List Bytes → Nat
  | [] => 0
  | nb :: s =>
    match numOf nb with
    | none => 0
    | some n =>
      if 20 < n then 0
      else match s.drop n with
        | [] => 0
        | mb :: s' =>
          match numOf mb with
          | none => 0
          | some m => if n < m then 0 else greedyCalls chk (s.take n) (s'.take m)

/-- The signature checks that an opcode makes where it is executed. -/
def callsAt (chk : Bytes → Bytes → Bool) (op : UInt8) (s : List Bytes) : Nat :=
  if op = 0xac ∨ op = 0xad then (if 2 ≤ s.length then 1 else 0)
  else if op = 0xae ∨ op = 0xaf then multisigCalls chk s
  else 0

section
variable (tap one : Bool) (H160 : Bytes → Arr 20) (chk : Bytes → Bytes → Bool) (other : UInt8 → List Bytes → Option (List Bytes))
  (lock : UInt8 → List Bytes → Bool)

/-- The signature checks of an evaluation, up to its end or its failure. -/
def checks : List (UInt8 × Bytes) → St (List Bytes) → Nat
  | [], _ => 0
  | o :: os, t =>
    (if t.on = true then callsAt chk o.1 t.s else 0) +
      match step .legacy (std tap one H160 chk other lock) o t with
      | none => 0
      | some t' => checks os t'

theorem greedyCalls_le : ∀ ks ss : List Bytes, greedyCalls chk ks ss ≤ ks.length
  | _, [] => by unfold greedyCalls; omega
  | [], _ :: _ => by unfold greedyCalls; omega
  | k :: ks, s :: ss => by
    have h1 := greedyCalls_le ks ss
    have h2 := greedyCalls_le ks (s :: ss)
    unfold greedyCalls
    simp only [List.length_cons]
    split <;> omega

theorem multisigCalls_le (nb : Bytes) (s : List Bytes) : multisigCalls chk (nb :: s) ≤ 20 ∧ ∀ n, numOf nb = some n → multisigCalls chk (nb :: s) ≤ n := by
  unfold multisigCalls
  simp only []
  split
  · exact ⟨by omega, fun n h => by omega⟩
  · rename_i n hn
    have key : ∀ a : Nat, (20 < n → a = 0) → a ≤ n → a ≤ 20 ∧ ∀ n', numOf nb = some n' → a ≤ n' := by
      intro a h0 ha
      refine ⟨by omega, fun n' h' => ?_⟩
      rw [hn] at h'
      cases h'
      exact ha
    apply key
    · intro h
      rw [if_pos h]
    · split
      · omega
      · split
        · omega
        · split
          · omega
          · split
            · omega
            · have := greedyCalls_le chk (s.take n) (List.take ‹_› ‹_›)
              rw [List.length_take] at this
              omega

/-- After a number from `OP_1` to `OP_16` that was executed, it is on top of the stack. -/
def After (b : Option Instr) (t : St (List Bytes)) : Prop :=
  ∀ k : UInt8, b = some (.op k) → 0x51 ≤ k.toNat → k.toNat ≤ 0x60 → t.on = true → ∃ r, t.s = [UInt8.ofNat (k.toNat - 0x50)] :: r

theorem after_step {o : UInt8 × Bytes} {t t' : St (List Bytes)} (h : step .legacy (std tap one H160 chk other lock) o t = some t') :
    After (some (asInstr o)) t' := by
  intro k hk h1 h2 hon
  have e : o.1 = k := by
    unfold asInstr at hk
    split at hk
    · cases hk
    · cases hk; rfl
  subst e
  have ha : act .legacy o.1 = .num (o.1.toNat - 0x50 : Nat) := by
    unfold act
    simp only []
    rw [if_neg (by omega), if_pos ⟨h1, h2⟩]
  unfold step at h
  simp only [ha] at h
  split at h
  · cases h
  split at h
  · cases h
  split at h
  · cases h
  rw [if_neg (by omega)] at h
  by_cases ht : t.on = true
  · rw [if_pos (Or.inl ht)] at h
    obtain ⟨s', e, rfl⟩ := Option.map_eq_some_iff.1 h
    change lim _ = some s' at e
    unfold lim at e
    split at e
    · cases e
      refine ⟨t.s, ?_⟩
      show numBytes _ :: t.s = _
      unfold numBytes
      rw [if_neg (by omega)]
      rfl
    · cases e
  · rw [if_neg (by rintro (e | e); exact ht e; omega)] at h
    cases h
    exact absurd hon ht

/-- The weight of `OP_CHECKMULTISIG` after `b`. -/
def multiWeight (b : Option Instr) : Nat :=
  match b with
  | some (.op k) => if true = true ∧ 0x51 ≤ k.toNat ∧ k.toNat ≤ 0x60 then k.toNat - 0x50 else 20
  | _ => 20

theorem calls_le (b : Option Instr) (o : UInt8 × Bytes) (t : St (List Bytes)) (hb : After b t) (ht : t.on = true) :
    callsAt chk o.1 t.s ≤ sigWeight true b (asInstr o) := by
  unfold callsAt
  by_cases h1 : o.1 = 0xac ∨ o.1 = 0xad
  · rw [if_pos h1]
    have e : sigWeight true b (asInstr o) = 1 := by
      unfold asInstr
      rcases h1 with h1 | h1 <;> rw [h1] <;> rfl
    rw [e]
    split <;> omega
  · rw [if_neg h1]
    by_cases h2 : o.1 = 0xae ∨ o.1 = 0xaf
    · rw [if_pos h2]
      have e : sigWeight true b (asInstr o) = multiWeight b := by
        unfold asInstr
        rcases h2 with h2 | h2 <;> rw [h2] <;> rfl
      have h20 : multisigCalls chk t.s ≤ 20 := by
        cases t.s with
        | nil => exact Nat.zero_le 20
        | cons nb s => exact (multisigCalls_le chk nb s).1
      rw [e]
      unfold multiWeight
      split
      · rename_i k
        split
        · rename_i hk
          obtain ⟨r, hr⟩ := hb k rfl hk.2.1 hk.2.2 ht
          rw [hr]
          exact (multisigCalls_le chk _ r).2 _ (numOf_small _ (by omega) (by omega))
        · exact h20
      · exact h20
    · rw [if_neg h2]
      exact Nat.zero_le _

theorem checks_le : ∀ (os : List (UInt8 × Bytes)) (b : Option Instr) (t : St (List Bytes)), After b t →
    checks tap one H160 chk other lock os t ≤ (((b :: (os.map asInstr).map some).zip (os.map asInstr)).map fun x => sigWeight true x.1 x.2).sum
  | [], _, _, _ => by unfold checks; exact Nat.zero_le _
  | o :: os, b, t, hb => by
    unfold checks
    simp only [List.map_cons, List.zip_cons_cons, List.sum_cons]
    refine Nat.add_le_add ?_ ?_
    · split
      · rename_i ht
        exact calls_le chk b o t hb ht
      · exact Nat.zero_le _
    · split
      · exact Nat.zero_le _
      · rename_i t' h
        exact checks_le os (some (asInstr o)) t' (after_step tap one H160 chk other lock h)

theorem parse_ops (s : Bytes) : Parse s ((ops s).1.map asInstr) := by
  obtain ⟨is, h⟩ := C36_parse_exists s
  let f : Except ScrErr Instr → Option Instr := fun r => match r with | .ok i => some i | .error _ => none
  have hf : ∀ l : List Instr, (l.map Except.ok).filterMap f = l := by
    intro l
    induction l with
    | nil => rfl
    | cons i l ih =>
      show i :: (l.map Except.ok).filterMap f = _
      rw [ih]
  have e1 : (instructions s).filterMap f = is := by
    rcases parse_walk h with e | ⟨er, e⟩
    · rw [e, hf]
    · rw [e, List.filterMap_append, hf]
      show is ++ [] = is
      rw [List.append_nil]
  have e2 : (instructions s).filterMap f = (ops s).1.map asInstr := by
    rw [C130_instructions, List.filterMap_append, show (ops s).1.map (fun o => Except.ok (asInstr o)) = ((ops s).1.map asInstr).map (Except.ok (ε := ScrErr)) by
      rw [List.map_map]; rfl, hf]
    cases (ops s).2 <;> simp [f]
  rw [← e2, e1]
  exact h

/-- Whatever the stack and whichever branches are taken, evaluating a script makes no more signature checks than `count_sigops` counts, and
`count_sigops_legacy` counts at least as many. -/
theorem C132_checks (s : Bytes) (x : List Bytes) :
    checks tap one H160 chk other lock (ops s).1 ⟨x, [], 0⟩ ≤ countSigops s ∧ countSigops s ≤ countSigopsLegacy s := by
  refine ⟨?_, (C36_bounds s).1⟩
  rw [(C36_scripts s _ (parse_ops s)).1]
  exact checks_le tap one H160 chk other lock _ none _ nofun

/-- The same for the script that a pay to script hash input runs, which evaluation of the script signature leaves on top of the stack; this includes script
signatures that end in a number. -/
theorem C132_p2sh (spk sig : Bytes) (hs : isP2sh spk = true) (hp : isPushOnly sig = true) (r : Bytes) (y : List Bytes)
    (h : leaves (std tap one H160 chk other lock) sig [] = some (r :: y)) :
    checks tap one H160 chk other lock (ops r).1 ⟨y, [], 0⟩ ≤ inputP2shSigops spk sig := by
  have hc := (C132_checks tap one H160 chk other lock r y).1
  obtain ⟨h1, -⟩ := (C131_push_only sig).1 hp
  obtain ⟨vs, hv, hl, -, e⟩ := (C131_push_only_effect tap one H160 chk other lock sig hp [] _).1 h
  rw [List.append_nil] at e
  have ev : vs = y.reverse ++ [r] := by
    have := congrArg List.reverse e
    rw [List.reverse_reverse, List.reverse_cons] at this
    exact this.symm
  have hr : r.length ≤ 520 := hl r (by rw [ev]; simp)
  have hlast := congrArg List.getLast? hv
  rw [List.getLast?_map, List.getLast?_map, ev, List.getLast?_concat] at hlast
  obtain ⟨o, ho, hov⟩ := Option.map_eq_some_iff.1 hlast
  have hp' : lastPushdata sig = match asInstr o with | .push b => some b | _ => none := by
    unfold lastPushdata
    rw [C130_instructions, h1]
    simp only [if_true, List.append_nil]
    rw [List.getLast?_map, ho]
    simp only [Option.map_some]
    cases asInstr o <;> rfl
  unfold inputP2shSigops
  rw [if_pos hs, hp']
  unfold valueOf at hov
  unfold asInstr
  split at hov
  · rename_i hle
    rw [if_pos hle]
    cases hov
    have := (C36_bounds o.2).1
    have := (C36_bounds o.2).2
    unfold satAdd
    simp only []
    omega
  · rename_i hle
    rw [if_neg hle]
    have z : countSigops r = 0 := by
      split at hov
      · cases hov; decide
      · split at hov
        · rename_i hk
          cases hov
          have : ∀ k, k ≤ 16 → countSigops [UInt8.ofNat k] = 0 := by decide
          exact this _ (by omega)
        · cases hov
    simp only []
    omega

/-- The same for the scripts of version 0 witness programs: the one that a key hash stands for, and the one that is the last element of the witness. -/
theorem C132_witness (w : Wit) (ws : List Bytes) (hw : Holds w ws) :
    (∀ (h : Arr 20) (x : List Bytes), ∃ n, witnessProgramSigops w (newP2wpkh h) = some n ∧
      checks tap one H160 chk other lock (ops (newP2pkh h)).1 ⟨x, [], 0⟩ ≤ n) ∧
    (∀ (h : Arr 32) (script : Bytes) (x : List Bytes), ws.getLast? = some script → ∃ n, witnessProgramSigops w (newP2wsh h) = some n ∧
      checks tap one H160 chk other lock (ops script).1 ⟨x, [], 0⟩ ≤ n) := by
  constructor
  · intro h x
    refine ⟨1, ?_, ?_⟩
    · rw [program_eq hw]
      unfold programCost
      rw [if_pos (C35_constructors.2.2.2.1 h).1]
    · have hc := (C132_checks tap one H160 chk other lock (newP2pkh h) x).1
      have e : countSigops (newP2pkh h) = 1 := by
        rw [(C36_scripts _ _ (parse_ops _)).1, ops_p2pkh]
        rfl
      rwa [e] at hc
  · intro h script x hl
    refine ⟨countSigops script, ?_, (C132_checks tap one H160 chk other lock script x).1⟩
    obtain ⟨h1, h2⟩ := C35_constructors.2.2.2.2.1 h
    have h3 : ¬ recognises .p2wpkh (newP2wsh h) = true := by
      show ¬ isP2wpkh (newP2wsh h) = true
      rw [h2]
      unfold isP2wpkh
      simp [h.2]
    rw [program_eq hw]
    unfold programCost
    rw [if_neg h3, if_pos h1]
    have : ws.reverse[0]? = some script := by
      rw [← List.head?_eq_getElem?, List.head?_reverse, hl]
    rw [this]
    rfl
end

/-- The count is reached: two of three keys, the first signature being for the last two keys to be tried. -/
example : checks false false (fun _ => ⟨List.replicate 20 0, rfl⟩) (fun k s => decide (k = s)) (fun _ _ => none) (fun _ _ => true)
    (ops [0x52, 1, 7, 1, 8, 1, 9, 0x53, 0xae]).1 ⟨[[8], [7], []], [], 0⟩ = 3 ∧ countSigops [0x52, 1, 7, 1, 8, 1, 9, 0x53, 0xae] = 3 ∧
    countSigopsLegacy [0x52, 1, 7, 1, 8, 1, 9, 0x53, 0xae] = 20 := by decide +kernel
example : isP2sh (newP2sh ⟨List.replicate 20 7, rfl⟩) = true ∧ isPushOnly [1, 7, 1, 7, 1, 0xac] = true ∧
    leaves (sample false) [1, 7, 1, 7, 1, 0xac] [] = some [[0xac], [7], [7]] ∧
    inputP2shSigops (newP2sh ⟨List.replicate 20 7, rfl⟩) [1, 7, 1, 7, 1, 0xac] = 1 := by decide +kernel
example : Holds (Wit.ofList [[7], [0xac]]) [[7], [0xac]] ∧ [[7], [(0xac : UInt8)]].getLast? = some [0xac] :=
  ⟨⟨rfl, WitFits.offsets (by unfold WitFits; decide), by decide⟩, rfl⟩

end Core
end Scr
end Btc
