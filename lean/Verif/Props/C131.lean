import Verif.Props.C130
/-!
# C131: what the library says about a script is what verification finds

The rules of evaluation are those of C128 and C129.
-/
namespace Btc
namespace Scr
namespace Core
open SignTx (Matches)

/-- Opcodes above the pushes carry no data. -/
theorem ops_data {s : Bytes} {o : UInt8 × Bytes} (h : o ∈ (ops s).1) (h1 : 0x4e < o.1.toNat) : o.2 = [] := by
  obtain ⟨ps, rest, es, hps, hend⟩ := C33_tiles false s
  have ho := ops_tiles rest ps (fun x hx => (hps x hx).1)
  rw [← es] at ho
  have hr : (ops rest).1 = [] := by
    rcases hend with ⟨hr, -⟩ | ⟨er, hs, -⟩
    · rw [hr]; rfl
    · obtain ⟨h0, ⟨-, hn⟩ | ⟨-, hc, -⟩ | ⟨-, hc, -⟩⟩ := hs
      · rw [ops_stuck h0 hn]
      · cases hc
      · cases hc
  rw [ho, hr, List.append_nil] at h
  obtain ⟨x, hx, rfl⟩ := List.mem_map.1 h
  obtain ⟨p, i⟩ := x
  have he := (hps _ hx).1
  simp only [] at he
  cases he with
  | direct d h =>
    have hn : (UInt8.ofNat d.length).toNat = d.length := UInt8.toNat_ofNat_of_lt' (by show d.length < 256; omega)
    have : 0x4e < (UInt8.ofNat d.length).toNat := h1
    omega
  | pushdata1 d h => exact absurd h1 (by show ¬ 78 < 76; decide)
  | pushdata2 d h => exact absurd h1 (by show ¬ 78 < 77; decide)
  | pushdata4 d h => exact absurd h1 (by show ¬ 78 < 78; decide)
  | op o h => rfl

/-! ## Push-only scripts -/

/-- `is_push_only` is the rule of consensus (`CScript::IsPushOnly`): the script can be read to its end and no opcode is above `OP_16`. -/
theorem C131_push_only (s : Bytes) : isPushOnly s = true ↔ (ops s).2 = true ∧ ∀ o ∈ (ops s).1, o.1.toNat ≤ 0x60 := by
  unfold isPushOnly
  rw [C130_instructions, List.all_append, Bool.and_eq_true, List.all_map, List.all_eq_true]
  have hone : ∀ o : UInt8 × Bytes, ((fun r : Except ScrErr Instr => match r with | .error _ => false | .ok (.push _) => true | .ok (.op o) => decide (o ≤ 0x60)) ∘
      fun o => Except.ok (asInstr o)) o = true ↔ o.1.toNat ≤ 0x60 := by
    intro o
    simp only [Function.comp_apply, asInstr]
    by_cases h : o.1.toNat ≤ 0x4e
    · rw [if_pos h]
      exact ⟨fun _ => by omega, fun _ => rfl⟩
    · rw [if_neg h]
      simp only [decide_eq_true_iff, UInt8.le_iff_toNat_le]
      rfl
  constructor
  · rintro ⟨h1, h2⟩
    refine ⟨?_, fun o ho => (hone o).1 (h1 o ho)⟩
    cases h : (ops s).2 with
    | true => rfl
    | false => rw [h] at h2; cases h2
  · rintro ⟨h1, h2⟩
    exact ⟨fun o ho => (hone o).2 (h2 o ho), by rw [h1]; rfl⟩

/-- The stack a script leaves. -/
def leaves {σ : Type} (M : Machine σ) (script : Bytes) (x : σ) : Option σ :=
  match run .legacy M (ops script).1 ⟨x, [], 0⟩ with
  | none => none
  | some t => if (ops script).2 = true ∧ t.cond = [] then some t.s else none

/-- What an opcode up to `OP_16` pushes; `OP_RESERVED` is not executed. -/
def valueOf (o : UInt8 × Bytes) : Option Bytes :=
  if o.1.toNat ≤ 0x4e then some o.2
  else if o.1.toNat = 0x4f then some [0x81]
  else if 0x51 ≤ o.1.toNat ∧ o.1.toNat ≤ 0x60 then some [UInt8.ofNat (o.1.toNat - 0x50)]
  else none

section
variable (tap one : Bool) (H160 : Bytes → Arr 20) (chk : Bytes → Bytes → Bool) (other : UInt8 → List Bytes → Option (List Bytes))
  (lock : UInt8 → List Bytes → Bool)

theorem step_value (o : UInt8 × Bytes) (h : o.1.toNat ≤ 0x60) (hd : 0x4e < o.1.toNat → o.2 = []) (x : List Bytes) :
    step .legacy (std tap one H160 chk other lock) o ⟨x, [], 0⟩ = (valueOf o).bind fun v =>
      if v.length ≤ 520 ∧ x.length < 1000 then some ⟨v :: x, [], 0⟩ else none := by
  have hM := numPush_std tap one H160 chk other lock
  have hp : ∀ v, Pushes .legacy (std tap one H160 chk other lock) v o → step .legacy (std tap one H160 chk other lock) o ⟨x, [], 0⟩ =
      if v.length ≤ 520 ∧ x.length < 1000 then some ⟨v :: x, [], 0⟩ else none := by
    intro v hv
    rw [hv ⟨x, [], 0⟩ (fun _ => by show 0 ≤ 201; omega), if_pos (show St.on ⟨x, [], 0⟩ = true from rfl)]
    by_cases h1 : 520 < v.length
    · rw [if_pos h1, if_neg (by omega)]
    · rw [if_neg h1]
      show (lim (v :: x)).map _ = _
      unfold lim
      by_cases h2 : x.length < 1000
      · rw [if_pos (by simp only [List.length_cons]; omega), if_pos ⟨by omega, h2⟩]; rfl
      · rw [if_neg (by simp only [List.length_cons]; omega), if_neg (by omega)]; rfl
  obtain ⟨op, d⟩ := o
  simp only [] at h hd
  unfold valueOf
  simp only []
  by_cases h1 : op.toNat ≤ 0x4e
  · rw [if_pos h1]
    exact hp d (pushes_data _ _ d op h1)
  · rw [if_neg h1]
    obtain rfl := hd (by omega)
    by_cases h2 : op.toNat = 0x4f
    · rw [if_pos h2]
      exact hp _ (pushes_num _ _ hM (-1) op (by unfold act; simp only [h2]; rfl) (by omega) (by omega))
    · rw [if_neg h2]
      by_cases h3 : 0x51 ≤ op.toNat
      · rw [if_pos ⟨h3, h⟩]
        have := pushes_num .legacy _ hM (op.toNat - 0x50 : Nat) op (by
          unfold act
          simp only []
          rw [if_neg (by omega), if_pos ⟨h3, h⟩]) (by omega) h
        have e' : numBytes (op.toNat - 0x50 : Nat) = [UInt8.ofNat (op.toNat - 0x50)] := by
          unfold numBytes
          rw [if_neg (by omega)]
          rfl
        rw [e'] at this
        exact hp _ this
      · rw [if_neg (fun e => h3 e.1)]
        have e : op = 0x50 := UInt8.toNat_inj.1 (by show op.toNat = 0x50; omega)
        rw [e]
        rfl

theorem run_values : ∀ (os : List (UInt8 × Bytes)) (_ : ∀ o ∈ os, o.1.toNat ≤ 0x60 ∧ (0x4e < o.1.toNat → o.2 = [])) (x : List Bytes) (t : St (List Bytes)),
    run .legacy (std tap one H160 chk other lock) os ⟨x, [], 0⟩ = some t ↔
      ∃ vs, os.map valueOf = vs.map some ∧ (∀ v ∈ vs, v.length ≤ 520) ∧ (vs ≠ [] → x.length + vs.length ≤ 1000) ∧ t = ⟨vs.reverse ++ x, [], 0⟩
  | [], _, x, t => by
    constructor
    · intro h
      cases h
      exact ⟨[], rfl, nofun, fun e => absurd rfl e, rfl⟩
    · rintro ⟨vs, h1, -, -, rfl⟩
      cases vs with
      | nil => rfl
      | cons v vs => cases h1
  | o :: os, hos, x, t => by
    have ho := hos o (List.mem_cons_self ..)
    have ih := run_values os (fun p hp => hos p (List.mem_cons_of_mem _ hp))
    rw [run, step_value tap one H160 chk other lock o ho.1 ho.2]
    cases hv : valueOf o with
    | none =>
      constructor
      · intro h; cases h
      · rintro ⟨vs, h1, -⟩
        rw [List.map_cons, hv] at h1
        cases vs <;> cases h1
    | some v =>
      simp only [Option.bind_some]
      by_cases hc : v.length ≤ 520 ∧ x.length < 1000
      · rw [if_pos hc, Option.bind_some, ih (v :: x) t]
        constructor
        · rintro ⟨vs, h1, h2, h3, h4⟩
          refine ⟨v :: vs, by rw [List.map_cons, hv, h1]; rfl, ?_, ?_, ?_⟩
          · intro w hw
            rcases List.mem_cons.1 hw with rfl | hw
            · exact hc.1
            · exact h2 w hw
          · intro _
            simp only [List.length_cons] at h3 ⊢
            by_cases e : vs = []
            · subst e; simp only [List.length_nil]; omega
            · have := h3 e; omega
          · rw [h4]; simp
        · rintro ⟨vs, h1, h2, h3, h4⟩
          rw [List.map_cons, hv] at h1
          cases vs with
          | nil => cases h1
          | cons w vs =>
            simp only [List.map_cons, List.cons.injEq, Option.some.injEq] at h1
            obtain ⟨rfl, h1⟩ := h1
            refine ⟨vs, h1, fun u hu => h2 u (List.mem_cons_of_mem _ hu), ?_, by rw [h4]; simp⟩
            intro _
            have := h3 nofun
            simp only [List.length_cons] at this ⊢
            omega
      · rw [if_neg hc]
        constructor
        · intro h; cases h
        · rintro ⟨vs, h1, h2, h3, -⟩
          rw [List.map_cons, hv] at h1
          cases vs with
          | nil => cases h1
          | cons w vs =>
            simp only [List.map_cons, List.cons.injEq, Option.some.injEq] at h1
            obtain ⟨rfl, h1⟩ := h1
            have h3 := h3 nofun
            simp only [List.length_cons] at h3
            exact absurd ⟨h2 v (List.mem_cons_self ..), by omega⟩ hc

/-- Evaluating a push-only script puts the values of its opcodes on the stack, in order, and nothing else; it fails only because of `OP_RESERVED`, a value of
more than 520 bytes, or a stack of more than a thousand elements. -/
theorem C131_push_only_effect (s : Bytes) (h : isPushOnly s = true) (x y : List Bytes) :
    leaves (std tap one H160 chk other lock) s x = some y ↔
      ∃ vs, (ops s).1.map valueOf = vs.map some ∧ (∀ v ∈ vs, v.length ≤ 520) ∧ (vs ≠ [] → x.length + vs.length ≤ 1000) ∧ y = vs.reverse ++ x := by
  obtain ⟨h1, h2⟩ := (C131_push_only s).1 h
  have hr := run_values tap one H160 chk other lock (ops s).1 (fun o ho => ⟨h2 o ho, ops_data ho⟩) x
  unfold leaves
  constructor
  · intro h
    split at h
    · cases h
    · rename_i t ht
      obtain ⟨vs, a, b, c, rfl⟩ := (hr t).1 ht
      rw [if_pos ⟨h1, rfl⟩] at h
      cases h
      exact ⟨vs, a, b, c, rfl⟩
  · rintro ⟨vs, a, b, c, rfl⟩
    rw [(hr _).2 ⟨vs, a, b, c, rfl⟩]
    exact if_pos ⟨h1, rfl⟩

/-! ## Redeem scripts -/

/-- What `redeem_script` requires. -/
theorem redeem_iff (s r : Bytes) : redeemScript s = some r ↔
    (ops s).2 = true ∧ (∀ o ∈ (ops s).1, o.1.toNat ≤ 0x4e) ∧ ∃ o, (ops s).1.getLast? = some o ∧ o.2 = r := by
  rw [C35_redeem_script, C130_instructions]
  constructor
  · rintro ⟨ds, e⟩
    have h2 : (ops s).2 = true := by
      cases h : (ops s).2 with
      | true => rfl
      | false =>
        rw [h] at e
        have : (Except.error ScrErr.earlyEndOfScript : Except ScrErr Instr) ∈ ((ds ++ [r]).map Instr.push).map Except.ok := by
          rw [← e]; simp
        obtain ⟨i, -, hi⟩ := List.mem_map.1 this
        cases hi
    rw [h2] at e
    simp only [if_true, List.append_nil] at e
    refine ⟨h2, ?_, ?_⟩
    · intro o ho
      have : (Except.ok (asInstr o) : Except ScrErr Instr) ∈ ((ds ++ [r]).map Instr.push).map Except.ok := by
        rw [← e]; exact List.mem_map.2 ⟨o, ho, rfl⟩
      obtain ⟨i, hi, hi'⟩ := List.mem_map.1 this
      obtain ⟨d, -, rfl⟩ := List.mem_map.1 hi
      cases Nat.lt_or_ge 0x4e o.1.toNat with
      | inr h => exact h
      | inl h =>
        rw [asInstr, if_neg (by omega)] at hi'
        cases hi'
    · have hl := congrArg List.getLast? e
      rw [List.getLast?_map, List.map_append, List.map_append, List.map_cons, List.map_cons, List.map_nil, List.map_nil, List.getLast?_concat] at hl
      obtain ⟨o, ho, ho'⟩ := Option.map_eq_some_iff.1 hl
      refine ⟨o, ho, ?_⟩
      rw [asInstr] at ho'
      split at ho'
      · cases ho'; rfl
      · cases ho'
  · rintro ⟨h2, hall, o, ho, rfl⟩
    obtain ⟨os, e⟩ := List.getLast?_eq_some_iff.1 ho
    refine ⟨os.map Prod.snd, ?_⟩
    rw [h2, e]
    simp only [if_true, List.append_nil, List.map_append, List.map_map, List.map_cons, List.map_nil]
    congr 1
    · apply List.map_congr_left
      intro p hp
      have := hall p (by rw [e]; simp [hp])
      simp only [Function.comp_apply]
      rw [asInstr, if_pos this]
    · rw [asInstr, if_pos (hall o (by rw [e]; simp))]

/-- The claim would be: `redeem_script` of a push-only script signature is the script that BIP-16 evaluates, the element that evaluation leaves on top.  What it
returns is that; it returns it exactly if no number is pushed by an opcode of its own. -/
theorem C131_redeem_script_partial (s : Bytes) :
    (∀ r, redeemScript s = some r → isPushOnly s = true ∧ ∀ y, leaves (std tap one H160 chk other lock) s [] = some y → y.head? = some r) ∧
    (isPushOnly s = true → ∀ r y, leaves (std tap one H160 chk other lock) s [] = some (r :: y) →
      (redeemScript s = some r ↔ ∀ o ∈ (ops s).1, ¬ (o.1 = 0x4f ∨ 0x51 ≤ o.1.toNat ∧ o.1.toNat ≤ 0x60))) := by
  have top : ∀ r y, isPushOnly s = true → (∀ o ∈ (ops s).1, o.1.toNat ≤ 0x4e) → leaves (std tap one H160 chk other lock) s [] = some y →
      ((∃ o, (ops s).1.getLast? = some o ∧ o.2 = r) ↔ y.head? = some r) := by
    intro r y hp hall hy
    obtain ⟨vs, h1, -, -, rfl⟩ := (C131_push_only_effect tap one H160 chk other lock s hp [] y).1 hy
    have hm : (ops s).1.map Prod.snd = vs := by
      have : (ops s).1.map valueOf = ((ops s).1.map Prod.snd).map some := by
        rw [List.map_map]
        apply List.map_congr_left
        intro o ho
        exact if_pos (hall o ho)
      rw [this] at h1
      exact (List.map_inj_right (fun _ _ e => Option.some.inj e)).1 h1
    rw [List.append_nil, List.head?_reverse, ← hm, List.getLast?_map, Option.map_eq_some_iff]
  constructor
  · intro r hr
    obtain ⟨h1, h2, h3⟩ := (redeem_iff s r).1 hr
    have hp := (C131_push_only s).2 ⟨h1, fun o ho => by have := h2 o ho; omega⟩
    exact ⟨hp, fun y hy => (top r y hp h2 hy).1 h3⟩
  · intro hp r y hy
    obtain ⟨g1, g2⟩ := (C131_push_only s).1 hp
    constructor
    · intro hr o ho hc
      have := ((redeem_iff s r).1 hr).2.1 o ho
      rcases hc with e | hc
      · rw [e] at this; exact absurd this (by decide)
      · omega
    · intro hall
      have hall' : ∀ o ∈ (ops s).1, o.1.toNat ≤ 0x4e := by
        intro o ho
        obtain ⟨vs, h1, -⟩ := (C131_push_only_effect tap one H160 chk other lock s hp [] _).1 hy
        have h60 := g2 o ho
        have hno := hall o ho
        have hv : valueOf o ∈ vs.map some := by rw [← h1]; exact List.mem_map.2 ⟨o, ho, rfl⟩
        obtain ⟨v, -, hv⟩ := List.mem_map.1 hv
        unfold valueOf at hv
        split at hv
        · assumption
        · split at hv
          · rename_i e
            exact absurd (.inl (UInt8.toNat_inj.1 e)) hno
          · split at hv
            · rename_i e
              exact absurd (.inr e) hno
            · cases hv
      exact (redeem_iff s r).2 ⟨g1, hall', (top r _ hp hall' hy).2 rfl⟩
end

/-- A valid spend without redeem script: `OP_1`, a push of `OP_VERIFY OP_1`; for pay to script hash of that. -/
theorem C131_redeem_script_fails : ∃ s r y : _, isPushOnly s = true ∧ leaves (sample false) s [] = some (r :: y) ∧
    eval .legacy (sample false) (newP2sh ⟨List.replicate 20 0, rfl⟩) (r :: y) = true ∧ eval .legacy (sample false) r y = true ∧ redeemScript s = none :=
  ⟨[0x51, 2, 0x69, 0x51], [0x69, 0x51], [[1]], by decide +kernel⟩

example : isPushOnly [2, 7, 8, 2, 0x69, 0x51] = true ∧ leaves (sample false) [2, 7, 8, 2, 0x69, 0x51] [] = some [[0x69, 0x51], [7, 8]] ∧
    redeemScript [2, 7, 8, 2, 0x69, 0x51] = some [0x69, 0x51] := by decide +kernel

/-! ## Witness programs -/

/-- `witness_version` is the version of the witness program that consensus sees in the script. -/
theorem C131_witness_version (s : Bytes) : witnessVersion s = (asProgram s).map fun p => UInt8.ofNat p.1 := by
  have ver : ∀ b : UInt8, witnessVersionFromOp b = if b = 0 ∨ 0x51 ≤ b.toNat ∧ b.toNat ≤ 0x60 then some (UInt8.ofNat (b.toNat - 0x50)) else none := by
    set_option maxRecDepth 8000 in exact forall_u8 (by decide +kernel)
  unfold witnessVersion
  match s with
  | [] => rfl
  | [_] => rfl
  | v :: l :: p =>
    simp only [asProgram, List.length_cons, ver, UInt8.lt_iff_toNat_lt, gt_iff_lt, show (0x02 : UInt8).toNat = 2 from rfl,
      show (0x28 : UInt8).toNat = 40 from rfl]
    by_cases hl : l.toNat = p.length ∧ 2 ≤ p.length ∧ p.length ≤ 40
    · rw [if_neg (by omega), if_neg (by omega), if_neg (by omega)]
      by_cases hv : v = 0 ∨ 0x51 ≤ v.toNat ∧ v.toNat ≤ 0x60
      · rw [if_pos hv, if_pos ⟨hv, hl⟩]; rfl
      · rw [if_neg hv, if_neg (fun e => hv e.1)]; rfl
    · rw [if_neg (c := _ ∧ _) (fun e => hl e.2)]
      split
      · rfl
      · split
        · rfl
        · split
          · rfl
          · omega

example : witnessVersion [0x52, 2, 7, 8] = some 2 ∧ asProgram [0x52, 2, 7, 8] = some (2, [7, 8]) ∧ asProgram [0x52, 2, 7] = none := by decide +kernel

/-! ## Templates -/

section
variable (one : Bool) (H160 : Bytes → Arr 20) (chk : Bytes → Bytes → Bool) (other : UInt8 → List Bytes → Option (List Bytes))
  (lock : UInt8 → List Bytes → Bool)

/-- Scripts that are recognised as a template can be spent exactly under the condition of the template. -/
theorem C131_templates (s : Bytes) (x : List Bytes) :
    (isP2pkh s = true → ∃ h : Arr 20, s = newP2pkh h ∧ (eval .legacy (std false one H160 chk other lock) s x = true ↔
      ∃ pk sig rest, x = pk :: sig :: rest ∧ H160 pk = h ∧ chk pk sig = true ∧ Below one 996 rest)) ∧
    (∀ k, p2pkPubkeyBytes s = some k → (eval .legacy (std false one H160 chk other lock) s x = true ↔
      ∃ sig rest, x = sig :: rest ∧ chk k sig = true ∧ Below one 998 rest)) ∧
    (isP2sh s = true → ∃ h : Arr 20, s = newP2sh h ∧ (eval .legacy (std false one H160 chk other lock) s x = true ↔
      ∃ redeem rest, x = redeem :: rest ∧ H160 redeem = h ∧ Below one 998 rest)) ∧
    (isOpReturn s = true → eval .legacy (std false one H160 chk other lock) s x = false) := by
  refine ⟨?_, ?_, ?_, ?_⟩
  · intro h
    obtain ⟨h, hl, e⟩ := (p2pkh_iff s).1 h
    have e' : s = newP2pkh ⟨h, hl⟩ := e.trans (C35_constructors.2.1 ⟨h, hl⟩).2.symm
    refine ⟨⟨h, hl⟩, e', ?_⟩
    rw [e']
    exact C129_p2pkh one H160 chk other lock ⟨h, hl⟩ x
  · intro k hk
    have hl : k.length = 33 ∨ k.length = 65 := by
      rcases (p2pkBytes_iff s k).1 hk with ⟨h, -⟩ | ⟨h, -⟩
      · exact .inl h
      · exact .inr h
    have e' : s = newP2pk k := by
      have h1 := (p2pkBytes_iff s k).1 hk
      have h2 := (p2pkBytes_iff _ k).1 (C35_constructors.1 k hl).2
      rcases h1 with ⟨a, e⟩ | ⟨a, e⟩ <;> rcases h2 with ⟨b, e2⟩ | ⟨b, e2⟩
      · rw [e, e2]
      · omega
      · omega
      · rw [e, e2]
    rw [e']
    exact C129_p2pk one H160 chk other lock k hl x
  · intro h
    obtain ⟨h, hl, e⟩ := (p2sh_iff s).1 h
    have e' : s = newP2sh ⟨h, hl⟩ := e.trans (C35_constructors.2.2.1 ⟨h, hl⟩).2.symm
    refine ⟨⟨h, hl⟩, e', ?_⟩
    rw [e']
    exact C129_p2sh one H160 chk other lock ⟨h, hl⟩ x
  · intro h
    apply C128_unspendable
    obtain ⟨t, e⟩ := (opReturn_iff _).1 h
    rw [e]
    rfl

theorem pushes_of : ∀ (kos : List (UInt8 × Bytes)), (∀ o ∈ kos, o.1.toNat ≤ 0x4e) →
    kos.filterMap (fun o => if o.1.toNat ≤ 0x4e then some o.2 else none) = kos.map Prod.snd
  | [], _ => rfl
  | o :: kos, h => by
    rw [List.filterMap_cons]
    simp only [h o (List.mem_cons_self ..), if_true]
    rw [pushes_of kos (fun p hp => h p (List.mem_cons_of_mem _ hp)), List.map_cons]

/-- So can scripts that are recognised as multisignature scripts, however the keys are pushed; if a key has more than 520 bytes they cannot be spent. -/
theorem C131_multisig (s : Bytes) (h : isMultisig true s = some true) (x : List Bytes) (hx : x.length ≤ 982) :
    ∃ (m : Nat) (keys : List Bytes), 1 ≤ m ∧ m ≤ keys.length ∧ keys.length ≤ 16 ∧ keys = (ops s).1.filterMap (fun o => if o.1.toNat ≤ 0x4e then some o.2 else none) ∧
      (ops s).1.head? = some (UInt8.ofNat (0x50 + m), []) ∧
      (eval .legacy (std false one H160 chk other lock) s x = true ↔ (∀ k ∈ keys, k.length ≤ 520) ∧
        ∃ sigs rest, x = sigs.reverse ++ [] :: rest ∧ sigs.length = m ∧ Matches (fun k s => chk k s = true) keys sigs ∧ (one = true → rest = [])) := by
  obtain ⟨m, n, keys, h1, h2, h3, hl, hi⟩ := (multisig_iff s).1 h
  rw [C130_instructions] at hi
  have hc : (ops s).2 = true := by
    cases h : (ops s).2 with
    | true => rfl
    | false =>
      rw [h] at hi
      have hm : (Except.error ScrErr.earlyEndOfScript : Except ScrErr Instr) ∈ (List.map Except.ok ([Instr.op (0x50 + m)] ++ keys.map Instr.push ++ [Instr.op (0x50 + n), .op 0xae])) := by
        rw [← hi]; simp
      obtain ⟨i, -, hi⟩ := List.mem_map.1 hm
      cases hi
  rw [hc] at hi
  simp only [if_true, List.append_nil] at hi
  have hi : (ops s).1.map asInstr = [Instr.op (0x50 + m)] ++ keys.map Instr.push ++ [Instr.op (0x50 + n), .op 0xae] := by
    have : ((ops s).1.map asInstr).map (Except.ok (ε := ScrErr)) = ([Instr.op (0x50 + m)] ++ keys.map Instr.push ++ [Instr.op (0x50 + n), .op 0xae]).map .ok := by
      rw [← hi, List.map_map]; rfl
    exact (List.map_inj_right (fun _ _ e => Except.ok.inj e)).1 this
  have small : ∀ k : UInt8, k.toNat ≤ 16 → (0x50 + k).toNat = 0x50 + k.toNat ∧ 0x50 + k = UInt8.ofNat (0x50 + k.toNat) := by
    set_option maxRecDepth 8000 in exact forall_u8 (by decide +kernel)
  have opI : ∀ o ∈ (ops s).1, ∀ k, asInstr o = .op k → o = (k, []) := by
    intro o ho k hk
    unfold asInstr at hk
    split at hk
    · cases hk
    · cases hk
      exact Prod.ext rfl (ops_data ho (by omega))
  obtain ⟨om, os1, e1, hom, hi⟩ := List.map_eq_cons_iff.1 (show List.map asInstr (ops s).1 = Instr.op (0x50 + m) :: (keys.map Instr.push ++ [Instr.op (0x50 + n), .op 0xae]) from hi)
  obtain ⟨kos, os2, e2, hk, hi⟩ := List.map_eq_append_iff.1 hi
  obtain ⟨on, os3, e3, hon, hi⟩ := List.map_eq_cons_iff.1 hi
  obtain ⟨oc, os4, e4, hoc, hi⟩ := List.map_eq_cons_iff.1 hi
  obtain rfl := List.map_eq_nil_iff.1 hi
  subst e4 e3 e2
  have g1 := opI om (by rw [e1]; simp) _ hom
  have g2 := opI on (by rw [e1]; simp) _ hon
  have g3 := opI oc (by rw [e1]; simp) _ hoc
  have hkos : (∀ o ∈ kos, o.1.toNat ≤ 0x4e) ∧ kos.map Prod.snd = keys := by
    have key : ∀ o ∈ kos, o.1.toNat ≤ 0x4e := by
      intro o ho
      have : asInstr o ∈ keys.map Instr.push := by rw [← hk]; exact List.mem_map.2 ⟨o, ho, rfl⟩
      obtain ⟨d, -, hd⟩ := List.mem_map.1 this
      unfold asInstr at hd
      split at hd
      · assumption
      · cases hd
    refine ⟨key, ?_⟩
    have : (kos.map Prod.snd).map Instr.push = keys.map Instr.push := by
      rw [← hk, List.map_map]
      apply List.map_congr_left
      intro o ho
      exact (if_pos (key o ho)).symm
    exact (List.map_inj_right (fun _ _ e => Instr.push.inj e)).1 this
  have hm' := small m (by omega)
  have hn' := small n (by omega)
  have ho : ops s = ((UInt8.ofNat (0x50 + m.toNat), []) :: (kos ++ [(UInt8.ofNat (0x50 + keys.length), []), (0xae, [])]), true) := by
    rw [hl, ← hm'.2, ← hn'.2, ← g1, ← g2, ← g3]
    exact Prod.ext e1 hc
  refine ⟨m.toNat, keys, h1, by omega, by omega, ?_, by rw [ho]; rfl, ?_⟩
  · rw [e1, g1, g2, g3]
    have hf : kos.filterMap (fun o => if o.1.toNat ≤ 0x4e then some o.2 else none) = keys := by
      rw [← hkos.2]
      exact pushes_of kos hkos.1
    rw [List.filterMap_cons_none (by show (if (0x50 + m).toNat ≤ 0x4e then _ else _) = _; rw [if_neg (by omega)]), List.filterMap_append, hf,
      List.filterMap_cons_none (by show (if (0x50 + n).toNat ≤ 0x4e then _ else _) = _; rw [if_neg (by omega)])]
    simp
  · by_cases hall : ∀ k ∈ keys, k.length ≤ 520
    · rw [multisig_ops one H160 chk other lock m.toNat kos keys hkos.2 h1 (by omega) (by omega) (fun o ho =>
        ⟨hkos.1 o ho, hall _ (by rw [← hkos.2]; exact List.mem_map.2 ⟨o, ho, rfl⟩)⟩) s ho x hx]
      exact ⟨fun h => ⟨hall, h⟩, fun h => h.2⟩
    · constructor
      · intro he
        refine absurd (fun k hk' => ?_) hall
        rw [← hkos.2] at hk'
        obtain ⟨o, ho', rfl⟩ := List.mem_map.1 hk'
        refine Nat.le_of_not_lt fun hlt => ?_
        have hstep : ∀ t, step .legacy (std false one H160 chk other lock) o t = none := fun t => by
          unfold step
          simp only []
          rw [if_pos hlt]
        unfold eval at he
        simp only [] at he
        rw [run_fails _ _ o hstep _ (by rw [ho]; simp [ho']), if_neg (by nofun)] at he
        cases he
      · exact fun h => absurd h.1 hall
end

example : isMultisig true [0x51, 1, 7, 0x4c, 1, 8, 0x52, 0xae] = some true ∧
    eval .legacy (sample false) [0x51, 1, 7, 0x4c, 1, 8, 0x52, 0xae] [[8], []] = true ∧
    eval .legacy (sample false) [0x51, 1, 7, 0x4c, 1, 8, 0x52, 0xae] [[9], []] = false := by decide +kernel
example : isP2pkh (newP2pkh ⟨List.replicate 20 0, rfl⟩) = true ∧ eval .legacy (sample false) (newP2pkh ⟨List.replicate 20 0, rfl⟩) [[7], [7]] = true := by
  decide +kernel

end Core
end Scr
end Btc
