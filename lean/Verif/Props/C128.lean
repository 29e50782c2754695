import Verif.Script.Templates
import Verif.Script.Laws
/-!
# C128: the class of an opcode predicts what evaluation does with it

The rules of evaluation are written here after Bitcoin Core's `EvalScript` and `ExecuteWitnessScript` and BIP-342, and are not part of /repo.  Everything
the classes leave open (the stack, its limits, the meaning of ordinary opcodes, lock time checks, the final test) is a parameter `Machine`.
-/
namespace Btc
namespace Scr
namespace Core

/-- The next opcode with its data, and the rest; `none` if the data are cut short (`GetScriptOp`). -/
def getOp : Bytes → Option (UInt8 × Bytes × Bytes)
  | [] => none
  | op :: rest =>
    let cut (k n : Nat) : Option (UInt8 × Bytes × Bytes) :=
      if k + n ≤ rest.length then some (op, (rest.drop k).take n, rest.drop (k + n)) else none
    if op < 0x4c then cut 0 op.toNat
    else if op = 0x4c then cut 1 (leNat (rest.take 1))
    else if op = 0x4d then cut 2 (leNat (rest.take 2))
    else if op = 0x4e then cut 4 (leNat (rest.take 4))
    else some (op, [], rest)

/-- The opcodes of a script with their data, and whether the script ends properly; each opcode takes at least one byte. -/
def opsIn : Nat → Bytes → List (UInt8 × Bytes) × Bool
  | _, [] => ([], true)
  | 0, _ :: _ => ([], false)
  | n + 1, s =>
    match getOp s with
    | none => ([], false)
    | some (op, d, rest) => ((op, d) :: (opsIn n rest).1, (opsIn n rest).2)
def ops (s : Bytes) : List (UInt8 × Bytes) × Bool := opsIn s.length s

/-- What the classes leave open. -/
structure Machine (σ : Type) where
  push : Bytes → σ → Option σ
  num : Int → σ → Option σ
  popBool : σ → Option (Bool × σ)
  exec : UInt8 → σ → Option σ
  locktime : UInt8 → σ → Bool
  accept : σ → Bool

/-- The fifteen disabled opcodes. -/
def disabled : List UInt8 := [0x7e, 0x7f, 0x80, 0x81, 0x83, 0x84, 0x85, 0x86, 0x8d, 0x8e, 0x95, 0x96, 0x97, 0x98, 0x99]
/-- BIP-342: "If any opcode numbered 80, 98, 126-129, 131-134, 137-138, 141-142, 149-153, 187-254 is encountered, validation succeeds". -/
def isSuccess (op : UInt8) : Bool :=
  let n := op.toNat
  n == 80 || n == 98 || (126 ≤ n && n ≤ 129) || (131 ≤ n && n ≤ 134) || (137 ≤ n && n ≤ 138) || (141 ≤ n && n ≤ 142) ||
    (149 ≤ n && n ≤ 153) || (187 ≤ n && n ≤ 254)

/-- The cases of the `switch` of `EvalScript`. -/
inductive Act where
  | num (n : Int)
  | nothing
  | locktime
  | ifOp (neg : Bool)
  | elseOp
  | endIf
  | exec
  | bad
deriving DecidableEq

def act (ctx : Ctx) (op : UInt8) : Act :=
  let n := op.toNat
  if n = 0x4f then .num (-1)
  else if 0x51 ≤ n ∧ n ≤ 0x60 then .num (n - 0x50 : Nat)
  else if n = 0x61 then .nothing
  else if n = 0xb1 ∨ n = 0xb2 then .locktime
  else if n = 0xb0 ∨ (0xb3 ≤ n ∧ n ≤ 0xb9) then .nothing
  else if n = 0x63 then .ifOp false
  else if n = 0x64 then .ifOp true
  else if n = 0x67 then .elseOp
  else if n = 0x68 then .endIf
  else if n = 0xae ∨ n = 0xaf then (if ctx = .tapScript then .bad else .exec)
  else if n = 0xba then (if ctx = .tapScript then .exec else .bad)
  else if n = 0x69 ∨ (0x6b ≤ n ∧ n ≤ 0x7d) ∨ n = 0x82 ∨ n = 0x87 ∨ n = 0x88 ∨ n = 0x8b ∨ n = 0x8c ∨ (0x8f ≤ n ∧ n ≤ 0x94) ∨
    (0x9a ≤ n ∧ n ≤ 0xad) then .exec
  else .bad

/-- Stack, nested conditions (innermost first), number of operations. -/
structure St (σ : Type) where
  s : σ
  cond : List Bool
  count : Nat

/-- Is the code at this point executed? -/
def St.on {σ : Type} (t : St σ) : Bool := t.cond.all id

/-- The number of operations after an opcode; only counted before tapscript. -/
def bump (ctx : Ctx) (op : UInt8) (n : Nat) : Nat := if ctx = .legacy ∧ 0x60 < op.toNat then n + 1 else n

/-- One opcode. -/
def step {σ : Type} (ctx : Ctx) (M : Machine σ) (o : UInt8 × Bytes) (t : St σ) : Option (St σ) :=
  let op := o.1
  let n := bump ctx op t.count
  if 520 < o.2.length then none
  else if ctx = .legacy ∧ 201 < n then none
  else if op ∈ disabled then none
  else if t.on = true ∧ op.toNat ≤ 0x4e then (M.push o.2 t.s).map fun s => ⟨s, t.cond, n⟩
  else if t.on = true ∨ (0x63 ≤ op.toNat ∧ op.toNat ≤ 0x68) then
    match act ctx op with
    | .num k => (M.num k t.s).map fun s => ⟨s, t.cond, n⟩
    | .nothing => some ⟨t.s, t.cond, n⟩
    | .locktime => if M.locktime op t.s then some ⟨t.s, t.cond, n⟩ else none
    | .ifOp neg =>
      if t.on = true then (M.popBool t.s).map fun p => ⟨p.2, (p.1 != neg) :: t.cond, n⟩ else some ⟨t.s, false :: t.cond, n⟩
    | .elseOp => match t.cond with
      | [] => none
      | c :: cs => some ⟨t.s, (!c) :: cs, n⟩
    | .endIf => match t.cond with
      | [] => none
      | _ :: cs => some ⟨t.s, cs, n⟩
    | .exec => (M.exec op t.s).map fun s => ⟨s, t.cond, n⟩
    | .bad => none
  else some ⟨t.s, t.cond, n⟩

/-- Opcode after opcode. -/
def run {σ : Type} (ctx : Ctx) (M : Machine σ) : List (UInt8 × Bytes) → St σ → Option (St σ)
  | [], t => some t
  | o :: os, t => (step ctx M o t).bind (run ctx M os)

/-- Does the script succeed?  In tapscript a success opcode that can be reached by parsing decides before anything is executed. -/
def eval {σ : Type} (ctx : Ctx) (M : Machine σ) (script : Bytes) (s : σ) : Bool :=
  let p := ops script
  if ctx = .tapScript ∧ (p.1.any fun o => isSuccess o.1) = true then true
  else
    match run ctx M p.1 ⟨s, [], 0⟩ with
    | none => false
    | some t => p.2 && t.cond.isEmpty && M.accept t.s

/-! ## The classes -/

/-- The class is always defined: the `unreachable!` is not reached. -/
theorem C128_no_panic (op : UInt8) (ctx : Ctx) : classify op ctx ≠ .unreachable := by
  cases ctx
  · revert op; set_option maxRecDepth 8000 in exact forall_u8 (by decide +kernel)
  · revert op; set_option maxRecDepth 8000 in exact forall_u8 (by decide +kernel)

theorem illegal_act (op : UInt8) (ctx : Ctx) (h : classify op ctx = .illegalOp) (h' : op ≠ 0xff) :
    op ∈ disabled ∨ ((0x63 ≤ op.toNat ∧ op.toNat ≤ 0x68) ∧ act ctx op = .bad) := by
  revert op
  cases ctx
  · set_option maxRecDepth 8000 in exact forall_u8 (by decide +kernel)
  · set_option maxRecDepth 8000 in exact forall_u8 (by decide +kernel)

theorem run_fails {σ : Type} (ctx : Ctx) (M : Machine σ) (o : UInt8 × Bytes) (ho : ∀ t, step ctx M o t = none) :
    ∀ os : List (UInt8 × Bytes), o ∈ os → ∀ t, run ctx M os t = none
  | [], h, _ => by cases h
  | p :: os, h, t => by
    rw [run]
    rcases List.mem_cons.1 h with rfl | h
    · rw [ho]; rfl
    · cases step ctx M p t with
      | none => rfl
      | some u => exact run_fails ctx M o ho os h u

/-- `IllegalOp`, "fails the script even if not executed": a script that contains such an opcode other than 0xff fails, wherever the opcode stands; in
tapscript unless a success opcode decides first. -/
theorem C128_illegal {σ : Type} (ctx : Ctx) (M : Machine σ) (script : Bytes) (s : σ) (o : UInt8 × Bytes) (ho : o ∈ (ops script).1)
    (h : classify o.1 ctx = .illegalOp) (h' : o.1 ≠ 0xff) (hs : ctx = .tapScript → ∀ p ∈ (ops script).1, isSuccess p.1 = false) :
    eval ctx M script s = false := by
  have hstep : ∀ t, step ctx M o t = none := by
    intro t
    unfold step
    simp only []
    split
    · rfl
    · split
      · rfl
      · rcases illegal_act o.1 ctx h h' with hd | ⟨h1, h2⟩
        · rw [if_pos hd]
        · split
          · rfl
          · rw [if_neg (by omega), if_pos (Or.inr h1), h2]
  unfold eval
  simp only []
  rw [if_neg, run_fails ctx M o hstep _ ho]
  rintro ⟨hc, ha⟩
  obtain ⟨p, hp, hp'⟩ := List.any_eq_true.1 ha
  rw [hs hc p hp] at hp'
  cases hp'

/-- A machine on which everything that is allowed succeeds, with an empty stack for `OP_IF`. -/
def easy : Machine Unit := ⟨fun _ _ => some (), fun _ _ => some (), fun _ => some (false, ()), fun _ _ => some (), fun _ _ => true, fun _ => true⟩

/-- `OP_0 OP_IF OP_CAT OP_ENDIF OP_1` fails before tapscript although `OP_CAT` is not executed. -/
example : (0x7e, []) ∈ (ops [0x00, 0x63, 0x7e, 0x68, 0x51]).1 ∧ classify 0x7e .legacy = .illegalOp ∧
    eval .legacy easy [0x00, 0x63, 0x7e, 0x68, 0x51] () = false := by decide +kernel
example : eval .legacy easy [0x00, 0x63, 0x76, 0x68, 0x51] () = true := by decide +kernel

/-- FALSE for 0xff, `OP_INVALIDOPCODE`: it is of the class of opcodes that fail even if not executed, but a script in which it is not executed succeeds, in
both contexts. -/
theorem C128_invalid_fails (ctx : Ctx) : classify 0xff ctx = .illegalOp ∧ (0xff, []) ∈ (ops [0x00, 0x63, 0xff, 0x68, 0x51]).1 ∧
    eval ctx easy [0x00, 0x63, 0xff, 0x68, 0x51] () = true := by
  cases ctx <;> decide +kernel

theorem return_act (op : UInt8) (ctx : Ctx) (h : classify op ctx = .returnOp ∨ op = 0xff) :
    0x4e < op.toNat ∧ op ∉ disabled ∧ ¬ (0x63 ≤ op.toNat ∧ op.toNat ≤ 0x68) ∧ act ctx op = .bad := by
  revert op
  cases ctx
  · set_option maxRecDepth 8000 in exact forall_u8 (by decide +kernel)
  · set_option maxRecDepth 8000 in exact forall_u8 (by decide +kernel)

/-- `ReturnOp`, "fails the script if executed", and nothing more: such an opcode, and 0xff as well, fails where code is executed and is passed over where it
is not. -/
theorem C128_return {σ : Type} (ctx : Ctx) (M : Machine σ) (op : UInt8) (t : St σ) (h : classify op ctx = .returnOp ∨ op = 0xff) :
    (t.on = true → step ctx M (op, []) t = none) ∧
    (t.on = false → (ctx = .legacy → t.count < 201) → step ctx M (op, []) t = some ⟨t.s, t.cond, bump ctx op t.count⟩) := by
  obtain ⟨h1, h2, h3, h4⟩ := return_act op ctx h
  constructor
  · intro ht
    unfold step
    simp only [ht, h4]
    have h0 : ¬ 520 < ([] : Bytes).length := by simp
    rw [if_neg h0]
    by_cases hl : ctx = .legacy ∧ 201 < bump ctx op t.count
    · rw [if_pos hl]
    · rw [if_neg hl, if_neg h2, if_neg (by omega), if_pos (Or.inl trivial)]
  · intro ht hc
    unfold step
    simp only [ht]
    rw [if_neg (by simp), if_neg, if_neg h2, if_neg (by simp), if_neg (by simp; omega)]
    rintro ⟨hl, hb⟩
    have := hc hl
    unfold bump at hb
    split at hb <;> omega

example : classify 0xba .legacy = .returnOp ∧ classify 0xae .tapScript = .returnOp ∧ classify 0xae .legacy ≠ .returnOp := by decide

theorem noop_act (op : UInt8) (ctx : Ctx) (h : classify op ctx = .noOp) (h1 : op ≠ 0xb1) (h2 : op ≠ 0xb2) :
    0x4e < op.toNat ∧ op ∉ disabled ∧ act ctx op = .nothing := by
  revert op
  cases ctx
  · set_option maxRecDepth 8000 in exact forall_u8 (by decide +kernel)
  · set_option maxRecDepth 8000 in exact forall_u8 (by decide +kernel)

/-- `NoOp`, "does nothing": such an opcode, other than the two lock time opcodes, changes nothing but the count of operations. -/
theorem C128_noop_partial {σ : Type} (ctx : Ctx) (M : Machine σ) (op : UInt8) (t : St σ) (h : classify op ctx = .noOp) (h1 : op ≠ 0xb1) (h2 : op ≠ 0xb2)
    (hc : ctx = .legacy → t.count < 201) : step ctx M (op, []) t = some ⟨t.s, t.cond, bump ctx op t.count⟩ := by
  obtain ⟨g1, g2, g3⟩ := noop_act op ctx h h1 h2
  unfold step
  simp only [g3]
  rw [if_neg (by simp), if_neg, if_neg g2, if_neg (by omega)]
  · split <;> rfl
  · rintro ⟨hl, hb⟩
    have := hc hl
    unfold bump at hb
    split at hb <;> omega

/-- FALSE for `OP_CLTV` (0xb1) and `OP_CSV` (0xb2): they are of the class of opcodes that do nothing, but where they are executed and the lock time has not
come they fail the script. -/
theorem C128_noop_fails (ctx : Ctx) (op : UInt8) (h : op = 0xb1 ∨ op = 0xb2) :
    classify op ctx = .noOp ∧ eval ctx easy [0x51, op] () = true ∧ eval ctx { easy with locktime := fun _ _ => false } [0x51, op] () = false := by
  rcases h with rfl | rfl <;> cases ctx <;> decide +kernel

theorem success_act (op : UInt8) : (classify op .tapScript = .successOp ↔ isSuccess op = true) ∧ classify op .legacy ≠ .successOp := by
  revert op
  set_option maxRecDepth 8000 in exact forall_u8 (by decide +kernel)

/-- `SuccessOp`, "succeeds the script even if not executed": a tapscript succeeds on every machine and stack exactly if parsing reaches such an opcode.
Before tapscript there are none. -/
theorem C128_success (script : Bytes) :
    ((∀ (σ : Type) (M : Machine σ) (s : σ), eval .tapScript M script s = true) ↔ ∃ o ∈ (ops script).1, classify o.1 .tapScript = .successOp) ∧
    ∀ op, classify op .legacy ≠ .successOp := by
  refine ⟨⟨fun h => ?_, ?_⟩, fun op => (success_act op).2⟩
  · have := h Unit { easy with accept := fun _ => false } ()
    unfold eval at this
    simp only [] at this
    split at this
    · rename_i hc
      obtain ⟨p, hp, hp'⟩ := List.any_eq_true.1 hc.2
      exact ⟨p, hp, (success_act p.1).1.2 hp'⟩
    · split at this
      · cases this
      · simp at this
  · rintro ⟨o, ho, hc⟩ σ M s
    unfold eval
    simp only []
    rw [if_pos ⟨trivial, List.any_eq_true.2 ⟨o, ho, (success_act o.1).1.1 hc⟩⟩]

/-- A success opcode decides although an illegal opcode precedes it and the script is cut short behind it. -/
example : eval .tapScript { easy with accept := fun _ => false } [0x65, 0x50, 0x4b] () = true ∧ (ops [0x65, 0x50, 0x4b]).2 = false := by decide +kernel

theorem push_act (op : UInt8) (ctx : Ctx) (n : Nat) (h : classify op ctx = .pushBytes n) : op.toNat = n ∧ n < 0x4c := by
  have key : ∀ ctx, ∀ op : UInt8, (match classify op ctx with | .pushBytes n => decide (op.toNat = n ∧ n < 0x4c) | _ => true) = true := by
    intro ctx
    cases ctx
    · set_option maxRecDepth 8000 in exact forall_u8 (by decide +kernel)
    · set_option maxRecDepth 8000 in exact forall_u8 (by decide +kernel)
  have := key ctx op
  rw [h] at this
  exact of_decide_eq_true this

theorem num_act (op : UInt8) (ctx : Ctx) (k : Int) (h : classify op ctx = .pushNum k) :
    act ctx op = .num k ∧ 0x4e < op.toNat ∧ op.toNat ≤ 0x60 ∧ op ∉ disabled := by
  have key : ∀ ctx, ∀ op : UInt8, (match classify op ctx with
      | .pushNum k => decide (act ctx op = .num k ∧ 0x4e < op.toNat ∧ op.toNat ≤ 0x60 ∧ op ∉ disabled) | _ => true) = true := by
    intro ctx
    cases ctx
    · set_option maxRecDepth 8000 in exact forall_u8 (by decide +kernel)
    · set_option maxRecDepth 8000 in exact forall_u8 (by decide +kernel)
  have := key ctx op
  rw [h] at this
  exact of_decide_eq_true this

/-- `PushBytes(n)`, "pushes the given number of bytes": the opcode takes the next `n` bytes and pushes them where it is executed. -/
theorem C128_push_bytes {σ : Type} (ctx : Ctx) (M : Machine σ) (op : UInt8) (n : Nat) (h : classify op ctx = .pushBytes n) (rest : Bytes) (t : St σ) :
    getOp (op :: rest) = (if n ≤ rest.length then some (op, rest.take n, rest.drop n) else none) ∧
    (t.on = true → (ctx = .legacy → t.count ≤ 201) → n ≤ rest.length →
      step ctx M (op, rest.take n) t = (M.push (rest.take n) t.s).map fun s => ⟨s, t.cond, t.count⟩) := by
  obtain ⟨h1, h2⟩ := push_act op ctx n h
  have hlt : op < 0x4c := UInt8.lt_iff_toNat_lt.2 (by rw [h1]; exact h2)
  constructor
  · unfold getOp
    simp only [if_pos hlt, h1, Nat.zero_add, List.drop_zero]
  · intro ht hc hr
    have hd : op ∉ disabled := by
      intro hd
      have : ∀ d ∈ disabled, 0x4c ≤ d.toNat := by decide
      have := this op hd
      omega
    have hb : bump ctx op t.count = t.count := if_neg (by omega)
    unfold step
    simp only [hb, ht]
    rw [if_neg (by rw [List.length_take]; omega), if_neg (by rintro ⟨a, b⟩; have := hc a; omega), if_neg hd, if_pos ⟨trivial, by omega⟩]

/-- `PushNum(k)`, "pushes the given number". -/
theorem C128_push_num {σ : Type} (ctx : Ctx) (M : Machine σ) (op : UInt8) (k : Int) (h : classify op ctx = .pushNum k) (t : St σ) (ht : t.on = true)
    (hc : ctx = .legacy → t.count ≤ 201) : step ctx M (op, []) t = (M.num k t.s).map fun s => ⟨s, t.cond, t.count⟩ := by
  obtain ⟨h1, h2, h3, h4⟩ := num_act op ctx k h
  have hb : bump ctx op t.count = t.count := if_neg (by omega)
  unfold step
  simp only [hb, ht, h1]
  rw [if_neg (by simp), if_neg (by rintro ⟨a, b⟩; have := hc a; omega), if_neg h4, if_neg (by omega), if_pos (Or.inl trivial)]

example : classify 0x5a .legacy = .pushNum 10 ∧ classify 0x4f .tapScript = .pushNum (-1) ∧ classify 0x21 .tapScript = .pushBytes 33 := by decide

/-- The opcodes of conditions and of pushes with a length in front. -/
def special : List UInt8 := [0x4c, 0x4d, 0x4e, 0x63, 0x64, 0x67, 0x68]

theorem ordinary_act (op x : UInt8) (ctx : Ctx) (h : classify op ctx = .ordinary x) :
    x = op ∧ op ∉ disabled ∧ (op ∉ special → act ctx op = .exec ∧ 0x4e < op.toNat) ∧ (op ∈ special → act ctx op ≠ .exec) := by
  have key : ∀ ctx, ∀ op : UInt8, (match classify op ctx with
      | .ordinary x => decide (x = op ∧ op ∉ disabled ∧ (op ∉ special → act ctx op = .exec ∧ 0x4e < op.toNat) ∧ (op ∈ special → act ctx op ≠ .exec))
      | _ => true) = true := by
    intro ctx
    cases ctx
    · set_option maxRecDepth 8000 in exact forall_u8 (by decide +kernel)
    · set_option maxRecDepth 8000 in exact forall_u8 (by decide +kernel)
  have := key ctx op
  rw [h] at this
  exact of_decide_eq_true this

/-- `Ordinary`: the opcode is its own, and where it is executed it has an implementation of its own: apart from conditions and pushes, the step is that of
the machine. -/
theorem C128_ordinary {σ : Type} (ctx : Ctx) (M : Machine σ) (op x : UInt8) (h : classify op ctx = .ordinary x) :
    x = op ∧ (op ∉ special → ∀ t : St σ, t.on = true → (ctx = .legacy → t.count < 201) →
      step ctx M (op, []) t = (M.exec op t.s).map fun s => ⟨s, t.cond, bump ctx op t.count⟩) := by
  obtain ⟨h1, h2, h3, -⟩ := ordinary_act op x ctx h
  refine ⟨h1, fun hs t ht hc => ?_⟩
  obtain ⟨h4, h5⟩ := h3 hs
  unfold step
  simp only [ht, h4]
  rw [if_neg (by simp), if_neg, if_neg h2, if_neg (by omega), if_pos (Or.inl trivial)]
  rintro ⟨hl, hb⟩
  have := hc hl
  unfold bump at hb
  split at hb <;> omega

/-- Every opcode that the machine implements in a context is of class `Ordinary` there. -/
theorem C128_implemented (ctx : Ctx) (op : UInt8) (h : act ctx op = .exec) : classify op ctx = .ordinary op := by
  revert op
  cases ctx
  · set_option maxRecDepth 8000 in exact forall_u8 (by decide +kernel)
  · set_option maxRecDepth 8000 in exact forall_u8 (by decide +kernel)

example : act .legacy 0xac = .exec ∧ act .tapScript 0xba = .exec ∧ act .legacy 0xba = .bad := by decide

/-! ## Provably unspendable scripts -/

/-- `is_provably_unspendable`: such a script fails from every stack on every machine. -/
theorem C128_unspendable {σ : Type} (M : Machine σ) (script : Bytes) (s : σ) (h : isProvablyUnspendable script = true) :
    eval .legacy M script s = false := by
  unfold isProvablyUnspendable at h
  match script, h with
  | b :: rest, h =>
    simp only [List.head?_cons, Bool.or_eq_true, beq_iff_eq] at h
    have hb : ¬ b < 0x4c ∧ b ≠ 0x4c ∧ b ≠ 0x4d ∧ b ≠ 0x4e := by
      revert h
      revert b
      set_option maxRecDepth 8000 in exact forall_u8 (by decide +kernel)
    obtain ⟨b1, b2, b3, b4⟩ := hb
    have hops : (ops (b :: rest)).1 = (b, []) :: (opsIn rest.length rest).1 := by
      show (opsIn (rest.length + 1) (b :: rest)).1 = _
      rw [opsIn]
      have : getOp (b :: rest) = some (b, [], rest) := by
        unfold getOp
        simp only []
        rw [if_neg b1, if_neg b2, if_neg b3, if_neg b4]
      rw [this]
      nofun
    by_cases hr : classify b .legacy = .returnOp ∨ b = 0xff
    · unfold eval
      simp only []
      rw [if_neg (by simp), hops, run, (C128_return .legacy M b ⟨s, [], 0⟩ hr).1 rfl]
      rfl
    · have h1 : classify b .legacy = .illegalOp := h.resolve_left fun g => hr (Or.inl g)
      exact C128_illegal .legacy M _ s (b, []) (by rw [hops]; simp) h1 (fun g => hr (Or.inr g)) (by simp)

example : isProvablyUnspendable [0xff, 0x51] = true ∧ eval .legacy easy [0x51] () = true := by decide +kernel

end Core
end Scr
end Btc
