import Verif.Props.C128
import Verif.Props.C98
/-!
# C129: evaluated under the consensus rules, the scripts of the library succeed for those who meet their condition, and for nobody else

The rules of evaluation are those of C128, here with a stack of byte strings and the opcodes that occur in the scripts the library builds; all other
opcodes remain a parameter.  Written after Bitcoin Core's `EvalScript`, `VerifyScript` and `VerifyWitnessProgram`; not part of /repo.
-/
namespace Btc
namespace Scr
namespace Core
open SignTx (Matches)

/-! ## The stack machine -/

/-- `CastToBool`: zero and negative zero are false. -/
def castBool : Bytes → Bool
  | [] => false
  | [b] => b != 0 && b != 0x80
  | b :: c :: bs => b != 0 || castBool (c :: bs)
def boolBytes (b : Bool) : Bytes := if b then [1] else []
/-- What `OP_1NEGATE` and `OP_1` to `OP_16` push. -/
def numBytes (k : Int) : Bytes := if k = -1 then [0x81] else [UInt8.ofNat k.toNat]
/-- A count on the stack: a number of at most four bytes that is not negative. -/
def numOf (b : Bytes) : Option Nat :=
  if 4 < b.length then none
  else if leNat b < 2 ^ (8 * b.length - 1) ∨ b = [] then some (leNat b)
  else if castBool b = false then some 0 else none
/-- The stack holds at most a thousand elements. -/
def lim (s : List Bytes) : Option (List Bytes) := if s.length ≤ 1000 then some s else none

/-- The loop of `OP_CHECKMULTISIG`; keys and signatures from the top of the stack. -/
def greedy (chk : Bytes → Bytes → Bool) : List Bytes → List Bytes → Bool
  | _, [] => true
  | [], _ :: _ => false
  | k :: ks, s :: ss => if chk k s then greedy chk ks ss else greedy chk ks (s :: ss)

/-- `OP_CHECKMULTISIG` with the rule of BIP-147 for the additional element.  (The keys are not added to the number of operations; this matters only in
scripts with more than 180 other operations.) -/
def multisig (chk : Bytes → Bytes → Bool) : List Bytes → Option (List Bytes)
  | [] => none
  | nb :: s =>
    match numOf nb with
    | none => none
    | some n =>
      if 20 < n then none
      else match s.drop n with
        | [] => none
        | mb :: s' =>
          match numOf mb with
          | none => none
          | some m =>
            if n < m then none
            else match s'.drop m with
              | [] => none
              | dummy :: r => if dummy ≠ [] then none else some (boolBytes (greedy chk (s.take n) (s'.take m)) :: r)

/-- `OP_CHECKSIG`; in tapscript the key must not be empty and a signature that is not empty must be right. -/
def checksig (tap : Bool) (chk : Bytes → Bytes → Bool) : List Bytes → Option (List Bytes)
  | pk :: sig :: s =>
    if tap = true ∧ pk = [] then none
    else if chk pk sig then some ([1] :: s) else if tap = true ∧ sig ≠ [] then none else some ([] :: s)
  | _ => none

def exec (tap : Bool) (H160 : Bytes → Arr 20) (chk : Bytes → Bytes → Bool) (other : UInt8 → List Bytes → Option (List Bytes)) (op : UInt8)
    (s : List Bytes) : Option (List Bytes) :=
  if op = 0x76 then (match s with | x :: s => some (x :: x :: s) | _ => none)
  else if op = 0xa9 then (match s with | x :: s => some ((H160 x).1 :: s) | _ => none)
  else if op = 0x87 then (match s with | x :: y :: s => some (boolBytes (decide (x = y)) :: s) | _ => none)
  else if op = 0x88 then (match s with | x :: y :: s => if x = y then some s else none | _ => none)
  else if op = 0xac then checksig tap chk s
  else if op = 0xae then multisig chk s
  else other op s

/-- The machine; `one`: exactly one element must be left (witness scripts). -/
def std (tap one : Bool) (H160 : Bytes → Arr 20) (chk : Bytes → Bytes → Bool) (other : UInt8 → List Bytes → Option (List Bytes))
    (lock : UInt8 → List Bytes → Bool) : Machine (List Bytes) where
  push d s := lim (d :: s)
  num k s := lim (numBytes k :: s)
  popBool
    | [] => none
    | x :: s => some (castBool x, s)
  exec op s := (exec tap H160 chk other op s).bind lim
  locktime := lock
  accept
    | [] => false
    | x :: s => castBool x && (!one || s.isEmpty)

/-! ## Reading scripts -/

theorem getOp_shorter {s : Bytes} {op : UInt8} {d rest : Bytes} (h : getOp s = some (op, d, rest)) : rest.length < s.length := by
  cases s with
  | nil => cases h
  | cons b t =>
    unfold getOp at h
    simp only [] at h
    have cut : ∀ k n : Nat, (if k + n ≤ t.length then some (b, (t.drop k).take n, t.drop (k + n)) else none) = some (op, d, rest) →
        rest.length < (b :: t).length := by
      intro k n h
      split at h
      · cases h; simp; omega
      · cases h
    split at h
    · exact cut _ _ h
    · split at h
      · exact cut _ _ h
      · split at h
        · exact cut _ _ h
        · split at h
          · exact cut _ _ h
          · cases h; simp

theorem opsIn_fuel : ∀ (n : Nat) (s : Bytes), s.length ≤ n → opsIn n s = opsIn s.length s
  | n, [], _ => by cases n <;> rfl
  | 0, _ :: _, h => by simp at h
  | n + 1, b :: t, h => by
    show opsIn (n + 1) (b :: t) = opsIn (t.length + 1) (b :: t)
    rw [opsIn, opsIn]
    · cases hg : getOp (b :: t) with
      | none => rfl
      | some r =>
        obtain ⟨op, d, rest⟩ := r
        have := getOp_shorter hg
        simp only [List.length_cons] at h this
        simp only []
        rw [opsIn_fuel n rest (by omega), opsIn_fuel t.length rest (by omega)]
    all_goals nofun

theorem ops_nil : ops [] = ([], true) := rfl

theorem ops_cons {b : UInt8} {t : Bytes} {op : UInt8} {d rest : Bytes} (h : getOp (b :: t) = some (op, d, rest)) :
    ops (b :: t) = ((op, d) :: (ops rest).1, (ops rest).2) := by
  have := getOp_shorter h
  simp only [List.length_cons] at this
  show opsIn (t.length + 1) (b :: t) = _
  rw [opsIn, h]
  · simp only []
    rw [opsIn_fuel t.length rest (by omega)]
    rfl
  all_goals nofun

theorem ops_op {b : UInt8} (t : Bytes) (h : 0x4e < b.toNat) : ops (b :: t) = ((b, []) :: (ops t).1, (ops t).2) := by
  apply ops_cons
  unfold getOp
  simp only []
  rw [if_neg, if_neg, if_neg, if_neg]
  · rintro rfl; exact absurd h (by decide)
  · rintro rfl; exact absurd h (by decide)
  · rintro rfl; exact absurd h (by decide)
  · intro hlt
    have := UInt8.lt_iff_toNat_lt.1 hlt
    have e : (0x4c : UInt8).toNat = 0x4c := rfl
    omega

theorem ops_push (d t : Bytes) (h : d.length ≤ 75) : ops (SignTx.pushed d ++ t) = ((UInt8.ofNat d.length, d) :: (ops t).1, (ops t).2) := by
  have hn : (UInt8.ofNat d.length).toNat = d.length := UInt8.toNat_ofNat_of_lt' (by show d.length < 256; omega)
  show ops (UInt8.ofNat d.length :: (d ++ t)) = _
  apply ops_cons
  unfold getOp
  simp only []
  rw [if_pos (UInt8.lt_iff_toNat_lt.2 (by rw [hn]; show d.length < 76; omega)), hn, if_pos (by simp)]
  simp

/-! ## Steps outside of conditions -/

section
variable {σ : Type} (ctx : Ctx) (M : Machine σ) (os : List (UInt8 × Bytes)) (s : σ) (n : Nat)

theorem run_op (op : UInt8) (h1 : act ctx op = .exec) (h2 : op ∉ disabled) (h3 : 0x60 < op.toNat) (hn : n < 201) :
    run ctx M ((op, []) :: os) ⟨s, [], n⟩ = (M.exec op s).bind fun s' => run ctx M os ⟨s', [], bump ctx op n⟩ := by
  have hb : ¬ (ctx = .legacy ∧ 201 < bump ctx op n) := by
    rintro ⟨_, hb⟩
    unfold bump at hb
    split at hb <;> omega
  have h0 : ¬ 520 < ([] : Bytes).length := by simp
  have hon : (St.mk s [] n).on = true := rfl
  rw [run]
  unfold step
  simp only [hon, h1]
  rw [if_neg h0, if_neg hb, if_neg h2, if_neg (by omega), if_pos (Or.inl trivial)]
  cases M.exec op s <;> rfl

theorem run_push (op : UInt8) (d : Bytes) (h1 : op.toNat ≤ 0x4e) (hd : d.length ≤ 520) (hn : n ≤ 201) :
    run ctx M ((op, d) :: os) ⟨s, [], n⟩ = (M.push d s).bind fun s' => run ctx M os ⟨s', [], n⟩ := by
  have hb : bump ctx op n = n := if_neg (by omega)
  have hdis : op ∉ disabled := by
    intro hd
    have : ∀ d ∈ disabled, 0x4f ≤ d.toNat := by decide
    have := this op hd
    omega
  have hon : (St.mk s [] n).on = true := rfl
  rw [run]
  unfold step
  simp only [hon, hb]
  rw [if_neg (by omega), if_neg (by omega), if_neg hdis, if_pos ⟨trivial, h1⟩]
  cases M.push d s <;> rfl

theorem run_num (op : UInt8) (h1 : 0x51 ≤ op.toNat) (h2 : op.toNat ≤ 0x60) (hn : n ≤ 201) :
    run ctx M ((op, []) :: os) ⟨s, [], n⟩ = (M.num (op.toNat - 0x50 : Nat) s).bind fun s' => run ctx M os ⟨s', [], n⟩ := by
  have hb : bump ctx op n = n := if_neg (by omega)
  have hdis : op ∉ disabled := by
    intro hd
    have : ∀ d ∈ disabled, 0x61 ≤ d.toNat := by decide
    have := this op hd
    omega
  have h0 : ¬ 520 < ([] : Bytes).length := by simp
  have hon : (St.mk s [] n).on = true := rfl
  have ha : act ctx op = .num (op.toNat - 0x50 : Nat) := by
    unfold act
    simp only []
    rw [if_neg (by omega), if_pos ⟨h1, h2⟩]
  rw [run]
  unfold step
  simp only [hon, hb, ha]
  rw [if_neg h0, if_neg (by omega), if_neg hdis, if_neg (by omega), if_pos (Or.inl trivial)]
  cases M.num _ s <;> rfl
end

/-- A script without conditions, opcode after opcode. -/
def line {σ : Type} (M : Machine σ) : List (UInt8 × Bytes) → σ → Option σ
  | [], s => some s
  | o :: os, s =>
    (if o.1.toNat ≤ 0x4e then M.push o.2 s else if o.1.toNat ≤ 0x60 then M.num (o.1.toNat - 0x50 : Nat) s else M.exec o.1 s).bind (line M os)

/-- Opcodes that are pushes, small numbers, or executed. -/
def Straight (ctx : Ctx) (o : UInt8 × Bytes) : Prop :=
  (o.1.toNat ≤ 0x4e ∧ o.2.length ≤ 520) ∨ (o.2 = [] ∧ 0x51 ≤ o.1.toNat ∧ o.1.toNat ≤ 0x60) ∨
    (o.2 = [] ∧ act ctx o.1 = .exec ∧ o.1 ∉ disabled ∧ 0x60 < o.1.toNat)

theorem run_line {σ : Type} (ctx : Ctx) (M : Machine σ) : ∀ (os : List (UInt8 × Bytes)) (s : σ) (n : Nat), (∀ o ∈ os, Straight ctx o) →
    n + os.length ≤ 201 → (run ctx M os ⟨s, [], n⟩).map (fun t => (t.s, t.cond)) = (line M os s).map (fun t => (t, []))
  | [], _, _, _, _ => rfl
  | (op, d) :: os, s, n, hs, hn => by
    have hn' : n + os.length + 1 ≤ 201 := hn
    have ih := fun s n h => run_line ctx M os s n (fun o ho => hs o (List.mem_cons_of_mem _ ho)) h
    have key : ∀ (x : Option σ) (k : Nat), k + os.length ≤ 201 →
        (x.bind fun s' => run ctx M os ⟨s', [], k⟩).map (fun t => (t.s, t.cond)) = (x.bind (line M os)).map (fun t => (t, [])) := by
      intro x k hk
      cases x with
      | none => rfl
      | some s' => exact ih s' k hk
    have hb : bump ctx op n ≤ n + 1 := by unfold bump; split <;> omega
    rcases hs _ (List.mem_cons_self ..) with ⟨h1, h2⟩ | ⟨h0, h1, h2⟩ | ⟨h0, h1, h2, h3⟩
    · rw [run_push ctx M os s n op d h1 h2 (by omega), key _ _ (by omega), line, if_pos h1]
    · subst h0
      rw [run_num ctx M os s n op h1 h2 (by omega), key _ _ (by omega), line]
      simp only [] at h1 h2 ⊢
      rw [if_neg (by omega), if_pos h2]
    · subst h0
      rw [run_op ctx M os s n op h1 h2 h3 (by omega), key _ _ (by omega), line]
      simp only [] at h3 ⊢
      rw [if_neg (by omega), if_neg (by omega)]

theorem eval_line {σ : Type} (ctx : Ctx) (M : Machine σ) (script : Bytes) (s : σ) (os : List (UInt8 × Bytes)) (h : ops script = (os, true))
    (hs : ∀ o ∈ os, Straight ctx o) (hn : os.length ≤ 201) (hu : ctx = .tapScript → ∀ o ∈ os, isSuccess o.1 = false) :
    eval ctx M script s = match line M os s with
      | none => false
      | some t => M.accept t := by
  unfold eval
  simp only [h]
  rw [if_neg]
  · have := run_line ctx M os s 0 hs (by omega)
    cases hr : run ctx M os ⟨s, [], 0⟩ with
    | none =>
      rw [hr] at this
      cases hl : line M os s with
      | none => rfl
      | some t => rw [hl] at this; cases this
    | some t =>
      rw [hr] at this
      cases hl : line M os s with
      | none => rw [hl] at this; cases this
      | some t' =>
        rw [hl] at this
        have := Option.some.inj this
        have e1 : t.s = t' := congrArg Prod.fst this
        have e2 : t.cond = [] := congrArg Prod.snd this
        simp [e1, e2]
  · rintro ⟨hc, ha⟩
    obtain ⟨o, ho, he⟩ := List.any_eq_true.1 ha
    rw [hu hc o ho] at he
    cases he

/-! ## Templates -/

section
variable (one : Bool) (H160 : Bytes → Arr 20) (chk : Bytes → Bytes → Bool) (other : UInt8 → List Bytes → Option (List Bytes))
  (lock : UInt8 → List Bytes → Bool)

theorem lim_some {s t : List Bytes} : lim s = some t ↔ s = t ∧ s.length ≤ 1000 := by
  unfold lim
  split
  · rename_i h; exact ⟨fun e => ⟨Option.some.inj e, h⟩, fun e => by rw [e.1]⟩
  · rename_i h; exact ⟨fun e => (by cases e), fun e => absurd (by have := e.2; rwa [e.1] at this ⊢) h⟩

/-- The number of elements below those that the condition speaks of: at most `n`, and with `one` none. -/
def Below (one : Bool) (n : Nat) (rest : List Bytes) : Prop := rest.length ≤ n ∧ (one = true → rest = [])

theorem ops_p2pkh (h : Arr 20) : ops (newP2pkh h) = ([(0x76, []), (0xa9, []), (0x14, h.1), (0x88, []), (0xac, [])], true) := by
  have e : newP2pkh h = 0x76 :: 0xa9 :: (SignTx.pushed h.1 ++ [0x88, 0xac]) := by
    rw [(C35_constructors.2.1 h).2]
    unfold SignTx.pushed; rw [h.2]; rfl
  rw [e, ops_op _ (by decide), ops_op _ (by decide), ops_push _ _ (by rw [h.2]; decide), ops_op _ (by decide), ops_op _ (by decide), ops_nil, h.2]
  rfl

section
variable (tap : Bool) (os : List (UInt8 × Bytes))

theorem line_push (op : UInt8) (h : op.toNat ≤ 0x4e) (d : Bytes) (s : List Bytes) (hl : s.length < 1000) :
    line (std tap one H160 chk other lock) ((op, d) :: os) s = line (std tap one H160 chk other lock) os (d :: s) := by
  have e : lim (d :: s) = some (d :: s) := if_pos hl
  simp only [line, std, if_pos h, e, Option.bind_some]

theorem line_num (op : UInt8) (h1 : 0x51 ≤ op.toNat) (h2 : op.toNat ≤ 0x60) (s : List Bytes) (hl : s.length < 1000) :
    line (std tap one H160 chk other lock) ((op, []) :: os) s = line (std tap one H160 chk other lock) os ([UInt8.ofNat (op.toNat - 0x50)] :: s) := by
  have e : lim ([UInt8.ofNat (op.toNat - 0x50)] :: s) = some _ := if_pos hl
  have h0 : ¬ op.toNat ≤ 0x4e := by omega
  have e' : numBytes (op.toNat - 0x50 : Nat) = [UInt8.ofNat (op.toNat - 0x50)] := by
    unfold numBytes
    rw [if_neg (by omega)]
    rfl
  simp only [line, std, if_neg h0, if_pos h2, e, e', Option.bind_some]

theorem line_exec (op : UInt8) (h : 0x60 < op.toNat) (s : List Bytes) : line (std tap one H160 chk other lock) ((op, []) :: os) s =
    ((exec tap H160 chk other op s).bind lim).bind (line (std tap one H160 chk other lock) os) := by
  have h0 : ¬ op.toNat ≤ 0x4e := by omega
  have h2 : ¬ op.toNat ≤ 0x60 := by omega
  simp only [line, std, if_neg h0, if_neg h2]

theorem exec_dup (s) : exec tap H160 chk other 0x76 s = match s with | x :: s => some (x :: x :: s) | _ => none := rfl
theorem exec_hash160 (s) : exec tap H160 chk other 0xa9 s = match s with | x :: s => some ((H160 x).1 :: s) | _ => none := rfl
theorem exec_equal (s) : exec tap H160 chk other 0x87 s = match s with | x :: y :: s => some (boolBytes (decide (x = y)) :: s) | _ => none := rfl
theorem exec_equalverify (s) : exec tap H160 chk other 0x88 s = match s with | x :: y :: s => if x = y then some s else none | _ => none := rfl
theorem exec_checksig (s) : exec tap H160 chk other 0xac s = checksig tap chk s := rfl
theorem exec_multisig (s) : exec tap H160 chk other 0xae s = multisig chk s := rfl
end

theorem accept_std (tap : Bool) (x : Bytes) (r : List Bytes) : (std tap one H160 chk other lock).accept (x :: r) = true ↔
    castBool x = true ∧ (one = true → r = []) := by
  show (castBool x && (!one || r.isEmpty)) = true ↔ _
  cases one <;> simp

theorem lim_pos {s : List Bytes} (h : s.length ≤ 1000) : lim s = some s := if_pos h
theorem lim_neg {s : List Bytes} (h : ¬ s.length ≤ 1000) : lim s = none := if_neg h

/-- The script of `new_p2pkh` succeeds exactly on a stack with a key of the hash and a signature for the key below it. -/
theorem C129_p2pkh (h : Arr 20) (s : List Bytes) : eval .legacy (std false one H160 chk other lock) (newP2pkh h) s = true ↔
    ∃ pk sig rest, s = pk :: sig :: rest ∧ H160 pk = h ∧ chk pk sig = true ∧ Below one 996 rest := by
  rw [eval_line _ _ _ _ _ (ops_p2pkh h) (by
    intro o ho
    simp only [List.mem_cons, List.not_mem_nil, or_false] at ho
    rcases ho with rfl | rfl | rfl | rfl | rfl
    · exact Or.inr (Or.inr (by decide))
    · exact Or.inr (Or.inr (by decide))
    · exact Or.inl ⟨Nat.le_of_ble_eq_true rfl, by show h.1.length ≤ 520; rw [h.2]; decide⟩
    · exact Or.inr (Or.inr (by decide))
    · exact Or.inr (Or.inr (by decide))) (Nat.le_of_ble_eq_true rfl) (by nofun)]
  match s with
  | [] => simp [line, std, exec]
  | [x] =>
    by_cases hx : h.1 = (H160 x).1 <;> simp [line, std, exec, lim, checksig, hx]
  | x :: y :: rest =>
    by_cases hl : rest.length ≤ 996
    · have hk : ∀ k, k ≤ 4 → rest.length + k ≤ 1000 := by intro k hk; omega
      rw [line_exec _ _ _ _ _ _ _ _ (by decide), exec_dup, Option.bind_some, lim_pos (by have := hk 3 (by omega); simpa using this), Option.bind_some,
        line_exec _ _ _ _ _ _ _ _ (by decide), exec_hash160, Option.bind_some, lim_pos (by have := hk 3 (by omega); simpa using this), Option.bind_some,
        line_push _ _ _ _ _ _ _ _ (by decide) _ _ (by have := hk 4 (by omega); simp only [List.length_cons]; omega),
        line_exec _ _ _ _ _ _ _ _ (by decide), exec_equalverify]
      by_cases hx : H160 x = h
      · rw [show (match h.1 :: (H160 x).1 :: x :: y :: rest with | x :: y :: s => if x = y then some s else none | _ => none) = some (x :: y :: rest)
          from if_pos (by rw [hx])]
        rw [Option.bind_some, lim_pos (by have := hk 2 (by omega); simpa using this), Option.bind_some, line_exec _ _ _ _ _ _ _ _ (by decide), exec_checksig, checksig, if_neg (by simp)]
        by_cases hc : chk x y = true
        · rw [if_pos hc, Option.bind_some, lim_pos (by have := hk 1 (by omega); simpa using this), Option.bind_some]
          simp only [line]
          rw [accept_std]
          exact ⟨fun e => ⟨x, y, rest, rfl, hx, hc, hl, e.2⟩, fun ⟨_, _, _, e, _, _, hb⟩ => ⟨rfl, by cases e; exact hb.2⟩⟩
        · rw [if_neg hc, if_neg (by simp), Option.bind_some, lim_pos (by have := hk 1 (by omega); simpa using this), Option.bind_some]
          simp only [line]
          rw [accept_std]
          exact ⟨fun e => (by cases e.1), fun ⟨_, _, _, e, _, hh, _⟩ => by cases e; exact absurd hh hc⟩
      · rw [show (match h.1 :: (H160 x).1 :: x :: y :: rest with | x :: y :: s => if x = y then some s else none | _ => none) = none
          from if_neg (fun e => hx (Subtype.ext e.symm))]
        exact ⟨fun e => (by cases e), fun ⟨_, _, _, e, hh, _⟩ => by cases e; exact absurd hh hx⟩
    · refine ⟨fun e => ?_, fun ⟨_, _, _, e, _, _, hb⟩ => by cases e; exact absurd hb.1 hl⟩
      exfalso
      rw [line_exec _ _ _ _ _ _ _ _ (by decide), exec_dup, Option.bind_some] at e
      by_cases h3 : rest.length + 3 ≤ 1000
      · rw [lim_pos (by simpa using h3), Option.bind_some, line_exec _ _ _ _ _ _ _ _ (by decide), exec_hash160, Option.bind_some,
          lim_pos (by simpa using h3), Option.bind_some] at e
        have : lim (h.1 :: (H160 x).1 :: x :: y :: rest) = none := lim_neg (by simp only [List.length_cons]; omega)
        simp only [line, std, show (UInt8.toNat 20 ≤ 78) = True from eq_true (by decide), if_true, this] at e
        cases e
      · rw [lim_neg (by simp only [List.length_cons]; omega)] at e
        cases e

/-- The script of `new_p2pk` succeeds exactly on a signature for the key. -/
theorem C129_p2pk (k : Bytes) (hk : k.length = 33 ∨ k.length = 65) (s : List Bytes) :
    eval .legacy (std false one H160 chk other lock) (newP2pk k) s = true ↔
    ∃ sig rest, s = sig :: rest ∧ chk k sig = true ∧ Below one 998 rest := by
  have ho : ops (newP2pk k) = ([(UInt8.ofNat k.length, k), (0xac, [])], true) := by
    have he : newP2pk k = SignTx.pushed k ++ [0xac] := by
      unfold newP2pk pushOpcode
      rw [pushSlice_long _ _ (by omega) (by omega)]; rfl
    rw [he, ops_push _ _ (by omega), ops_op _ (by decide), ops_nil]
  have hlen : (UInt8.ofNat k.length).toNat ≤ 0x4e := by rcases hk with h | h <;> rw [h] <;> decide
  rw [eval_line _ _ _ _ _ ho (by
    intro o ho
    simp only [List.mem_cons, List.not_mem_nil, or_false] at ho
    rcases ho with rfl | rfl
    · exact Or.inl ⟨hlen, by show k.length ≤ 520; omega⟩
    · exact Or.inr (Or.inr (by decide))) (Nat.le_of_ble_eq_true rfl) (by nofun)]
  by_cases hl : s.length < 1000
  · rw [line_push _ _ _ _ _ _ _ _ hlen _ _ hl, line_exec _ _ _ _ _ _ _ _ (by decide), exec_checksig]
    match s, hl with
    | [], _ => simp [checksig]
    | y :: rest, hl =>
      have hl' : rest.length + 1 ≤ 1000 := by simp only [List.length_cons] at hl; omega
      rw [checksig, if_neg (by simp)]
      by_cases hc : chk k y = true
      · rw [if_pos hc, Option.bind_some, lim_pos (by simpa using hl'), Option.bind_some]
        simp only [line]
        rw [accept_std]
        exact ⟨fun e => ⟨y, rest, rfl, hc, by simp only [List.length_cons] at hl; omega, e.2⟩, fun ⟨_, _, e, _, hb⟩ => ⟨rfl, by cases e; exact hb.2⟩⟩
      · rw [if_neg hc, if_neg (by simp), Option.bind_some, lim_pos (by simpa using hl'), Option.bind_some]
        simp only [line]
        rw [accept_std]
        exact ⟨fun e => (by cases e.1), fun ⟨_, _, e, hh, _⟩ => by cases e; exact absurd hh hc⟩
  · refine ⟨fun e => ?_, fun ⟨_, _, e, _, hb⟩ => ?_⟩
    · exfalso
      have : lim (k :: s) = none := lim_neg (by simp only [List.length_cons]; omega)
      simp only [line, std, if_pos hlen, this] at e
      cases e
    · subst e
      have := hb.1
      simp only [List.length_cons] at hl
      omega

/-- The script of `new_p2sh`, on its own, succeeds exactly on something with the hash. -/
theorem C129_p2sh (h : Arr 20) (s : List Bytes) : eval .legacy (std false one H160 chk other lock) (newP2sh h) s = true ↔
    ∃ redeem rest, s = redeem :: rest ∧ H160 redeem = h ∧ Below one 998 rest := by
  have ho : ops (newP2sh h) = ([(0xa9, []), (0x14, h.1), (0x87, [])], true) := by
    have he : newP2sh h = 0xa9 :: (SignTx.pushed h.1 ++ [0x87]) := by
      rw [(C35_constructors.2.2.1 h).2]
      unfold SignTx.pushed; rw [h.2]; rfl
    rw [he, ops_op _ (by decide), ops_push _ _ (by rw [h.2]; decide), ops_op _ (by decide), ops_nil, h.2]
    rfl
  rw [eval_line _ _ _ _ _ ho (by
    intro o ho
    simp only [List.mem_cons, List.not_mem_nil, or_false] at ho
    rcases ho with rfl | rfl | rfl
    · exact Or.inr (Or.inr (by decide))
    · exact Or.inl ⟨Nat.le_of_ble_eq_true rfl, by show h.1.length ≤ 520; rw [h.2]; decide⟩
    · exact Or.inr (Or.inr (by decide))) (Nat.le_of_ble_eq_true rfl) (by nofun)]
  rw [line_exec _ _ _ _ _ _ _ _ (by decide), exec_hash160]
  match s with
  | [] => simp
  | x :: rest =>
    by_cases hl : rest.length ≤ 998
    · rw [Option.bind_some, lim_pos (by simp only [List.length_cons]; omega), Option.bind_some,
        line_push _ _ _ _ _ _ _ _ (by decide) _ _ (by simp only [List.length_cons]; omega), line_exec _ _ _ _ _ _ _ _ (by decide), exec_equal,
        Option.bind_some, lim_pos (by simp only [List.length_cons]; omega), Option.bind_some]
      simp only [line]
      rw [accept_std]
      by_cases hx : H160 x = h
      · subst hx
        exact ⟨fun e => ⟨x, rest, rfl, rfl, hl, e.2⟩, fun ⟨_, _, e, _, hb⟩ => ⟨by simp [boolBytes, castBool], by cases e; exact hb.2⟩⟩
      · have hne : ¬ h.1 = (H160 x).1 := fun e => hx (Subtype.ext e.symm)
        refine ⟨fun e => ?_, fun ⟨_, _, e, hh, _⟩ => by cases e; exact absurd hh hx⟩
        have := e.1
        simp [hne, boolBytes, castBool] at this
    · refine ⟨fun e => ?_, fun ⟨_, _, e, _, hb⟩ => by cases e; exact absurd hb.1 hl⟩
      exfalso
      rw [Option.bind_some] at e
      by_cases h1 : rest.length + 1 ≤ 1000
      · rw [lim_pos (by simpa using h1), Option.bind_some] at e
        have : lim (h.1 :: (H160 x).1 :: rest) = none := lim_neg (by simp only [List.length_cons]; omega)
        simp only [line, std, show (UInt8.toNat 20 ≤ 78) = True from eq_true (by decide), if_true, this] at e
        cases e
      · rw [lim_neg (by simp only [List.length_cons]; omega)] at e
        cases e

/-- The script of `new_op_return` never succeeds. -/
theorem C129_op_return (d : Bytes) (s : List Bytes) : eval .legacy (std false one H160 chk other lock) (newOpReturn d) s = false := by
  apply C128_unspendable
  obtain ⟨t, e⟩ := (opReturn_iff _).1 (C35_constructors.2.2.2.2.2.2.2.1 d)
  rw [e]
  rfl

/-! ## CHECKMULTISIG -/

theorem matches_weaken {ok : Bytes → Bytes → Prop} {ks : List Bytes} : ∀ {s : Bytes} {ss : List Bytes}, Matches ok ks (s :: ss) → Matches ok ks ss := by
  induction ks with
  | nil => intro s ss h; cases h
  | cons k ks ih =>
    intro s ss h
    cases h with
    | hit _ _ _ _ _ h => exact .skip _ _ _ h
    | skip _ _ _ h => exact .skip _ _ _ (ih h)

theorem greedy_iff : ∀ ks ss : List Bytes, greedy chk ks ss = true ↔ Matches (fun k s => chk k s = true) ks ss
  | ks, [] => ⟨fun _ => .nil _, fun _ => by cases ks <;> rfl⟩
  | [], s :: ss => ⟨fun h => (by cases h), fun h => (by cases h)⟩
  | k :: ks, s :: ss => by
    rw [greedy]
    by_cases hc : chk k s = true
    · rw [if_pos hc, greedy_iff ks ss]
      refine ⟨fun h => .hit _ _ _ _ hc h, fun h => ?_⟩
      cases h with
      | hit _ _ _ _ _ h => exact h
      | skip _ _ _ h => exact matches_weaken h
    · rw [if_neg hc, greedy_iff ks (s :: ss)]
      refine ⟨fun h => .skip _ _ _ h, fun h => ?_⟩
      cases h with
      | hit _ _ _ _ h' _ => exact absurd h' hc
      | skip _ _ _ h => exact h

theorem matches_snoc {ok : Bytes → Bytes → Prop} {ks ss : List Bytes} (h : Matches ok ks ss) (k : Bytes) :
    Matches ok (ks ++ [k]) ss ∧ ∀ s, ok k s → Matches ok (ks ++ [k]) (ss ++ [s]) := by
  induction h with
  | nil ks =>
    refine ⟨.nil _, fun s hs => ?_⟩
    induction ks with
    | nil => exact .hit _ _ _ _ hs (.nil _)
    | cons a ks ih => exact .skip _ _ _ ih
  | hit a ks b ss ha _ ih => exact ⟨.hit _ _ _ _ ha ih.1, fun s hs => .hit _ _ _ _ ha (ih.2 s hs)⟩
  | skip a ks ss _ ih => exact ⟨.skip _ _ _ ih.1, fun s hs => .skip _ _ _ (ih.2 s hs)⟩

theorem matches_reverse {ok : Bytes → Bytes → Prop} {ks ss : List Bytes} : Matches ok ks.reverse ss.reverse ↔ Matches ok ks ss := by
  have : ∀ {ks ss : List Bytes}, Matches ok ks ss → Matches ok ks.reverse ss.reverse := by
    intro ks ss h
    induction h with
    | nil ks => exact .nil _
    | hit k ks s ss hk _ ih => rw [List.reverse_cons, List.reverse_cons]; exact (matches_snoc ih k).2 s hk
    | skip k ks ss _ ih => rw [List.reverse_cons]; exact (matches_snoc ih k).1
  exact ⟨fun h => by simpa using this h, this⟩

theorem ops_keys : ∀ (keys : List Bytes) (t : Bytes), (∀ k ∈ keys, k.length ≤ 75) → ops (keys.flatMap SignTx.pushed ++ t) =
    (keys.map (fun k => (UInt8.ofNat k.length, k)) ++ (ops t).1, (ops t).2)
  | [], t, _ => rfl
  | k :: ks, t, h => by
    rw [List.flatMap_cons, List.append_assoc, ops_push _ _ (h k (List.mem_cons_self ..)), ops_keys ks t (fun x hx => h x (List.mem_cons_of_mem _ hx))]
    rfl

theorem line_keys (tap : Bool) (os : List (UInt8 × Bytes)) : ∀ (keys : List (UInt8 × Bytes)) (s : List Bytes), (∀ k ∈ keys, k.1.toNat ≤ 0x4e) →
    s.length + keys.length ≤ 1000 → line (std tap one H160 chk other lock) (keys ++ os) s =
      line (std tap one H160 chk other lock) os ((keys.map Prod.snd).reverse ++ s)
  | [], _, _, _ => rfl
  | k :: ks, s, h, hl => by
    have hk := h k (List.mem_cons_self ..)
    simp only [List.length_cons] at hl
    rw [List.cons_append, line_push _ _ _ _ _ _ _ _ hk _ _ (by omega),
      line_keys tap os ks (k.2 :: s) (fun x hx => h x (List.mem_cons_of_mem _ hx)) (by simp only [List.length_cons]; omega)]
    simp

theorem numOf_small (n : Nat) (h : n ≤ 16) (h1 : 1 ≤ n) : numOf [UInt8.ofNat n] = some n := by
  have : ∀ n, n ≤ 16 → 1 ≤ n → numOf [UInt8.ofNat n] = some n := by decide
  exact this n h h1

/-- The opcodes `m key .. key n OP_CHECKMULTISIG`, whatever opcodes push the keys. -/
theorem multisig_ops (m : Nat) (kos : List (UInt8 × Bytes)) (keys : List Bytes) (hkeys : kos.map Prod.snd = keys) (h1 : 1 ≤ m) (h2 : m ≤ keys.length)
    (h3 : keys.length ≤ 16) (hk : ∀ o ∈ kos, o.1.toNat ≤ 0x4e ∧ o.2.length ≤ 520) (script : Bytes)
    (ho : ops script = ((UInt8.ofNat (0x50 + m), []) :: (kos ++ [(UInt8.ofNat (0x50 + keys.length), []), (0xae, [])]), true))
    (s : List Bytes) (hs : s.length ≤ 982) : eval .legacy (std false one H160 chk other lock) script s = true ↔
    ∃ sigs rest, s = sigs.reverse ++ [] :: rest ∧ sigs.length = m ∧ Matches (fun k s => chk k s = true) keys sigs ∧ (one = true → rest = []) := by
  have t1 : ∀ m, m ≤ 16 → (UInt8.ofNat (0x50 + m)).toNat = 0x50 + m := by decide
  have hm := t1 m (by omega)
  have hn := t1 keys.length h3
  have hlen : kos.length = keys.length := by rw [← hkeys, List.length_map]
  rw [eval_line _ _ _ _ _ ho (by
    intro o ho
    simp only [List.mem_cons, List.mem_append, List.not_mem_nil, or_false] at ho
    rcases ho with rfl | hk' | rfl | rfl
    · exact Or.inr (Or.inl ⟨rfl, by show _ ≤ (UInt8.ofNat (0x50 + m)).toNat; omega, by show (UInt8.ofNat (0x50 + m)).toNat ≤ _; omega⟩)
    · exact Or.inl (hk o hk')
    · exact Or.inr (Or.inl ⟨rfl, by show _ ≤ (UInt8.ofNat (0x50 + keys.length)).toNat; omega, by show (UInt8.ofNat (0x50 + keys.length)).toNat ≤ _; omega⟩)
    · exact Or.inr (Or.inr (by decide))) (by simp; omega) (by nofun)]
  rw [line_num _ _ _ _ _ _ _ _ (by omega) (by omega) _ (by omega), line_keys _ _ _ _ _ _ _ _ _ (fun o ho => (hk o ho).1) (by simp only [List.length_cons]; omega), hkeys,
    line_num _ _ _ _ _ _ _ _ (by omega) (by omega) _ (by simp; omega), line_exec _ _ _ _ _ _ _ _ (by decide), exec_multisig]
  rw [show (UInt8.ofNat (0x50 + m)).toNat - 0x50 = m by omega, show (UInt8.ofNat (0x50 + keys.length)).toNat - 0x50 = keys.length by omega]
  rw [multisig, numOf_small _ h3 (by omega)]
  simp only []
  rw [if_neg (by omega), List.drop_left' (by simp)]
  simp only []
  rw [numOf_small m (by omega) h1]
  simp only []
  rw [if_neg (by omega), List.take_left' (by simp)]
  cases hd : s.drop m with
  | nil =>
    refine ⟨fun e => (by cases e), fun ⟨sigs, rest, e, hl, _⟩ => ?_⟩
    rw [e, List.drop_left' (by simpa using hl)] at hd
    cases hd
  | cons dummy r =>
    simp only []
    have hsplit : s = (s.take m) ++ dummy :: r := by rw [← hd, List.take_append_drop]
    have hlen' : (s.take m).length = m := by
      have := congrArg List.length hd
      simp only [List.length_drop, List.length_cons] at this
      rw [List.length_take]; omega
    by_cases hdum : dummy = []
    · subst hdum
      have hr : r.length ≤ 999 := by
        have := congrArg List.length hsplit
        simp only [List.length_append, List.length_cons] at this
        omega
      rw [if_neg (by simp), Option.bind_some, lim_pos (by simp only [List.length_cons]; omega), Option.bind_some]
      simp only [line]
      rw [accept_std]
      have hb : castBool (boolBytes (greedy chk keys.reverse (s.take m))) = true ↔ Matches (fun k s => chk k s = true) keys (s.take m).reverse := by
        rw [← matches_reverse, List.reverse_reverse, ← greedy_iff]
        cases greedy chk keys.reverse (s.take m) <;> simp [boolBytes, castBool]
      rw [hb]
      constructor
      · rintro ⟨hM, ho⟩
        exact ⟨(s.take m).reverse, r, by rw [List.reverse_reverse]; exact hsplit, by simpa using hlen', hM, ho⟩
      · rintro ⟨sigs, rest, e, hl, hM, ho⟩
        have e1 : s.take m = sigs.reverse := by rw [e, List.take_left' (by simpa using hl)]
        have e2 : [] :: r = [] :: rest := by rw [← hd, e, List.drop_left' (by simpa using hl)]
        cases e2
        exact ⟨by rw [e1, List.reverse_reverse]; exact hM, ho⟩
    · rw [if_pos hdum]
      refine ⟨fun e => (by cases e), fun ⟨sigs, rest, e, hl, _⟩ => ?_⟩
      rw [e, List.drop_left' (by simpa using hl)] at hd
      exact absurd (List.cons.inj hd).1.symm hdum

/-- A script `m key .. key n OP_CHECKMULTISIG` succeeds exactly on `m` signatures, each for a later key than the one before, below which there is an
empty element. -/
theorem C129_multisig (m : Nat) (keys : List Bytes) (h1 : 1 ≤ m) (h2 : m ≤ keys.length) (h3 : keys.length ≤ 16) (hk : ∀ k ∈ keys, k.length ≤ 75)
    (s : List Bytes) (hs : s.length ≤ 982) : eval .legacy (std false one H160 chk other lock)
      ([UInt8.ofNat (0x50 + m)] ++ keys.flatMap SignTx.pushed ++ [UInt8.ofNat (0x50 + keys.length), 0xae]) s = true ↔
    ∃ sigs rest, s = sigs.reverse ++ [] :: rest ∧ sigs.length = m ∧ Matches (fun k s => chk k s = true) keys sigs ∧ (one = true → rest = []) := by
  have t1 : ∀ m, m ≤ 16 → (UInt8.ofNat (0x50 + m)).toNat = 0x50 + m := by decide
  have hm := t1 m (by omega)
  have hn := t1 keys.length h3
  have hnum : ∀ (op : UInt8) (t : Bytes), 0x51 ≤ op.toNat → ops (op :: t) = ((op, []) :: (ops t).1, (ops t).2) := fun op t h => ops_op t (by omega)
  refine multisig_ops _ _ _ _ _ m (keys.map fun k => (UInt8.ofNat k.length, k)) keys (by rw [List.map_map]; exact List.map_id _) h1 h2 h3 ?_ _ ?_ s hs
  · intro o ho
    obtain ⟨k, hk', rfl⟩ := List.mem_map.1 ho
    have := hk k hk'
    have e : (UInt8.ofNat k.length).toNat = k.length := UInt8.toNat_ofNat_of_lt' (by show k.length < 256; omega)
    exact ⟨by show (UInt8.ofNat k.length).toNat ≤ _; omega, by show k.length ≤ _; omega⟩
  · rw [List.append_assoc]
    show ops (UInt8.ofNat (0x50 + m) :: (keys.flatMap SignTx.pushed ++ [UInt8.ofNat (0x50 + keys.length), 0xae])) = _
    rw [hnum _ _ (by omega), ops_keys _ _ hk, hnum _ _ (by omega), ops_op _ (by decide), ops_nil]
end

/-! Examples: a key is its own hash filled up with zeros, a signature is the reversed key. -/

def exH (b : Bytes) : Arr 20 := ⟨(b ++ List.replicate 20 0).take 20, by simp⟩
def exM (one : Bool) : Machine (List Bytes) := std false one exH (fun pk sig => decide (sig = pk.reverse)) (fun _ _ => none) (fun _ _ => false)
example : eval .legacy (exM true) (newP2pkh (exH [1, 2, 3])) [[1, 2, 3], [3, 2, 1]] = true ∧
    eval .legacy (exM true) (newP2pkh (exH [1, 2, 3])) [[1, 2, 3], [1, 2, 3]] = false ∧
    eval .legacy (exM true) (newP2pkh (exH [1, 2, 4])) [[1, 2, 3], [3, 2, 1]] = false ∧
    eval .legacy (exM true) (newP2pkh (exH [1, 2, 3])) [[1, 2, 3], [3, 2, 1], []] = false ∧
    eval .legacy (exM false) (newP2pkh (exH [1, 2, 3])) [[1, 2, 3], [3, 2, 1], []] = true := by
  decide +kernel
example : eval .legacy (exM false) (newP2pk (2 :: List.replicate 32 7)) [List.replicate 32 7 ++ [2]] = true ∧
    eval .legacy (exM false) (newP2pk (2 :: List.replicate 32 7)) [[], List.replicate 32 7 ++ [2]] = false ∧
    eval .legacy (exM false) (newP2sh (exH [0x51])) [[0x51], [9]] = true ∧ eval .legacy (exM false) (newP2sh (exH [0x51])) [[0x52]] = false ∧
    eval .legacy (exM false) (newOpReturn [1, 2, 3]) [[1]] = false := by
  decide +kernel
/-- Two of three; the signatures must be in the order of the keys, and the additional element must be empty. -/
example : eval .legacy (exM true) [0x52, 2, 1, 2, 2, 3, 4, 2, 5, 6, 0x53, 0xae] [[6, 5], [2, 1], []] = true ∧
    eval .legacy (exM true) [0x52, 2, 1, 2, 2, 3, 4, 2, 5, 6, 0x53, 0xae] [[2, 1], [6, 5], []] = false ∧
    eval .legacy (exM true) [0x52, 2, 1, 2, 2, 3, 4, 2, 5, 6, 0x53, 0xae] [[6, 5], [6, 5], []] = false ∧
    eval .legacy (exM true) [0x52, 2, 1, 2, 2, 3, 4, 2, 5, 6, 0x53, 0xae] [[6, 5], [2, 1], [1]] = false ∧
    ([UInt8.ofNat (0x50 + 2)] ++ ([[1, 2], [3, 4], [5, 6]] : List Bytes).flatMap SignTx.pushed ++ [UInt8.ofNat (0x50 + 3), 0xae] : Bytes) =
      [0x52, 2, 1, 2, 2, 3, 4, 2, 5, 6, 0x53, 0xae] := by
  decide +kernel

/-! ## Verification -/

section
open SignTx Crypto
open Taproot (Hash)
open Classical

variable {S : Secp} {D : Der}
variable (H : Bytes → Hash) (H160 : Bytes → Arr 20) (C : Curve S D) (other : UInt8 → List Bytes → Option (List Bytes)) (lock : UInt8 → List Bytes → Bool)
  (tx : Tx) (spent : List TxOut) (i : Nat)

/-- Signature check of the original algorithm and of BIP-143. -/
noncomputable def ecdsa (digest : UInt32 → Hash) (pk sig : Bytes) : Bool := decide (EcdsaOk C digest pk sig)
/-- Signature check of BIP-342; keys of other lengths are for later rules. -/
noncomputable def schnorr (digest : UInt8 → Option Hash) (pk sig : Bytes) : Bool :=
  decide ((∃ x : Arr 32, x.1 = pk ∧ SchnorrOk C digest x sig) ∨ (pk.length ≠ 32 ∧ pk ≠ [] ∧ sig ≠ []))

/-- The machine for scripts of the original kind. -/
noncomputable def base (script : Bytes) : Machine (List Bytes) := std false false H160 (ecdsa C (legacyDigest H tx i script)) other lock
/-- The machine for scripts of BIP-141. -/
noncomputable def v0 (txin : TxIn) (own : TxOut) (script : Bytes) : Machine (List Bytes) :=
  std false true H160 (ecdsa C (v0Digest H tx i txin own script)) other lock
/-- The machine for scripts of BIP-342. -/
noncomputable def tapscript (txin : TxIn) (own : TxOut) (leaf : Hash) : Machine (List Bytes) :=
  std true true H160 (schnorr C (tapDigest H tx i txin spent own (some (leaf, 0xFFFFFFFF)))) other lock

/-- `IsWitnessProgram`. -/
def asProgram : Bytes → Option (Nat × Bytes)
  | v :: l :: p =>
    if (v = 0 ∨ 0x51 ≤ v.toNat ∧ v.toNat ≤ 0x60) ∧ l.toNat = p.length ∧ 2 ≤ p.length ∧ p.length ≤ 40 then some (v.toNat - 0x50, p) else none
  | _ => none

/-- `VerifyWitnessProgram`. A witness with an annex (BIP-341) is not covered and counts as refused. -/
noncomputable def witnessOk (txin : TxIn) (own : TxOut) (p2sh : Bool) (version : Nat) (program : Bytes) (stack : List Bytes) : Bool :=
  if version = 0 then
    if program.length = 32 then
      match stack.reverse with
      | [] => false
      | script :: s => decide ((H script).1 = program) && decide (script.length ≤ 10000) && s.all (fun x => decide (x.length ≤ 520)) &&
          eval .legacy (v0 H H160 C other lock tx i txin own script) script s
    else if program.length = 20 then
      decide (stack.length = 2) && stack.all (fun x => decide (x.length ≤ 520)) &&
        eval .legacy (v0 H H160 C other lock tx i txin own ([0x76, 0xa9, 0x14] ++ program ++ [0x88, 0xac])) ([0x76, 0xa9, 0x14] ++ program ++ [0x88, 0xac])
          stack.reverse
    else false
  else if version = 1 ∧ program.length = 32 ∧ p2sh = false then
    match stack.reverse with
    | [] => false
    | [sig] => decide (∃ q : Arr 32, q.1 = program ∧ SchnorrOk C (tapDigest H tx i txin spent own none) q sig)
    | control :: script :: s =>
      match control with
      | [] => false
      | c0 :: c =>
        if c0 = 0x50 then false
        else
          decide (∃ (q : Arr 32) (Q : C.X), q.1 = program ∧ C.parseX q = some Q ∧ Taproot.Bip341.valid H C.taproot Q (c0 :: c) script = true) &&
          if c0 &&& 0xfe = 0xc0 then
            decide (s.length ≤ 1000) && s.all (fun x => decide (x.length ≤ 520)) &&
              eval .tapScript (tapscript H H160 C other lock tx spent i txin own
                (H ((H (Taproot.Bip341.ascii "TapLeaf")).1 ++ (H (Taproot.Bip341.ascii "TapLeaf")).1 ++
                  (0xc0 :: (Taproot.Bip341.compactSize script.length ++ script))))) script s
          else true
  else true

/-- What a script of the original kind leaves on the stack. -/
noncomputable def stackOf (script : Bytes) : Option (List Bytes) :=
  if 10000 < script.length then none
  else
    match run .legacy (base H H160 C other lock tx i script) (ops script).1 ⟨[], [], 0⟩ with
    | none => none
    | some t => if (ops script).2 = true ∧ t.cond = [] then some t.s else none

/-- `VerifyScript` for input `i`, with the rules of BIP-16, BIP-141 and BIP-341. -/
noncomputable def verify : Bool :=
  match tx.inputs[i]?, spent[i]? with
  | some txin, some own =>
    match txin.witness.toVec, stackOf H H160 C other lock tx i txin.scriptSig with
    | some stack, some s =>
      decide (own.spk.length ≤ 10000) && eval .legacy (base H H160 C other lock tx i own.spk) own.spk s &&
      match asProgram own.spk with
      | some (version, program) => decide (txin.scriptSig = []) && witnessOk H H160 C other lock tx spent i txin own false version program stack
      | none =>
        if ∃ h : Arr 20, own.spk = [0xa9, 0x14] ++ h.1 ++ [0x87] then
          (ops txin.scriptSig).1.all (fun o => decide (o.1.toNat ≤ 0x60)) &&
          match s with
          | [] => false
          | redeem :: r =>
            eval .legacy (base H H160 C other lock tx i redeem) redeem r &&
            match asProgram redeem with
            | some (version, program) =>
              decide (txin.scriptSig = SignTx.pushed redeem) && witnessOk H H160 C other lock tx spent i txin own true version program stack
            | none => stack.isEmpty
        else stack.isEmpty
    | _, _ => false
  | _, _ => false

variable {H H160 C other lock tx spent i}

theorem asProgram_of (version : Nat) (hv : version = 0 ∨ version = 1) (program : Bytes) (h : program.length = 20 ∨ program.length = 32) :
    asProgram ([if version = 0 then 0 else UInt8.ofNat (0x50 + version)] ++ SignTx.pushed program) = some (version, program) := by
  have hl : (UInt8.ofNat program.length).toNat = program.length := by rcases h with h | h <;> rw [h] <;> rfl
  show asProgram (_ :: UInt8.ofNat program.length :: program) = _
  unfold asProgram
  simp only []
  rw [if_pos]
  · rcases hv with rfl | rfl <;> rfl
  · refine ⟨?_, hl, by omega, by omega⟩
    rcases hv with rfl | rfl
    · exact Or.inl rfl
    · exact Or.inr (by decide)

/-- A witness program as a script leaves the program on the stack. -/
theorem eval_program (chk : Bytes → Bytes → Bool) (version : Nat) (hv : version = 0 ∨ version = 1) (program : Bytes)
    (h : program.length = 20 ∨ program.length = 32) : eval .legacy (std false false H160 chk other lock)
      ([if version = 0 then 0 else UInt8.ofNat (0x50 + version)] ++ SignTx.pushed program) [] = castBool program := by
  have e0 : SignTx.pushed program = SignTx.pushed program ++ [] := by simp
  have hl : (UInt8.ofNat program.length).toNat = program.length := by rcases h with h | h <;> rw [h] <;> rfl
  have hacc : ∀ x, (std false false H160 chk other lock).accept [program, x] = castBool program := by
    intro x
    show (castBool program && (!false || _)) = _
    simp
  rcases hv with rfl | rfl
  · have ho : ops ([0] ++ SignTx.pushed program) = ([(0, []), (UInt8.ofNat program.length, program)], true) := by
      rw [show ([0] ++ SignTx.pushed program : Bytes) = SignTx.pushed [] ++ (SignTx.pushed program ++ []) by simp [SignTx.pushed],
        ops_push _ _ (by simp), ops_push _ _ (by omega), ops_nil]
      rfl
    show eval .legacy _ ([0] ++ SignTx.pushed program) [] = _
    rw [eval_line _ _ _ _ _ ho (by
      intro o ho
      simp only [List.mem_cons, List.not_mem_nil, or_false] at ho
      rcases ho with rfl | rfl
      · exact Or.inl (by decide)
      · exact Or.inl ⟨by show (UInt8.ofNat program.length).toNat ≤ _; omega, by show program.length ≤ _; omega⟩) (Nat.le_of_ble_eq_true rfl) (by nofun)]
    rw [line_push _ _ _ _ _ _ _ _ (by decide) _ _ (by decide), line_push _ _ _ _ _ _ _ _ (by omega) _ _ (by decide)]
    exact hacc []
  · have ho : ops ([0x51] ++ SignTx.pushed program) = ([(0x51, []), (UInt8.ofNat program.length, program)], true) := by
      rw [show ([0x51] ++ SignTx.pushed program : Bytes) = 0x51 :: (SignTx.pushed program ++ []) by simp,
        ops_op _ (by decide), ops_push _ _ (by omega), ops_nil]
    show eval .legacy _ ([0x51] ++ SignTx.pushed program) [] = _
    rw [eval_line _ _ _ _ _ ho (by
      intro o ho
      simp only [List.mem_cons, List.not_mem_nil, or_false] at ho
      rcases ho with rfl | rfl
      · exact Or.inr (Or.inl (by decide))
      · exact Or.inl ⟨by show (UInt8.ofNat program.length).toNat ≤ _; omega, by show program.length ≤ _; omega⟩) (Nat.le_of_ble_eq_true rfl) (by nofun)]
    rw [line_num _ _ _ _ _ _ _ _ (by decide) (by decide) _ (by decide), line_push _ _ _ _ _ _ _ _ (by omega) _ _ (by decide)]
    exact hacc _

theorem program_length {txin : TxIn} {own : TxOut} {version : Nat} {program : Bytes} {stack : List Bytes}
    (h : ProgramOk H H160 C tx i txin spent own version program stack) :
    (version = 0 ∨ version = 1) ∧ (program.length = 20 ∨ program.length = 32) := by
  cases h with
  | wpkh sig pk => exact ⟨Or.inl rfl, Or.inl (H160 pk).2⟩
  | wsh m keys sigs script => exact ⟨Or.inl rfl, Or.inr (H script).2⟩
  | trKey q sig => exact ⟨Or.inr rfl, Or.inr q.2⟩
  | trScript q => exact ⟨Or.inr rfl, Or.inr q.2⟩

/-- A witness that meets the condition of its program is accepted by the evaluation. -/
theorem C129_program (other : UInt8 → List Bytes → Option (List Bytes)) (lock : UInt8 → List Bytes → Bool) {txin : TxIn} {own : TxOut} {p2sh : Bool}
    {version : Nat} {program : Bytes} {stack : List Bytes} (hp : version = 0 ∨ p2sh = false)
    (h : ProgramOk H H160 C tx i txin spent own version program stack) :
    witnessOk H H160 C other lock tx spent i txin own p2sh version program stack = true := by
  cases h with
  | wpkh sig pk h1 h2 h3 =>
    unfold witnessOk
    rw [if_pos rfl, if_neg (by rw [(H160 pk).2]; decide), if_pos (H160 pk).2]
    have hs : newP2pkh (H160 pk) = [0x76, 0xa9, 0x14] ++ (H160 pk).1 ++ [0x88, 0xac] := (C35_constructors.2.1 _).2
    rw [← hs] at h3 ⊢
    have := (C129_p2pkh true H160 (ecdsa C (v0Digest H tx i txin own (newP2pkh (H160 pk)))) other lock (H160 pk) [pk, sig]).2
      ⟨pk, sig, [], rfl, rfl, decide_eq_true h3, by simp, fun _ => rfl⟩
    simp only [List.length_cons, List.length_nil, List.all_cons, List.all_nil, List.reverse_cons, List.reverse_nil, List.nil_append, List.cons_append,
      Bool.and_eq_true, decide_eq_true_eq]
    exact ⟨⟨trivial, h2, by omega, trivial⟩, this⟩
  | wsh m keys sigs script h1 h2 h3 h4 h5 h6 h7 h8 =>
    unfold witnessOk
    rw [if_pos rfl, if_pos (H script).2]
    have hr : ([] :: sigs ++ [script]).reverse = script :: (sigs.reverse ++ [[]]) := by simp
    rw [hr]
    have hm : Matches (fun k s => ecdsa C (v0Digest H tx i txin own script) k s = true) keys sigs := by
      have : (fun k s => ecdsa C (v0Digest H tx i txin own script) k s = true) = EcdsaOk C (v0Digest H tx i txin own script) := by
        funext k s
        simp [ecdsa]
      rw [this]; exact h8
    have := (C129_multisig true H160 (ecdsa C (v0Digest H tx i txin own script)) other lock m keys h1 h2 h3 (fun k hk => by rw [h4 k hk]; decide)
      (sigs.reverse ++ [[]]) (by simp; omega)).2 ⟨sigs, [], rfl, h6, hm, fun _ => rfl⟩
    rw [← h5] at this
    have hlen : script.length ≤ 10000 := by
      have : ∀ ks : List Bytes, (∀ k ∈ ks, k.length = 33) → (ks.flatMap SignTx.pushed).length = 34 * ks.length := by
        intro ks
        induction ks with
        | nil => intro _; rfl
        | cons k ks ih =>
          intro hk
          rw [List.flatMap_cons, List.length_append, ih (fun x hx => hk x (List.mem_cons_of_mem _ hx))]
          have := hk k (List.mem_cons_self ..)
          simp only [SignTx.pushed, List.length_cons, this]
          omega
      rw [h5]
      simp only [List.length_append, this keys h4, List.length_cons, List.length_nil]
      omega
    simp only [Bool.and_eq_true, decide_eq_true_eq, List.all_eq_true, List.mem_append, List.mem_reverse, List.mem_singleton]
    refine ⟨⟨⟨trivial, hlen⟩, ?_⟩, this⟩
    rintro x (hx | rfl)
    · exact h7 x hx
    · simp
  | trKey q sig h1 =>
    have hp : p2sh = false := by rcases hp with hp | hp; cases hp; exact hp
    unfold witnessOk
    rw [if_neg (by decide), if_pos ⟨rfl, q.2, hp⟩]
    exact decide_eq_true ⟨q, rfl, h1⟩
  | trScript q key Q sig script c0 c leaf h1 h2 h3 h4 h5 h6 =>
    have hp : p2sh = false := by rcases hp with hp | hp; cases hp; exact hp
    unfold witnessOk
    rw [if_neg (by decide), if_pos ⟨rfl, q.2, hp⟩]
    have hc0 : ¬ c0 = 0x50 := by rintro rfl; revert h2; decide
    have hle : leaf = H ((H (Taproot.Bip341.ascii "TapLeaf")).1 ++ (H (Taproot.Bip341.ascii "TapLeaf")).1 ++
                  (0xc0 :: (Taproot.Bip341.compactSize script.length ++ script))) := Subtype.ext h5
    simp only [List.reverse_cons, List.reverse_nil, List.nil_append, List.cons_append]
    rw [if_neg hc0, if_pos h2, ← hle]
    have ho : ops script = ([(0x20, key.1), (0xac, [])], true) := by
      rw [h4, ops_push _ _ (by rw [key.2]; decide), ops_op _ (by decide), ops_nil, key.2]
      rfl
    have hk : key.1 ≠ [] := by
      intro e
      have := key.2
      rw [e] at this
      cases this
    have hsig : sig.length ≤ 65 := by
      obtain ⟨X, s, ty, m, -, hs, -⟩ := h6
      rcases hs with ⟨rfl, -⟩ | ⟨rfl, -⟩
      · rw [s.2]; decide
      · rw [List.length_append, s.2]; exact Nat.le_refl _
    have he : eval .tapScript (tapscript H H160 C other lock tx spent i txin own leaf) script [sig] = true := by
      unfold tapscript
      rw [eval_line _ _ _ _ _ ho (by
        intro o ho
        simp only [List.mem_cons, List.not_mem_nil, or_false] at ho
        rcases ho with rfl | rfl
        · exact Or.inl ⟨Nat.le_of_ble_eq_true rfl, by show key.1.length ≤ 520; rw [key.2]; decide⟩
        · exact Or.inr (Or.inr (by decide))) (Nat.le_of_ble_eq_true rfl) (by
        intro _ o ho
        simp only [List.mem_cons, List.not_mem_nil, or_false] at ho
        rcases ho with rfl | rfl <;> rfl)]
      have hchk : schnorr C (tapDigest H tx i txin spent own (some (leaf, 0xFFFFFFFF))) key.1 sig = true := decide_eq_true (Or.inl ⟨key, rfl, h6⟩)
      rw [line_push _ _ _ _ _ _ _ _ (by decide) _ _ (by simp), line_exec _ _ _ _ _ _ _ _ (by decide), exec_checksig, checksig,
        if_neg (fun e => hk e.2), if_pos hchk]
      rfl
    simp only [Bool.and_eq_true, decide_eq_true_eq, List.all_cons, List.all_nil, List.length_cons, List.length_nil]
    exact ⟨⟨q, Q, rfl, h1, h3⟩, ⟨by decide, by omega, trivial⟩, he⟩

theorem stackOf_pushes (ds : List Bytes) (hn : ds.length ≤ 100) (hd : ∀ d ∈ ds, d.length ≤ 75) (script : Bytes)
    (hs : script = ds.flatMap SignTx.pushed) : stackOf H H160 C other lock tx i script = some ds.reverse := by
  have ho : ops script = (ds.map (fun k => (UInt8.ofNat k.length, k)), true) := by
    rw [hs, show ds.flatMap SignTx.pushed = ds.flatMap SignTx.pushed ++ [] by simp, ops_keys _ _ hd, ops_nil]
    simp
  have hlen : script.length ≤ 10000 := by
    have : ∀ ks : List Bytes, (∀ k ∈ ks, k.length ≤ 75) → (ks.flatMap SignTx.pushed).length ≤ 76 * ks.length := by
      intro ks
      induction ks with
      | nil => intro _; simp
      | cons k ks ih =>
        intro hk
        have h1 := ih (fun x hx => hk x (List.mem_cons_of_mem _ hx))
        have h2 := hk k (List.mem_cons_self ..)
        rw [List.flatMap_cons, List.length_append]
        simp only [SignTx.pushed, List.length_cons]
        omega
    have := this ds hd
    rw [hs]
    omega
  unfold stackOf
  rw [if_neg (by omega), ho]
  simp only []
  have hr := run_line .legacy (base H H160 C other lock tx i script) (ds.map (fun k => (UInt8.ofNat k.length, k))) [] 0 (by
    intro o ho
    obtain ⟨k, hk, rfl⟩ := List.mem_map.1 ho
    have := hd k hk
    have e : (UInt8.ofNat k.length).toNat = k.length := UInt8.toNat_ofNat_of_lt' (by show k.length < 256; omega)
    exact Or.inl ⟨by show (UInt8.ofNat k.length).toNat ≤ _; omega, by show k.length ≤ _; omega⟩) (by simp; omega)
  have hl := line_keys false H160 (ecdsa C (legacyDigest H tx i script)) other lock false [] (ds.map (fun k => (UInt8.ofNat k.length, k))) [] (by
    intro o ho
    obtain ⟨k, hk, rfl⟩ := List.mem_map.1 ho
    have := hd k hk
    have e : (UInt8.ofNat k.length).toNat = k.length := UInt8.toNat_ofNat_of_lt' (by show k.length < 256; omega)
    show (UInt8.ofNat k.length).toNat ≤ _
    omega) (by simp; omega)
  rw [List.append_nil, List.append_nil, List.map_map, show (Prod.snd ∘ fun k : Bytes => (UInt8.ofNat k.length, k)) = id from rfl, List.map_id] at hl
  unfold base at hr ⊢
  rw [hl] at hr
  simp only [line, Option.map_some] at hr
  cases hx : run .legacy (std false false H160 (ecdsa C (legacyDigest H tx i script)) other lock) (ds.map (fun k => (UInt8.ofNat k.length, k))) ⟨[], [], 0⟩ with
  | none => rw [hx] at hr; cases hr
  | some t =>
    rw [hx] at hr
    have hr := Option.some.inj hr
    have r1 : t.s = ds.reverse := congrArg Prod.fst hr
    have r2 : t.cond = [] := congrArg Prod.snd hr
    simp [r1, r2]

/-- The witness program of the output, or of the redeem script, is not a number equal to zero: as a script it has to leave something true. -/
def Nonzero (tx : Tx) (spent : List TxOut) (i : Nat) : Prop :=
  ∀ txin own, tx.inputs[i]? = some txin → spent[i]? = some own → ∀ (b : UInt8) (p : Bytes),
    own.spk = b :: SignTx.pushed p ∨ txin.scriptSig = SignTx.pushed (b :: SignTx.pushed p) → castBool p = true

/-- An input that meets the conditions of C98 is accepted by the evaluation of its scripts, whatever the opcodes do that do not occur. -/
theorem C129_spends (other : UInt8 → List Bytes → Option (List Bytes)) (lock : UInt8 → List Bytes → Bool) (h : Spends H H160 C tx spent i)
    (hz : Nonzero tx spent i) : verify H H160 C other lock tx spent i = true := by
  cases h with
  | p2pkh txin own sig pk e1 e2 e3 e4 l1 l2 l3 l4 e5 e6 =>
    have hspk : own.spk = newP2pkh (H160 pk) := by rw [e3]; exact (C35_constructors.2.1 _).2.symm
    have hev := (C129_p2pkh false H160 (ecdsa C (legacyDigest H tx i own.spk)) other lock (H160 pk) [pk, sig]).2
      ⟨pk, sig, [], rfl, rfl, decide_eq_true e6, by simp, fun _ => rfl⟩
    rw [← hspk] at hev
    have hs : stackOf H H160 C other lock tx i txin.scriptSig = some [pk, sig] := by
      rw [e4]
      refine stackOf_pushes [sig, pk] (by simp) ?_ (SignTx.pushed sig ++ SignTx.pushed pk) (by simp)
      intro x hx
      simp only [List.mem_cons, List.not_mem_nil, or_false] at hx
      rcases hx with rfl | rfl <;> omega
    have h1 : asProgram own.spk = none := by
      rw [e3]
      show asProgram (0x76 :: 0xa9 :: 0x14 :: _) = none
      unfold asProgram
      simp only []
      rw [if_neg]
      rintro ⟨h, -⟩
      revert h
      decide
    have h2 : ¬ ∃ h : Arr 20, own.spk = [0xa9, 0x14] ++ h.1 ++ [0x87] := by
      rintro ⟨h, e⟩
      rw [e3] at e
      cases e
    unfold verify
    rw [e1, e2]
    simp only []
    rw [e5, hs]
    simp only []
    rw [h1]
    simp only []
    rw [if_neg h2]
    unfold base
    rw [hev]
    have : own.spk.length ≤ 10000 := by rw [e3]; simp [(H160 pk).2]
    simp [this]
  | native txin own version program stack e1 e2 e3 e4 e5 e6 =>
    obtain ⟨hv, hl⟩ := program_length e6
    have hz' := hz txin own e1 e2 _ program (Or.inl e3)
    unfold verify
    rw [e1, e2]
    simp only []
    rw [e5, e4]
    have hs : stackOf H H160 C other lock tx i [] = some [] := by
      unfold stackOf
      rw [if_neg (by decide)]
      rfl
    rw [hs]
    simp only []
    rw [e3, asProgram_of version hv program hl]
    simp only []
    rw [C129_program other lock (Or.inr rfl) e6]
    unfold base
    rw [eval_program _ version hv program hl, hz']
    simp [SignTx.pushed]
    omega
  | nested txin own version program redeem stack e1 e2 e3 e4 e5 e6 e7 e8 =>
    subst e7
    obtain ⟨hv, hl⟩ := program_length e8
    have hz' := hz txin own e1 e2 0 program (Or.inr (by rw [e5, e4]; rfl))
    have hspk : own.spk = newP2sh (H160 redeem) := by rw [e3]; exact (C35_constructors.2.2.1 _).2.symm
    have hrl : redeem.length ≤ 34 := by rw [e4]; simp only [SignTx.pushed, List.length_append, List.length_cons, List.length_nil]; omega
    have hs : stackOf H H160 C other lock tx i txin.scriptSig = some [redeem] := by
      rw [e5]
      refine stackOf_pushes [redeem] (by simp) ?_ (SignTx.pushed redeem) (by simp)
      intro x hx
      simp only [List.mem_cons, List.not_mem_nil, or_false] at hx
      rw [hx]; omega
    have hev := (C129_p2sh false H160 (ecdsa C (legacyDigest H tx i own.spk)) other lock (H160 redeem) [redeem]).2
      ⟨redeem, [], rfl, rfl, by simp, fun _ => rfl⟩
    rw [← hspk] at hev
    have hev2 := eval_program (H160 := H160) (other := other) (lock := lock) (ecdsa C (legacyDigest H tx i redeem)) 0 hv program hl
    rw [← e4, hz'] at hev2
    have h1 : asProgram own.spk = none := by
      rw [e3]
      show asProgram (0xa9 :: 0x14 :: _) = none
      unfold asProgram
      simp only []
      rw [if_neg]
      rintro ⟨h, -⟩
      revert h
      decide
    have h3 : asProgram redeem = some (0, program) := by rw [e4]; exact asProgram_of 0 hv program hl
    have h4 : (ops txin.scriptSig).1.all (fun o => decide (o.1.toNat ≤ 0x60)) = true := by
      have hn : (UInt8.ofNat redeem.length).toNat = redeem.length := UInt8.toNat_ofNat_of_lt' (by show redeem.length < 256; omega)
      rw [e5, show SignTx.pushed redeem = SignTx.pushed redeem ++ [] by simp, ops_push _ _ (by omega), ops_nil]
      simp only [List.all_cons, List.all_nil, hn, Bool.and_true, decide_eq_true_eq]
      omega
    unfold verify
    rw [e1, e2]
    simp only []
    rw [e6, hs]
    simp only []
    rw [h1]
    simp only []
    rw [if_pos ⟨H160 redeem, e3⟩, h4, h3]
    simp only []
    rw [C129_program other lock (Or.inl rfl) e8]
    unfold base
    rw [hev, hev2]
    have : own.spk.length ≤ 10000 := by rw [e3]; simp [(H160 redeem).2]
    simp [this, e5]

/-- An output whose witness program is zero can be spent by nobody. -/
theorem C129_zero_program (other : UInt8 → List Bytes → Option (List Bytes)) (lock : UInt8 → List Bytes → Bool) (own : TxOut) (ho : spent[i]? = some own)
    (version : Nat) (hv : version = 0 ∨ version = 1) (program : Bytes) (hl : program.length = 20 ∨ program.length = 32)
    (he : own.spk = [if version = 0 then 0 else UInt8.ofNat (0x50 + version)] ++ SignTx.pushed program) (hz : castBool program = false) :
    verify H H160 C other lock tx spent i = false := by
  unfold verify
  rw [ho]
  cases tx.inputs[i]? with
  | none => rfl
  | some txin =>
    simp only []
    split
    · rename_i stack s h1 h2
      rw [he, asProgram_of version hv program hl]
      simp only []
      by_cases hs : txin.scriptSig = []
      · have : stackOf H H160 C other lock tx i [] = some [] := by
          unfold stackOf
          rw [if_neg (by decide)]
          rfl
        rw [hs, this] at h2
        cases h2
        unfold base
        rw [eval_program _ version hv program hl, hz]
        simp
      · simp [hs]
    · rfl

/-- An output of `new_p2wpkh` is spent exactly with an empty script signature and a witness of a signature and a key of the hash, unless the hash is
zero. -/
theorem C129_p2wpkh (other : UInt8 → List Bytes → Option (List Bytes)) (lock : UInt8 → List Bytes → Bool) (txin : TxIn) (own : TxOut)
    (hi : tx.inputs[i]? = some txin) (ho : spent[i]? = some own) (h : Arr 20) (he : own.spk = newP2wpkh h) :
    verify H H160 C other lock tx spent i = true ↔ txin.scriptSig = [] ∧ castBool h.1 = true ∧ ∃ sig pk, txin.witness.toVec = some [sig, pk] ∧
      sig.length ≤ 520 ∧ pk.length ≤ 520 ∧ H160 pk = h ∧ EcdsaOk C (v0Digest H tx i txin own ([0x76, 0xa9, 0x14] ++ h.1 ++ [0x88, 0xac])) pk sig := by
  have hspk : own.spk = [if 0 = 0 then 0 else UInt8.ofNat (0x50 + 0)] ++ SignTx.pushed h.1 := by
    rw [he, (C35_constructors.2.2.2.1 h).2]
    unfold SignTx.pushed
    rw [h.2]
    rfl
  have hs0 : stackOf H H160 C other lock tx i [] = some [] := by
    unfold stackOf
    rw [if_neg (by decide)]
    rfl
  have hlen : own.spk.length ≤ 10000 := by rw [hspk]; simp [SignTx.pushed, h.2]
  have hcode : [0x76, 0xa9, 0x14] ++ h.1 ++ [0x88, 0xac] = newP2pkh h := (C35_constructors.2.1 _).2.symm
  have hp := asProgram_of 0 (Or.inl rfl) h.1 (Or.inl h.2)
  have hv := fun chk => eval_program (H160 := H160) (other := other) (lock := lock) chk 0 (Or.inl rfl) h.1 (Or.inl h.2)
  rw [← hspk] at hp hv
  unfold verify
  rw [hi, ho]
  simp only []
  by_cases hs : txin.scriptSig = []
  · rw [hs, hs0]
    cases hw : txin.witness.toVec with
    | none => simp
    | some stack =>
      simp only []
      rw [hp]
      simp only []
      unfold base
      rw [hv]
      unfold witnessOk
      rw [if_pos rfl, if_neg (by rw [h.2]; decide), if_pos h.2, hcode]
      unfold v0
      simp only [Bool.and_eq_true, decide_eq_true_eq, hlen, true_and, List.all_eq_true]
      rw [C129_p2pkh]
      constructor
      · rintro ⟨hz, ⟨hl2, hsz⟩, pk, sig, rest, e1, e2, e3, e4⟩
        have : rest = [] := e4.2 rfl
        subst this
        have hst : stack = [sig, pk] := by
          have := congrArg List.reverse e1
          simpa using this
        subst hst
        exact ⟨hz, sig, pk, rfl, hsz sig (by simp), hsz pk (by simp), e2, of_decide_eq_true e3⟩
      · rintro ⟨hz, sig, pk, e1, e2, e3, e4, e5⟩
        cases e1
        refine ⟨hz, ⟨rfl, ?_⟩, pk, sig, [], rfl, e4, decide_eq_true e5, by simp, fun _ => rfl⟩
        intro x hx
        simp only [List.mem_cons, List.not_mem_nil, or_false] at hx
        rcases hx with rfl | rfl <;> assumption
  · refine ⟨fun e => ?_, fun e => absurd e.1 hs⟩
    exfalso
    split at e
    · rw [hp] at e
      simp [hs] at e
    · cases e

/-- An output of `new_p2tr` is spent by a witness of one element exactly if that is a signature for the output key, unless the key is zero. -/
theorem C129_p2tr_key (other : UInt8 → List Bytes → Option (List Bytes)) (lock : UInt8 → List Bytes → Bool) (txin : TxIn) (own : TxOut)
    (hi : tx.inputs[i]? = some txin) (ho : spent[i]? = some own) (q : Arr 32) (he : own.spk = newP2tr q) (sig : Bytes)
    (hw : txin.witness.toVec = some [sig]) :
    verify H H160 C other lock tx spent i = true ↔ txin.scriptSig = [] ∧ castBool q.1 = true ∧ SchnorrOk C (tapDigest H tx i txin spent own none) q sig := by
  have hspk : own.spk = [if 1 = 0 then 0 else UInt8.ofNat (0x50 + 1)] ++ SignTx.pushed q.1 := by
    rw [he, (C35_constructors.2.2.2.2.2.1 q).2]
    unfold SignTx.pushed
    rw [q.2]
    rfl
  have hs0 : stackOf H H160 C other lock tx i [] = some [] := by
    unfold stackOf
    rw [if_neg (by decide)]
    rfl
  have hlen : own.spk.length ≤ 10000 := by rw [hspk]; simp [SignTx.pushed, q.2]
  have hp := asProgram_of 1 (Or.inr rfl) q.1 (Or.inr q.2)
  have hv := fun chk => eval_program (H160 := H160) (other := other) (lock := lock) chk 1 (Or.inr rfl) q.1 (Or.inr q.2)
  rw [← hspk] at hp hv
  unfold verify
  rw [hi, ho]
  simp only []
  rw [hw]
  by_cases hs : txin.scriptSig = []
  · rw [hs, hs0]
    simp only []
    rw [hp]
    simp only []
    unfold base
    rw [hv]
    unfold witnessOk
    rw [if_neg (by decide), if_pos ⟨rfl, q.2, rfl⟩]
    simp only [Bool.and_eq_true, decide_eq_true_eq, hlen, true_and, List.reverse_cons, List.reverse_nil, List.nil_append]
    refine and_congr_right fun _ => ⟨?_, fun h => ⟨q, rfl, h⟩⟩
    rintro ⟨q', e, h⟩
    have : q' = q := Subtype.ext e
    rwa [this] at h
  · refine ⟨fun e => ?_, fun e => absurd e.1 hs⟩
    exfalso
    split at e
    · rw [hp] at e
      simp [hs] at e
    · cases e

/-- What the library signs is accepted: for each kind of output of C98, the inputs that `sign_tx` (C98) fills pass the evaluation of their scripts. -/
theorem C129_signed (H : Bytes → Hash) (H160 : Bytes → Arr 20) (C : Curve S D) (kind : NetworkKind) (hrp : Addr.KnownHrp)
    (hD : ∀ s, D.serialize s ≠ []) (tx : Tx) (P : List TxOut) (locks : List (Lock C)) (hu : Unsigned tx) (h32 : tx.inputs.length ≤ 2 ^ 32)
    (hl : P.length = tx.inputs.length) (hown : Owns H H160 kind hrp P locks) (husable : ∀ (i : Nat) (l : Lock C), locks[i]? = some l → l.Usable tx i) :
    ∃ tx', signTx H H160 tx P locks = some tx' ∧ ∀ i, i < tx.inputs.length → Nonzero tx' P i → ∀ other lock, verify H H160 C other lock tx' P i = true := by
  obtain ⟨tx', a1, -, a3, -⟩ := C98_signed H H160 C kind hrp hD tx P locks hu h32 hl hown husable
  exact ⟨tx', a1, fun i hi hz other lock => C129_spends other lock (a3 i hi) hz⟩

/-- The transaction of C98 with one input of each kind: none of its programs is zero. -/
example : ∃ tx', signTx toyH toyH160 toyTx toySpent toyLocks = some tx' ∧ ∀ i, Nonzero tx' toySpent i := by
  have h : ((signTx toyH toyH160 toyTx toySpent toyLocks).map fun tx' => decide (tx'.inputs.all (fun x => x.scriptSig.isEmpty || castBool (x.scriptSig.drop 3)) = true ∧
      toySpent.all (fun o => castBool (o.spk.drop 2)) = true)) = some true := by decide +kernel
  cases hs : signTx toyH toyH160 toyTx toySpent toyLocks with
  | none => rw [hs] at h; cases h
  | some tx' =>
    rw [hs] at h
    have h := of_decide_eq_true (Option.some.inj h)
    refine ⟨tx', rfl, fun i txin own h1 h2 b p hp => ?_⟩
    rcases hp with hp | hp
    · have := List.all_eq_true.1 h.2 own (List.mem_of_getElem? h2)
      rw [hp] at this
      exact this
    · have := List.all_eq_true.1 h.1 txin (List.mem_of_getElem? h1)
      rw [hp] at this
      exact this
/-- A zero program: the output for an all-zero key hash. -/
example : castBool (List.replicate 20 0) = false ∧ castBool (List.replicate 31 0 ++ [0x80]) = false ∧ castBool (List.replicate 19 0 ++ [1]) = true := by decide

end

end Core
end Scr
end Btc
