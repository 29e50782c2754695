import Verif.Props.C130
import Verif.Props.C37_C38
import Verif.Bitcoin.TxHelpers
/-!
# C133: lock times in scripts: the library's comparisons are what `OP_CHECKLOCKTIMEVERIFY` and `OP_CHECKSEQUENCEVERIFY` check

The rules of evaluation are those of C128 and C129; here with the two opcodes of BIP-65 and BIP-112.
-/
namespace Btc
namespace Scr
namespace Core
open Lock

/-! ## BIP-65, BIP-112 and `IsFinalTx` -/

/-- BIP-65: the top of the stack, a number of at most five bytes, is not negative, is of the kind of the lock time of the transaction and not above it,
and the sequence number of the input is not final. -/
def cltvRule (tx : Tx) (i : TxIn) : List Bytes → Bool
  | [] => false
  | x :: _ => decide (x.length ≤ 5 ∧ 0 ≤ numVal x ∧
      ((tx.lockTime.toNat < 500000000 ∧ numVal x < 500000000) ∨ (500000000 ≤ tx.lockTime.toNat ∧ 500000000 ≤ numVal x)) ∧
      numVal x ≤ tx.lockTime.toNat ∧ i.sequence.toNat ≠ 0xffffffff)

/-- Bit 22 and the lower 16 bits. -/
def masked (n : Nat) : Nat := n / 2 ^ 22 % 2 * 2 ^ 22 + n % 65536

/-- BIP-112. -/
def csvRule (tx : Tx) (i : TxIn) : List Bytes → Bool
  | [] => false
  | x :: _ => decide (x.length ≤ 5 ∧ 0 ≤ numVal x ∧
      ((numVal x).toNat / 2 ^ 31 % 2 = 1 ∨
        (2 ≤ tx.version.toNat ∧ i.sequence.toNat / 2 ^ 31 % 2 = 0 ∧
          ((masked i.sequence.toNat < 2 ^ 22 ∧ masked (numVal x).toNat < 2 ^ 22) ∨ (2 ^ 22 ≤ masked i.sequence.toNat ∧ 2 ^ 22 ≤ masked (numVal x).toNat)) ∧
          masked (numVal x).toNat ≤ masked i.sequence.toNat)))

def lockRule (tx : Tx) (i : TxIn) (op : UInt8) : List Bytes → Bool := if op = 0xb1 then cltvRule tx i else csvRule tx i

/-- `IsFinalTx` of Bitcoin Core. -/
def FinalTx (tx : Tx) (height mtp : Nat) : Prop :=
  tx.lockTime.toNat = 0 ∨ tx.lockTime.toNat < (if tx.lockTime.toNat < 500000000 then height else mtp) ∨ ∀ i ∈ tx.inputs, i.sequence.toNat = 0xffffffff

/-! ## The comparisons -/

theorem enables_iff (i : TxIn) : i.enablesLockTime = true ↔ i.sequence.toNat ≠ 0xffffffff := by
  have := (C38_kinds ⟨i.sequence⟩).2.2.2.2
  unfold Seq.enablesAbsolute at this
  rw [decide_eq_true_eq] at this
  unfold TxIn.enablesLockTime
  rw [bne_iff_ne]
  exact this

/-- `n OP_CHECKLOCKTIMEVERIFY` passes if and only if `n`, read as a lock time, is implied by that of the transaction (`is_implied_by`) and the input
does not switch lock times off (`enables_lock_time`). -/
theorem C133_cltv (tx : Tx) (i : TxIn) (n : UInt32) (l o : LockTime) (hl : LockTime.fromConsensus n = some l)
    (ho : LockTime.fromConsensus tx.lockTime = some o) (x : Bytes) (hx : numVal x = n.toNat) (h5 : x.length ≤ 5) (s : List Bytes) :
    cltvRule tx i (x :: s) = true ↔ l.isImpliedBy o = true ∧ i.enablesLockTime = true := by
  rw [fromConsensus_eq] at hl ho
  rw [enables_iff]
  unfold cltvRule
  rw [decide_eq_true_eq, hx]
  by_cases h1 : n.toNat < 500000000 <;> by_cases h2 : tx.lockTime.toNat < 500000000 <;> simp only [h1, h2, if_true, if_false, Option.some.injEq] at hl ho <;>
    subst hl <;> subst ho <;> simp only [LockTime.isImpliedBy, decide_eq_true_eq, UInt32.le_iff_toNat_le, Bool.false_eq_true, false_and, iff_false] <;> omega

/-- A number that is no lock time never passes. -/
theorem C133_cltv_range (tx : Tx) (i : TxIn) (x : Bytes) (hx : numVal x < 0 ∨ 2 ^ 32 ≤ numVal x) (s : List Bytes) : cltvRule tx i (x :: s) = false := by
  unfold cltvRule
  rw [decide_eq_false_iff_not]
  have := tx.lockTime.toNat_lt
  omega

theorem implied_sequence (n : UInt32) (l : RelLock) (hl : RelLock.fromConsensus n = some l) (s : UInt32) :
    l.isImpliedBySequence ⟨s⟩ = true ↔ s.toNat / 2 ^ 31 % 2 = 0 ∧ n.toNat / 2 ^ 22 % 2 = s.toNat / 2 ^ 22 % 2 ∧ n.toNat % 65536 ≤ s.toNat % 65536 := by
  have e : ∀ n : UInt32, (UInt16.ofNat (n.toNat % 65536)).toNat = n.toNat % 65536 := fun n => UInt16.toNat_ofNat_of_lt' (Nat.mod_lt _ (by decide))
  rw [C38_from_consensus] at hl
  unfold RelLock.isImpliedBySequence RelLock.fromSequence
  rw [C38_from_consensus]
  simp only []
  by_cases h1 : n.toNat / 2 ^ 31 % 2 = 1
  · rw [if_pos h1] at hl; cases hl
  rw [if_neg h1] at hl
  by_cases h2 : s.toNat / 2 ^ 31 % 2 = 1
  · rw [if_pos h2]
    simp only [Bool.false_eq_true, false_iff]
    omega
  rw [if_neg h2]
  by_cases h3 : n.toNat / 2 ^ 22 % 2 = 1
  · rw [if_pos h3] at hl
    cases hl
    by_cases h4 : s.toNat / 2 ^ 22 % 2 = 1
    · rw [if_pos h4]
      show decide _ = true ↔ _
      rw [decide_eq_true_eq, UInt16.le_iff_toNat_le, e, e]
      omega
    · rw [if_neg h4]
      show false = true ↔ _
      simp only [Bool.false_eq_true, false_iff]
      omega
  · rw [if_neg h3] at hl
    cases hl
    by_cases h4 : s.toNat / 2 ^ 22 % 2 = 1
    · rw [if_pos h4]
      show false = true ↔ _
      simp only [Bool.false_eq_true, false_iff]
      omega
    · rw [if_neg h4]
      show decide _ = true ↔ _
      rw [decide_eq_true_eq, UInt16.le_iff_toNat_le, e, e]
      omega

theorem masked_iff (a b : Nat) : ((masked b < 2 ^ 22 ∧ masked a < 2 ^ 22) ∨ (2 ^ 22 ≤ masked b ∧ 2 ^ 22 ≤ masked a)) ∧ masked a ≤ masked b ↔
    a / 2 ^ 22 % 2 = b / 2 ^ 22 % 2 ∧ a % 65536 ≤ b % 65536 := by
  unfold masked
  omega

/-- `n OP_CHECKSEQUENCEVERIFY` passes if and only if `n`, read as a relative lock time, is implied by the sequence number of the input
(`is_implied_by_sequence`) and the transaction has at least version 2; if `n` is no relative lock time it always passes. -/
theorem C133_csv (tx : Tx) (i : TxIn) (n : UInt32) (x : Bytes) (hx : numVal x = n.toNat) (h5 : x.length ≤ 5) (s : List Bytes) :
    (∀ l, RelLock.fromConsensus n = some l → (csvRule tx i (x :: s) = true ↔ 2 ≤ tx.version.toNat ∧ l.isImpliedBySequence ⟨i.sequence⟩ = true)) ∧
    (RelLock.fromConsensus n = none → csvRule tx i (x :: s) = true) := by
  have hn : (numVal x).toNat = n.toNat := by omega
  unfold csvRule
  rw [decide_eq_true_eq, hn]
  refine ⟨fun l hl => ?_, fun hl => ?_⟩
  · rw [implied_sequence n l hl, masked_iff]
    have h1 : ¬ n.toNat / 2 ^ 31 % 2 = 1 := by
      intro e
      rw [C38_from_consensus, if_pos e] at hl
      cases hl
    constructor
    · rintro ⟨-, -, e | ⟨e1, e2, e3⟩⟩
      · exact absurd e h1
      · exact ⟨e1, e2, e3⟩
    · rintro ⟨e1, e2, e3⟩
      exact ⟨h5, by omega, Or.inr ⟨e1, e2, e3⟩⟩
  · refine ⟨h5, by omega, Or.inl ?_⟩
    rw [C38_from_consensus] at hl
    by_cases h1 : n.toNat / 2 ^ 31 % 2 = 1
    · exact h1
    · rw [if_neg h1] at hl
      split at hl <;> cases hl

/-! ## Scripts from the builder -/

theorem success_steps {σ : Type} (ctx : Ctx) (M : Machine σ) (o : UInt8 × Bytes) (h : isSuccess o.1 = true) (t : St σ) (ht : t.on = true) :
    step ctx M o t = none := by
  have key : ∀ op : UInt8, isSuccess op = true → (op ∈ disabled ∨ act ctx op = .bad) ∧ 0x4e < op.toNat := by
    cases ctx <;> (set_option maxRecDepth 8000 in exact forall_u8 (by decide +kernel))
  obtain ⟨h1, h2⟩ := key o.1 h
  unfold step
  simp only []
  split
  · rfl
  split
  · rfl
  split
  · rfl
  rename_i hd
  rw [if_neg (by omega), if_pos (Or.inl ht)]
  rcases h1 with h1 | h1
  · exact absurd h1 hd
  · rw [h1]

variable {tap one : Bool} {H160 : Bytes → Arr 20} {chk : Bytes → Bytes → Bool} {other : UInt8 → List Bytes → Option (List Bytes)}

theorem lock_script (ctx : Ctx) (lock : UInt8 → List Bytes → Bool) (h75 : ∀ x s, other 0x75 (x :: s) = some s) (op : UInt8) (hop : op = 0xb1 ∨ op = 0xb2)
    (n : UInt32) (r : Bytes) (s : List Bytes) (hs : s.length < 1000) (hr : ctx = .legacy → (ops r).1.length ≤ 199)
    (ht : ctx = .tapScript → ((ops r).1.any fun o => isSuccess o.1) = false) :
    ∃ b d, pushU32 [] n = some b ∧ numVal d = n.toNat ∧ d.length ≤ 5 ∧
      (eval ctx (std tap one H160 chk other lock) (b ++ [op, 0x75] ++ r) s = true ↔
        lock op (d :: s) = true ∧ eval ctx (std tap one H160 chk other lock) r s = true) := by
  obtain ⟨d, hb, hd, -, h5⟩ := C130_push_u32 [] n
  refine ⟨_, d, hb, hd, h5, ?_⟩
  generalize hM : std tap one H160 chk other lock = M
  have hlock : M.locktime = lock := by rw [← hM]; rfl
  obtain ⟨o, ho, hp⟩ := C130_push_slice ctx M (by rw [← hM]; exact numPush_std _ _ _ _ _ _) [] rfl d (by omega)
  have hops : ops (pushSlice [] d ++ [op, 0x75] ++ r) = (o :: (op, []) :: (0x75, []) :: (ops r).1, (ops r).2) := by
    rw [List.append_assoc, ho]
    show ([] ++ o :: (ops (op :: 0x75 :: r)).1, (ops (op :: 0x75 :: r)).2) = _
    rw [ops_op (0x75 :: r) (by rcases hop with e | e <;> subst e <;> decide), ops_op r (by decide)]
    rfl
  have hpush : M.push d s = some (d :: s) := by
    rw [← hM]
    exact if_pos (by simp only [List.length_cons]; omega)
  have s1 : step ctx M o ⟨s, [], 0⟩ = some ⟨d :: s, [], 0⟩ := by
    rw [hp _ (fun _ => Nat.zero_le _), if_pos (show St.on _ = true from rfl), if_neg (by omega)]
    show (M.push d s).map _ = _
    rw [hpush]
    rfl
  have hos : isSuccess o.1 = false := by
    cases e : isSuccess o.1 with
    | false => rfl
    | true =>
      have := success_steps ctx M o e ⟨s, [], 0⟩ rfl
      rw [this] at s1
      cases s1
  have hopf : act ctx op = .locktime ∧ isSuccess op = false ∧ op ∉ disabled ∧ 0x68 < op.toNat := by
    rcases hop with e | e <;> subst e <;> cases ctx <;> decide
  have bump_small : ∀ c m, m < 201 → ¬ (ctx = .legacy ∧ 201 < bump ctx c m) := fun c m hm e => by
    have := (bump_le (ctx := ctx) c m).2
    omega
  have s2 : step ctx M (op, []) ⟨d :: s, [], 0⟩ = if lock op (d :: s) then some ⟨d :: s, [], bump ctx op 0⟩ else none := by
    unfold step
    simp only [List.length_nil, show ¬ 520 < 0 by omega, if_false, hopf.2.2.1, bump_small op 0 (by omega), hopf.1, hlock]
    rw [if_neg (by omega), if_pos (Or.inl (show St.on _ = true from rfl))]
  have s3 : ∀ m, m ≤ 1 → step ctx M (0x75, []) ⟨d :: s, [], m⟩ = some ⟨s, [], bump ctx 0x75 m⟩ := by
    intro m hm
    rw [step_plain 0x75 (by decide) (by decide) (Or.inl (by cases ctx <;> decide)), if_neg (bump_small _ m (by omega)), if_pos (show St.on _ = true from rfl),
      if_pos (by cases ctx <;> decide)]
    show (M.exec 0x75 (d :: s)).map _ = _
    have : M.exec 0x75 (d :: s) = some s := by
      rw [← hM]
      show (other 0x75 (d :: s)).bind lim = _
      rw [h75]
      exact if_pos (by omega)
    rw [this]
    rfl
  have b1 := (bump_le (ctx := ctx) op 0).2
  have b2 := (bump_le (ctx := ctx) 0x75 (bump ctx op 0)).2
  have hrun : run ctx M (o :: (op, []) :: (0x75, []) :: (ops r).1) ⟨s, [], 0⟩ =
      if lock op (d :: s) then run ctx M (ops r).1 ⟨s, [], bump ctx 0x75 (bump ctx op 0)⟩ else none := by
    rw [run, s1, Option.bind_some, run, s2]
    by_cases hk : lock op (d :: s) = true
    · rw [if_pos hk, if_pos hk, Option.bind_some, run, s3 _ (by omega)]
      rfl
    · rw [if_neg hk, if_neg hk]
      rfl
  have hany : ((o :: (op, []) :: (0x75, []) :: (ops r).1).any fun o => isSuccess o.1) = ((ops r).1.any fun o => isSuccess o.1) := by
    simp only [List.any_cons, hos, hopf.2.1, show isSuccess 0x75 = false by decide, Bool.false_or]
  have hsx : ¬ (ctx = .tapScript ∧ ((ops r).1.any fun o => isSuccess o.1) = true) := fun e => by rw [ht e.1] at e; cases e.2
  unfold eval
  simp only [hops, hany]
  rw [if_neg hsx, if_neg hsx, hrun]
  by_cases hk : lock op (d :: s) = true
  · rw [if_pos hk]
    simp only [hk, true_and]
    have fwd : ∀ (a c : Nat), (ctx = .legacy → c ≤ a ∨ c + (ops r).1.length ≤ 201) → ∀ t, run ctx M (ops r).1 ⟨s, [], a⟩ = some t →
        ∃ u, run ctx M (ops r).1 ⟨s, [], c⟩ = some u ∧ Same t u :=
      fun a c hc t e => run_count (t := ⟨s, [], a⟩) (u := ⟨s, [], c⟩) ⟨rfl, rfl⟩ e hc
    have f1 := fwd (bump ctx 0x75 (bump ctx op 0)) 0 (fun _ => Or.inl (Nat.zero_le _))
    have f2 := fwd 0 (bump ctx 0x75 (bump ctx op 0)) (fun hc => Or.inr (by have := hr hc; omega))
    constructor
    · intro h
      cases e : run ctx M (ops r).1 ⟨s, [], bump ctx 0x75 (bump ctx op 0)⟩ with
      | none => rw [e] at h; cases h
      | some t =>
        rw [e] at h
        obtain ⟨u, hu, h1, h2⟩ := f1 t e
        rw [hu]
        simp only [] at h ⊢
        rw [← h1, ← h2]
        exact h
    · intro h
      cases e : run ctx M (ops r).1 ⟨s, [], 0⟩ with
      | none => rw [e] at h; cases h
      | some t =>
        rw [e] at h
        obtain ⟨u, hu, h1, h2⟩ := f2 t e
        rw [hu]
        simp only [] at h ⊢
        rw [← h1, ← h2]
        exact h
  · rw [if_neg hk]
    simp [hk]

/-- A script that begins with `push_lock_time(l)`, `OP_CHECKLOCKTIMEVERIFY`, `OP_DROP` succeeds if and only if the lock time of the transaction implies
`l`, the input has lock times enabled, and the rest succeeds. -/
theorem C133_cltv_script (ctx : Ctx) (tx : Tx) (i : TxIn) (h75 : ∀ x s, other 0x75 (x :: s) = some s) (l o : LockTime) (hl : l.WF)
    (ho : LockTime.fromConsensus tx.lockTime = some o) (r : Bytes) (s : List Bytes) (hs : s.length < 1000) (hr : ctx = .legacy → (ops r).1.length ≤ 199)
    (ht : ctx = .tapScript → ((ops r).1.any fun o => isSuccess o.1) = false) :
    ∃ b, pushU32 [] l.toConsensus = some b ∧
      (eval ctx (std tap one H160 chk other (lockRule tx i)) (b ++ [0xb1, 0x75] ++ r) s = true ↔
        l.isImpliedBy o = true ∧ i.enablesLockTime = true ∧ eval ctx (std tap one H160 chk other (lockRule tx i)) r s = true) := by
  obtain ⟨b, d, h1, h2, h3, h4⟩ := lock_script (tap := tap) (one := one) (H160 := H160) (chk := chk) ctx (lockRule tx i) h75 0xb1 (Or.inl rfl)
    l.toConsensus r s hs hr ht
  refine ⟨b, h1, ?_⟩
  rw [h4, ← and_assoc, ← C133_cltv tx i l.toConsensus l o (C37_to_consensus l hl) ho d h2 h3 s]
  rfl

/-- The same for `push_relative_lock_time(l)`, `OP_CHECKSEQUENCEVERIFY`, `OP_DROP`. -/
theorem C133_csv_script (ctx : Ctx) (tx : Tx) (i : TxIn) (h75 : ∀ x s, other 0x75 (x :: s) = some s) (l : RelLock)
    (r : Bytes) (s : List Bytes) (hs : s.length < 1000) (hr : ctx = .legacy → (ops r).1.length ≤ 199)
    (ht : ctx = .tapScript → ((ops r).1.any fun o => isSuccess o.1) = false) :
    ∃ b, pushU32 [] l.toConsensus = some b ∧
      (eval ctx (std tap one H160 chk other (lockRule tx i)) (b ++ [0xb2, 0x75] ++ r) s = true ↔
        2 ≤ tx.version.toNat ∧ l.isImpliedBySequence ⟨i.sequence⟩ = true ∧ eval ctx (std tap one H160 chk other (lockRule tx i)) r s = true) := by
  obtain ⟨b, d, h1, h2, h3, h4⟩ := lock_script (tap := tap) (one := one) (H160 := H160) (chk := chk) ctx (lockRule tx i) h75 0xb2 (Or.inr rfl)
    l.toConsensus r s hs hr ht
  refine ⟨b, h1, ?_⟩
  rw [h4, ← and_assoc, ← (C133_csv tx i l.toConsensus d h2 h3 s).1 l (C38_roundtrip l l.toConsensus).1]
  rfl

/-! ## When such a coin can be spent -/

/-- An input with the given sequence number. -/
def inputOf (q : UInt32) : TxIn := ⟨⟨⟨List.replicate 32 7, rfl⟩, 1⟩, [], q, ⟨[], 0, 0⟩⟩

/-- `is_satisfied_by` says whether a transaction can be mined in the next block that passes `n OP_CHECKLOCKTIMEVERIFY`; whatever the age of the
coin, since the sequence number can be chosen so that BIP-68 asks nothing. -/
theorem C133_cltv_spendable (n : UInt32) (l : LockTime) (hl : LockTime.fromConsensus n = some l) (x : Bytes) (hx : numVal x = n.toNat) (h5 : x.length ≤ 5)
    (h : Height) (t : Mtp) :
    l.isSatisfiedBy h t = true ↔ ∃ (tx : Tx) (i : TxIn), i ∈ tx.inputs ∧ FinalTx tx (h.n.toNat + 1) t.n.toNat ∧
      (∀ coinH coinT, Bip68 i.sequence.toNat h.n.toNat t.n.toNat coinH coinT) ∧ cltvRule tx i [x] = true := by
  rw [C37_satisfied n h t l hl]
  unfold Final FinalTx cltvRule
  simp only [decide_eq_true_eq, hx]
  constructor
  · intro hf
    refine ⟨⟨2, n, [inputOf 0xfffffffe], []⟩, inputOf 0xfffffffe, List.mem_singleton.2 rfl, Or.inr (Or.inl ?_), (fun _ _ => by unfold Bip68; rw [if_pos (by decide)]; trivial), h5, by omega, ?_, (by show (n.toNat : Int) ≤ n.toNat; omega), by decide⟩
    · show n.toNat < if n.toNat < 500000000 then h.n.toNat + 1 else t.n.toNat
      split at hf <;> rename_i e
      · rw [if_pos e]; exact hf
      · rw [if_neg e]; exact hf
    · show (n.toNat < 500000000 ∧ (n.toNat : Int) < 500000000) ∨ (500000000 ≤ n.toNat ∧ 500000000 ≤ (n.toNat : Int))
      omega
  · rintro ⟨tx, i, hi, hf, -, -, -, hu, hle, hq⟩
    rcases hf with hf | hf | hf
    · split <;> omega
    · split at hf <;> split <;> omega
    · exact absurd (hf i hi) hq

/-- `is_satisfied_by` of a relative lock time says whether a transaction of version 2 can be mined in the next block that passes
`n OP_CHECKSEQUENCEVERIFY` and whose input satisfies BIP-68. -/
theorem C133_csv_spendable (n : UInt32) (l : RelLock) (hl : RelLock.fromConsensus n = some l) (x : Bytes) (hx : numVal x = n.toNat) (h5 : x.length ≤ 5)
    (tipH tipT coinH coinT : UInt32) (hh : coinH.toNat ≤ tipH.toNat) (ht : coinT.toNat ≤ tipT.toNat) :
    l.isSatisfiedBy tipH tipT (some coinH) (some coinT) = some true ↔
      ∃ (tx : Tx) (i : TxIn), i ∈ tx.inputs ∧ FinalTx tx (tipH.toNat + 1) tipT.toNat ∧ 2 ≤ tx.version.toNat ∧
        Bip68 i.sequence.toNat tipH.toNat tipT.toNat coinH.toNat coinT.toNat ∧ csvRule tx i [x] = true := by
  obtain ⟨b, hb, hbb⟩ := (C38_bip68 n l hl tipH tipT (some coinH) (some coinT)).1 (fun c e => by cases e; exact hh) (fun c e => by cases e; exact ht)
  simp only [] at hbb
  rw [hb, Option.some.injEq, hbb]
  constructor
  · intro hq
    refine ⟨⟨2, 0, [inputOf n], []⟩, inputOf n, List.mem_singleton.2 rfl, Or.inl rfl, Nat.le_refl 2, hq, ?_⟩
    rw [(C133_csv _ (inputOf n) n x hx h5 []).1 l hl, implied_sequence n l hl]
    have h1 : ¬ n.toNat / 2 ^ 31 % 2 = 1 := by
      intro e
      rw [C38_from_consensus, if_pos e] at hl
      cases hl
    exact ⟨Nat.le_refl 2, (by show n.toNat / 2 ^ 31 % 2 = 0; omega), rfl, Nat.le_refl _⟩
  · rintro ⟨tx, i, -, -, -, hq, hc⟩
    rw [(C133_csv tx i n x hx h5 []).1 l hl, implied_sequence n l hl] at hc
    obtain ⟨-, e1, e2, e3⟩ := hc
    have h1 : ¬ n.toNat / 2 ^ 31 % 2 = 1 := by
      intro e
      rw [C38_from_consensus, if_pos e] at hl
      cases hl
    unfold Bip68 at hq ⊢
    rw [if_neg (by omega)] at hq
    rw [if_neg h1, e2]
    split at hq <;> rename_i e
    · rw [if_pos e]; omega
    · rw [if_neg e]; omega

/-! ## Examples -/

/-- Height 741521 against a transaction locked to 741600; 168 intervals of 512 seconds against 336. -/
example : numVal [0x91, 0x50, 0x0b] = 741521 ∧ cltvRule ⟨2, 741600, [inputOf 0], []⟩ (inputOf 0) [[0x91, 0x50, 0x0b]] = true ∧
    cltvRule ⟨2, 741520, [inputOf 0], []⟩ (inputOf 0) [[0x91, 0x50, 0x0b]] = false ∧
    cltvRule ⟨2, 741600, [inputOf 0], []⟩ (inputOf 0xffffffff) [[0x91, 0x50, 0x0b]] = false ∧
    numVal [0xa8, 0, 0x40] = 0x4000a8 ∧ csvRule ⟨2, 0, [inputOf 0x400150], []⟩ (inputOf 0x400150) [[0xa8, 0, 0x40]] = true ∧
    csvRule ⟨1, 0, [inputOf 0x400150], []⟩ (inputOf 0x400150) [[0xa8, 0, 0x40]] = false ∧
    csvRule ⟨2, 0, [inputOf 0x150], []⟩ (inputOf 0x150) [[0xa8, 0, 0x40]] = false := by decide +kernel

example : pushU32 [] 741521 = some [3, 0x91, 0x50, 0x0b] ∧ (ops [0x51]).1.length ≤ 199 ∧
    eval .legacy (std false false (fun _ => ⟨List.replicate 20 0, rfl⟩) (fun _ _ => true) (fun op s => if op = 0x75 then s.tail? else none)
      (lockRule ⟨2, 741600, [inputOf 0], []⟩ (inputOf 0))) ([3, 0x91, 0x50, 0x0b] ++ [0xb1, 0x75] ++ [0x51]) [] = true := by decide +kernel

example : numVal [0, 0, 0, 0, 1] = 2 ^ 32 ∧ numVal [0x81] = -1 := by decide

end Core
end Scr
end Btc
