import Verif.Units.LockTime
/-!
# C37, C38: absolute and relative lock times, sequence numbers
-/
namespace Btc
namespace Lock

/-! ### C37 -/

/-- Values the constructors of `Height` and `MedianTimePast` can produce. -/
def LockTime.WF : LockTime → Prop
  | .blocks h => h.n.toNat < 500000000
  | .seconds t => 500000000 ≤ t.n.toNat

theorem isBlockHeight_iff (n : UInt32) : isBlockHeight n = true ↔ n.toNat < 500000000 := by
  unfold isBlockHeight THRESHOLD
  rw [decide_eq_true_iff, UInt32.lt_iff_toNat_lt]
  exact Iff.rfl

theorem isBlockTime_iff (n : UInt32) : isBlockTime n = true ↔ 500000000 ≤ n.toNat := by
  unfold isBlockTime THRESHOLD
  rw [decide_eq_true_iff, ge_iff_le, UInt32.le_iff_toNat_le]
  exact Iff.rfl

theorem fromConsensus_eq (n : UInt32) : LockTime.fromConsensus n =
    if n.toNat < 500000000 then some (.blocks ⟨n⟩) else some (.seconds ⟨n⟩) := by
  unfold LockTime.fromConsensus Height.fromU32 Mtp.fromU32
  by_cases h : n.toNat < 500000000
  · rw [if_pos h, if_pos ((isBlockHeight_iff n).2 h), if_pos ((isBlockHeight_iff n).2 h)]; rfl
  · rw [if_neg h, if_neg (fun e => h ((isBlockHeight_iff n).1 e)), if_pos ((isBlockTime_iff n).2 (by omega))]; rfl

/-- **C37 (every `u32` is one lock time).** `from_consensus` never panics, is inverted by `to_consensus_u32`,
and separates heights from times at 500,000,000. -/
theorem C37_from_consensus (n : UInt32) : ∃ l, LockTime.fromConsensus n = some l ∧ l.toConsensus = n ∧ l.WF ∧
    ((∃ h, l = .blocks h) ↔ n.toNat < 500000000) ∧ ((∃ t, l = .seconds t) ↔ 500000000 ≤ n.toNat) := by
  rw [fromConsensus_eq]
  by_cases h : n.toNat < 500000000
  · rw [if_pos h]
    exact ⟨_, rfl, rfl, h, ⟨fun _ => h, fun _ => ⟨_, rfl⟩⟩, ⟨fun ⟨_, e⟩ => (by cases e), fun e => absurd h (Nat.not_lt.2 e)⟩⟩
  · rw [if_neg h]
    exact ⟨_, rfl, rfl, Nat.not_lt.1 h, ⟨fun ⟨_, e⟩ => (by cases e), fun e => absurd e h⟩,
      ⟨fun _ => by omega, fun _ => ⟨_, rfl⟩⟩⟩

/-- **C37 (every lock time is one `u32`).** -/
theorem C37_to_consensus (l : LockTime) (h : l.WF) : LockTime.fromConsensus l.toConsensus = some l := by
  rw [fromConsensus_eq]
  cases l with
  | blocks x =>
    have h' : x.n.toNat < 500000000 := h
    exact if_pos h'
  | seconds x =>
    have h' : ¬ x.n.toNat < 500000000 := Nat.not_lt.2 h
    exact if_neg h'

/-- The checked constructors accept exactly their unit. -/
theorem C37_constructors (n : UInt32) :
    LockTime.fromHeight n = (if n.toNat < 500000000 then some (.blocks ⟨n⟩) else none) ∧
    LockTime.fromMtp n = (if 500000000 ≤ n.toNat then some (.seconds ⟨n⟩) else none) := by
  unfold LockTime.fromHeight LockTime.fromMtp Height.fromU32 Mtp.fromU32
  constructor
  · by_cases h : n.toNat < 500000000
    · rw [if_pos h, if_pos ((isBlockHeight_iff n).2 h)]; rfl
    · rw [if_neg h, if_neg (fun e => h ((isBlockHeight_iff n).1 e))]; rfl
  · by_cases h : 500000000 ≤ n.toNat
    · rw [if_pos h, if_pos ((isBlockTime_iff n).2 h)]; rfl
    · rw [if_neg h, if_neg (fun e => h ((isBlockTime_iff n).1 e))]; rfl

theorem ofNat_toNat32 (n : UInt32) : UInt32.ofNat n.toNat = n := UInt32.ofNat_toNat

/-- **C37 (wire and text).** The four wire bytes and the decimal text give the lock time back. -/
theorem C37_codec (l : LockTime) (h : l.WF) :
    (∃ hl : l.encode.length = 4, LockTime.decode ⟨l.encode, hl⟩ = some l) ∧
    LockTime.fromStr l.display = some (.ok l) := by
  have hlt := l.toConsensus.toNat_lt
  constructor
  · refine ⟨leBytes_length .., ?_⟩
    unfold LockTime.decode LockTime.encode
    rw [leNat_leBytes _ _ (by omega), ofNat_toNat32]
    exact C37_to_consensus l h
  · unfold LockTime.fromStr LockTime.display
    have : parseUInt (2 ^ 32 - 1) 10 (decBytes l.toConsensus.toNat) = .ok l.toConsensus.toNat :=
      (parseUInt_ok_iff (by omega) _ _).2 ⟨_, .inl rfl, decBytes_ne_nil _, digitsVal_decBytes _, by omega⟩
    rw [this]
    simp only []
    rw [ofNat_toNat32, C37_to_consensus l h]
    rfl

/-- The consensus rule (`IsFinalTx`): the lock time is below the height of the next block, respectively the
median time past. -/
def Final (n nextHeight mtp : Nat) : Prop := if n < 500000000 then n < nextHeight else n < mtp

/-- **C37 (satisfaction is the consensus rule).** -/
theorem C37_satisfied (n : UInt32) (h : Height) (t : Mtp) (l : LockTime)
    (hl : LockTime.fromConsensus n = some l) :
    l.isSatisfiedBy h t = true ↔ Final n.toNat (h.n.toNat + 1) t.n.toNat := by
  rw [fromConsensus_eq] at hl
  unfold Final
  by_cases hn : n.toNat < 500000000
  · rw [if_pos hn] at hl ⊢
    cases hl
    simp [LockTime.isSatisfiedBy, Height.isSatisfiedBy]
  · rw [if_neg hn] at hl ⊢
    cases hl
    simp [LockTime.isSatisfiedBy, Mtp.isSatisfiedBy, UInt32.lt_iff_toNat_lt]

/-- The one-sided checks answer exactly for their own unit. -/
theorem C37_one_sided (l : LockTime) (h : Height) (t : Mtp) :
    l.isSatisfiedByHeight h = (match l with | .blocks _ => some (l.isSatisfiedBy h t) | .seconds _ => none) ∧
    l.isSatisfiedByTime t = (match l with | .blocks _ => none | .seconds _ => some (l.isSatisfiedBy h t)) := by
  cases l <;> exact ⟨rfl, rfl⟩

/-- **C37 (implication).** For lock times of the same unit, `is_implied_by` holds exactly when every chain
tip that satisfies `other` satisfies `self`; for different units it is false. -/
theorem C37_implied (self other : LockTime) (hs : self.WF) (ho : other.WF) :
    (self.isSameUnit other = true →
      (self.isImpliedBy other = true ↔
        ∀ h t, LockTime.WF (.blocks h) → LockTime.WF (.seconds t) →
          other.isSatisfiedBy h t = true → self.isSatisfiedBy h t = true)) ∧
    (self.isSameUnit other = false → self.isImpliedBy other = false) := by
  cases self with
  | blocks a =>
    cases other with
    | seconds b => exact ⟨fun h => by simp [LockTime.isSameUnit] at h, fun _ => rfl⟩
    | blocks b =>
      refine ⟨fun _ => ?_, fun h => by simp [LockTime.isSameUnit] at h⟩
      simp only [LockTime.isImpliedBy, LockTime.isSatisfiedBy, Height.isSatisfiedBy, decide_eq_true_eq,
        UInt32.le_iff_toNat_le]
      constructor
      · intro h x _ _ _ h2; omega
      · intro h
        have := h b ⟨500000000⟩ ho (by show (500000000 : Nat) ≤ (500000000 : UInt32).toNat; decide) (by omega)
        omega
  | seconds a =>
    cases other with
    | blocks b => exact ⟨fun h => by simp [LockTime.isSameUnit] at h, fun _ => rfl⟩
    | seconds b =>
      refine ⟨fun _ => ?_, fun h => by simp [LockTime.isSameUnit] at h⟩
      simp only [LockTime.isImpliedBy, LockTime.isSatisfiedBy, Mtp.isSatisfiedBy, decide_eq_true_eq,
        UInt32.le_iff_toNat_le, UInt32.lt_iff_toNat_lt]
      constructor
      · intro h x y _ _ h2; omega
      · intro h
        have ha := a.n.toNat_lt
        by_cases hb : b.n.toNat + 1 < 2 ^ 32
        · have e : (UInt32.ofNat (b.n.toNat + 1)).toNat = b.n.toNat + 1 := UInt32.toNat_ofNat_of_lt' hb
          have ho' : 500000000 ≤ b.n.toNat := ho
          have := h ⟨0⟩ ⟨UInt32.ofNat (b.n.toNat + 1)⟩ (by show (0 : UInt32).toNat < 500000000; decide)
            (by show 500000000 ≤ (UInt32.ofNat (b.n.toNat + 1)).toNat; omega) (by rw [e]; omega)
          rw [e] at this
          omega
        · omega

/-- What `is_implied_by` leaves out for different units: the implication still holds, and only then, if
`self` is lock time zero (always satisfied) or `other` is the largest time (never satisfied). -/
theorem C37_other_unit (self other : LockTime) (hs : self.WF) (ho : other.WF)
    (hu : self.isSameUnit other = false) :
    (∀ h t, LockTime.WF (.blocks h) → LockTime.WF (.seconds t) →
      other.isSatisfiedBy h t = true → self.isSatisfiedBy h t = true) ↔
    self = .blocks ⟨0⟩ ∨ other = .seconds ⟨0xFFFFFFFF⟩ := by
  cases self with
  | blocks a =>
    cases other with
    | blocks b => simp [LockTime.isSameUnit] at hu
    | seconds b =>
      simp only [LockTime.isSatisfiedBy, Mtp.isSatisfiedBy, Height.isSatisfiedBy, decide_eq_true_eq,
        UInt32.lt_iff_toNat_lt]
      have hmax : (0xFFFFFFFF : UInt32).toNat = 4294967295 := rfl
      constructor
      · intro h
        by_cases ha : a.n.toNat = 0
        · left
          obtain ⟨an⟩ := a
          have : an = 0 := UInt32.toNat_inj.1 ha
          rw [this]
        · right
          have hb := b.n.toNat_lt
          obtain ⟨bn⟩ := b
          have : bn = 0xFFFFFFFF → LockTime.seconds ⟨bn⟩ = .seconds ⟨0xFFFFFFFF⟩ := fun e => by rw [e]
          apply this
          apply UInt32.toNat_inj.1
          simp only [] at hb h
          rcases Nat.lt_or_ge bn.toNat 4294967295 with hlt | hge
          · have := h ⟨0⟩ ⟨0xFFFFFFFF⟩ (by show (0 : UInt32).toNat < 500000000; decide)
              (by show 500000000 ≤ (0xFFFFFFFF : UInt32).toNat; decide) (by rw [hmax]; exact hlt)
            have h0 : (0 : UInt32).toNat = 0 := rfl
            rw [h0] at this
            omega
          · rw [hmax]; omega
      · rintro (e | e) x y _ _ h2
        · cases e
          have h0 : (0 : UInt32).toNat = 0 := rfl
          rw [h0]; omega
        · cases e
          have := y.n.toNat_lt
          rw [hmax] at h2
          omega
  | seconds a =>
    cases other with
    | seconds b => simp [LockTime.isSameUnit] at hu
    | blocks b =>
      simp only [LockTime.isSatisfiedBy, Mtp.isSatisfiedBy, Height.isSatisfiedBy, decide_eq_true_eq,
        UInt32.lt_iff_toNat_lt]
      constructor
      · intro h
        exfalso
        have ho' : b.n.toNat < 500000000 := ho
        have hs' : 500000000 ≤ a.n.toNat := hs
        have := h b ⟨500000000⟩ ho (by show (500000000 : Nat) ≤ (500000000 : UInt32).toNat; decide) (by omega)
        have e : (500000000 : UInt32).toNat = 500000000 := rfl
        rw [e] at this
        omega
      · rintro (e | e)
        · cases e
        · cases e

/-- **C37 (median time past).** Of eleven timestamps in any order, `BlockMtp::new` picks one such that at
least six are at most it and at least six are at least it. -/
theorem C37_median (ts : List UInt32) (hl : ts.length = 11) :
    ∃ m, blockMtpNew ts = some m ∧ m ∈ ts ∧ 6 ≤ ts.countP (· ≤ m) ∧ 6 ≤ ts.countP (m ≤ ·) := by
  unfold blockMtpNew
  have hp : (ts.mergeSort (· ≤ ·)).Perm ts := List.mergeSort_perm ..
  have hs : (ts.mergeSort (· ≤ ·)).Pairwise (fun a b => decide (a ≤ b) = true) := by
    apply List.pairwise_mergeSort
    · intro a b c h1 h2
      simp only [decide_eq_true_eq] at *
      exact UInt32.le_trans h1 h2
    · intro a b
      simp only [Bool.or_eq_true, decide_eq_true_eq]
      exact UInt32.le_total a b
  generalize ts.mergeSort (· ≤ ·) = s at *
  have hl' : s.length = 11 := by rw [hp.length_eq, hl]
  have h5 : 5 < s.length := by omega
  refine ⟨s[5], List.getElem?_eq_getElem h5, hp.mem_iff.1 (List.getElem_mem h5), ?_, ?_⟩
  · rw [← hp.countP_eq]
    have hall : ∀ x ∈ s.take 6, decide (x ≤ s[5]) = true := by
      intro x hx
      obtain ⟨i, hi, e⟩ := List.mem_iff_getElem.1 hx
      rw [List.length_take] at hi
      rw [List.getElem_take] at e
      subst e
      rcases Nat.lt_or_ge i 5 with h | h
      · exact List.pairwise_iff_getElem.1 hs i 5 (by omega) h5 h
      · have : i = 5 := by omega
        subst this
        exact decide_eq_true (UInt32.le_refl _)
    have h1 : (s.take 6).countP (fun x => decide (x ≤ s[5])) = (s.take 6).length := List.countP_eq_length.2 hall
    have h2 : (s.take 6).countP (fun x => decide (x ≤ s[5])) ≤ s.countP (fun x => decide (x ≤ s[5])) :=
      (List.take_sublist 6 s).countP_le
    rw [h1, List.length_take] at h2
    omega
  · rw [← hp.countP_eq]
    have hall : ∀ x ∈ s.drop 5, decide (s[5] ≤ x) = true := by
      intro x hx
      obtain ⟨i, hi, e⟩ := List.mem_iff_getElem.1 hx
      rw [List.length_drop] at hi
      rw [List.getElem_drop] at e
      subst e
      rcases Nat.eq_zero_or_pos i with h | h
      · subst h
        exact decide_eq_true (UInt32.le_refl _)
      · exact List.pairwise_iff_getElem.1 hs 5 (5 + i) h5 (by omega) (by omega)
    have h1 : (s.drop 5).countP (fun x => decide (s[5] ≤ x)) = (s.drop 5).length := List.countP_eq_length.2 hall
    have h2 : (s.drop 5).countP (fun x => decide (s[5] ≤ x)) ≤ s.countP (fun x => decide (s[5] ≤ x)) :=
      (List.drop_sublist 5 s).countP_le
    rw [h1, List.length_drop] at h2
    omega

/-! ### C38 -/

theorem nat_and_two_pow (a k : Nat) : a &&& 2 ^ k = if a / 2 ^ k % 2 = 1 then 2 ^ k else 0 := by
  apply Nat.eq_of_testBit_eq
  intro i
  rw [Nat.testBit_and, Nat.testBit_two_pow]
  by_cases hi : k = i
  · subst hi
    by_cases h : a / 2 ^ k % 2 = 1
    · rw [if_pos h, Nat.testBit_two_pow, Nat.testBit_eq_decide_div_mod_eq, decide_eq_true h]; simp
    · rw [if_neg h, Nat.testBit_eq_decide_div_mod_eq, decide_eq_false h]; simp
  · rw [decide_eq_false hi, Bool.and_false]
    split
    · rw [Nat.testBit_two_pow, decide_eq_false hi]
    · simp

theorem and_pow (n : UInt32) (k : Nat) (m : UInt32) (hm : m.toNat = 2 ^ k) :
    (n &&& m).toNat = if n.toNat / 2 ^ k % 2 = 1 then 2 ^ k else 0 := by
  rw [UInt32.toNat_and, hm, nat_and_two_pow]

theorem isRelative_iff (s : Seq) : s.isRelative = true ↔ s.n.toNat < 2 ^ 31 := by
  unfold Seq.isRelative
  rw [beq_iff_eq, ← UInt32.toNat_inj, and_pow s.n 31 DISABLE_MASK rfl]
  have := s.n.toNat_lt
  have h0 : (0 : UInt32).toNat = 0 := rfl
  rw [h0]
  by_cases h : s.n.toNat / 2 ^ 31 % 2 = 1
  · rw [if_pos h]; omega
  · rw [if_neg h]; omega

theorem typeMask_and (s : Seq) : (s.n &&& TYPE_MASK).toNat = if s.n.toNat / 2 ^ 22 % 2 = 1 then 2 ^ 22 else 0 :=
  and_pow s.n 22 TYPE_MASK rfl

/-- **C38 (type predicates).** -/
theorem C38_kinds (s : Seq) :
    (s.isRelative = true ↔ s.n.toNat / 2 ^ 31 % 2 = 0) ∧
    (s.isHeightLocked = true ↔ s.n.toNat / 2 ^ 31 % 2 = 0 ∧ s.n.toNat / 2 ^ 22 % 2 = 0) ∧
    (s.isTimeLocked = true ↔ s.n.toNat / 2 ^ 31 % 2 = 0 ∧ s.n.toNat / 2 ^ 22 % 2 = 1) ∧
    (s.isRbf = true ↔ s.n.toNat < 0xFFFFFFFE) ∧
    (s.enablesAbsolute = true ↔ s.n.toNat ≠ 0xFFFFFFFF) := by
  have hlt := s.n.toNat_lt
  have r : s.isRelative = true ↔ s.n.toNat / 2 ^ 31 % 2 = 0 := by rw [isRelative_iff]; omega
  have h0 : (0 : UInt32).toNat = 0 := rfl
  refine ⟨r, ?_, ?_, ?_, ?_⟩
  · unfold Seq.isHeightLocked
    rw [Bool.and_eq_true, r, beq_iff_eq, ← UInt32.toNat_inj, typeMask_and, h0]
    by_cases h : s.n.toNat / 2 ^ 22 % 2 = 1
    · rw [if_pos h]; omega
    · rw [if_neg h]; omega
  · unfold Seq.isTimeLocked
    rw [Bool.and_eq_true, r, decide_eq_true_eq, gt_iff_lt, UInt32.lt_iff_toNat_lt, typeMask_and, h0]
    by_cases h : s.n.toNat / 2 ^ 22 % 2 = 1
    · rw [if_pos h]; omega
    · rw [if_neg h]; omega
  · unfold Seq.isRbf Seq.MIN_NO_RBF
    rw [decide_eq_true_eq, UInt32.lt_iff_toNat_lt]
    exact Iff.rfl
  · unfold Seq.enablesAbsolute Seq.MAX
    rw [decide_eq_true_eq]
    obtain ⟨n⟩ := s
    have e : (0xFFFFFFFF : UInt32).toNat = 0xFFFFFFFF := rfl
    simp only [ne_eq, Seq.mk.injEq, ← UInt32.toNat_inj, e]

/-- **C38 (conversion).** A sequence number is a relative lock time exactly when bit 31 is clear; bit 22
selects the unit and the low 16 bits are the value. -/
theorem C38_from_consensus (n : UInt32) :
    RelLock.fromConsensus n =
      if n.toNat / 2 ^ 31 % 2 = 1 then none
      else if n.toNat / 2 ^ 22 % 2 = 1 then some (.time (UInt16.ofNat (n.toNat % 65536)))
      else some (.blocks (UInt16.ofNat (n.toNat % 65536))) := by
  obtain ⟨h1, _, h3, _⟩ := C38_kinds ⟨n⟩
  have hlow : (Seq.mk n).lowU16 = UInt16.ofNat (n.toNat % 65536) := by
    unfold Seq.lowU16
    apply UInt16.toNat_inj.1
    rw [UInt32.toNat_toUInt16, UInt16.toNat_ofNat_of_lt' (Nat.mod_lt _ (by decide))]
  unfold RelLock.fromConsensus Seq.toRelative
  rw [hlow]
  simp only [] at h1 h3
  by_cases hr : n.toNat / 2 ^ 31 % 2 = 1
  · rw [if_pos hr]
    have : (Seq.mk n).isRelative = false := by
      rw [← Bool.not_eq_true, h1]; omega
    rw [this]; rfl
  · have hr' : n.toNat / 2 ^ 31 % 2 = 0 := by omega
    rw [if_neg hr, h1.2 hr']
    simp only [Bool.not_true, Bool.false_eq_true, if_false]
    by_cases ht : n.toNat / 2 ^ 22 % 2 = 1
    · rw [if_pos ht, if_pos (h3.2 ⟨hr', ht⟩)]
    · rw [if_neg ht, if_neg (fun e => ht (h3.1 e).2)]

theorem typeMask_or (t : UInt16) : (TYPE_MASK ||| t.toUInt32).toNat = 2 ^ 22 + t.toNat := by
  rw [UInt32.toNat_or, UInt16.toNat_toUInt32]
  have h1 : TYPE_MASK.toNat = 2 ^ 22 * 1 := rfl
  have ht := t.toNat_lt
  rw [h1, ← Nat.two_pow_add_eq_or_of_lt (by omega), Nat.mul_one]

/-- The consensus value of a relative lock time. -/
theorem C38_to_consensus (l : RelLock) : l.toConsensus.toNat =
    match l with
    | .blocks h => h.toNat
    | .time t => 2 ^ 22 + t.toNat := by
  cases l with
  | blocks h => exact UInt16.toNat_toUInt32 h
  | time t => exact typeMask_or t

/-- **C38 (round trip).** Converting a relative lock time to a sequence number and back changes nothing; the
other way round, the sequence number keeps exactly bit 22 and its low 16 bits. -/
theorem C38_roundtrip (l : RelLock) (n : UInt32) :
    RelLock.fromConsensus l.toConsensus = some l ∧ RelLock.fromSequence l.toSequence = some l ∧
    (RelLock.fromConsensus n = some l →
      l.toConsensus.toNat = n.toNat / 2 ^ 22 % 2 * 2 ^ 22 + n.toNat % 65536) := by
  have key : RelLock.fromConsensus l.toConsensus = some l := by
    rw [C38_from_consensus, C38_to_consensus]
    cases l with
    | blocks h =>
      have := h.toNat_lt
      simp only []
      rw [if_neg (by omega), if_neg (by omega), Nat.mod_eq_of_lt (by omega), UInt16.ofNat_toNat]
    | time t =>
      have := t.toNat_lt
      simp only []
      rw [if_neg (by omega), if_pos (by omega)]
      rw [show (2 ^ 22 + t.toNat) % 65536 = t.toNat by omega, UInt16.ofNat_toNat]
  refine ⟨key, key, fun h => ?_⟩
  rw [C38_from_consensus] at h
  have e : (UInt16.ofNat (n.toNat % 65536)).toNat = n.toNat % 65536 :=
    UInt16.toNat_ofNat_of_lt' (Nat.mod_lt _ (by decide))
  split at h
  · cases h
  · split at h
    · cases h
      rw [C38_to_consensus]
      simp only []
      rw [e]
      rename_i ht
      rw [ht]
    · cases h
      rw [C38_to_consensus]
      simp only []
      rw [e]
      omega

/-- The constructors of `Sequence` give the intended relative lock times. -/
theorem C38_constructors (h : UInt16) :
    (Seq.fromHeight h).toRelative = some (.blocks h) ∧ (Seq.from512 h).toRelative = some (.time h) := by
  have h1 := (C38_roundtrip (.blocks h) 0).1
  have h2 := (C38_roundtrip (.time h) 0).1
  refine ⟨h1, ?_⟩
  unfold Seq.from512
  rw [UInt32.or_comm]
  exact h2

theorem checkedSub32_eq (a b : UInt32) :
    checkedSub32 a b = if b.toNat ≤ a.toNat then some (a - b) else none := by
  unfold checkedSub32
  by_cases h : b ≤ a
  · rw [if_pos h, if_pos (UInt32.le_iff_toNat_le.1 h)]
  · rw [if_neg h, if_neg (fun e => h (UInt32.le_iff_toNat_le.2 e))]

/-- BIP-68 for one input, as in Bitcoin Core's `CalculateSequenceLocks` and `EvaluateSequenceLocks`: the
spending block has height `tipH + 1` and its predecessor has median time past `tipT`; the coin was mined at
height `coinH`, median time past `coinT`.  Core computes with signed integers. -/
def Bip68 (seq : Nat) (tipH tipT coinH coinT : Int) : Prop :=
  if seq / 2 ^ 31 % 2 = 1 then True
  else if seq / 2 ^ 22 % 2 = 1 then coinT + 512 * (seq % 65536 : Nat) - 1 < tipT
  else coinH + (seq % 65536 : Nat) - 1 < tipH + 1

/-- **C38 (satisfaction is BIP-68).** For a coin mined no later than the chain tip, `is_satisfied_by` is the
BIP-68 inequality; a coin that is still unconfirmed counts as mined in the next block; a coin mined after the
tip is an error. -/
theorem C38_bip68 (n : UInt32) (l : RelLock) (hl : RelLock.fromConsensus n = some l)
    (tipH tipT : UInt32) (coinH coinT : Option UInt32) :
    ((∀ c, coinH = some c → c.toNat ≤ tipH.toNat) → (∀ c, coinT = some c → c.toNat ≤ tipT.toNat) →
      ∃ b, l.isSatisfiedBy tipH tipT coinH coinT = some b ∧
        (b = true ↔ Bip68 n.toNat tipH.toNat tipT.toNat
          (match coinH with | some c => (c.toNat : Int) | none => tipH.toNat + 1)
          (match coinT with | some c => (c.toNat : Int) | none => tipT.toNat))) ∧
    (l.isSatisfiedBy tipH tipT coinH coinT = none ↔
      (∃ v c, l = .blocks v ∧ coinH = some c ∧ tipH.toNat < c.toNat) ∨
      (∃ v c, l = .time v ∧ coinT = some c ∧ tipT.toNat < c.toNat)) := by
  rw [C38_from_consensus] at hl
  have e : (UInt16.ofNat (n.toNat % 65536)).toNat = n.toNat % 65536 :=
    UInt16.toNat_ofNat_of_lt' (Nat.mod_lt _ (by decide))
  unfold Bip68
  generalize UInt16.ofNat (n.toNat % 65536) = v at *
  have hv := v.toNat_lt
  have hz : (v == 0) = true ↔ v.toNat = 0 := by
    rw [beq_iff_eq, ← UInt16.toNat_inj]; exact Iff.rfl
  by_cases hr : n.toNat / 2 ^ 31 % 2 = 1
  · rw [if_pos hr] at hl; cases hl
  · rw [if_neg hr] at hl ⊢
    by_cases ht : n.toNat / 2 ^ 22 % 2 = 1
    · rw [if_pos ht] at hl ⊢
      cases hl
      simp only [RelLock.isSatisfiedBy, timeSatisfied]
      cases coinT with
      | none =>
        constructor
        · intro _ _
          refine ⟨_, rfl, ?_⟩
          rw [hz]
          simp only [← e]
          omega
        · simp
      | some c =>
        simp only [checkedSub32_eq]
        have hs : (toSeconds v).toNat = 512 * v.toNat := by
          unfold toSeconds
          rw [UInt32.toNat_mul, UInt16.toNat_toUInt32]
          have : (512 : UInt32).toNat = 512 := rfl
          rw [this, Nat.mod_eq_of_lt (by omega), Nat.mul_comm]
        constructor
        · intro _ hc
          have hc := hc c rfl
          rw [if_pos hc]
          refine ⟨_, rfl, ?_⟩
          rw [decide_eq_true_eq, UInt32.le_iff_toNat_le, hs,
            UInt32.toNat_sub_of_le _ _ (UInt32.le_iff_toNat_le.2 hc), ← e]
          omega
        · by_cases hc : c.toNat ≤ tipT.toNat
          · rw [if_pos hc]
            simp
            omega
          · rw [if_neg hc]
            simp
            omega
    · rw [if_neg ht] at hl ⊢
      cases hl
      simp only [RelLock.isSatisfiedBy, blocksSatisfied]
      cases coinH with
      | none =>
        constructor
        · intro _ _
          refine ⟨_, rfl, ?_⟩
          rw [hz]
          simp only [← e]
          omega
        · simp
      | some c =>
        simp only [checkedSub32_eq]
        constructor
        · intro hc _
          have hc := hc c rfl
          rw [if_pos hc]
          refine ⟨_, rfl, ?_⟩
          rw [decide_eq_true_eq, UInt32.toNat_sub_of_le _ _ (UInt32.le_iff_toNat_le.2 hc), ← e]
          omega
        · by_cases hc : c.toNat ≤ tipH.toNat
          · rw [if_pos hc]
            simp
            omega
          · rw [if_neg hc]
            simp
            omega

/-- The documentation of `NumberOfBlocks::is_satisfied_by` promises to support a chain tip one block before
`utxo_mined_at`; the code reports an error for it. -/
theorem C38_prior_block_refused (n : UInt16) (m : UInt32) (hm : m.toNat ≠ 0) :
    blocksSatisfied n (m - 1) (some m) = none := by
  unfold blocksSatisfied
  simp only [checkedSub32_eq]
  have h1 : (1 : UInt32).toNat = 1 := rfl
  rw [if_neg]
  · rfl
  · rw [UInt32.toNat_sub_of_le _ _ (UInt32.le_iff_toNat_le.2 (by rw [h1]; omega)), h1]
    omega

/-- **C38 (implication).** `is_implied_by` holds, for the same unit, exactly when every chain position that
satisfies `other` satisfies `self` — up to block counts 0 and 1, which are satisfied by the same positions of
confirmed coins. -/
theorem C38_implied (self other : RelLock) :
    self.isImpliedBy other = true ↔
      match self, other with
      | .blocks a, .blocks b => a.toNat ≤ b.toNat
      | .time a, .time b => a.toNat ≤ b.toNat
      | _, _ => False := by
  cases self <;> cases other <;>
    simp only [RelLock.isImpliedBy, decide_eq_true_eq, UInt16.le_iff_toNat_le, Bool.false_eq_true]

theorem C38_implied_sound (self other : RelLock) (h : self.isImpliedBy other = true)
    (tipH tipT : UInt32) (coinH coinT : Option UInt32)
    (hs : other.isSatisfiedBy tipH tipT coinH coinT = some true) :
    self.isSatisfiedBy tipH tipT coinH coinT = some true := by
  have hi := (C38_implied self other).1 h
  have zero : ∀ v : UInt16, (v == 0) = true ↔ v.toNat = 0 := fun v => by
    rw [beq_iff_eq, ← UInt16.toNat_inj]; exact Iff.rfl
  cases self with
  | blocks a =>
    cases other with
    | time b => exact absurd hi (by simp)
    | blocks b =>
      simp only [RelLock.isSatisfiedBy, blocksSatisfied] at hs hi ⊢
      cases coinH with
      | none =>
        simp only [Option.some.injEq, zero] at hs ⊢
        omega
      | some c =>
        simp only [checkedSub32_eq] at hs ⊢
        split at hs
        · rename_i hc
          rw [if_pos hc]
          simp only [Option.map_some, Option.some.injEq, decide_eq_true_eq] at hs ⊢
          omega
        · cases hs
  | time a =>
    cases other with
    | blocks b => exact absurd hi (by simp)
    | time b =>
      have sec : ∀ v : UInt16, (toSeconds v).toNat = 512 * v.toNat := fun v => by
        have hv := v.toNat_lt
        unfold toSeconds
        rw [UInt32.toNat_mul, UInt16.toNat_toUInt32]
        have : (512 : UInt32).toNat = 512 := rfl
        rw [this, Nat.mod_eq_of_lt (by omega), Nat.mul_comm]
      simp only [RelLock.isSatisfiedBy, timeSatisfied] at hs hi ⊢
      cases coinT with
      | none =>
        simp only [Option.some.injEq, zero] at hs ⊢
        omega
      | some c =>
        simp only [checkedSub32_eq] at hs ⊢
        split at hs
        · rename_i hc
          rw [if_pos hc]
          simp only [Option.map_some, Option.some.injEq, decide_eq_true_eq, UInt32.le_iff_toNat_le, sec] at hs ⊢
          omega
        · cases hs

/-- **C38 (implication is complete).** If every chain position that satisfies `other` satisfies `self` then
`is_implied_by` says so. -/
theorem C38_implied_complete (self other : RelLock)
    (hu : match self, other with | .blocks _, .blocks _ => True | .time _, .time _ => True | _, _ => False)
    (h : ∀ tipH tipT coinH coinT, other.isSatisfiedBy tipH tipT coinH coinT = some true →
      self.isSatisfiedBy tipH tipT coinH coinT = some true) :
    self.isImpliedBy other = true := by
  rw [C38_implied]
  have zero : ∀ v : UInt16, (v == 0) = true ↔ v.toNat = 0 := fun v => by
    rw [beq_iff_eq, ← UInt16.toNat_inj]; exact Iff.rfl
  cases self with
  | blocks a =>
    cases other with
    | time b => exact hu
    | blocks b =>
      simp only []
      have hb := b.toNat_lt
      by_cases hz : b.toNat = 0
      · -- the unconfirmed coin separates 0 from 1
        have := h 0 0 none none (by simp only [RelLock.isSatisfiedBy, blocksSatisfied, Option.some.injEq, zero]; exact hz)
        simp only [RelLock.isSatisfiedBy, blocksSatisfied, Option.some.injEq, zero] at this
        omega
      · have e : (UInt32.ofNat (b.toNat - 1)).toNat = b.toNat - 1 :=
          UInt32.toNat_ofNat_of_lt' (by show b.toNat - 1 < 2 ^ 32; omega)
        have h0 : (0 : UInt32).toNat = 0 := rfl
        have hd : (UInt32.ofNat (b.toNat - 1) - 0).toNat = b.toNat - 1 := by
          rw [UInt32.toNat_sub_of_le _ _ (UInt32.le_iff_toNat_le.2 (by rw [h0]; omega)), e, h0]; rfl
        have := h (UInt32.ofNat (b.toNat - 1)) 0 (some 0) none (by
          simp only [RelLock.isSatisfiedBy, blocksSatisfied, checkedSub32_eq]
          rw [if_pos (by rw [h0]; omega)]
          simp only [Option.map_some, hd, Nat.le_refl, decide_true])
        simp only [RelLock.isSatisfiedBy, blocksSatisfied, checkedSub32_eq] at this
        rw [if_pos (by rw [h0]; omega)] at this
        simp only [Option.map_some, hd, Option.some.injEq, decide_eq_true_eq] at this
        omega
  | time a =>
    cases other with
    | blocks b => exact hu
    | time b =>
      simp only []
      have sec : ∀ v : UInt16, (toSeconds v).toNat = 512 * v.toNat := fun v => by
        have hv := v.toNat_lt
        unfold toSeconds
        rw [UInt32.toNat_mul, UInt16.toNat_toUInt32]
        have : (512 : UInt32).toNat = 512 := rfl
        rw [this, Nat.mod_eq_of_lt (by omega), Nat.mul_comm]
      have h0 : (0 : UInt32).toNat = 0 := rfl
      have hd : (toSeconds b - 0).toNat = (toSeconds b).toNat := by
        rw [UInt32.toNat_sub_of_le _ _ (UInt32.le_iff_toNat_le.2 (by rw [h0]; omega)), h0]; rfl
      have := h 0 (toSeconds b) none (some 0) (by
        simp only [RelLock.isSatisfiedBy, timeSatisfied, checkedSub32_eq]
        rw [if_pos (by rw [h0]; omega)]
        simp only [Option.map_some, UInt32.le_iff_toNat_le, hd, Nat.le_refl, decide_true])
      simp only [RelLock.isSatisfiedBy, timeSatisfied, checkedSub32_eq] at this
      rw [if_pos (by rw [h0]; omega)] at this
      simp only [Option.map_some, UInt32.le_iff_toNat_le, hd, sec, Option.some.injEq, decide_eq_true_eq] at this
      omega

/-- **C38 (rounding seconds).** Down: the largest number of 512-second intervals not longer than the time;
up: the smallest not shorter.  Both fail exactly when that number does not fit in 16 bits. -/
theorem C38_seconds (s : UInt32) (v : UInt16) :
    (secondsFloor s = some v ↔ 512 * v.toNat ≤ s.toNat ∧ s.toNat < 512 * (v.toNat + 1)) ∧
    (secondsFloor s = none ↔ 65536 * 512 ≤ s.toNat) ∧
    (secondsCeil s = some v ↔ s.toNat ≤ 512 * v.toNat ∧ 512 * v.toNat < s.toNat + 512) ∧
    (secondsCeil s = none ↔ 65535 * 512 < s.toNat) ∧
    (toSeconds v).toNat = 512 * v.toNat := by
  have hs := s.toNat_lt
  have hv := v.toNat_lt
  have e512 : (512 : UInt32).toNat = 512 := rfl
  have e65535 : (65535 : UInt32).toNat = 65535 := rfl
  have emul : (65535 * 512 : UInt32).toNat = 65535 * 512 := rfl
  have e1 : (1 : UInt32).toNat = 1 := rfl
  have e0 : (0 : UInt32).toNat = 0 := rfl
  have hdiv : (s / 512).toNat = s.toNat / 512 := by rw [UInt32.toNat_div, e512]
  have hmod : (s % 512).toNat = s.toNat % 512 := by rw [UInt32.toNat_mod, e512]
  have hc1 : s / 512 ≤ 65535 ↔ s.toNat / 512 ≤ 65535 := by
    rw [UInt32.le_iff_toNat_le, hdiv, e65535]
  have hc2 : s ≤ 65535 * 512 ↔ s.toNat ≤ 65535 * 512 := by
    rw [UInt32.le_iff_toNat_le, emul]
  have hinj : ∀ u : UInt32, u.toNat < 65536 → (u.toUInt16 = v ↔ u.toNat = v.toNat) := by
    intro u hu
    rw [← UInt16.toNat_inj, UInt32.toNat_toUInt16, Nat.mod_eq_of_lt hu]
  refine ⟨?_, ?_, ?_, ?_, ?_⟩
  · unfold secondsFloor
    simp only []
    by_cases h : s.toNat / 512 ≤ 65535
    · rw [if_pos (hc1.2 h), Option.some.injEq, hinj _ (by rw [hdiv]; omega), hdiv]
      omega
    · rw [if_neg (fun e => h (hc1.1 e))]
      simp only [reduceCtorEq, false_iff]
      omega
  · unfold secondsFloor
    simp only []
    by_cases h : s.toNat / 512 ≤ 65535
    · rw [if_pos (hc1.2 h)]
      simp only [reduceCtorEq, false_iff]
      omega
    · rw [if_neg (fun e => h (hc1.1 e))]
      simp only [true_iff]
      omega
  · unfold secondsCeil
    simp only []
    by_cases h : s.toNat ≤ 65535 * 512
    · rw [if_pos (hc2.2 h)]
      have hm : s % 512 > 0 ↔ 0 < s.toNat % 512 := by
        rw [gt_iff_lt, UInt32.lt_iff_toNat_lt, hmod, e0]
      by_cases h2 : 0 < s.toNat % 512
      · rw [if_pos (hm.2 h2), Option.some.injEq]
        have hadd : (s / 512 + 1).toNat = s.toNat / 512 + 1 := by
          rw [UInt32.toNat_add, hdiv, e1, Nat.mod_eq_of_lt (by omega)]
        rw [hinj _ (by rw [hadd]; omega), hadd]
        omega
      · rw [if_neg (fun e => h2 (hm.1 e)), Option.some.injEq, hinj _ (by rw [hdiv]; omega), hdiv]
        omega
    · rw [if_neg (fun e => h (hc2.1 e))]
      simp only [reduceCtorEq, false_iff]
      omega
  · unfold secondsCeil
    by_cases h : s.toNat ≤ 65535 * 512
    · rw [if_pos (hc2.2 h)]
      simp only [reduceCtorEq, false_iff]
      omega
    · rw [if_neg (fun e => h (hc2.1 e))]
      simp only [true_iff]
      omega
  · unfold toSeconds
    rw [UInt32.toNat_mul, UInt16.toNat_toUInt32, e512, Nat.mod_eq_of_lt (by omega), Nat.mul_comm]

/-- **C38 (sequence numbers from seconds, implication by a sequence number, block intervals).** -/
theorem C38_sequence (self : RelLock) (s n : UInt32) (v : UInt16) :
    (∀ q, Seq.fromSecondsFloor s = some q ↔ ∃ u : UInt16, q.toRelative = some (.time u) ∧ q = Seq.from512 u ∧
      512 * u.toNat ≤ s.toNat ∧ s.toNat < 512 * (u.toNat + 1)) ∧
    (∀ q, Seq.fromSecondsCeil s = some q ↔ ∃ u : UInt16, q.toRelative = some (.time u) ∧ q = Seq.from512 u ∧
      s.toNat ≤ 512 * u.toNat ∧ 512 * u.toNat < s.toNat + 512) ∧
    (self.isImpliedBySequence ⟨n⟩ = true ↔ ∃ o, RelLock.fromConsensus n = some o ∧ self.isImpliedBy o = true) ∧
    (intervalToBlocks s = some v ↔ s.toNat = v.toNat) := by
  refine ⟨fun q => ?_, fun q => ?_, ?_, ?_⟩
  · unfold Seq.fromSecondsFloor
    rw [Option.map_eq_some_iff]
    constructor
    · rintro ⟨u, h, rfl⟩
      exact ⟨u, (C38_constructors u).2, rfl, ((C38_seconds s u).1).1 h⟩
    · rintro ⟨u, _, rfl, h⟩
      exact ⟨u, ((C38_seconds s u).1).2 h, rfl⟩
  · unfold Seq.fromSecondsCeil
    rw [Option.map_eq_some_iff]
    constructor
    · rintro ⟨u, h, rfl⟩
      exact ⟨u, (C38_constructors u).2, rfl, ((C38_seconds s u).2.2.1).1 h⟩
    · rintro ⟨u, _, rfl, h⟩
      exact ⟨u, ((C38_seconds s u).2.2.1).2 h, rfl⟩
  · unfold RelLock.isImpliedBySequence RelLock.fromSequence
    cases RelLock.fromConsensus n <;> simp
  · unfold intervalToBlocks
    have e : (65535 : UInt32).toNat = 65535 := rfl
    have hv := v.toNat_lt
    by_cases h : s.toNat ≤ 65535
    · rw [if_pos (UInt32.le_iff_toNat_le.2 (by rw [e]; exact h)), Option.some.injEq, ← UInt16.toNat_inj,
        UInt32.toNat_toUInt16, Nat.mod_eq_of_lt (by omega)]
    · rw [if_neg (fun c => h (by rw [← e]; exact UInt32.le_iff_toNat_le.1 c))]
      simp only [reduceCtorEq, false_iff]
      omega

/-- Saturating height arithmetic. -/
theorem C38_height_saturating (a b : UInt32) :
    (heightSatAdd a b).toNat = min (a.toNat + b.toNat) (2 ^ 32 - 1) ∧
    (heightSatSub a b).toNat = a.toNat - b.toNat := by
  have ha := a.toNat_lt
  have hb := b.toNat_lt
  constructor
  · unfold heightSatAdd
    by_cases h : a.toNat + b.toNat < 2 ^ 32
    · rw [if_pos h, UInt32.toNat_add, Nat.mod_eq_of_lt h]; omega
    · rw [if_neg h, show (0xFFFFFFFF : UInt32).toNat = 2 ^ 32 - 1 from rfl]; omega
  · unfold heightSatSub
    by_cases h : b ≤ a
    · rw [if_pos h, UInt32.toNat_sub_of_le _ _ h]
    · rw [if_neg h]
      have : ¬ b.toNat ≤ a.toNat := fun e => h (UInt32.le_iff_toNat_le.2 e)
      show 0 = _
      omega

/-! ### Examples -/

example : Seq.fromSecondsCeil 1025 = some ⟨0x00400003⟩ ∧ (RelLock.time 2).isImpliedBySequence ⟨0x00400003⟩ = true := by
  decide
example : heightSatAdd 4294967290 10 = 4294967295 ∧ intervalToBlocks 65536 = none := by decide
example : Bip68 0x00400003 0 2536 0 1000 ∧ ¬ Bip68 0x00400003 0 2535 0 1000 := by unfold Bip68; simp
example : blocksSatisfied 1 99 (some 100) = none := C38_prior_block_refused 1 100 (by decide)

-- block 800000 and a time in 2023
example : LockTime.fromConsensus 800000 = some (.blocks ⟨800000⟩) ∧
    LockTime.fromConsensus 1690000000 = some (.seconds ⟨1690000000⟩) := ⟨rfl, rfl⟩
example : (LockTime.blocks ⟨100⟩).isImpliedBy (.blocks ⟨200⟩) = true := by decide
-- sequence 0x00400003: three intervals; satisfied 1536 seconds after the coin
example : RelLock.fromConsensus 0x00400003 = some (.time 3) := by decide
example : (RelLock.time 3).isSatisfiedBy 0 2536 none (some 1000) = some true ∧
    (RelLock.time 3).isSatisfiedBy 0 2535 none (some 1000) = some false := by decide
example : secondsFloor 1000 = some 1 ∧ secondsCeil 1000 = some 2 ∧ secondsCeil 33553921 = none := by decide
example : ∃ m, blockMtpNew [9, 1, 8, 2, 7, 3, 6, 4, 5, 5, 5] = some m ∧ m = 5 := by
  obtain ⟨m, h, hm, h1, h2⟩ := C37_median [9, 1, 8, 2, 7, 3, 6, 4, 5, 5, 5] rfl
  refine ⟨m, h, ?_⟩
  simp only [List.mem_cons, List.not_mem_nil, or_false] at hm
  rcases hm with e | e | e | e | e | e | e | e | e | e | e <;> subst e <;> first | rfl | (revert h1 h2; decide)

end Lock
end Btc
