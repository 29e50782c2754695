import Verif.P2p.ServiceFlags
/-!
# C79: service flags are sets of bits, and their text form is faithful
-/
namespace Btc
namespace P2p
namespace Flags

/-- Is service number `i` offered? -/
def bit (f : UInt64) (i : Nat) : Bool := f.toBitVec.getLsbD i

theorem bit_ext {f g : UInt64} (h : ∀ i, i < 64 → bit f i = bit g i) : f = g :=
  UInt64.eq_of_toBitVec_eq (BitVec.eq_of_getLsbD_eq fun i hi => h i hi)

theorem bit_ge (f : UInt64) (i : Nat) (h : 64 ≤ i) : bit f i = false := BitVec.getLsbD_of_ge _ _ h

/-- `add` is union, `remove` is difference, `has` is inclusion. -/
theorem C79_ops (f g : UInt64) (i : Nat) :
    bit (add f g) i = (bit f i || bit g i) ∧ bit (remove f g) i = (bit f i && !bit g i) ∧
    (has f g = true ↔ ∀ j, bit g j = true → bit f j = true) := by
  refine ⟨?_, ?_, ?_⟩
  · simp [bit, add, UInt64.toBitVec_or]
  · unfold bit remove
    rw [UInt64.toBitVec_and, UInt64.toBitVec_not, BitVec.getLsbD_and, BitVec.getLsbD_not]
    by_cases h : i < 64
    · simp [h]
    · rw [show f.toBitVec.getLsbD i = false from BitVec.getLsbD_of_ge _ _ (by omega)]
      simp
  · unfold has
    rw [beq_iff_eq]
    constructor
    · intro h j hj
      have := congrArg (fun x => bit x j) h
      simp only [bit, UInt64.toBitVec_or, BitVec.getLsbD_or] at this
      unfold bit at hj ⊢
      rw [hj] at this
      simpa using this.symm
    · intro h
      apply bit_ext
      intro j _
      have := h j
      simp only [bit, UInt64.toBitVec_or, BitVec.getLsbD_or] at this ⊢
      cases hf : f.toBitVec.getLsbD j <;> cases hg : g.toBitVec.getLsbD j <;> simp_all

/-- The operator `^` is difference too: it is exclusive or exactly if all the flags on the right are present on the left. -/
theorem C79_xor (f g : UInt64) : bitxor f g = f ^^^ g ↔ has f g = true := by
  rw [(C79_ops f g 0).2.2]
  constructor
  · intro h j hj
    have := congrArg (fun x => bit x j) h
    simp only [bitxor, (C79_ops f g j).2.1] at this
    rw [show bit (f ^^^ g) j = (bit f j ^^ bit g j) by simp [bit, UInt64.toBitVec_xor], hj] at this
    revert this
    cases bit f j <;> simp
  · intro h
    apply bit_ext
    intro j _
    rw [show bit (f ^^^ g) j = (bit f j ^^ bit g j) by simp [bit, UInt64.toBitVec_xor]]
    simp only [bitxor, (C79_ops f g j).2.1]
    have := h j
    cases hf : bit f j <;> cases hg : bit g j <;> simp_all

/-- So setting a missing flag with `^` does nothing. -/
theorem C79_xor_missing : bitxor NETWORK WITNESS = NETWORK ∧ NETWORK ^^^ WITNESS ≠ NETWORK := by decide

/-- The services that have names: number and name. -/
def known : List (Nat × Bytes) :=
  [(0, Net.str "NETWORK"), (1, Net.str "GETUTXO"), (2, Net.str "BLOOM"), (3, Net.str "WITNESS"), (6, Net.str "COMPACT_FILTERS"),
   (10, Net.str "NETWORK_LIMITED"), (11, Net.str "P2P_V2")]

/-- Words with bars between them. -/
def joinBar : List Bytes → Bytes
  | [] => []
  | [t] => t
  | t :: ts => t ++ 124 :: joinBar ts

/-- The flags without name. -/
def rest (f : UInt64) : UInt64 := f &&& ~~~0xC4F

/-- The words for a set of flags. -/
def words (f : UInt64) : List Bytes :=
  if f = 0 then [Net.str "NONE"]
  else (known.filter fun p => bit f p.1).map (·.2) ++ (if rest f = 0 then [] else [Net.str "0x" ++ radixBytes 16 (rest f).toNat])

theorem joinBar_snoc (ts : List Bytes) (t : Bytes) : joinBar (ts ++ [t]) = (if !ts.isEmpty then joinBar ts ++ [124] else joinBar ts) ++ t := by
  induction ts with
  | nil => simp [joinBar]
  | cons a ts ih =>
    cases ts with
    | nil => simp [joinBar]
    | cons b ts =>
      simp only [List.cons_append, joinBar, List.isEmpty_cons] at ih ⊢
      simp only [Bool.not_false, if_true] at ih ⊢
      rw [ih]
      simp

theorem has_bit (f : UInt64) (i : Nat) (g : UInt64) (hg : ∀ j, bit g j = decide (j = i)) : has f g = bit f i := by
  have h := (C79_ops f g 0).2.2
  cases hb : bit f i with
  | true =>
    rw [h]
    intro j hj
    rw [hg] at hj
    rw [of_decide_eq_true hj, hb]
  | false =>
    cases hh : has f g with
    | false => rfl
    | true =>
      have := h.1 hh i (by rw [hg]; simp)
      rw [hb] at this
      cases this

/-- One `write_flag!`. -/
theorem writeFlag_spec (s : St) (pre : Bytes) (ts : List Bytes) (i : Nat) (g : UInt64) (name : Bytes)
    (hg : ∀ j, bit g j = decide (j = i)) (ho : s.out = pre ++ joinBar ts) (hf : s.first = ts.isEmpty) :
    (writeFlag s g name).out = pre ++ joinBar (ts ++ if bit s.flags i then [name] else []) ∧
    (writeFlag s g name).first = (ts ++ if bit s.flags i then [name] else []).isEmpty ∧
    (∀ j, bit (writeFlag s g name).flags j = (bit s.flags j && decide (j ≠ i))) := by
  unfold writeFlag
  rw [has_bit s.flags i g hg]
  cases hb : bit s.flags i with
  | true =>
    simp only [if_true]
    refine ⟨?_, by simp, ?_⟩
    · rw [joinBar_snoc, hf, ho]
      split <;> simp [Net.str]
    · intro j
      rw [(C79_ops _ _ j).2.1, hg]
      simp
  | false =>
    simp only [Bool.false_eq_true, if_false, List.append_nil]
    refine ⟨ho, hf, fun j => ?_⟩
    by_cases hj : j = i
    · subst hj; simp [hb]
    · simp [hj]

theorem bit_NETWORK (j : Nat) : bit NETWORK j = decide (j = 0) := by
  by_cases h : j < 64
  · have : ∀ j : Fin 64, bit NETWORK j.1 = decide (j.1 = 0) := by decide
    exact this ⟨j, h⟩
  · rw [bit_ge _ _ (by omega)]; simp; omega
theorem bit_GETUTXO (j : Nat) : bit GETUTXO j = decide (j = 1) := by
  by_cases h : j < 64
  · have : ∀ j : Fin 64, bit GETUTXO j.1 = decide (j.1 = 1) := by decide
    exact this ⟨j, h⟩
  · rw [bit_ge _ _ (by omega)]; simp; omega
theorem bit_BLOOM (j : Nat) : bit BLOOM j = decide (j = 2) := by
  by_cases h : j < 64
  · have : ∀ j : Fin 64, bit BLOOM j.1 = decide (j.1 = 2) := by decide
    exact this ⟨j, h⟩
  · rw [bit_ge _ _ (by omega)]; simp; omega
theorem bit_WITNESS (j : Nat) : bit WITNESS j = decide (j = 3) := by
  by_cases h : j < 64
  · have : ∀ j : Fin 64, bit WITNESS j.1 = decide (j.1 = 3) := by decide
    exact this ⟨j, h⟩
  · rw [bit_ge _ _ (by omega)]; simp; omega
theorem bit_COMPACT_FILTERS (j : Nat) : bit COMPACT_FILTERS j = decide (j = 6) := by
  by_cases h : j < 64
  · have : ∀ j : Fin 64, bit COMPACT_FILTERS j.1 = decide (j.1 = 6) := by decide
    exact this ⟨j, h⟩
  · rw [bit_ge _ _ (by omega)]; simp; omega
theorem bit_NETWORK_LIMITED (j : Nat) : bit NETWORK_LIMITED j = decide (j = 10) := by
  by_cases h : j < 64
  · have : ∀ j : Fin 64, bit NETWORK_LIMITED j.1 = decide (j.1 = 10) := by decide
    exact this ⟨j, h⟩
  · rw [bit_ge _ _ (by omega)]; simp; omega
theorem bit_P2P_V2 (j : Nat) : bit P2P_V2 j = decide (j = 11) := by
  by_cases h : j < 64
  · have : ∀ j : Fin 64, bit P2P_V2 j.1 = decide (j.1 = 11) := by decide
    exact this ⟨j, h⟩
  · rw [bit_ge _ _ (by omega)]; simp; omega

/-- The named services are those of the BIPs: one bit each, with these numbers. -/
theorem C79_numbers (j : Nat) : bit NONE j = false ∧ bit NETWORK j = decide (j = 0) ∧ bit GETUTXO j = decide (j = 1) ∧
    bit BLOOM j = decide (j = 2) ∧ bit WITNESS j = decide (j = 3) ∧ bit COMPACT_FILTERS j = decide (j = 6) ∧
    bit NETWORK_LIMITED j = decide (j = 10) ∧ bit P2P_V2 j = decide (j = 11) :=
  ⟨by simp [bit, NONE], bit_NETWORK j, bit_GETUTXO j, bit_BLOOM j, bit_WITNESS j, bit_COMPACT_FILTERS j, bit_NETWORK_LIMITED j, bit_P2P_V2 j⟩

theorem bit_mask (j : Nat) : bit 0xC4F j = (decide (j = 0) || decide (j = 1) || decide (j = 2) || decide (j = 3) || decide (j = 6) ||
    decide (j = 10) || decide (j = 11)) := by
  by_cases h : j < 64
  · have : ∀ j : Fin 64, bit 0xC4F j.1 = (decide (j.1 = 0) || decide (j.1 = 1) || decide (j.1 = 2) || decide (j.1 = 3) || decide (j.1 = 6) ||
      decide (j.1 = 10) || decide (j.1 = 11)) := by decide
    exact this ⟨j, h⟩
  · rw [bit_ge _ _ (by omega)]; simp; omega

theorem mask_known (j : Nat) (h : bit 0xC4F j = true) : ∃ p ∈ known, p.1 = j := by
  rw [bit_mask] at h
  simp only [Bool.or_eq_true, decide_eq_true_eq] at h
  rcases h with (((((rfl | rfl) | rfl) | rfl) | rfl) | rfl) | rfl <;> decide

theorem bit_rest (f : UInt64) (j : Nat) : bit (rest f) j = (bit f j && !bit 0xC4F j) := (C79_ops f 0xC4F j).2.1

/-- The text form: the names of the flags in order, and what has no name in hexadecimal. -/
theorem C79_display (f : UInt64) : display f = Net.str "ServiceFlags(" ++ joinBar (words f) ++ Net.str ")" := by
  unfold display words
  by_cases h0 : f = 0
  · subst h0; decide
  rw [if_neg (by simpa [NONE] using h0), if_neg h0]
  simp only []
  generalize hs0 : (St.mk f true (Net.str "ServiceFlags(")) = s0
  have a0 : s0.out = Net.str "ServiceFlags(" ++ joinBar [] ∧ s0.first = ([] : List Bytes).isEmpty ∧ s0.flags = f := by
    subst hs0; simp [joinBar]
  obtain ⟨o1, f1, b1⟩ := writeFlag_spec s0 _ [] 0 NETWORK (Net.str "NETWORK") bit_NETWORK a0.1 a0.2.1
  generalize writeFlag s0 NETWORK (Net.str "NETWORK") = s1 at o1 f1 b1 ⊢
  obtain ⟨o2, f2, b2⟩ := writeFlag_spec s1 _ _ 1 GETUTXO (Net.str "GETUTXO") bit_GETUTXO o1 f1
  generalize writeFlag s1 GETUTXO (Net.str "GETUTXO") = s2 at o2 f2 b2 ⊢
  obtain ⟨o3, f3, b3⟩ := writeFlag_spec s2 _ _ 2 BLOOM (Net.str "BLOOM") bit_BLOOM o2 f2
  generalize writeFlag s2 BLOOM (Net.str "BLOOM") = s3 at o3 f3 b3 ⊢
  obtain ⟨o4, f4, b4⟩ := writeFlag_spec s3 _ _ 3 WITNESS (Net.str "WITNESS") bit_WITNESS o3 f3
  generalize writeFlag s3 WITNESS (Net.str "WITNESS") = s4 at o4 f4 b4 ⊢
  obtain ⟨o5, f5, b5⟩ := writeFlag_spec s4 _ _ 6 COMPACT_FILTERS (Net.str "COMPACT_FILTERS") bit_COMPACT_FILTERS o4 f4
  generalize writeFlag s4 COMPACT_FILTERS (Net.str "COMPACT_FILTERS") = s5 at o5 f5 b5 ⊢
  obtain ⟨o6, f6, b6⟩ := writeFlag_spec s5 _ _ 10 NETWORK_LIMITED (Net.str "NETWORK_LIMITED") bit_NETWORK_LIMITED o5 f5
  generalize writeFlag s5 NETWORK_LIMITED (Net.str "NETWORK_LIMITED") = s6 at o6 f6 b6 ⊢
  obtain ⟨o7, f7, b7⟩ := writeFlag_spec s6 _ _ 11 P2P_V2 (Net.str "P2P_V2") bit_P2P_V2 o6 f6
  generalize writeFlag s6 P2P_V2 (Net.str "P2P_V2") = s7 at o7 f7 b7 ⊢
  have hrest : s7.flags = rest f := by
    apply bit_ext
    intro j _
    rw [bit_rest, bit_mask, b7, b6, b5, b4, b3, b2, b1, a0.2.2]
    cases bit f j <;> simp <;> omega
  have e1 : bit s1.flags 1 = bit f 1 := by rw [b1, a0.2.2]; simp
  have e2 : bit s2.flags 2 = bit f 2 := by rw [b2, b1, a0.2.2]; simp
  have e3 : bit s3.flags 3 = bit f 3 := by rw [b3, b2, b1, a0.2.2]; simp
  have e4 : bit s4.flags 6 = bit f 6 := by rw [b4, b3, b2, b1, a0.2.2]; simp
  have e5 : bit s5.flags 10 = bit f 10 := by rw [b5, b4, b3, b2, b1, a0.2.2]; simp
  have e6 : bit s6.flags 11 = bit f 11 := by rw [b6, b5, b4, b3, b2, b1, a0.2.2]; simp
  rw [e6, e5, e4, e3, e2, e1, a0.2.2] at o7 f7
  have hk : ((((((([] ++ if bit f 0 then [Net.str "NETWORK"] else []) ++ if bit f 1 then [Net.str "GETUTXO"] else []) ++
      if bit f 2 then [Net.str "BLOOM"] else []) ++ if bit f 3 then [Net.str "WITNESS"] else []) ++
      if bit f 6 then [Net.str "COMPACT_FILTERS"] else []) ++ if bit f 10 then [Net.str "NETWORK_LIMITED"] else []) ++
      if bit f 11 then [Net.str "P2P_V2"] else []) = (known.filter fun p => bit f p.1).map (·.2) := by
    unfold known
    simp only [List.filter_cons, List.filter_nil]
    cases bit f 0 <;> cases bit f 1 <;> cases bit f 2 <;> cases bit f 3 <;> cases bit f 6 <;> cases bit f 10 <;> cases bit f 11 <;> rfl
  rw [hk] at o7 f7
  rw [hrest, o7, f7]
  by_cases hr : rest f = 0
  · rw [if_pos hr, hr]
    simp [NONE]
  · rw [if_neg hr, if_pos (by simpa [NONE] using hr), joinBar_snoc]
    split <;> simp [Net.str]

/-- Words without bars can be told apart in the joined text. -/
theorem joinBar_inj : ∀ (xs ys : List Bytes), xs ≠ [] → ys ≠ [] → (∀ t ∈ xs, (124 : UInt8) ∉ t) → (∀ t ∈ ys, (124 : UInt8) ∉ t) →
    joinBar xs = joinBar ys → xs = ys
  | [], _, h, _, _, _, _ => absurd rfl h
  | _, [], _, h, _, _, _ => absurd rfl h
  | [x], [y], _, _, _, _, h => by simp only [joinBar] at h; rw [h]
  | [x], y :: z :: ys, _, _, hx, _, h => by
    simp only [joinBar] at h
    exact absurd (by rw [h]; simp) (hx x (by simp))
  | x :: z :: xs, [y], _, _, _, hy, h => by
    simp only [joinBar] at h
    exact absurd (by rw [← h]; simp) (hy y (by simp))
  | x :: z :: xs, y :: w :: ys, _, _, hx, hy, h => by
    simp only [joinBar] at h
    have key : ∀ (a b c d : Bytes), (124 : UInt8) ∉ a → (124 : UInt8) ∉ b → a ++ 124 :: c = b ++ 124 :: d → a = b ∧ c = d := by
      intro a
      induction a with
      | nil =>
        intro b c d _ hb h
        cases b with
        | nil => simp only [List.nil_append, List.cons.injEq, true_and] at h; exact ⟨rfl, h⟩
        | cons e b =>
          simp only [List.nil_append, List.cons_append, List.cons.injEq] at h
          exact absurd (by rw [← h.1]; simp) hb
      | cons e a ih =>
        intro b c d ha hb h
        cases b with
        | nil =>
          simp only [List.nil_append, List.cons_append, List.cons.injEq] at h
          exact absurd (by rw [h.1]; simp) ha
        | cons e' b =>
          simp only [List.cons_append, List.cons.injEq] at h
          obtain ⟨rfl, h⟩ := h
          obtain ⟨rfl, rfl⟩ := ih b c d (fun hm => ha (List.mem_cons_of_mem _ hm)) (fun hm => hb (List.mem_cons_of_mem _ hm)) h
          exact ⟨rfl, rfl⟩
    obtain ⟨rfl, h'⟩ := key _ _ _ _ (hx x (by simp)) (hy y (by simp)) h
    have := joinBar_inj (z :: xs) (w :: ys) (by simp) (by simp) (fun t ht => hx t (List.mem_cons_of_mem _ ht))
      (fun t ht => hy t (List.mem_cons_of_mem _ ht)) h'
    rw [this]

theorem hexWord_head (n : Nat) : (Net.str "0x" ++ radixBytes 16 n).head? = some 48 := rfl

theorem known_word (f : UInt64) (t : Bytes) (h : t ∈ (known.filter fun p => bit f p.1).map (·.2)) : t.head? ≠ some 48 ∧ t ≠ Net.str "NONE" ∧ (124 : UInt8) ∉ t := by
  simp only [List.mem_map, List.mem_filter] at h
  obtain ⟨p, ⟨hp, _⟩, rfl⟩ := h
  have : ∀ p ∈ known, p.2.head? ≠ some 48 ∧ p.2 ≠ Net.str "NONE" ∧ (124 : UInt8) ∉ p.2 := by decide
  exact this p hp

theorem words_spec (f : UInt64) : words f ≠ [] ∧ ∀ t ∈ words f, (124 : UInt8) ∉ t := by
  unfold words
  split
  · exact ⟨by simp, by decide⟩
  · rename_i h0
    constructor
    · intro h
      rw [List.append_eq_nil_iff] at h
      apply h0
      have hr : rest f = 0 := by
        by_cases hr : rest f = 0
        · exact hr
        · rw [if_neg hr] at h; exact absurd h.2 (by simp)
      apply bit_ext
      intro j _
      have hb0 : bit (0 : UInt64) j = false := by simp [bit]
      rw [hb0]
      have hj := bit_rest f j
      rw [hr, hb0] at hj
      cases hb : bit f j with
      | false => rfl
      | true =>
        rw [hb] at hj
        have hm : bit 0xC4F j = true := by simpa using hj.symm
        have hk : ∀ p ∈ known, bit f p.1 = false := by
          intro p hp
          cases hbp : bit f p.1 with
          | false => rfl
          | true =>
            have : p.2 ∈ (known.filter fun p => bit f p.1).map (·.2) :=
              List.mem_map.2 ⟨p, List.mem_filter.2 ⟨hp, hbp⟩, rfl⟩
            rw [h.1] at this
            cases this
        obtain ⟨p, hp, rfl⟩ := mask_known j hm
        rw [hk p hp] at hb
        cases hb
    · intro t ht
      rcases List.mem_append.1 ht with ht | ht
      · exact (known_word f t ht).2.2
      · split at ht
        · cases ht
        · rw [List.mem_singleton] at ht
          subst ht
          intro hm
          rcases List.mem_append.1 hm with hm | hm
          · revert hm; decide
          · obtain ⟨d, hd, he⟩ := radixBytes_digit 16 _ (by omega) (by omega) _ hm
            have := hexDigit_char d hd
            rw [← he] at this
            have h124 : (124 : UInt8).toNat = 124 := rfl
            omega

theorem words_inj {f g : UInt64} (h : words f = words g) : f = g := by
  -- membership of names and of the hexadecimal word
  have hnone : ∀ f : UInt64, Net.str "NONE" ∈ words f → f = 0 := by
    intro f hm
    unfold words at hm
    split at hm
    · assumption
    · rcases List.mem_append.1 hm with hm | hm
      · exact absurd rfl (known_word f _ hm).2.1
      · split at hm
        · cases hm
        · rw [List.mem_singleton] at hm
          have := congrArg List.head? hm
          rw [hexWord_head] at this
          exact absurd this (by decide)
  have hbit : ∀ f : UInt64, ∀ p ∈ known, f ≠ 0 → (p.2 ∈ words f ↔ bit f p.1 = true) := by
    intro f p hp h0
    unfold words
    rw [if_neg h0, List.mem_append]
    constructor
    · rintro (hm | hm)
      · simp only [List.mem_map, List.mem_filter] at hm
        obtain ⟨q, ⟨hq, hb⟩, he⟩ := hm
        have : ∀ q ∈ known, ∀ p ∈ known, q.2 = p.2 → q.1 = p.1 := by decide
        rw [← this q hq p hp he]; exact hb
      · split at hm
        · cases hm
        · rw [List.mem_singleton] at hm
          have := congrArg List.head? hm
          rw [hexWord_head] at this
          have hk : ∀ p ∈ known, p.2.head? ≠ some 48 := by decide
          exact absurd this (hk p hp)
    · intro hb
      exact .inl (List.mem_map.2 ⟨p, List.mem_filter.2 ⟨hp, hb⟩, rfl⟩)
  have hhex : ∀ (f : UInt64) (n : Nat), f ≠ 0 → (Net.str "0x" ++ radixBytes 16 n ∈ words f ↔ rest f ≠ 0 ∧ n = (rest f).toNat) := by
    intro f n h0
    unfold words
    rw [if_neg h0, List.mem_append]
    constructor
    · rintro (hm | hm)
      · exact absurd (hexWord_head n) (known_word f _ hm).1
      · split at hm
        · cases hm
        · rename_i hr
          rw [List.mem_singleton] at hm
          exact ⟨hr, radixBytes_inj (by omega) (by omega) (List.append_cancel_left hm)⟩
    · rintro ⟨hr, rfl⟩
      rw [if_neg hr]
      exact .inr (List.mem_singleton.2 rfl)
  by_cases hf : f = 0
  · have : g = 0 := hnone g (by rw [← h]; subst hf; decide)
    rw [hf, this]
  by_cases hg : g = 0
  · exact absurd (hnone f (by rw [h]; subst hg; decide)) hf
  have hr : rest f = rest g := by
    by_cases hr : rest f = 0
    · by_cases hr' : rest g = 0
      · rw [hr, hr']
      · have := (hhex g _ hg).2 ⟨hr', rfl⟩
        rw [← h] at this
        exact absurd hr ((hhex f _ hf).1 this).1
    · have := (hhex f _ hf).2 ⟨hr, rfl⟩
      rw [h] at this
      exact UInt64.toNat_inj.1 ((hhex g _ hg).1 this).2
  apply bit_ext
  intro j _
  cases hm : bit 0xC4F j with
  | false =>
    have h1 := bit_rest f j
    have h2 := bit_rest g j
    rw [hm] at h1 h2
    rw [hr, h2] at h1
    simpa using h1.symm
  | true =>
    have hk : ∀ p ∈ known, bit f p.1 = bit g p.1 := by
      intro p hp
      have h1 := hbit f p hp hf
      rw [h, hbit g p hp hg] at h1
      cases ha : bit f p.1 <;> cases hb : bit g p.1 <;> simp_all
    obtain ⟨p, hp, rfl⟩ := mask_known j hm
    exact hk p hp

/-- Different flags have different texts. -/
theorem C79_display_inj (f g : UInt64) (h : display f = display g) : f = g := by
  rw [C79_display, C79_display] at h
  have h1 := List.append_cancel_left (List.append_cancel_right h)
  obtain ⟨a1, a2⟩ := words_spec f
  obtain ⟨b1, b2⟩ := words_spec g
  exact words_inj (joinBar_inj _ _ a1 b1 a2 b2 h1)

/-! ## Examples -/

example : display (add NETWORK WITNESS) = Net.str "ServiceFlags(NETWORK|WITNESS)" := by rw [C79_display]; decide +kernel
example : display 0x50 = Net.str "ServiceFlags(COMPACT_FILTERS|0x10)" := by rw [C79_display]; decide +kernel
example : has (add NETWORK P2P_V2) P2P_V2 = true ∧ has NETWORK (add NETWORK P2P_V2) = false := by decide
example : bitxor (add NETWORK WITNESS) WITNESS = NETWORK := by decide

end Flags
end P2p
end Btc
