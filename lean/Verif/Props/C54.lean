import Verif.Bip32.Path
/-!
# C54: child numbers and derivation paths
-/
namespace Btc
namespace Bip32

/-! ## Child numbers and their raw form -/

theorem flag_toNat : HARDENED_FLAG.toNat = 2 ^ 31 := by decide
theorem max_toNat : MAX_CHILD_INDEX.toNat = 2 ^ 31 - 1 := by decide

theorem le_max (i : UInt32) : i ≤ MAX_CHILD_INDEX ↔ i.toNat < 2 ^ 31 := by
  rw [UInt32.le_iff_toNat_le, max_toNat]; omega

theorem index_toNat (c : ChildNumber) : c.index.toNat = c.raw.toNat % 2 ^ 31 := by
  unfold ChildNumber.index
  rw [UInt32.toNat_and, max_toNat, Nat.and_two_pow_sub_one_eq_mod]

theorem isHardened_iff (c : ChildNumber) : c.isHardened = true ↔ 2 ^ 31 ≤ c.raw.toNat := by
  unfold ChildNumber.isHardened
  have h1 : (c.raw &&& HARDENED_FLAG).toNat = c.raw.toNat / 2 ^ 31 * 2 ^ 31 := by
    rw [UInt32.toNat_and, flag_toNat]
    apply Nat.eq_of_testBit_eq
    intro i
    rw [Nat.testBit_and, Nat.testBit_two_pow, Nat.testBit_mul_two_pow, Nat.testBit_div_two_pow]
    by_cases hi : 31 = i
    · subst hi; simp
    · by_cases hl : 31 ≤ i
      · have : c.raw.toNat.testBit i = false := Nat.testBit_lt_two_pow (Nat.lt_of_lt_of_le c.raw.toNat_lt (Nat.pow_le_pow_right (by omega) (by omega : 32 ≤ i)))
        simp [hi, hl, this]
      · simp [hi, hl]
  have h2 := c.raw.toNat_lt
  simp only [bne_iff_ne, ne_eq]
  rw [← UInt32.toNat_inj, h1]
  show ¬ _ = 0 ↔ _
  omega

theorem or_flag (i : UInt32) (h : i.toNat < 2 ^ 31) : (i ||| HARDENED_FLAG).toNat = i.toNat + 2 ^ 31 := by
  have := Nat.two_pow_add_eq_or_of_lt h 1
  rw [Nat.mul_one] at this
  rw [UInt32.toNat_or, flag_toNat, Nat.or_comm]
  omega

theorem ext_raw {c d : ChildNumber} (h : c.raw.toNat = d.raw.toNat) : c = d := by
  cases c; cases d; simp only [ChildNumber.mk.injEq]; exact UInt32.toNat_inj.mp h

/-- A child number is its 32-bit value: below 2^31 normal, otherwise hardened, and the index is the value modulo 2^31. -/
theorem C54_raw (n : UInt32) (c : ChildNumber) : (ChildNumber.fromRaw n).toRaw = n ∧ ChildNumber.fromRaw c.toRaw = c ∧
    (c.isNormal = true ↔ c.toRaw.toNat < 2 ^ 31) ∧ (c.isHardened = true ↔ 2 ^ 31 ≤ c.toRaw.toNat) ∧ c.index.toNat = c.toRaw.toNat % 2 ^ 31 := by
  refine ⟨rfl, rfl, ?_, isHardened_iff c, index_toNat c⟩
  unfold ChildNumber.isNormal
  have := isHardened_iff c
  by_cases h : c.isHardened = true
  · simp only [h, Bool.not_true, Bool.false_eq_true, false_iff]; have := this.mp h; show ¬ c.raw.toNat < _; omega
  · simp only [Bool.not_eq_true] at h
    rw [h] at this ⊢
    simp only [Bool.not_false, true_iff]
    show c.raw.toNat < _
    have : ¬ 2 ^ 31 ≤ c.raw.toNat := fun g => by simpa using this.mpr g
    omega

/-- The two constructors from an index: exactly the indices below 2^31, and the child number has that index and kind. -/
theorem C54_from_idx (i : UInt32) (c : ChildNumber) :
    (ChildNumber.fromNormalIdx i = .ok c ↔ i.toNat < 2 ^ 31 ∧ c.toRaw.toNat = i.toNat) ∧
    (ChildNumber.fromHardenedIdx i = .ok c ↔ i.toNat < 2 ^ 31 ∧ c.toRaw.toNat = i.toNat + 2 ^ 31) := by
  unfold ChildNumber.fromNormalIdx ChildNumber.fromHardenedIdx
  by_cases h : i.toNat < 2 ^ 31
  · rw [if_pos ((le_max i).mpr h), if_pos ((le_max i).mpr h)]
    simp only [Except.ok.injEq, h, true_and]
    refine ⟨⟨fun e => e ▸ rfl, fun e => ext_raw e.symm⟩, ⟨fun e => e ▸ or_flag i h, fun e => ext_raw ((or_flag i h).trans e.symm)⟩⟩
  · rw [if_neg (mt (le_max i).mp h), if_neg (mt (le_max i).mp h)]
    simp [h]

/-- `increment` is the next index of the same kind, and fails exactly at the last index. -/
theorem C54_increment (c : ChildNumber) :
    (c.index.toNat + 1 < 2 ^ 31 → ∃ d, c.increment = .ok d ∧ d.toRaw.toNat = c.toRaw.toNat + 1 ∧ d.isHardened = c.isHardened) ∧
    (c.index.toNat + 1 = 2 ^ 31 → c.increment = .error ⟨UInt32.ofNat (2 ^ 31)⟩) := by
  have hi := index_toNat c
  have hl : c.index.toNat < 2 ^ 31 := by rw [hi]; exact Nat.mod_lt _ (by decide)
  have ha : (c.index + 1).toNat = c.index.toNat + 1 := by
    rw [UInt32.toNat_add]; show (c.index.toNat + 1) % 2 ^ 32 = _; omega
  have hr := c.raw.toNat_lt
  have hh := isHardened_iff c
  unfold ChildNumber.increment
  rw [if_pos (by omega)]
  refine ⟨fun h => ?_, fun h => ?_⟩
  · by_cases hc : c.isHardened = true
    · rw [if_pos hc]
      have hc2 := hh.mp hc
      have e := ((C54_from_idx (c.index + 1) ⟨(c.index + 1) ||| HARDENED_FLAG⟩).2).mpr ⟨by omega, or_flag _ (by omega)⟩
      have hv : (ChildNumber.mk ((c.index + 1) ||| HARDENED_FLAG)).raw.toNat = c.index.toNat + 1 + 2 ^ 31 := by
        rw [or_flag _ (by omega), ha]
      refine ⟨_, e, ?_, ?_⟩
      · show (ChildNumber.mk ((c.index + 1) ||| HARDENED_FLAG)).raw.toNat = c.raw.toNat + 1
        omega
      · rw [hc, isHardened_iff, hv]; omega
    · rw [if_neg hc]
      have hc2 : c.raw.toNat < 2 ^ 31 := by
        have := mt hh.mpr hc; omega
      have e := ((C54_from_idx (c.index + 1) ⟨c.index + 1⟩).1).mpr ⟨by omega, rfl⟩
      refine ⟨_, e, ?_, ?_⟩
      · show (c.index + 1).toNat = c.raw.toNat + 1
        omega
      · have h2 : ¬ (ChildNumber.mk (c.index + 1)).isHardened = true := by rw [isHardened_iff]; show ¬ _ ≤ (c.index + 1).toNat; omega
        simp only [Bool.not_eq_true] at hc h2
        rw [hc, h2]
  · have he : c.index + 1 = UInt32.ofNat (2 ^ 31) := by apply UInt32.toNat_inj.mp; rw [ha, h]; decide
    have hn : ¬ c.index + 1 ≤ MAX_CHILD_INDEX := by rw [le_max]; omega
    unfold ChildNumber.fromHardenedIdx ChildNumber.fromNormalIdx
    rw [if_neg hn, if_neg hn, he]
    split <;> rfl

/-! ## Text of a child number -/

/-- Decimal digits of an index below 2^31, with Rust's optional plus sign. -/
def IndexText (s : Bytes) (n : Nat) : Prop :=
  n < 2 ^ 31 ∧ ∃ ds, (s = ds ∨ s = 43 :: ds) ∧ ds ≠ [] ∧ digitsVal 10 0 ds = some n

/-- The texts of a child number: an index, followed by `'` or `h` if hardened. -/
def ChildText (s : Bytes) (c : ChildNumber) : Prop :=
  (∃ n, IndexText s n ∧ c.toRaw.toNat = n) ∨
  (∃ n ds, (s = ds ++ [39] ∨ s = ds ++ [104]) ∧ IndexText ds n ∧ c.toRaw.toNat = n + 2 ^ 31)

theorem digits_mem (radix : Nat) : ∀ (ds : Bytes) (acc n : Nat), digitsVal radix acc ds = some n → ∀ b ∈ ds, digitVal radix b ≠ none
  | [], _, _, _, b, hb => by cases hb
  | d :: ds, acc, n, h, b, hb => by
    simp only [digitsVal] at h
    split at h
    · cases h
    · rename_i x hx
      cases hb with
      | head => rw [hx]; simp
      | tail _ hb => exact digits_mem radix ds _ _ h b hb

theorem parseU32_ok (s : Bytes) (i : UInt32) (h : i.toNat < 2 ^ 31) : parseU32 s = .ok i ↔ IndexText s i.toNat := by
  unfold parseU32 IndexText
  have hp := parseUInt_ok_iff (max := 2 ^ 32 - 1) (radix := 10) (by decide) s
  constructor
  · intro e
    split at e
    · rename_i n hn
      have hn' := (hp n).mp hn
      obtain ⟨ds, h1, h2, h3, h4⟩ := hn'
      cases e
      have : (UInt32.ofNat n).toNat = n := Nat.mod_eq_of_lt (by omega)
      rw [this] at h ⊢
      exact ⟨h, ds, h1, h2, h3⟩
    · cases e
  · rintro ⟨-, ds, h1, h2, h3⟩
    rw [(hp i.toNat).mpr ⟨ds, h1, h2, h3, by have := i.toNat_lt; omega⟩]
    simp

theorem parseU32_big (s : Bytes) (i : UInt32) (h : parseU32 s = .ok i) (hi : ¬ i.toNat < 2 ^ 31) (n : Nat) : ¬ IndexText s n := by
  rintro ⟨hn, ds, h1, h2, h3⟩
  have hp := (parseUInt_ok_iff (max := 2 ^ 32 - 1) (radix := 10) (by decide) s n).mpr ⟨ds, h1, h2, h3, by omega⟩
  unfold parseU32 at h
  rw [hp] at h
  simp only [Except.ok.injEq] at h
  rw [← h] at hi
  apply hi
  show (UInt32.ofNat n).toNat < _
  have : (UInt32.ofNat n).toNat = n := Nat.mod_eq_of_lt (by omega)
  omega

/-- An index ends in a digit, so never in a hardened marker. -/
theorem indexText_last {s : Bytes} {n : Nat} (h : IndexText s n) : s ≠ [] ∧ s.getLast?.any (fun l => l == 39 || l == 104) = false := by
  obtain ⟨-, ds, h1, h2, h3⟩ := h
  have hl : ∃ l, ds.getLast? = some l ∧ digitVal 10 l ≠ none := by
    refine ⟨ds.getLast h2, List.getLast?_eq_some_getLast h2, digits_mem 10 ds 0 n h3 _ (List.getLast_mem h2)⟩
  obtain ⟨l, hl, hd⟩ := hl
  have hn : (l == 39 || l == 104) = false := by
    cases hb : (l == 39 || l == 104)
    · rfl
    · exfalso
      simp only [Bool.or_eq_true, beq_iff_eq] at hb
      rcases hb with rfl | rfl <;> exact hd (by decide)
  rcases h1 with rfl | rfl
  · exact ⟨h2, by rw [hl]; exact hn⟩
  · refine ⟨by simp, ?_⟩
    rw [List.getLast?_cons, hl]
    simpa using hn

/-- Exactly the texts of child numbers parse, each to its number. -/
theorem C54_child_parse (s : Bytes) (c : ChildNumber) : ChildNumber.parse s = .ok c ↔ ChildText s c := by
  unfold ChildNumber.parse
  by_cases hl : s.getLast?.any (fun l => l == 39 || l == 104) = true
  · rw [if_pos hl]
    have hne : s ≠ [] := by rintro rfl; simp at hl
    have hs : s = s.dropLast ++ [39] ∨ s = s.dropLast ++ [104] := by
      have e := List.dropLast_concat_getLast hne
      rw [List.getLast?_eq_some_getLast hne] at hl
      simp only [Option.any_some, Bool.or_eq_true, beq_iff_eq] at hl
      rcases hl with h | h
      · rw [h] at e; exact .inl e.symm
      · rw [h] at e; exact .inr e.symm
    have key : ChildText s c ↔ ∃ n, IndexText s.dropLast n ∧ c.toRaw.toNat = n + 2 ^ 31 := by
      constructor
      · rintro (⟨n, h1, h2⟩ | ⟨n, ds, h1, h2, h3⟩)
        · have := (indexText_last h1).2
          rw [hl] at this; cases this
        · have : s.dropLast = ds := by rcases h1 with rfl | rfl <;> simp
          rw [this]
          exact ⟨n, h2, h3⟩
      · rintro ⟨n, h1, h2⟩
        exact .inr ⟨n, s.dropLast, hs, h1, h2⟩
    rw [key]
    cases hp : parseU32 s.dropLast with
    | error e =>
      simp only [reduceCtorEq, false_iff]
      rintro ⟨n, h1, h2⟩
      have e2 : (UInt32.ofNat n).toNat = n := Nat.mod_eq_of_lt (by have := h1.1; omega)
      have := (parseU32_ok s.dropLast (UInt32.ofNat n) (by have := h1.1; omega)).mpr (by rwa [e2])
      rw [hp] at this; cases this
    | ok i =>
      simp only
      by_cases hi : i.toNat < 2 ^ 31
      · have h1 := (parseU32_ok s.dropLast i hi).mp hp
        have h2 := (C54_from_idx i c).2
        constructor
        · intro h
          have : ChildNumber.fromHardenedIdx i = .ok c := by
            cases hf : ChildNumber.fromHardenedIdx i <;> rw [hf] at h <;> simp_all [Except.mapError]
          exact ⟨i.toNat, h1, (h2.mp this).2⟩
        · rintro ⟨n, h3, h4⟩
          have e2 : (UInt32.ofNat n).toNat = n := Nat.mod_eq_of_lt (by have := h3.1; omega)
          have := (parseU32_ok s.dropLast (UInt32.ofNat n) (by have := h3.1; omega)).mpr (by rwa [e2])
          rw [hp] at this
          cases this
          rw [e2] at h2
          rw [h2.mpr ⟨by have := h3.1; omega, h4⟩]
          rfl
      · have hb := parseU32_big _ _ hp hi
        constructor
        · intro h
          unfold ChildNumber.fromHardenedIdx at h
          rw [if_neg (mt (le_max i).mp hi)] at h
          cases h
        · rintro ⟨n, h3, -⟩
          exact absurd h3 (hb n)
  · rw [if_neg hl]
    have key : ChildText s c ↔ ∃ n, IndexText s n ∧ c.toRaw.toNat = n := by
      constructor
      · rintro (h | ⟨n, ds, h1, h2, h3⟩)
        · exact h
        · exfalso
          apply hl
          rcases h1 with rfl | rfl <;> simp
      · exact .inl
    rw [key]
    cases hp : parseU32 s with
    | error e =>
      simp only [reduceCtorEq, false_iff]
      rintro ⟨n, h1, h2⟩
      have e2 : (UInt32.ofNat n).toNat = n := Nat.mod_eq_of_lt (by have := h1.1; omega)
      have := (parseU32_ok s (UInt32.ofNat n) (by have := h1.1; omega)).mpr (by rwa [e2])
      rw [hp] at this; cases this
    | ok i =>
      simp only
      by_cases hi : i.toNat < 2 ^ 31
      · have h1 := (parseU32_ok s i hi).mp hp
        have h2 := (C54_from_idx i c).1
        constructor
        · intro h
          have : ChildNumber.fromNormalIdx i = .ok c := by
            cases hf : ChildNumber.fromNormalIdx i <;> rw [hf] at h <;> simp_all [Except.mapError]
          exact ⟨i.toNat, h1, (h2.mp this).2⟩
        · rintro ⟨n, h3, h4⟩
          have e2 : (UInt32.ofNat n).toNat = n := Nat.mod_eq_of_lt (by have := h3.1; omega)
          have := (parseU32_ok s (UInt32.ofNat n) (by have := h3.1; omega)).mpr (by rwa [e2])
          rw [hp] at this
          cases this
          rw [e2] at h2
          rw [h2.mpr ⟨by have := h3.1; omega, h4⟩]
          rfl
      · have hb := parseU32_big _ _ hp hi
        constructor
        · intro h
          unfold ChildNumber.fromNormalIdx at h
          rw [if_neg (mt (le_max i).mp hi)] at h
          cases h
        · rintro ⟨n, h3, -⟩
          exact absurd h3 (hb n)

theorem display_text (alt : Bool) (c : ChildNumber) : ChildText (c.display alt) c := by
  have hi := index_toNat c
  have hr := c.raw.toNat_lt
  have hh := isHardened_iff c
  have ht : IndexText (decBytes c.index.toNat) c.index.toNat :=
    ⟨by rw [hi]; exact Nat.mod_lt _ (by decide), _, .inl rfl, decBytes_ne_nil _, digitsVal_decBytes _⟩
  unfold ChildNumber.display
  by_cases hc : c.isHardened = true
  · rw [if_pos hc]
    refine .inr ⟨_, _, ?_, ht, ?_⟩
    · cases alt
      · exact .inl rfl
      · exact .inr rfl
    · show c.raw.toNat = _
      have := hh.mp hc
      omega
  · rw [if_neg hc]
    refine .inl ⟨_, ht, ?_⟩
    show c.raw.toNat = _
    have := mt hh.mpr hc
    omega

/-- A printed child number, in either form, parses back. -/
theorem C54_child_roundtrip (alt : Bool) (c : ChildNumber) : ChildNumber.parse (c.display alt) = .ok c :=
  (C54_child_parse _ _).mpr (display_text alt c)

/-! ## Text of a path -/

/-- Parts with slashes between them. -/
def slashed : List Bytes → Bytes
  | [] => []
  | [p] => p
  | p :: ps => p ++ 47 :: slashed ps

theorem splitSlash_ne (s : Bytes) : splitSlash s ≠ [] := by
  cases s with
  | nil => simp [splitSlash]
  | cons b bs =>
    simp only [splitSlash]
    split
    · simp
    · split <;> simp

theorem slashed_split : ∀ s : Bytes, slashed (splitSlash s) = s
  | [] => rfl
  | b :: bs => by
    have ih := slashed_split bs
    have hne := splitSlash_ne bs
    simp only [splitSlash]
    by_cases hb : b = 47
    · rw [if_pos hb]
      cases hs : splitSlash bs with
      | nil => exact absurd hs hne
      | cons p ps =>
        rw [hs] at ih
        rw [slashed, ih, hb]; rfl
        simp
    · rw [if_neg hb]
      cases hs : splitSlash bs with
      | nil => exact absurd hs hne
      | cons p ps =>
        rw [hs] at ih
        simp only
        cases ps with
        | nil => simp only [slashed] at ih ⊢; rw [ih]
        | cons q qs => simp only [slashed] at ih ⊢; rw [← ih]; rfl

theorem split_noslash : ∀ (p : Bytes), 47 ∉ p → splitSlash p = [p]
  | [], _ => rfl
  | b :: p, h => by
    simp only [List.mem_cons, not_or] at h
    simp only [splitSlash]
    rw [if_neg (fun e => h.1 e.symm), split_noslash p h.2]

theorem split_append : ∀ (p s : Bytes), 47 ∉ p → splitSlash (p ++ 47 :: s) = p :: splitSlash s
  | [], s, _ => by simp [splitSlash]
  | b :: p, s, h => by
    simp only [List.mem_cons, not_or] at h
    simp only [List.cons_append, splitSlash]
    rw [if_neg (fun e => h.1 e.symm), split_append p s h.2]

theorem split_slashed : ∀ (ps : List Bytes), ps ≠ [] → (∀ p ∈ ps, 47 ∉ p) → splitSlash (slashed ps) = ps
  | [], h, _ => absurd rfl h
  | [p], _, h => by rw [slashed]; exact split_noslash p (h p (by simp))
  | p :: q :: ps, _, h => by
    rw [slashed, split_append p _ (h p (by simp)), split_slashed (q :: ps) (by simp) fun r hr => h r (List.mem_cons_of_mem _ hr)]
    simp

/-- The texts of a list of child numbers. -/
inductive Texts : List Bytes → RelPath → Prop
  | nil : Texts [] []
  | cons {p ps c cs} : ChildText p c → Texts ps cs → Texts (p :: ps) (c :: cs)

theorem indexText_mem {s : Bytes} {n : Nat} (h : IndexText s n) : 47 ∉ s ∧ 109 ∉ s := by
  obtain ⟨-, ds, h1, -, h3⟩ := h
  have hd := digits_mem 10 ds 0 n h3
  have a : 47 ∉ ds := fun hm => hd _ hm (by decide)
  have b : 109 ∉ ds := fun hm => hd _ hm (by decide)
  rcases h1 with rfl | rfl
  · exact ⟨a, b⟩
  · simp only [List.mem_cons, not_or]
    exact ⟨⟨by decide, a⟩, ⟨by decide, b⟩⟩

theorem childText_mem {s : Bytes} {c : ChildNumber} (h : ChildText s c) : s ≠ [] ∧ 47 ∉ s ∧ 109 ∉ s := by
  rcases h with ⟨n, h, -⟩ | ⟨n, ds, h1, h, -⟩
  · exact ⟨(indexText_last h).1, indexText_mem h⟩
  · have := indexText_mem h
    rcases h1 with rfl | rfl
    · refine ⟨by simp, ?_, ?_⟩ <;> simp [this]
    · refine ⟨by simp, ?_, ?_⟩ <;> simp [this]

theorem texts_mem {ps : List Bytes} {cs : RelPath} (h : Texts ps cs) : ∀ p ∈ ps, 47 ∉ p := by
  induction h with
  | nil => simp
  | cons h _ ih =>
    intro p hp
    cases hp with
    | head => exact (childText_mem h).2.1
    | tail _ hp => exact ih p hp

theorem texts_length {ps : List Bytes} {cs : RelPath} (h : Texts ps cs) : ps.length = cs.length := by
  induction h with
  | nil => rfl
  | cons _ _ ih => simp [ih]

theorem parseParts_ok : ∀ (ps : List Bytes) (acc p : RelPath), parseParts ps acc = .ok p ↔ ∃ cs, Texts ps cs ∧ p = acc ++ cs
  | [], acc, p => by
    simp only [parseParts, Except.ok.injEq]
    constructor
    · intro h; exact ⟨[], .nil, by simp [h]⟩
    · rintro ⟨cs, h, rfl⟩; cases h; simp
  | q :: ps, acc, p => by
    simp only [parseParts]
    by_cases hq : q = []
    · rw [if_pos hq]
      simp only [reduceCtorEq, false_iff]
      rintro ⟨cs, h, -⟩
      cases h with
      | cons h _ => exact (childText_mem h).1 hq
    · rw [if_neg hq]
      cases hc : ChildNumber.parse q with
      | error e =>
        simp only [reduceCtorEq, false_iff]
        rintro ⟨cs, h, -⟩
        cases h with
        | cons h _ => rw [(C54_child_parse _ _).mpr h] at hc; cases hc
      | ok c =>
        simp only
        rw [parseParts_ok ps (acc ++ [c]) p]
        have ht := (C54_child_parse _ _).mp hc
        constructor
        · rintro ⟨cs, h, rfl⟩; exact ⟨c :: cs, .cons ht h, by simp⟩
        · rintro ⟨cs, h, rfl⟩
          cases h with
          | cons h1 h2 =>
            rw [(C54_child_parse _ _).mpr h1] at hc
            cases hc
            exact ⟨_, h2, by simp⟩

theorem split_texts {s : Bytes} {cs : RelPath} : Texts (splitSlash s) cs ↔ cs ≠ [] ∧ ∃ ps, Texts ps cs ∧ s = slashed ps := by
  constructor
  · intro h
    refine ⟨?_, splitSlash s, h, (slashed_split s).symm⟩
    rintro rfl
    cases hs : splitSlash s with
    | nil => exact splitSlash_ne s hs
    | cons p ps => rw [hs] at h; cases h
  · rintro ⟨hne, ps, h, rfl⟩
    rw [split_slashed ps (by rintro rfl; cases h; exact hne rfl) (texts_mem h)]
    exact h

theorem slashed_head {ps : List Bytes} {cs : RelPath} (h : Texts ps cs) : (slashed ps).head? ≠ some 109 := by
  cases h with
  | nil => simp [slashed]
  | @cons p ps c cs h h2 =>
    have hm := childText_mem h
    cases p with
    | nil => exact absurd rfl hm.1
    | cons b p =>
      have : b ≠ 109 := fun e => hm.2.2 (by simp [e])
      cases ps with
      | nil => simpa [slashed] using this
      | cons q ps => simpa [slashed] using this

/-- Exactly the texts of child numbers with slashes between them are relative paths; the empty text is the empty path. -/
theorem C54_relative_parse (s : Bytes) (p : RelPath) : RelPath.parse s = .ok p ↔ ∃ ps, Texts ps p ∧ s = slashed ps := by
  unfold RelPath.parse
  by_cases hs : s = []
  · rw [if_pos hs, hs]
    simp only [Except.ok.injEq]
    constructor
    · rintro rfl; exact ⟨[], .nil, rfl⟩
    · rintro ⟨ps, h, e⟩
      cases h with
      | nil => rfl
      | @cons q ps c cs h h2 =>
        have := (childText_mem h).1
        cases ps <;> simp [slashed] at e <;> exact absurd e this
  · rw [if_neg hs]
    by_cases hm : s = [109] ∨ [109, 47] <+: s
    · rw [if_pos hm]
      simp only [reduceCtorEq, false_iff]
      rintro ⟨ps, h, rfl⟩
      apply slashed_head h
      rcases hm with hm | ⟨t, hm⟩
      · rw [hm]; rfl
      · rw [← hm]; rfl
    · rw [if_neg hm, parseParts_ok]
      simp only [List.nil_append]
      constructor
      · rintro ⟨cs, h, rfl⟩
        exact (split_texts.mp h).2
      · rintro ⟨ps, h, e⟩
        refine ⟨p, split_texts.mpr ⟨?_, ps, h, e⟩, rfl⟩
        rintro rfl
        cases h
        exact hs e

/-- Exactly `m` followed by texts of child numbers, each after a slash, are absolute paths. -/
theorem C54_absolute_parse (s : Bytes) (p : AbsPath) :
    AbsPath.parse s = .ok p ↔ ∃ ps, Texts ps p.rel ∧ s = 109 :: (ps.map (47 :: ·)).flatten := by
  have hsl : ∀ ps : List Bytes, ps ≠ [] → (ps.map (47 :: ·)).flatten = 47 :: slashed ps := by
    intro ps
    induction ps with
    | nil => simp
    | cons q ps ih =>
      intro _
      cases ps with
      | nil => simp [slashed]
      | cons r ps =>
        have := ih (by simp)
        rw [List.map_cons, List.flatten_cons, this]
        simp [slashed]
  unfold AbsPath.parse
  by_cases hm : s = [109]
  · rw [if_pos hm, hm]
    simp only [Except.ok.injEq]
    constructor
    · rintro rfl; exact ⟨[], .nil, rfl⟩
    · rintro ⟨ps, h, e⟩
      cases ps with
      | nil => cases p with | mk r => cases h; rfl
      | cons q ps => simp at e
  · rw [if_neg hm]
    by_cases hp : [109, 47] <+: s
    · rw [if_pos hp]
      obtain ⟨t, rfl⟩ := hp
      have hd : ([109, 47] ++ t).drop 2 = t := rfl
      rw [hd]
      have key : (∃ ps, Texts ps p.rel ∧ [109, 47] ++ t = 109 :: (ps.map (47 :: ·)).flatten) ↔ Texts (splitSlash t) p.rel := by
        rw [split_texts]
        constructor
        · rintro ⟨ps, h, e⟩
          have hne : ps ≠ [] := by rintro rfl; simp at e
          rw [hsl ps hne] at e
          simp only [List.cons_append, List.nil_append, List.cons.injEq, true_and] at e
          refine ⟨?_, ps, h, e⟩
          intro hr
          rw [hr] at h
          cases h
          exact hne rfl
        · rintro ⟨hne, ps, h, e⟩
          refine ⟨ps, h, ?_⟩
          rw [hsl ps (by rintro rfl; rw [eq_comm] at e; have := texts_length h; exact hne (List.length_eq_zero_iff.mp this.symm)), e]
          rfl
      rw [key]
      by_cases ht : t = []
      · rw [if_pos ht, ht]
        simp only [reduceCtorEq, false_iff]
        intro h
        generalize hr : p.rel = r at h
        simp only [splitSlash] at h
        cases h with
        | cons h _ => exact (childText_mem h).1 rfl
      · rw [if_neg ht]
        have hk := fun r => parseParts_ok (splitSlash t) [] r
        cases hpp : parseParts (splitSlash t) [] with
        | error e =>
          simp only [reduceCtorEq, false_iff]
          intro h
          have := (hk p.rel).mpr ⟨_, h, rfl⟩
          rw [hpp] at this; cases this
        | ok r =>
          obtain ⟨cs, h1, h2⟩ := (hk r).mp hpp
          simp only [Except.ok.injEq, List.nil_append] at h2 ⊢
          subst h2
          constructor
          · rintro rfl; exact h1
          · intro h
            have := (hk p.rel).mpr ⟨_, h, rfl⟩
            rw [hpp] at this
            simp only [Except.ok.injEq] at this
            cases p; simp only at this; rw [this]
    · rw [if_neg hp]
      simp only [reduceCtorEq, false_iff]
      rintro ⟨ps, h, e⟩
      cases ps with
      | nil => exact hm e
      | cons q ps => exact hp ⟨q ++ (ps.map (47 :: ·)).flatten, by rw [e]; simp⟩

theorem texts_map (alt : Bool) : ∀ p : RelPath, Texts (p.map (ChildNumber.display alt)) p
  | [] => .nil
  | c :: cs => .cons (display_text alt c) (texts_map alt cs)

theorem displayRest_eq (alt : Bool) : ∀ p : RelPath, displayRest alt p = ((p.map (ChildNumber.display alt)).map (47 :: ·)).flatten
  | [] => rfl
  | c :: cs => by simp [displayRest, displayRest_eq alt cs]

theorem slashed_cons (p : Bytes) : ∀ ps : List Bytes, slashed (p :: ps) = p ++ (ps.map (47 :: ·)).flatten
  | [] => by simp [slashed]
  | q :: ps => by rw [slashed, slashed_cons q ps]; simp; simp

/-- Printed paths, relative or absolute and in either form, parse back to the path. -/
theorem C54_path_roundtrip (alt : Bool) (p : RelPath) (q : AbsPath) :
    RelPath.parse (RelPath.display alt p) = .ok p ∧ AbsPath.parse (q.display alt) = .ok q := by
  constructor
  · rw [C54_relative_parse]
    refine ⟨_, texts_map alt p, ?_⟩
    cases p with
    | nil => rfl
    | cons c cs => rw [List.map_cons, slashed_cons, ← displayRest_eq]; rfl
  · rw [C54_absolute_parse]
    refine ⟨_, texts_map alt q.rel, ?_⟩
    unfold AbsPath.display
    rw [← displayRest_eq]
    cases q with
    | mk r =>
      cases r with
      | nil => rfl
      | cons c cs => rfl

/-- No text is both a relative and an absolute path. -/
theorem C54_disjoint (s : Bytes) (p : RelPath) (q : AbsPath) : ¬ (RelPath.parse s = .ok p ∧ AbsPath.parse s = .ok q) := by
  rintro ⟨h1, h2⟩
  obtain ⟨ps, h3, h4⟩ := (C54_relative_parse s p).mp h1
  obtain ⟨qs, -, h6⟩ := (C54_absolute_parse s q).mp h2
  have := slashed_head h3
  rw [← h4, h6] at this
  exact this rfl

/-! ## Lists of child numbers -/

/-- Paths are lists: conversion to raw values and back, joining, and the hardened test. -/
theorem C54_path_list (p q : RelPath) (l : List UInt32) :
    RelPath.fromU32Slice p.toU32Vec = p ∧ (RelPath.fromU32Slice l).toU32Vec = l ∧
    (p.join q).toU32Vec = p.toU32Vec ++ q.toU32Vec ∧
    (p.containsHardenedChild = true ↔ ∃ n ∈ p.toU32Vec, 2 ^ 31 ≤ n.toNat) := by
  refine ⟨?_, ?_, by simp [RelPath.join, RelPath.toU32Vec], ?_⟩
  · unfold RelPath.fromU32Slice RelPath.toU32Vec
    rw [List.map_map]
    exact List.map_id p
  · unfold RelPath.fromU32Slice RelPath.toU32Vec
    rw [List.map_map]
    exact List.map_id l
  · unfold RelPath.containsHardenedChild RelPath.toU32Vec
    simp only [List.any_eq_true, List.mem_map]
    constructor
    · rintro ⟨c, h, h2⟩; exact ⟨c.raw, ⟨c, h, rfl⟩, (isHardened_iff c).mp h2⟩
    · rintro ⟨_, ⟨c, h, rfl⟩, h2⟩; exact ⟨c, h, (isHardened_iff c).mpr h2⟩

/-- The state of the iterator after `n` calls. -/
def PathIter.after (it : PathIter) : Nat → PathIter
  | 0 => it
  | n + 1 => (it.after n).next.2

/-- The iterator over the children: call number `n` gives the path with the child `n` further, of the same kind, and `None` once the indices have run out. -/
theorem C54_children (p : RelPath) (c : ChildNumber) (n : Nat) :
    (((p.childrenFrom c).after n).next).1 =
      if c.index.toNat + n < 2 ^ 31 then some (p ++ [⟨UInt32.ofNat (c.raw.toNat + n)⟩]) else none := by
  have hcr := c.raw.toNat_lt
  have hci := index_toNat c
  have inv : ∀ n, ((p.childrenFrom c).after n).base = p ∧
      (if c.index.toNat + n < 2 ^ 31 then ((p.childrenFrom c).after n).nextChild = some ⟨UInt32.ofNat (c.raw.toNat + n)⟩
       else ((p.childrenFrom c).after n).nextChild = none) := by
    intro n
    induction n with
    | zero =>
      refine ⟨rfl, ?_⟩
      rw [if_pos (by omega)]
      show some c = _
      congr 1
      apply ext_raw
      show c.raw.toNat = (c.raw.toNat + 0) % 2 ^ 32
      omega
    | succ n ih =>
      obtain ⟨hb, ih⟩ := ih
      simp only [PathIter.after]
      by_cases hn : c.index.toNat + n < 2 ^ 31
      · rw [if_pos hn] at ih
        unfold PathIter.next
        rw [ih]
        simp only
        refine ⟨hb, ?_⟩
        have hv : (ChildNumber.mk (UInt32.ofNat (c.raw.toNat + n))).raw.toNat = c.raw.toNat + n := Nat.mod_eq_of_lt (by omega)
        have hx := index_toNat ⟨UInt32.ofNat (c.raw.toNat + n)⟩
        rw [hv] at hx
        obtain ⟨g1, g2⟩ := C54_increment ⟨UInt32.ofNat (c.raw.toNat + n)⟩
        by_cases hn1 : c.index.toNat + (n + 1) < 2 ^ 31
        · rw [if_pos hn1]
          obtain ⟨d, hd, hd2, -⟩ := g1 (by omega)
          rw [hd]
          show some d = _
          congr 1
          apply ext_raw
          show d.raw.toNat = (c.raw.toNat + (n + 1)) % 2 ^ 32
          rw [show d.raw.toNat = c.raw.toNat + n + 1 from hd2.trans (congrArg (· + 1) hv)]
          omega
        · rw [if_neg hn1]
          rw [g2 (by omega)]
          rfl
      · rw [if_neg hn] at ih
        unfold PathIter.next
        rw [ih]
        exact ⟨hb, by rw [if_neg (by omega)]; exact ih⟩
  obtain ⟨hb, h⟩ := inv n
  unfold PathIter.next
  by_cases hn : c.index.toNat + n < 2 ^ 31
  · rw [if_pos hn] at h ⊢
    rw [h]
    simp only [hb]
    rfl
  · rw [if_neg hn] at h ⊢
    rw [h]

/-! ## Examples -/

/-- m/44'/0'/7 -/
def path1 : AbsPath := ⟨[⟨0x8000002c⟩, ⟨0x80000000⟩, ⟨7⟩]⟩
example : path1.display false = "m/44'/0'/7".toUTF8.toList := by
  simp only [AbsPath.display, path1, RelPath.display, displayRest, ChildNumber.display]
  have h : ∀ n : UInt32, n = 44 ∨ n = 0 ∨ n = 7 → decBytes n.toNat = if n = 44 then [52, 52] else if n = 0 then [48] else [55] := by
    rintro n (rfl | rfl | rfl) <;> simp [decBytes]
  rw [h _ (by decide), h _ (by decide), h _ (by decide)]
  decide +kernel
example : AbsPath.parse "m/44h/+0'/007".toUTF8.toList = .ok path1 := by decide +kernel
example : RelPath.parse "m/1".toUTF8.toList = .error .unexpectedMasterPrefix ∧ RelPath.parse "1/".toUTF8.toList = .error .emptyChild ∧
    AbsPath.parse "m/".toUTF8.toList = .error .emptyChild ∧ AbsPath.parse "1/2".toUTF8.toList = .error .missingMasterPrefix ∧
    ChildNumber.parse "2147483648".toUTF8.toList = .error (.indexOutOfRange ⟨2147483648⟩) := by decide +kernel
/-- The children of a path from the last normal index but one: two of them. -/
example : (List.range 4).map (fun n => ((RelPath.childrenFrom [⟨5⟩] ⟨0x7ffffffe⟩).after n).next.1) =
    [some [⟨5⟩, ⟨0x7ffffffe⟩], some [⟨5⟩, ⟨0x7fffffff⟩], none, none] := by decide +kernel

end Bip32
end Btc
