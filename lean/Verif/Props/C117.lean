import Verif.Units.LockErrors
import Verif.TextRadix
/-!
# C117: lock heights and lock times are read exactly, and the messages of the lock time errors are true

`Says c m` is a list of sentences: each constructor gives the text of a sentence and what must hold of the call `c`
for it to be true.  What a text denotes is said with `digitsVal`, the value of a row of digits.
-/
namespace Btc
namespace LockErr
open Lock

/-! ### What texts denote -/

/-- A decimal integer: an optional sign and at least one digit. -/
def Denotes (t : Bytes) (z : Int) : Prop :=
  ∃ ds n, ds ≠ [] ∧ digitsVal 10 0 ds = some n ∧ (((t = ds ∨ t = 43 :: ds) ∧ z = n) ∨ (t = 45 :: ds ∧ z = -(n : Int)))

/-- A hexadecimal number: an optional plus sign and at least one digit of either case. -/
def HexDenotes (t : Bytes) (n : Nat) : Prop := ∃ ds, ds ≠ [] ∧ (t = ds ∨ t = 43 :: ds) ∧ digitsVal 16 0 ds = some n

/-- The rest of a text after `0x` or `0X`. -/
def AfterPrefix (t r : Bytes) : Prop := t = 48 :: 120 :: r ∨ t = 48 :: 88 :: r

/-- Smallest and greatest value of the two kinds, and what messages call them. -/
def lo : Kind → Nat
  | .height => 0
  | .time => 500000000
def hi : Kind → Nat
  | .height => 499999999
  | .time => 4294967295
def name : Kind → String
  | .height => "block height"
  | .time => "block time"

theorem fromU32_some {k : Kind} {n h : UInt32} : fromU32 k n = some h ↔ h = n ∧ lo k ≤ n.toNat ∧ n.toNat ≤ hi k := by
  have hn := n.toNat_lt
  cases k
  · simp only [fromU32, Height.fromU32, isBlockHeight, decide_eq_true_eq, lo, hi, THRESHOLD, UInt32.lt_iff_toNat_lt]
    rw [show (500000000 : UInt32).toNat = 500000000 from rfl]
    by_cases c : n.toNat < 500000000
    · rw [if_pos c]; simp only [Option.map_some, Option.some.injEq]; constructor
      · rintro rfl; exact ⟨rfl, by omega, by omega⟩
      · rintro ⟨rfl, _⟩; rfl
    · rw [if_neg c]; simp only [Option.map_none]; constructor
      · intro h; cases h
      · rintro ⟨_, _, h⟩; omega
  · simp only [fromU32, Mtp.fromU32, isBlockTime, decide_eq_true_eq, lo, hi, THRESHOLD, ge_iff_le, UInt32.le_iff_toNat_le]
    rw [show (500000000 : UInt32).toNat = 500000000 from rfl]
    by_cases c : 500000000 ≤ n.toNat
    · rw [if_pos c]; simp only [Option.map_some, Option.some.injEq]; constructor
      · rintro rfl; exact ⟨rfl, by omega, by omega⟩
      · rintro ⟨rfl, _⟩; rfl
    · rw [if_neg c]; simp only [Option.map_none]; constructor
      · intro h; cases h
      · rintro ⟨_, h, _⟩; omega

theorem fromU32_none {k : Kind} {n : UInt32} (h : fromU32 k n = none) : n.toNat < lo k ∨ hi k < n.toNat := by
  by_cases c : lo k ≤ n.toNat ∧ n.toNat ≤ hi k
  · have := fromU32_some.2 ⟨rfl, c⟩
    rw [h] at this; cases this
  · omega

/-! ### Reading integers -/

theorem digitsVal_sign {r : Nat} (c : UInt8) (hc : c = 43 ∨ c = 45) (ds : Bytes) : digitsVal r 0 (c :: ds) = none := by
  rcases hc with rfl | rfl <;> simp [digitsVal, digitVal]

theorem parseDigits_over {max : Nat} : ∀ (ds : Bytes) (acc : Nat), acc ≤ max →
    parseDigits max 10 acc ds = .error .posOverflow → ∃ p n, p <+: ds ∧ p ≠ [] ∧ digitsVal 10 acc p = some n ∧ max < n
  | [], _, _, h => by simp [parseDigits] at h
  | b :: bs, acc, ha, h => by
    rw [parseDigits] at h
    cases hd : digitVal 10 b with
    | none => rw [hd] at h; cases h
    | some x =>
      rw [hd] at h
      by_cases c : max < acc * 10 + x
      · exact ⟨[b], acc * 10 + x, ⟨bs, rfl⟩, by simp, by simp [digitsVal, hd], c⟩
      · simp only [] at h
        rw [if_neg (by omega), if_neg (by omega)] at h
        obtain ⟨p, n, ⟨q, hq⟩, _, h3, h4⟩ := parseDigits_over bs (acc * 10 + x) (by omega) h
        exact ⟨b :: p, n, ⟨q, by rw [List.cons_append, hq]⟩, by simp, by simp [digitsVal, hd, h3], h4⟩

theorem parseDigits_not_empty {max r : Nat} : ∀ (ds : Bytes) (acc : Nat), parseDigits max r acc ds ≠ .error .empty
  | [], _ => by simp [parseDigits]
  | b :: bs, acc => by
    rw [parseDigits]
    cases digitVal r b with
    | none => simp
    | some x =>
      simp only []
      split
      · simp
      · split
        · simp
        · exact parseDigits_not_empty bs _

theorem parseDigits_bad {max : Nat} {ds : Bytes} (h : parseDigits max 10 0 ds = .error .invalidDigit) :
    digitsVal 10 0 ds = none := by
  cases hv : digitsVal 10 0 ds with
  | none => rfl
  | some n =>
    exfalso
    have key : ∀ (ds : Bytes) (acc n : Nat), digitsVal 10 acc ds = some n → parseDigits max 10 acc ds ≠ .error .invalidDigit := by
      intro ds
      induction ds with
      | nil => intro acc n _; simp [parseDigits]
      | cons b bs ih =>
        intro acc n hn
        rw [parseDigits]
        rw [digitsVal] at hn
        cases hd : digitVal 10 b with
        | none => rw [hd] at hn; cases hn
        | some x =>
          rw [hd] at hn
          simp only [] at hn ⊢
          split
          · simp
          · split
            · simp
            · exact ih _ n hn
    exact key ds 0 n hv h

theorem parseI64_cases (t : Bytes) :
    (t = [] ∧ parseI64 t = .error .empty) ∨ ((t = [43] ∨ t = [45]) ∧ parseI64 t = .error .invalidDigit) ∨
    (∃ ds, ds ≠ [] ∧ (t = ds ∧ (∀ r, t ≠ 43 :: r) ∧ (∀ r, t ≠ 45 :: r) ∨ t = 43 :: ds) ∧ parseI64 t = i64Pos ds) ∨
    (∃ ds, ds ≠ [] ∧ t = 45 :: ds ∧ parseI64 t = i64Neg ds) := by
  unfold parseI64
  split
  · exact .inl ⟨rfl, rfl⟩
  · exact .inr (.inl ⟨.inl rfl, rfl⟩)
  · exact .inr (.inl ⟨.inr rfl, rfl⟩)
  · rename_i ds h
    exact .inr (.inr (.inl ⟨ds, fun e => h (by rw [e]), .inr rfl, rfl⟩))
  · rename_i ds h
    exact .inr (.inr (.inr ⟨ds, fun e => h (by rw [e]), rfl, rfl⟩))
  · rename_i h1 h2 h3 h4 h5
    exact .inr (.inr (.inl ⟨t, fun e => h1 e, .inl ⟨rfl, fun r e => h4 r e, fun r e => h5 r e⟩, rfl⟩))

theorem denotes_pos {t ds : Bytes} (hne : ds ≠ [])
    (ht : t = ds ∧ (∀ r, t ≠ 43 :: r) ∧ (∀ r, t ≠ 45 :: r) ∨ t = 43 :: ds) (z : Int) :
    Denotes t z ↔ ∃ n : Nat, digitsVal 10 0 ds = some n ∧ z = n := by
  constructor
  · rintro ⟨es, n, _, hv, (⟨h, rfl⟩ | ⟨h, rfl⟩)⟩
    · refine ⟨n, ?_, rfl⟩
      rcases ht with ⟨rfl, h1, _⟩ | rfl
      · rcases h with rfl | rfl
        · exact hv
        · exact absurd rfl (h1 es)
      · rcases h with rfl | h
        · rw [digitsVal_sign 43 (.inl rfl)] at hv; cases hv
        · injection h with _ h; rw [h]; exact hv
    · rcases ht with ⟨rfl, _, h2⟩ | rfl
      · exact absurd h (h2 es)
      · injection h with h _; cases h
  · rintro ⟨n, hv, rfl⟩
    exact ⟨ds, n, hne, hv, .inl ⟨ht.imp (·.1) id, rfl⟩⟩

theorem denotes_neg {ds : Bytes} (hne : ds ≠ []) (z : Int) :
    Denotes (45 :: ds) z ↔ ∃ n : Nat, digitsVal 10 0 ds = some n ∧ z = -(n : Int) := by
  constructor
  · rintro ⟨es, n, _, hv, (⟨h | h, rfl⟩ | ⟨h, rfl⟩)⟩
    · rw [← h, digitsVal_sign 45 (.inr rfl)] at hv; cases hv
    · injection h with h _; cases h
    · injection h with _ h; rw [h]; exact ⟨n, hv, rfl⟩
  · rintro ⟨n, hv, rfl⟩
    exact ⟨ds, n, hne, hv, .inr ⟨rfl, rfl⟩⟩

theorem i64Pos_ok {ds : Bytes} {z : Int} : i64Pos ds = .ok z ↔ ∃ n : Nat, digitsVal 10 0 ds = some n ∧ z = n ∧ n < 2 ^ 63 := by
  have key := fun n => parseDigits_ok_iff (max := 2 ^ 63 - 1) (radix := 10) (by omega) ds 0 n (by omega)
  unfold i64Pos
  cases hp : parseDigits (2 ^ 63 - 1) 10 0 ds with
  | ok m =>
    have := (key m).1 hp
    simp only [Except.ok.injEq]
    constructor
    · rintro rfl; exact ⟨m, this.1, rfl, by omega⟩
    · rintro ⟨n, h1, rfl, _⟩
      have := this.1.symm.trans h1
      injection this with this; rw [this]
  | error e =>
    constructor
    · intro h; cases e <;> cases h
    · rintro ⟨n, h1, _, h3⟩
      have := (key n).2 ⟨h1, by omega⟩
      rw [hp] at this; cases this

theorem i64Neg_ok {ds : Bytes} {z : Int} :
    i64Neg ds = .ok z ↔ ∃ n : Nat, digitsVal 10 0 ds = some n ∧ z = -(n : Int) ∧ n ≤ 2 ^ 63 := by
  have key := fun n => parseDigits_ok_iff (max := 2 ^ 63) (radix := 10) (by omega) ds 0 n (by omega)
  unfold i64Neg
  cases hp : parseDigits (2 ^ 63) 10 0 ds with
  | ok m =>
    have := (key m).1 hp
    simp only [Except.ok.injEq]
    constructor
    · rintro rfl; exact ⟨m, this.1, rfl, by omega⟩
    · rintro ⟨n, h1, rfl, _⟩
      have := this.1.symm.trans h1
      injection this with this; rw [this]
  | error e =>
    constructor
    · intro h; cases e <;> cases h
    · rintro ⟨n, h1, _, h3⟩
      have := (key n).2 ⟨h1, by omega⟩
      rw [hp] at this; cases this

theorem not_denotes_short {t : Bytes} (h : t = [] ∨ t = [43] ∨ t = [45]) (z : Int) : ¬ Denotes t z := by
  rintro ⟨ds, n, hne, hv, h'⟩
  rcases h with rfl | rfl | rfl <;> rcases h' with ⟨rfl | h', _⟩ | ⟨h', _⟩
  all_goals first
    | exact hne rfl
    | (cases h'; done)
    | (injection h' with _ h'; exact hne h'.symm)
    | (rw [digitsVal_sign 43 (.inl rfl)] at hv; cases hv)
    | (rw [digitsVal_sign 45 (.inr rfl)] at hv; cases hv)

theorem parseI64_ok {t : Bytes} {z : Int} : parseI64 t = .ok z ↔ Denotes t z ∧ -2 ^ 63 ≤ z ∧ z < 2 ^ 63 := by
  rcases parseI64_cases t with ⟨rfl, h⟩ | ⟨ht, h⟩ | ⟨ds, hne, ht, h⟩ | ⟨ds, hne, rfl, h⟩
  · rw [h]; exact ⟨fun h => (by cases h), fun h => absurd h.1 (not_denotes_short (.inl rfl) z)⟩
  · rw [h]; exact ⟨fun h => (by cases h), fun h => absurd h.1 (not_denotes_short (.inr ht) z)⟩
  · rw [h, i64Pos_ok, denotes_pos hne ht]
    constructor
    · rintro ⟨n, h1, rfl, h3⟩; exact ⟨⟨n, h1, rfl⟩, by omega, by omega⟩
    · rintro ⟨⟨n, h1, rfl⟩, _, h3⟩; exact ⟨n, h1, rfl, by omega⟩
  · rw [h, i64Neg_ok, denotes_neg hne]
    constructor
    · rintro ⟨n, h1, rfl, h3⟩; exact ⟨⟨n, h1, rfl⟩, by omega, by omega⟩
    · rintro ⟨⟨n, h1, rfl⟩, h3, _⟩; exact ⟨n, h1, rfl, by omega⟩

/-- What each refusal of an integer means. -/
theorem parseI64_error {t : Bytes} {e : I64Err} (h : parseI64 t = .error e) : match e with
    | .posOverflow => (∃ p z, p <+: t ∧ Denotes p z ∧ 2 ^ 63 ≤ z) ∧ ∀ z, Denotes t z → 2 ^ 63 ≤ z
    | .negOverflow => (∃ p z, p <+: t ∧ Denotes p z ∧ z < -2 ^ 63) ∧ ∀ z, Denotes t z → z < -2 ^ 63
    | _ => ∀ z, ¬ Denotes t z := by
  rcases parseI64_cases t with ⟨rfl, h'⟩ | ⟨ht, h'⟩ | ⟨ds, hne, ht, h'⟩ | ⟨ds, hne, rfl, h'⟩
  · rw [h] at h'; injection h' with h'; subst h'; exact not_denotes_short (.inl rfl)
  · rw [h] at h'; injection h' with h'; subst h'; exact not_denotes_short (.inr ht)
  · rw [h] at h'
    unfold i64Pos at h'
    cases hp : parseDigits (2 ^ 63 - 1) 10 0 ds with
    | ok m => rw [hp] at h'; cases h'
    | error x =>
      rw [hp] at h'
      cases x with
      | empty => exact absurd hp (parseDigits_not_empty _ _)
      | invalidDigit =>
        injection h' with h'; subst h'
        intro z hz
        obtain ⟨n, hn, _⟩ := (denotes_pos hne ht z).1 hz
        rw [parseDigits_bad hp] at hn; cases hn
      | posOverflow =>
        injection h' with h'; subst h'
        obtain ⟨p, n, ⟨q, hq⟩, h2, h3, h4⟩ := parseDigits_over ds 0 (by omega) hp
        refine ⟨?_, ?_⟩
        · rcases ht with ⟨rfl, _⟩ | rfl
          · exact ⟨p, n, ⟨q, hq⟩, ⟨p, n, h2, h3, .inl ⟨.inl rfl, rfl⟩⟩, by omega⟩
          · exact ⟨43 :: p, n, ⟨q, by rw [List.cons_append, hq]⟩, ⟨p, n, h2, h3, .inl ⟨.inr rfl, rfl⟩⟩, by omega⟩
        · intro z hz
          obtain ⟨m, hm, rfl⟩ := (denotes_pos hne ht z).1 hz
          rw [← hq, digitsVal_append, h3] at hm
          have := digitsVal_ge (by omega) _ _ _ hm
          omega
  · rw [h] at h'
    unfold i64Neg at h'
    cases hp : parseDigits (2 ^ 63) 10 0 ds with
    | ok m => rw [hp] at h'; cases h'
    | error x =>
      rw [hp] at h'
      cases x with
      | empty => exact absurd hp (parseDigits_not_empty _ _)
      | invalidDigit =>
        injection h' with h'; subst h'
        intro z hz
        obtain ⟨n, hn, _⟩ := (denotes_neg hne z).1 hz
        rw [parseDigits_bad hp] at hn; cases hn
      | posOverflow =>
        injection h' with h'; subst h'
        obtain ⟨p, n, ⟨q, hq⟩, h2, h3, h4⟩ := parseDigits_over ds 0 (by omega) hp
        refine ⟨⟨45 :: p, -(n : Int), ⟨q, by rw [List.cons_append, hq]⟩, ⟨p, n, h2, h3, .inr ⟨rfl, rfl⟩⟩, by omega⟩, ?_⟩
        intro z hz
        obtain ⟨m, hm, rfl⟩ := (denotes_neg hne z).1 hz
        rw [← hq, digitsVal_append, h3] at hm
        have := digitsVal_ge (by omega) _ _ _ hm
        omega

/-! ### Exact parsing -/

theorem ofNat_toNat32 {n : Nat} (h : n < 2 ^ 32) : (UInt32.ofNat n).toNat = n := by
  rw [UInt32.toNat_ofNat']; omega

/-- A height or time is read from a text exactly when the text is a decimal integer within the limits. -/
theorem C117_parse (k : Kind) (s : String) (h : UInt32) :
    fromStr k s = .ok h ↔ Denotes (bytes s) h.toNat ∧ lo k ≤ h.toNat ∧ h.toNat ≤ hi k := by
  have hh := h.toNat_lt
  unfold fromStr
  cases hp : parseI64 (bytes s) with
  | error e =>
    constructor
    · intro h; cases h
    · rintro ⟨h1, _⟩
      have := parseI64_ok.2 ⟨h1, by omega, by omega⟩
      rw [hp] at this; cases this
  | ok z =>
    have hz := parseI64_ok.1 hp
    simp only []
    have uniq : Denotes (bytes s) h.toNat → z = h.toNat := fun hd => by
      have := parseI64_ok.2 ⟨hd, by omega, by omega⟩
      rw [hp] at this; injection this
    by_cases c : 0 ≤ z ∧ z < 2 ^ 32
    · rw [if_pos c]
      have hn := ofNat_toNat32 (n := z.toNat) (by omega)
      cases hf : fromU32 k (UInt32.ofNat z.toNat) with
      | none =>
        have := fromU32_none hf
        constructor
        · intro h; cases h
        · rintro ⟨h1, h2, h3⟩
          have := uniq h1
          omega
      | some v =>
        obtain ⟨rfl, h2, h3⟩ := fromU32_some.1 hf
        simp only [Except.ok.injEq]
        constructor
        · rintro rfl
          refine ⟨?_, h2, h3⟩
          rw [hn, Int.toNat_of_nonneg c.1]
          exact hz.1
        · rintro ⟨h1, _⟩
          have := uniq h1
          apply UInt32.toNat_inj.1
          omega
    · rw [if_neg c]
      constructor
      · intro h; cases h
      · rintro ⟨h1, _⟩
        have := uniq h1
        omega

theorem removePrefix_ok {t r : Bytes} : HexInt.removePrefix t = .ok r ↔ AfterPrefix t r := by
  unfold HexInt.removePrefix AfterPrefix
  split
  · simp
  · simp
  · rename_i h1 h2
    constructor
    · intro h; cases h
    · rintro (h | h)
      · exact absurd h (h1 r)
      · exact absurd h (h2 r)

theorem unchecked_ok {t : Bytes} {n : Nat} : HexInt.unchecked 32 t = .ok n ↔ HexDenotes t n ∧ n < 2 ^ 32 := by
  unfold HexInt.unchecked
  rw [parseUInt_ok_iff (by omega)]
  constructor
  · rintro ⟨ds, h1, h2, h3, h4⟩; exact ⟨⟨ds, h2, h1, h3⟩, by omega⟩
  · rintro ⟨⟨ds, h2, h1, h3⟩, h4⟩; exact ⟨ds, h1, h2, h3, by omega⟩

theorem prefixed_ok {t : Bytes} {n : Nat} :
    HexInt.prefixed 32 t = .ok n ↔ ∃ r, AfterPrefix t r ∧ HexDenotes r n ∧ n < 2 ^ 32 := by
  unfold HexInt.prefixed
  cases hp : HexInt.removePrefix t with
  | error e =>
    constructor
    · intro h; cases h
    · rintro ⟨r, h, _⟩
      rw [removePrefix_ok.2 h] at hp; cases hp
  | ok r =>
    simp only []
    have : HexInt.mapErr (HexInt.unchecked 32 r) = .ok n ↔ HexInt.unchecked 32 r = .ok n := by
      cases HexInt.unchecked 32 r <;> simp [HexInt.mapErr]
    rw [this, unchecked_ok]
    constructor
    · intro h; exact ⟨r, removePrefix_ok.1 hp, h⟩
    · rintro ⟨r', h1, h2⟩
      have := removePrefix_ok.2 h1
      rw [hp] at this; injection this with this; rw [this]; exact h2

theorem hexDenotes_noPrefix {t r : Bytes} {n : Nat} (h : HexDenotes t n) : ¬ AfterPrefix t r := by
  obtain ⟨ds, h1, h2, h3⟩ := h
  have no : ∀ c : UInt8, (c = 120 ∨ c = 88) → digitsVal 16 0 (48 :: c :: r) = none := by
    rintro c (rfl | rfl) <;> simp [digitsVal, digitVal]
  rintro (h | h) <;> rcases h2 with rfl | h2
  · rw [h, no _ (.inl rfl)] at h3; cases h3
  · rw [h] at h2; injection h2 with h2 _; cases h2
  · rw [h, no _ (.inr rfl)] at h3; cases h3
  · rw [h] at h2; injection h2 with h2 _; cases h2

theorem checkUnprefixed_ok {t r : Bytes} : HexInt.checkUnprefixed t = .ok r ↔ r = t ∧ ∀ q, ¬ AfterPrefix t q := by
  unfold HexInt.checkUnprefixed
  split
  · simp [AfterPrefix]
  · simp [AfterPrefix]
  · rename_i h1 h2
    simp only [Except.ok.injEq, AfterPrefix]
    constructor
    · rintro rfl; exact ⟨rfl, fun q h => h.elim (h1 q) (h2 q)⟩
    · rintro ⟨rfl, _⟩; rfl

theorem unprefixed_ok {t : Bytes} {n : Nat} : HexInt.unprefixed 32 t = .ok n ↔ HexDenotes t n ∧ n < 2 ^ 32 := by
  unfold HexInt.unprefixed
  cases hp : HexInt.checkUnprefixed t with
  | error e =>
    constructor
    · intro h; cases h
    · rintro ⟨h, _⟩
      rw [checkUnprefixed_ok.2 ⟨rfl, fun q => hexDenotes_noPrefix h⟩] at hp; cases hp
  | ok r =>
    obtain ⟨rfl, _⟩ := checkUnprefixed_ok.1 hp
    simp only []
    have : HexInt.mapErr (HexInt.unchecked 32 r) = .ok n ↔ HexInt.unchecked 32 r = .ok n := by
      cases HexInt.unchecked 32 r <;> simp [HexInt.mapErr]
    rw [this, unchecked_ok]

theorem convert_ok {k : Kind} {n : Nat} {h : UInt32} (hn : n < 2 ^ 32) :
    (match fromU32 k (UInt32.ofNat n) with
      | some h => .ok h
      | none => .error (.conversion (UInt32.ofNat n).toNat) : Except ParseError UInt32) = .ok h ↔
      h.toNat = n ∧ lo k ≤ n ∧ n ≤ hi k := by
  have e := ofNat_toNat32 hn
  cases hf : fromU32 k (UInt32.ofNat n) with
  | none =>
    have := fromU32_none hf
    constructor
    · intro h; cases h
    · rintro ⟨_, h2⟩; omega
  | some v =>
    obtain ⟨rfl, h2⟩ := fromU32_some.1 hf
    simp only [Except.ok.injEq]
    rw [e] at h2
    constructor
    · rintro rfl; exact ⟨e, h2⟩
    · rintro ⟨h3, _⟩; apply UInt32.toNat_inj.1; omega

/-- Hexadecimal texts, with and without the prefix. -/
theorem C117_hex (k : Kind) (s : String) (h : UInt32) :
    (fromHex k s = .ok h ↔ (∃ r, AfterPrefix (bytes s) r ∧ HexDenotes r h.toNat) ∧ lo k ≤ h.toNat ∧ h.toNat ≤ hi k) ∧
    (fromUnprefixedHex k s = .ok h ↔ HexDenotes (bytes s) h.toNat ∧ lo k ≤ h.toNat ∧ h.toNat ≤ hi k) := by
  have hh := h.toNat_lt
  constructor
  · unfold fromHex
    cases hp : HexInt.prefixed 32 (bytes s) with
    | error e =>
      constructor
      · intro h; cases h
      · rintro ⟨⟨r, h1, h2⟩, _⟩
        rw [prefixed_ok.2 ⟨r, h1, h2, hh⟩] at hp; cases hp
    | ok n =>
      obtain ⟨r, h1, h2, h3⟩ := prefixed_ok.1 hp
      refine (convert_ok h3).trans ⟨?_, ?_⟩
      · rintro ⟨rfl, h4⟩; exact ⟨⟨r, h1, h2⟩, h4⟩
      · rintro ⟨⟨r', h5, h6⟩, h4⟩
        have := prefixed_ok.2 ⟨r', h5, h6, hh⟩
        rw [hp] at this; injection this with this
        rw [this]; exact ⟨rfl, h4⟩
  · unfold fromUnprefixedHex
    cases hp : HexInt.unprefixed 32 (bytes s) with
    | error e =>
      constructor
      · intro h; cases h
      · rintro ⟨h2, _⟩
        rw [unprefixed_ok.2 ⟨h2, hh⟩] at hp; cases hp
    | ok n =>
      obtain ⟨h2, h3⟩ := unprefixed_ok.1 hp
      refine (convert_ok h3).trans ⟨?_, ?_⟩
      · rintro ⟨rfl, h4⟩; exact ⟨h2, h4⟩
      · rintro ⟨h6, h4⟩
        have := unprefixed_ok.2 ⟨h6, hh⟩
        rw [hp] at this; injection this with this
        rw [this]; exact ⟨rfl, h4⟩

/-! ### Printed values are read back -/

theorem bytes_ofList (l : List Char) : bytes (String.ofList l) = l.flatMap String.utf8EncodeChar := by
  unfold bytes
  show (String.ofList l).toByteArray.data.toList = _
  rw [String.toByteArray_ofList]
  unfold List.utf8Encode
  simp

theorem digitVal_char {c : Char} (h : c.isDigit = true) :
    String.utf8EncodeChar c = [UInt8.ofNat c.toNat] ∧ digitVal 10 (UInt8.ofNat c.toNat) = some (c.toNat - 48) := by
  have hc : 48 ≤ c.toNat ∧ c.toNat ≤ 57 := by
    simp only [Char.isDigit, ge_iff_le, Bool.and_eq_true, decide_eq_true_eq, UInt32.le_iff_toNat_le] at h
    exact h
  have : ∀ n : Fin 10, String.utf8EncodeChar (Char.ofNat (48 + n.val)) = [UInt8.ofNat (48 + n.val)] ∧
      digitVal 10 (UInt8.ofNat (48 + n.val)) = some (48 + n.val - 48) := by decide
  have e := this ⟨c.toNat - 48, by omega⟩
  simp only [] at e
  rw [show 48 + (c.toNat - 48) = c.toNat by omega, Char.ofNat_toNat] at e
  exact e

theorem digitsVal_chars : ∀ (l : List Char) (acc : Nat), (∀ c ∈ l, c.isDigit = true) →
    digitsVal 10 acc (l.flatMap String.utf8EncodeChar) = some (Nat.ofDigitChars 10 l acc)
  | [], _, _ => rfl
  | c :: l, acc, h => by
    obtain ⟨h1, h2⟩ := digitVal_char (h c (by simp))
    rw [List.flatMap_cons, h1, List.singleton_append, digitsVal, h2]
    simp only []
    rw [digitsVal_chars l _ fun d hd => h d (by simp [hd])]
    simp [Nat.ofDigitChars_cons, Nat.mul_comm]

theorem denotes_repr (n : Nat) : Denotes (bytes (toString n)) n := by
  refine ⟨bytes (toString n), n, ?_, ?_, .inl ⟨.inl rfl, rfl⟩⟩
  · show bytes (String.ofList (Nat.toDigits 10 n)) ≠ []
    rw [bytes_ofList]
    intro h
    have := digitsVal_chars (Nat.toDigits 10 n) 1 fun c hc => Nat.isDigit_of_mem_toDigits (by omega) (by omega) hc
    rw [h] at this
    have hne := Nat.toDigits_ne_nil (b := 10) (n := n)
    cases hl : Nat.toDigits 10 n with
    | nil => exact hne hl
    | cons c l =>
      rw [hl, List.flatMap_cons] at h
      have := (List.append_eq_nil_iff.1 h).1
      simp at this
  · show digitsVal 10 0 (bytes (String.ofList (Nat.toDigits 10 n))) = _
    rw [bytes_ofList, digitsVal_chars _ _ fun c hc => Nat.isDigit_of_mem_toDigits (by omega) (by omega) hc,
      Nat.ofDigitChars_ten_toDigits]

/-- `Display` followed by `FromStr`. -/
theorem C117_roundtrip (k : Kind) (h : UInt32) (hv : lo k ≤ h.toNat ∧ h.toNat ≤ hi k) :
    fromStr k (toString h.toNat) = .ok h :=
  (C117_parse k _ h).2 ⟨denotes_repr _, hv⟩

/-! ### The messages -/

/-- The calls that can fail. -/
inductive Call where
  | str (k : Kind) (s : String)
  | hex (k : Kind) (s : String)
  | bareHex (k : Kind) (s : String)
  | u32 (k : Kind) (n : UInt32)
  | absByHeight (l : LockTime) (h : Height)
  | absByTime (l : LockTime) (t : Mtp)
  | relByHeight (l : RelLock) (tip : UInt32) (mined : Option UInt32)
  | relByTime (l : RelLock) (tip : UInt32) (mined : Option UInt32)
  | intervals (ceil : Bool) (seconds : UInt32)
  | relative (n : UInt32)

def err {α : Type} : Except String α → Option String
  | .ok _ => none
  | .error m => some m
def errOf {α ε : Type} (f : ε → String) : Except ε α → Option String
  | .ok _ => none
  | .error e => some (f e)

/-- The message of a failing call. -/
def message : Call → Option String
  | .str k s => errOf (showParse k) (fromStr k s)
  | .hex k s => errOf (showParse k) (fromHex k s)
  | .bareHex k s => errOf (showParse k) (fromUnprefixedHex k s)
  | .u32 k n => match fromU32 k n with
    | some _ => none
    | none => some (showConversion k n)
  | .absByHeight l h => err (LockErr.absByHeight l h)
  | .absByTime l t => err (LockErr.absByTime l t)
  | .relByHeight l tip mined => err (LockErr.relByHeight l tip mined)
  | .relByTime l tip mined => err (LockErr.relByTime l tip mined)
  | .intervals c s => err (LockErr.intervals c s)
  | .relative n => err (relFromConsensus n)

/-- The kind asked for and the number that the text of a call denotes. -/
inductive Reads : Call → Kind → Int → Prop where
  | str {k s z} : Denotes (bytes s) z → Reads (.str k s) k z
  | hex {k s r n} : AfterPrefix (bytes s) r → HexDenotes r n → Reads (.hex k s) k n
  | bareHex {k s n} : HexDenotes (bytes s) n → Reads (.bareHex k s) k n

/-- `n` intervals of 512 seconds are the given seconds, rounded. -/
def Rounded (ceil : Bool) (seconds : Nat) (n : Int) : Prop :=
  if ceil then 512 * (n - 1) < seconds ∧ seconds ≤ 512 * n else 512 * n ≤ seconds ∧ seconds < 512 * (n + 1)

/-- The sentences, and when each of them is true. -/
inductive Says : Call → String → Prop where
  | below {c k z} : Reads c k z → z < lo k →
      Says c (name k ++ " " ++ toString z ++ " is below limit " ++ toString (lo k))
  | above {c k z} : Reads c k z → hi k < z →
      Says c (name k ++ " " ++ toString z ++ " is above limit " ++ toString (hi k))
  | unreadable {k s} : (∀ z, ¬ Denotes (bytes s) z) →
      Says (.str k s) ("failed to parse '" ++ s ++ "' as absolute Height/MedianTimePast" ++ " (" ++ name k ++ ")")
  | farAbove {k s p z} : p <+: bytes s → Denotes p z → hi k < z → (∀ z, Denotes (bytes s) z → hi k < z) →
      Says (.str k s) ("failed to parse '" ++ s ++ "' as absolute Height/MedianTimePast" ++ " (" ++ name k ++
        " is above limit " ++ toString (hi k) ++ ")")
  | farBelow {k s p z} : p <+: bytes s → Denotes p z → z < lo k → (∀ z, Denotes (bytes s) z → z < lo k) →
      Says (.str k s) ("failed to parse '" ++ s ++ "' as absolute Height/MedianTimePast" ++ " (" ++ name k ++
        " is below limit " ++ toString (lo k) ++ ")")
  | missingPrefix {k s} : (∀ r, ¬ AfterPrefix (bytes s) r) → Says (.hex k s) "hex string is missing prefix"
  | containsPrefix {k s r} : AfterPrefix (bytes s) r → Says (.bareHex k s) "hex string contains prefix"
  | badHex {k s r} : AfterPrefix (bytes s) r → (∀ n, HexDenotes r n → 2 ^ 32 ≤ n) →
      Says (.hex k s) "prefixed hex string invalid int"
  | badBareHex {k s} : (∀ r, ¬ AfterPrefix (bytes s) r) → (∀ n, HexDenotes (bytes s) n → 2 ^ 32 ≤ n) →
      Says (.bareHex k s) "hex string parse int"
  | notHeight {n} : ¬ n.toNat < 500000000 → Says (.u32 .height n)
      ("invalid lock time value " ++ toString n.toNat ++ ", " ++ "expected lock-by-height (must be < 500000000)")
  | notTime {n} : ¬ n.toNat ≥ 500000000 → Says (.u32 .time n)
      ("invalid lock time value " ++ toString n.toNat ++ ", " ++ "expected lock-by-time (must be >= 500000000)")
  | lockByTime {t h} : Says (.absByHeight (.seconds t) h)
      ("tried to satisfy a lock-by-time lock " ++ toString t.n.toNat ++ " with height: " ++ toString h.n.toNat)
  | lockByHeight {b t} : Says (.absByTime (.blocks b) t)
      ("tried to satisfy a lock-by-height lock " ++ toString b.n.toNat ++ " with MTP: " ++ toString t.n.toNat)
  | heightsSwapped {n tip mined} : tip.toNat < mined.toNat → Says (.relByHeight (.blocks n) tip (some mined))
      ("is_satisfied_by arguments invalid (probably the wrong way around) chain_tip: " ++ toString tip.toNat ++
        " utxo_mined_at: " ++ toString mined.toNat)
  | timesSwapped {n tip mined} : tip.toNat < mined.toNat → Says (.relByTime (.time n) tip (some mined))
      ("is_satisfied_by arguments invalid (probably the wrong way around) chain_tip: " ++ toString tip.toNat ++
        " utxo_mined_at: " ++ toString mined.toNat)
  | heightUsingSeconds {n tip mined} : Says (.relByTime (.blocks n) tip mined)
      ("tried to satisfy a lock-by-height locktime using seconds " ++ toString tip.toNat)
  | timeUsingBlocks {n tip mined} : Says (.relByHeight (.time n) tip mined)
      ("tried to satisfy a lock-by-time locktime using blocks " ++ toString tip.toNat)
  | tooLarge {c s} : (∀ n : Int, Rounded c s.toNat n → 2 ^ 16 ≤ n) → Says (.intervals c s)
      (toString s.toNat ++ " seconds is too large to be encoded to a 16 bit 512 second interval")
  | disabled {n t} : 2 ^ 31 ≤ n.toNat → (bytes t).length = 8 → digitsVal 16 0 (bytes t) = some n.toNat →
      Says (.relative n) ("lock time 0x" ++ t ++ " has disable flag set")

theorem says_conversion {c : Call} {k : Kind} {z : Int} (h : Reads c k z) (hz : z < lo k ∨ hi k < z) :
    Says c (showParse k (.conversion z)) := by
  by_cases hl : z < lo k
  · have := Says.below h hl
    cases k
    · simp only [lo] at hl
      have e : showParse .height (.conversion z) = name .height ++ " " ++ toString z ++ " is below limit " ++ toString (lo .height) := by
        show (if z < ((0 : UInt32).toNat : Int) then _ else _) = _
        rw [if_pos (show z < ((0 : UInt32).toNat : Int) from hl)]; rfl
      rw [e]; exact this
    · have e : showParse .time (.conversion z) = name .time ++ " " ++ toString z ++ " is below limit " ++ toString (lo .time) := by
        show (if z < ((THRESHOLD : UInt32).toNat : Int) then _ else _) = _
        rw [if_pos (show z < ((THRESHOLD : UInt32).toNat : Int) from hl)]; rfl
      rw [e]; exact this
  · have hh : hi k < z := by omega
    have := Says.above h hh
    cases k
    · have e : showParse .height (.conversion z) = name .height ++ " " ++ toString z ++ " is above limit " ++ toString (hi .height) := by
        show (if z < ((0 : UInt32).toNat : Int) then _ else _) = _
        rw [if_neg (show ¬ z < ((0 : UInt32).toNat : Int) from hl)]; rfl
      rw [e]; exact this
    · have e : showParse .time (.conversion z) = name .time ++ " " ++ toString z ++ " is above limit " ++ toString (hi .time) := by
        show (if z < ((THRESHOLD : UInt32).toNat : Int) then _ else _) = _
        rw [if_neg (show ¬ z < ((THRESHOLD : UInt32).toNat : Int) from hl)]; rfl
      rw [e]; exact this

theorem says_parseInt {k : Kind} {s : String} {e : I64Err} (h : parseI64 (bytes s) = .error e) :
    Says (.str k s) (showParse k (.parseInt s e)) := by
  have h' := parseI64_error h
  have h1 : hi k < (2 ^ 63 : Int) := by cases k <;> decide
  have h2 : (-2 ^ 63 : Int) ≤ lo k := by cases k <;> decide
  cases e with
  | empty =>
    have := Says.unreadable (k := k) h'
    cases k <;> exact this
  | invalidDigit =>
    have := Says.unreadable (k := k) h'
    cases k <;> exact this
  | posOverflow =>
    obtain ⟨⟨p, z, hp, hd, hz⟩, ha⟩ := h'
    have := Says.farAbove (k := k) hp hd (by omega) fun z hz => by have := ha z hz; omega
    cases k <;> exact this
  | negOverflow =>
    obtain ⟨⟨p, z, hp, hd, hz⟩, ha⟩ := h'
    have := Says.farBelow (k := k) hp hd (by omega) fun z hz => by have := ha z hz; omega
    cases k <;> exact this

theorem enc_byte {b : UInt8} (h : b.toNat < 128) : String.utf8EncodeChar (Char.ofNat b.toNat) = [b] := by
  have : ∀ n : Fin 128, String.utf8EncodeChar (Char.ofNat n.val) = [UInt8.ofNat n.val] := by decide +kernel
  have e := this ⟨b.toNat, h⟩
  simp only [UInt8.ofNat_toNat] at e
  exact e

theorem enc_bytes : ∀ l : Bytes, (∀ b ∈ l, b.toNat < 128) →
    (l.map fun b => Char.ofNat b.toNat).flatMap String.utf8EncodeChar = l
  | [], _ => rfl
  | b :: l, h => by
    rw [List.map_cons, List.flatMap_cons, enc_byte (h b (by simp)), enc_bytes l fun c hc => h c (by simp [hc])]
    rfl

theorem hexBytes_ascii (bs : Bytes) : ∀ b ∈ hexBytes bs, b.toNat < 128 := by
  intro b hb
  simp only [hexBytes, List.mem_flatMap, List.mem_cons, List.not_mem_nil, or_false] at hb
  obtain ⟨a, _, rfl | rfl⟩ := hb
  · have := hexDigit_char (a.toNat / 16) (by have := a.toNat_lt; omega); omega
  · have := hexDigit_char (a.toNat % 16) (by omega); omega

theorem digitsVal_hexBytes : ∀ (bs : Bytes) (acc : Nat),
    digitsVal 16 acc (hexBytes bs) = some (bs.foldl (fun a b => 256 * a + b.toNat) acc)
  | [], _ => rfl
  | b :: bs, acc => by
    have hb := b.toNat_lt
    show digitsVal 16 acc (hexDigit (b.toNat / 16) :: hexDigit (b.toNat % 16) :: hexBytes bs) = _
    rw [digitsVal, digitVal_hexDigit _ (by omega)]
    simp only []
    rw [digitsVal, digitVal_hexDigit _ (by omega)]
    simp only []
    rw [digitsVal_hexBytes bs]
    rw [List.foldl_cons, show (acc * 16 + b.toNat / 16) * 16 + b.toNat % 16 = 256 * acc + b.toNat by omega]

theorem hex8_bytes (n : UInt32) : bytes (hex8 n) = hexBytes ((leBytes 4 n.toNat).reverse) := by
  unfold hex8
  rw [bytes_ofList, enc_bytes _ (hexBytes_ascii _)]

theorem hex8_spec (n : UInt32) : (bytes (hex8 n)).length = 8 ∧ digitsVal 16 0 (bytes (hex8 n)) = some n.toNat := by
  have hn := n.toNat_lt
  rw [hex8_bytes]
  constructor
  · rw [hexBytes_length, List.length_reverse, leBytes_length]
  · rw [digitsVal_hexBytes]
    simp only [leBytes, List.reverse_cons, List.reverse_nil, List.nil_append, List.cons_append, List.foldl_cons,
      List.foldl_nil, UInt8.toNat_ofNat']
    congr 1
    omega

theorem rel_none {n : UInt32} (h : RelLock.fromConsensus n = none) : 2 ^ 31 ≤ n.toNat := by
  unfold RelLock.fromConsensus Lock.Seq.toRelative at h
  by_cases c : (Lock.Seq.mk n).isRelative
  · rw [c] at h
    simp only [Bool.not_true, Bool.false_eq_true, if_false] at h
    split at h <;> cases h
  · simp only [Lock.Seq.isRelative, DISABLE_MASK, beq_iff_eq] at c
    apply Classical.byContradiction
    intro hlt
    apply c
    apply UInt32.toNat_inj.1
    rw [UInt32.toNat_and]
    apply Nat.eq_of_testBit_eq
    intro i
    rw [Nat.testBit_and, show (0x80000000 : UInt32).toNat = 2 ^ 31 from rfl, show (0 : UInt32).toNat = 0 from rfl,
      Nat.zero_testBit, Nat.testBit_two_pow]
    by_cases hi : 31 = i
    · subst hi
      rw [Nat.testBit_lt_two_pow (by omega)]; rfl
    · simp [hi]

theorem intervals_none {c : Bool} {s : UInt32} (h : (if c then secondsCeil s else secondsFloor s) = none) :
    ∀ n : Int, Rounded c s.toNat n → 2 ^ 16 ≤ n := by
  intro n hr
  cases c with
  | true =>
    rw [if_pos rfl] at h
    unfold secondsCeil at h
    unfold Rounded at hr
    rw [if_pos rfl] at hr
    by_cases hle : s ≤ 65535 * 512
    · rw [if_pos hle] at h; cases h
    · rw [UInt32.le_iff_toNat_le, show (65535 * 512 : UInt32).toNat = 33553920 from by decide] at hle
      omega
  | false =>
    rw [if_neg (by decide)] at h
    unfold secondsFloor at h
    unfold Rounded at hr
    rw [if_neg (by decide)] at hr
    by_cases hle : s / 512 ≤ 65535
    · simp only [] at h; rw [if_pos hle] at h; cases h
    · rw [UInt32.le_iff_toNat_le, UInt32.toNat_div, show (512 : UInt32).toNat = 512 from rfl,
        show (65535 : UInt32).toNat = 65535 from rfl] at hle
      omega

/-- The two calls whose messages are wrong. -/
def Swapped : Call → Prop
  | .relByHeight (.time _) _ _ => True
  | .relByTime (.blocks _) _ _ => True
  | _ => False

/-- Every message is true, but for the two messages that say that a relative lock has the wrong unit. -/
theorem C117_messages_partial {c : Call} {m : String} (h : message c = some m) (hs : ¬ Swapped c) : Says c m := by
  cases c with
  | str k s =>
    simp only [message, fromStr] at h
    cases hp : parseI64 (bytes s) with
    | error e =>
      rw [hp] at h
      injection h with h; subst h
      exact says_parseInt hp
    | ok z =>
      rw [hp] at h
      simp only [] at h
      have hz := (parseI64_ok.1 hp).1
      by_cases c : 0 ≤ z ∧ z < 2 ^ 32
      · rw [if_pos c] at h
        cases hf : fromU32 k (UInt32.ofNat z.toNat) with
        | some v => rw [hf] at h; cases h
        | none =>
          rw [hf] at h
          injection h with h; subst h
          have := fromU32_none hf
          have e := ofNat_toNat32 (n := z.toNat) (by omega)
          rw [e] at this ⊢
          rw [Int.toNat_of_nonneg c.1]
          exact says_conversion (.str hz) (by omega)
      · rw [if_neg c] at h
        injection h with h; subst h
        refine says_conversion (.str hz) ?_
        cases k <;> simp only [lo, hi] <;> omega
  | hex k s =>
    simp only [message, fromHex] at h
    cases hp : HexInt.prefixed 32 (bytes s) with
    | error e =>
      rw [hp] at h
      injection h with h; subst h
      have key : ∀ r n, AfterPrefix (bytes s) r → HexDenotes r n → 2 ^ 32 ≤ n := fun r n h1 h2 => by
        apply Classical.byContradiction
        intro h3
        rw [prefixed_ok.2 ⟨r, h1, h2, by omega⟩] at hp; cases hp
      unfold HexInt.prefixed at hp
      cases hr : HexInt.removePrefix (bytes s) with
      | error x =>
        have hno : ∀ r, ¬ AfterPrefix (bytes s) r := fun r hr' => by
          rw [removePrefix_ok.2 hr'] at hr; cases hr
        rw [hr] at hp
        have hx : x = .missingPrefix := by
          unfold HexInt.removePrefix at hr
          split at hr
          · cases hr
          · cases hr
          · injection hr with hr; exact hr.symm
        injection hp with hp; subst hp; subst hx
        have := Says.missingPrefix (k := k) hno
        cases k <;> exact this
      | ok r =>
        rw [hr] at hp
        have he : ∃ x, e = .parseInt x := by
          simp only [] at hp
          cases hu : HexInt.unchecked 32 r with
          | ok _ => rw [hu] at hp; cases hp
          | error x => rw [hu] at hp; injection hp with hp; exact ⟨x, hp.symm⟩
        obtain ⟨x, rfl⟩ := he
        have ha := removePrefix_ok.1 hr
        have := Says.badHex (k := k) ha fun n => key r n ha
        cases k <;> exact this
    | ok n =>
      rw [hp] at h
      simp only [] at h
      obtain ⟨r, h1, h2, h3⟩ := prefixed_ok.1 hp
      cases hf : fromU32 k (UInt32.ofNat n) with
      | some v => rw [hf] at h; cases h
      | none =>
        rw [hf] at h
        injection h with h; subst h
        have := fromU32_none hf
        have e := ofNat_toNat32 h3
        rw [e] at this ⊢
        exact says_conversion (.hex h1 h2) (by omega)
  | bareHex k s =>
    simp only [message, fromUnprefixedHex] at h
    cases hp : HexInt.unprefixed 32 (bytes s) with
    | error e =>
      rw [hp] at h
      injection h with h; subst h
      have key : ∀ n, HexDenotes (bytes s) n → 2 ^ 32 ≤ n := fun n h2 => by
        apply Classical.byContradiction
        intro h3
        rw [unprefixed_ok.2 ⟨h2, by omega⟩] at hp; cases hp
      unfold HexInt.unprefixed at hp
      cases hr : HexInt.checkUnprefixed (bytes s) with
      | error x =>
        rw [hr] at hp
        have hx : x = .containsPrefix ∧ ∃ r, AfterPrefix (bytes s) r := by
          unfold HexInt.checkUnprefixed at hr
          split at hr
          · rename_i r hb; injection hr with hr; exact ⟨hr.symm, r, .inl hb⟩
          · rename_i r hb; injection hr with hr; exact ⟨hr.symm, r, .inr hb⟩
          · cases hr
        injection hp with hp; subst hp
        obtain ⟨rfl, r, ha⟩ := hx
        have := Says.containsPrefix (k := k) ha
        cases k <;> exact this
      | ok r =>
        obtain ⟨rfl, hno⟩ := checkUnprefixed_ok.1 hr
        rw [hr] at hp
        have he : ∃ x, e = .parseInt x := by
          simp only [] at hp
          cases hu : HexInt.unchecked 32 (bytes s) with
          | ok _ => rw [hu] at hp; cases hp
          | error x => rw [hu] at hp; injection hp with hp; exact ⟨x, hp.symm⟩
        obtain ⟨x, rfl⟩ := he
        have := Says.badBareHex (k := k) hno key
        cases k <;> exact this
    | ok n =>
      rw [hp] at h
      simp only [] at h
      obtain ⟨h2, h3⟩ := unprefixed_ok.1 hp
      cases hf : fromU32 k (UInt32.ofNat n) with
      | some v => rw [hf] at h; cases h
      | none =>
        rw [hf] at h
        injection h with h; subst h
        have := fromU32_none hf
        have e := ofNat_toNat32 h3
        rw [e] at this ⊢
        exact says_conversion (.bareHex h2) (by omega)
  | u32 k n =>
    simp only [message] at h
    cases hf : fromU32 k n with
    | some v => rw [hf] at h; cases h
    | none =>
      rw [hf] at h
      injection h with h; subst h
      have := fromU32_none hf
      have hn := n.toNat_lt
      cases k with
      | height => simp only [lo, hi] at this; exact Says.notHeight (n := n) (by omega)
      | time => simp only [lo, hi] at this; exact Says.notTime (n := n) (by omega)
  | absByHeight l t =>
    cases l with
    | blocks b => cases h
    | seconds u => injection h with h; subst h; exact Says.lockByTime
  | absByTime l t =>
    cases l with
    | seconds b => cases h
    | blocks u => injection h with h; subst h; exact Says.lockByHeight
  | relByHeight l tip mined =>
    cases l with
    | time n => exact absurd trivial hs
    | blocks n =>
      cases mined with
      | none => cases h
      | some v =>
        simp only [message, LockErr.relByHeight, blocksBy, checkedSub32] at h
        by_cases hle : v ≤ tip
        · rw [if_pos hle] at h; cases h
        · rw [if_neg hle] at h
          injection h with h; subst h
          rw [UInt32.le_iff_toNat_le] at hle
          exact Says.heightsSwapped (by omega)
  | relByTime l tip mined =>
    cases l with
    | blocks n => exact absurd trivial hs
    | time n =>
      cases mined with
      | none => cases h
      | some v =>
        simp only [message, LockErr.relByTime, timeBy, checkedSub32] at h
        by_cases hle : v ≤ tip
        · rw [if_pos hle] at h; cases h
        · rw [if_neg hle] at h
          injection h with h; subst h
          rw [UInt32.le_iff_toNat_le] at hle
          exact Says.timesSwapped (by omega)
  | intervals c s =>
    simp only [message, LockErr.intervals] at h
    cases hi : (if c then secondsCeil s else secondsFloor s) with
    | some v => rw [hi] at h; cases h
    | none =>
      rw [hi] at h
      injection h with h; subst h
      exact Says.tooLarge (intervals_none hi)
  | relative n =>
    simp only [message, relFromConsensus] at h
    cases hr : RelLock.fromConsensus n with
    | some v => rw [hr] at h; cases h
    | none =>
      rw [hr] at h
      injection h with h; subst h
      exact Says.disabled (rel_none hr) (hex8_spec n).1 (hex8_spec n).2

theorem literal_ne {a b : List Char} (h : a.take 33 ≠ b.take 33) (ha : 33 ≤ a.length) (hb : 33 ≤ b.length) (x y : String) :
    String.ofList a ++ x ≠ String.ofList b ++ y := by
  intro e
  have e := congrArg String.toList e
  rw [String.toList_append, String.toList_append, String.toList_ofList, String.toList_ofList] at e
  have e := congrArg (List.take 33) e
  rw [List.take_append_of_le_length ha, List.take_append_of_le_length hb] at e
  exact h e

/-- Asking a time lock whether it is satisfied by a height is always answered with a false sentence: it calls the lock
a lock by height, and its number of intervals of 512 seconds the seconds it was tried with. -/
theorem C117_relative_height_fails (n : UInt16) (tip : UInt32) (mined : Option UInt32) :
    ∃ m, message (.relByHeight (.time n) tip mined) = some m ∧
      m = "tried to satisfy a lock-by-height locktime using seconds " ++ toString n.toNat ∧
      ¬ Says (.relByHeight (.time n) tip mined) m := by
  refine ⟨_, rfl, rfl, ?_⟩
  generalize hm : "tried to satisfy a lock-by-height locktime using seconds " ++ toString n.toNat = m
  intro h
  cases h with
  | below h _ => cases h
  | above h _ => cases h
  | timeUsingBlocks =>
    exact literal_ne (a := "tried to satisfy a lock-by-height locktime using seconds ".toList)
      (b := "tried to satisfy a lock-by-time locktime using blocks ".toList) (by decide +kernel) (by decide +kernel)
      (by decide +kernel) _ _ hm

/-- The same for a lock by height that is asked about a time. -/
theorem C117_relative_time_fails (n : UInt16) (tip : UInt32) (mined : Option UInt32) :
    ∃ m, message (.relByTime (.blocks n) tip mined) = some m ∧
      m = "tried to satisfy a lock-by-time locktime using blocks " ++ toString n.toNat ∧
      ¬ Says (.relByTime (.blocks n) tip mined) m := by
  refine ⟨_, rfl, rfl, ?_⟩
  generalize hm : "tried to satisfy a lock-by-time locktime using blocks " ++ toString n.toNat = m
  intro h
  cases h with
  | below h _ => cases h
  | above h _ => cases h
  | heightUsingSeconds =>
    exact literal_ne (a := "tried to satisfy a lock-by-time locktime using blocks ".toList)
      (b := "tried to satisfy a lock-by-height locktime using seconds ".toList) (by decide +kernel) (by decide +kernel)
      (by decide +kernel) _ _ hm

/-- The documentation of `NumberOfBlocks::is_satisfied_by` (relative/mod.rs 460-461) allows a chain tip one below the
height of the output; the code refuses every such pair, whatever the lock. -/
theorem C117_prior_block_fails (n : UInt16) (tip mined : UInt32) (h : tip.toNat + 1 = mined.toNat) :
    message (.relByHeight (.blocks n) tip (some mined)) =
      some ("is_satisfied_by arguments invalid (probably the wrong way around) chain_tip: " ++ toString tip.toNat ++
        " utxo_mined_at: " ++ toString mined.toNat) := by
  simp only [message, LockErr.relByHeight, blocksBy, checkedSub32]
  rw [if_neg (by rw [UInt32.le_iff_toNat_le]; omega)]
  rfl

/-- The functions with messages give the values of the functions of the other properties. -/
theorem C117_same (l : LockTime) (h : Height) (t : Mtp) (tip n : UInt32) (mined : Option UInt32) (c : Bool) :
    (absByHeight l h).toOption = l.isSatisfiedByHeight h ∧ (absByTime l t).toOption = l.isSatisfiedByTime t ∧
    (∀ k, (relByHeight (.blocks k) tip mined).toOption = blocksSatisfied k tip mined) ∧
    (∀ k, (relByTime (.time k) tip mined).toOption = timeSatisfied k tip mined) ∧
    (intervals c n).toOption = (if c then secondsCeil n else secondsFloor n) ∧
    (relFromConsensus n).toOption = RelLock.fromConsensus n := by
  refine ⟨?_, ?_, ?_, ?_, ?_, ?_⟩
  · cases l <;> rfl
  · cases l <;> rfl
  · intro k
    cases mined with
    | none => rfl
    | some m =>
      simp only [relByHeight, blocksBy, blocksSatisfied]
      cases checkedSub32 tip m <;> rfl
  · intro k
    cases mined with
    | none => rfl
    | some m =>
      simp only [relByTime, timeBy, timeSatisfied]
      cases checkedSub32 tip m <;> rfl
  · unfold intervals
    cases (if c then secondsCeil n else secondsFloor n) <;> rfl
  · unfold relFromConsensus
    cases RelLock.fromConsensus n <;> rfl

/-! ### Examples -/

example : (fromStr .height "+000840000").toOption = some 840000 ∧ (fromStr .time "1700000000").toOption = some 1700000000 ∧
    (fromStr .height "-0").toOption = some 0 ∧ (fromHex .height "0x1f").toOption = some 31 ∧
    (fromUnprefixedHex .time "1DCD6500").toOption = some 500000000 := by decide +kernel

example : message (.str .height "500000000") = some "block height 500000000 is above limit 499999999" ∧
    message (.str .time "-7") = some "block time -7 is below limit 500000000" ∧
    message (.str .height "99999999999999999999 blocks") =
      some "failed to parse '99999999999999999999 blocks' as absolute Height/MedianTimePast (block height is above limit 499999999)" ∧
    message (.str .time "12,5") = some "failed to parse '12,5' as absolute Height/MedianTimePast (block time)" ∧
    message (.hex .time "1f") = some "hex string is missing prefix" ∧
    message (.bareHex .time "0x1f") = some "hex string contains prefix" ∧
    message (.intervals true 33553921) = some "33553921 seconds is too large to be encoded to a 16 bit 512 second interval" ∧
    message (.intervals false 33553921) = none ∧
    message (.relative 0x8000000a) = some "lock time 0x8000000a has disable flag set" := by decide +kernel

example : message (.relByHeight (.time 10) 840000 (some 839990)) =
    some "tried to satisfy a lock-by-height locktime using seconds 10" := by decide +kernel

example : fromStr .time (toString (1700000000 : UInt32).toNat) = .ok 1700000000 :=
  C117_roundtrip .time 1700000000 (by decide)

example : message (.relByHeight (.blocks 0) 99 (some 100)) =
    some "is_satisfied_by arguments invalid (probably the wrong way around) chain_tip: 99 utxo_mined_at: 100" := by
  decide +kernel

end LockErr
end Btc
