import Verif.Units.TextErrors
import Verif.Props.C41
import Verif.Props.C74
import Verif.Props.C75
import Verif.Props.C80
import Verif.Props.C117
/-!
# C126: the errors of integers, denominations, intervals and addresses as text tell the truth, and texts of lock times name them
-/
namespace Btc
namespace TextErrs
open LockErr (bytes Denotes AfterPrefix denotes_repr)
open HexInt (IsHex)

/-! ## Integers -/

/-- A decimal number: an optional plus sign and at least one digit. -/
def IsDec (s : Bytes) (n : Nat) : Prop := ∃ ds, (s = ds ∨ s = 43 :: ds) ∧ ds ≠ [] ∧ digitsVal 10 0 ds = some n

/-- An unsigned integer is refused exactly if the text is no decimal number of the width; the message quotes the text and names the width. -/
theorem C126_unsigned (bits : Nat) (s m : Bytes) : (∃ e, intU bits s = .error e ∧ intMsg e = m) ↔
    (¬ ∃ n, IsDec s n ∧ n < 2 ^ bits) ∧
    m = bytes "failed to parse '" ++ s ++ bytes "' as " ++ bytes "integer" ++ bytes " (" ++ bytes "unsigned" ++ bytes ", " ++
      bytes (toString bits) ++ bytes "-bit)" := by
  have hp : 0 < 2 ^ bits := Nat.pow_pos (by omega)
  have hk : ∀ n, parseUInt (2 ^ bits - 1) 10 s = .ok n ↔ IsDec s n ∧ n < 2 ^ bits := by
    intro n
    rw [parseUInt_ok_iff (by omega)]
    constructor
    · rintro ⟨ds, h1, h2, h3, h4⟩; exact ⟨⟨ds, h1, h2, h3⟩, by omega⟩
    · rintro ⟨⟨ds, h1, h2, h3⟩, h4⟩; exact ⟨ds, h1, h2, h3, by omega⟩
  unfold intU
  cases h : parseUInt (2 ^ bits - 1) 10 s with
  | ok n =>
    simp only [reduceCtorEq, false_and, exists_false, false_iff, not_and]
    exact fun hn => absurd ⟨n, (hk n).1 h⟩ hn
  | error e =>
    constructor
    · rintro ⟨e', he, rfl⟩
      cases he
      refine ⟨fun ⟨n, hn⟩ => ?_, rfl⟩
      rw [(hk n).2 hn] at h; cases h
    · rintro ⟨_, rfl⟩
      exact ⟨_, rfl, rfl⟩

example : ∃ e, intU 8 [50, 53, 54] = .error e ∧ intMsg e = bytes "failed to parse '256' as integer (unsigned, 8-bit)" :=
  ⟨_, rfl, by decide +kernel⟩

/-- The same for `i64`. -/
theorem C126_signed (s m : Bytes) : (∃ e, intI64 s = .error e ∧ intMsg e = m) ↔
    (¬ ∃ z, Denotes s z ∧ -2 ^ 63 ≤ z ∧ z < 2 ^ 63) ∧
    m = bytes "failed to parse '" ++ s ++ bytes "' as " ++ bytes "integer" ++ bytes " (" ++ bytes "signed" ++ bytes ", " ++
      bytes (toString 64) ++ bytes "-bit)" := by
  unfold intI64
  cases h : LockErr.parseI64 s with
  | ok n =>
    simp only [reduceCtorEq, false_and, exists_false, false_iff, not_and]
    exact fun hn => absurd ⟨n, LockErr.parseI64_ok.1 h⟩ hn
  | error e =>
    constructor
    · rintro ⟨e', he, rfl⟩
      cases he
      refine ⟨fun ⟨n, hn⟩ => ?_, rfl⟩
      rw [LockErr.parseI64_ok.2 hn] at h; cases h
    · rintro ⟨_, rfl⟩
      exact ⟨_, rfl, rfl⟩

example : ∃ e, intI64 [45, 45, 49] = .error e ∧ intMsg e = bytes "failed to parse '--1' as integer (signed, 64-bit)" :=
  ⟨_, rfl, by decide +kernel⟩

/-- The sentence about a hexadecimal text that is no number of the width. -/
def NotHex (bits : Nat) (r m : Bytes) : Prop := (¬ ∃ n, IsHex r n ∧ n < 2 ^ bits) ∧
  m = bytes "failed to parse '" ++ r ++ bytes "' as " ++ bytes "integer" ++ bytes " (" ++ bytes "unsigned" ++ bytes ", " ++
    bytes (toString bits) ++ bytes "-bit)"

theorem unchecked_err (bits : Nat) (s m : Bytes) : (∃ e, hexUnchecked bits s = .error e ∧ intMsg e = m) ↔ NotHex bits s m := by
  unfold hexUnchecked NotHex
  cases h : HexInt.unchecked bits s with
  | ok n =>
    simp only [reduceCtorEq, false_and, exists_false, false_iff, not_and]
    exact fun hn => absurd ⟨n, (HexInt.unchecked_ok _ _ _).1 h⟩ hn
  | error e =>
    constructor
    · rintro ⟨e', he, rfl⟩
      cases he
      refine ⟨fun ⟨n, hn⟩ => ?_, rfl⟩
      rw [(HexInt.unchecked_ok _ _ _).2 hn] at h; cases h
    · rintro ⟨_, rfl⟩
      exact ⟨_, rfl, rfl⟩

theorem mapError_err (bits : Nat) (s m : Bytes) :
    (∃ e, (hexUnchecked bits s).mapError HexE.parseInt = .error e ∧ hexMsg e = m) ↔ NotHex bits s m := by
  rw [← unchecked_err]
  cases hexUnchecked bits s with
  | ok n => simp [Except.mapError]
  | error e =>
    simp only [Except.mapError, Except.error.injEq]
    constructor
    · rintro ⟨_, rfl, h⟩; exact ⟨_, rfl, h⟩
    · rintro ⟨_, rfl, h⟩; exact ⟨_, rfl, h⟩

/-- Hexadecimal integers: with a required prefix, without one, and with an optional one. -/
theorem C126_hex (bits : Nat) (s m : Bytes) :
    ((∃ e, hexPrefixed bits s = .error e ∧ hexMsg e = m) ↔
      ((¬ ∃ r, AfterPrefix s r) ∧ m = bytes "failed to parse '" ++ s ++ bytes "' as " ++ bytes "hex" ++
        bytes " because it is missing the '0x' prefix") ∨ ∃ r, AfterPrefix s r ∧ NotHex bits r m) ∧
    ((∃ e, hexUnprefixed bits s = .error e ∧ hexMsg e = m) ↔
      ((∃ r, AfterPrefix s r) ∧ m = bytes "failed to parse '" ++ s ++ bytes "' as " ++ bytes "hex" ++
        bytes " because it contains the '0x' prefix") ∨ ((¬ ∃ r, AfterPrefix s r) ∧ NotHex bits s m)) ∧
    ((∃ e, hexAny bits s = .error e ∧ intMsg e = m) ↔
      (∃ r, AfterPrefix s r ∧ NotHex bits r m) ∨ ((¬ ∃ r, AfterPrefix s r) ∧ NotHex bits s m)) := by
  have hu : ∀ r r', AfterPrefix s r → AfterPrefix s r' → r = r' := by
    unfold AfterPrefix
    rintro r r' (rfl | rfl) (h | h)
    · simpa using h
    · simp at h
    · simp at h
    · simpa using h
  refine ⟨?_, ?_, ?_⟩
  · unfold hexPrefixed removePrefix
    have hk := fun r => LockErr.removePrefix_ok (t := s) (r := r)
    cases h : HexInt.removePrefix s with
    | ok r =>
      have hr := (hk r).1 h
      simp only []
      rw [mapError_err]
      constructor
      · exact fun hn => .inr ⟨r, hr, hn⟩
      · rintro (⟨h1, _⟩ | ⟨r', h1, h2⟩)
        · exact absurd ⟨r, hr⟩ h1
        · rw [hu r r' hr h1]; exact h2
    | error e =>
      have hn : ¬ ∃ r, AfterPrefix s r := fun ⟨r, hr⟩ => by rw [(hk r).2 hr] at h; cases h
      constructor
      · rintro ⟨e', he, rfl⟩
        cases he
        exact .inl ⟨hn, rfl⟩
      · rintro (⟨_, rfl⟩ | ⟨r, hr, _⟩)
        · exact ⟨_, rfl, rfl⟩
        · exact absurd ⟨r, hr⟩ hn
  · unfold hexUnprefixed checkUnprefixed
    have hk := fun r => LockErr.checkUnprefixed_ok (t := s) (r := r)
    cases h : HexInt.checkUnprefixed s with
    | ok r =>
      obtain ⟨rfl, hr⟩ := (hk r).1 h
      have hn : ¬ ∃ q, AfterPrefix r q := fun ⟨q, hq⟩ => hr q hq
      simp only []
      rw [mapError_err]
      constructor
      · exact fun h => .inr ⟨hn, h⟩
      · rintro (⟨h1, _⟩ | ⟨_, h2⟩)
        · exact absurd h1 hn
        · exact h2
    | error e =>
      have hy : ∃ r, AfterPrefix s r := Classical.byContradiction fun hn => by
        rw [(hk s).2 ⟨rfl, fun q hq => hn ⟨q, hq⟩⟩] at h; cases h
      constructor
      · rintro ⟨e', he, rfl⟩
        cases he
        exact .inl ⟨hy, rfl⟩
      · rintro (⟨_, rfl⟩ | ⟨h1, _⟩)
        · exact ⟨_, rfl, rfl⟩
        · exact absurd hy h1
  · unfold hexAny
    rw [unchecked_err]
    by_cases hy : ∃ r, AfterPrefix s r
    · obtain ⟨r, hr⟩ := hy
      have he : HexInt.removeOptionalPrefix s = r := by
        rcases hr with rfl | rfl <;> rfl
      rw [he]
      constructor
      · exact fun h => .inl ⟨r, hr, h⟩
      · rintro (⟨r', h1, h2⟩ | ⟨h1, _⟩)
        · rw [hu r r' hr h1]; exact h2
        · exact absurd ⟨r, hr⟩ h1
    · have he : HexInt.removeOptionalPrefix s = s := by
        unfold HexInt.removeOptionalPrefix
        split
        · exact absurd ⟨_, .inl rfl⟩ hy
        · exact absurd ⟨_, .inr rfl⟩ hy
        · rfl
      rw [he]
      constructor
      · exact fun h => .inr ⟨hy, h⟩
      · rintro (⟨r, h1, _⟩ | ⟨_, h2⟩)
        · exact absurd ⟨r, h1⟩ hy
        · exact h2

example : ∃ e, hexPrefixed 32 [49, 48] = .error e ∧
    hexMsg e = bytes "failed to parse '10' as hex because it is missing the '0x' prefix" := ⟨_, rfl, by decide +kernel⟩
example : ∃ e, hexPrefixed 16 [48, 120, 49, 48, 48, 48, 48] = .error e ∧
    hexMsg e = bytes "failed to parse '10000' as integer (unsigned, 16-bit)" := ⟨_, rfl, by decide +kernel⟩

/-- 256-bit numbers: what the parser refuses is what the parser of C80 refuses; the message quotes the text, or one of the two parts it is cut into,
and what it quotes is no number of the width it names. -/
theorem C126_u256_partial (s : Bytes) :
    (∀ x, u256Unchecked s = .ok x ↔ HexInt.u256Unchecked s = .ok x) ∧
    (∀ e, u256Unchecked s = .error e →
      (e.input = s ∨ ∃ a b, s = a ++ b ∧ b.length = 32 ∧ a ≠ [] ∧ (e.input = a ∨ e.input = b)) ∧
      (e.bits = 128 ∨ e.bits = 256) ∧ NotHex e.bits e.input (intMsg e)) := by
  have hun : ∀ t : Bytes, ∀ e, hexUnchecked 128 t = .error e → e.input = t ∧ e.bits = 128 ∧ NotHex e.bits e.input (intMsg e) := by
    intro t e h
    have hn := (unchecked_err 128 t _).1 ⟨e, h, rfl⟩
    unfold hexUnchecked at h
    split at h <;> cases h
    exact ⟨rfl, rfl, hn⟩
  have hok : ∀ (t : Bytes), (∃ n, hexUnchecked 128 t = .ok n ∧ HexInt.unchecked 128 t = .ok n) ∨
      ∃ e e', hexUnchecked 128 t = .error e ∧ HexInt.unchecked 128 t = .error e' := by
    intro t
    unfold hexUnchecked
    cases HexInt.unchecked 128 t with
    | ok n => exact .inl ⟨n, rfl, rfl⟩
    | error e => exact .inr ⟨_, e, rfl, rfl⟩
  constructor
  · intro x
    unfold u256Unchecked HexInt.u256Unchecked
    split
    · cases HexInt.unchecked 128 s <;> simp [Except.map]
    split
    · rcases hok s with ⟨n, h1, h2⟩ | ⟨e, e', h1, h2⟩ <;> rw [h1, h2] <;> simp
    · simp only []
      rcases hok (s.take (s.length - 32)) with ⟨n, h1, h2⟩ | ⟨e, e', h1, h2⟩ <;> rw [h1, h2]
      · rcases hok (s.drop (s.length - 32)) with ⟨n', h3, h4⟩ | ⟨e, e', h3, h4⟩ <;> rw [h3, h4] <;> simp
      · simp
  · intro e h
    unfold u256Unchecked at h
    split at h
    · rename_i ha
      split at h
      · cases h
      · cases h
        refine ⟨.inl rfl, .inr rfl, fun ⟨n, hn, _⟩ => ?_, rfl⟩
        rw [HexInt.isHex_ascii hn] at ha; cases ha
    split at h
    · split at h
      · rename_i e' he
        cases h
        obtain ⟨h1, h2, h3⟩ := hun _ _ he
        exact ⟨.inl h1, .inl h2, h3⟩
      · cases h
    · rename_i hl
      have hcut := (List.take_append_drop (s.length - 32) s).symm
      have hlen : (s.drop (s.length - 32)).length = 32 := by rw [List.length_drop]; omega
      have hne : s.take (s.length - 32) ≠ [] := by
        intro hz
        have := congrArg List.length hz
        rw [List.length_take] at this
        simp only [List.length_nil] at this
        omega
      split at h
      · rename_i e' he
        cases h
        obtain ⟨h1, h2, h3⟩ := hun _ _ he
        exact ⟨.inr ⟨_, _, hcut, hlen, hne, .inl h1⟩, .inl h2, h3⟩
      split at h
      · rename_i e' he
        cases h
        obtain ⟨h1, h2, h3⟩ := hun _ _ he
        exact ⟨.inr ⟨_, _, hcut, hlen, hne, .inr h1⟩, .inl h2, h3⟩
      · cases h

/-- FALSE: the message does not tell the text that is not a 256-bit number: for 65 digits it quotes 33 of them, for a wrong digit the half it is in;
and it speaks of 128 bits, so that what it says has an obvious but wrong remedy. -/
theorem C126_u256_text_fails : ∃ s : Bytes, s.length = 65 ∧ (∀ c ∈ s, c = 102) ∧ ∃ e, u256Unchecked s = .error e ∧
    e.input = s.take 33 ∧ e.bits = 128 ∧ ¬ NotHex 256 s (intMsg e) := by
  refine ⟨List.replicate 65 102, by decide, fun c hc => (List.mem_replicate.1 hc).2, ⟨List.replicate 33 102, 128, false⟩, by rfl,
    by decide +kernel, rfl, fun h => ?_⟩
  exact absurd h.2 (by decide +kernel)

/-! ## Denominations -/

/-- The texts accepted as denominations. -/
def denominations : List String := ["BTC", "btc", "cBTC", "cbtc", "mBTC", "mbtc", "uBTC", "ubtc", "µBTC", "µbtc", "bit", "bits", "BIT", "BITS",
  "SATOSHI", "satoshi", "SATOSHIS", "satoshis", "SAT", "sat", "SATS", "sats"]

def forms : List Bytes := [[66, 84, 67], [98, 116, 99], [99, 66, 84, 67], [99, 98, 116, 99], [109, 66, 84, 67], [109, 98, 116, 99],
  [117, 66, 84, 67], [117, 98, 116, 99], [194, 181, 66, 84, 67], [194, 181, 98, 116, 99], [98, 105, 116], [98, 105, 116, 115], [66, 73, 84], [66, 73, 84, 83],
  [83, 65, 84, 79, 83, 72, 73], [115, 97, 116, 111, 115, 104, 105], [83, 65, 84, 79, 83, 72, 73, 83], [115, 97, 116, 111, 115, 104, 105, 115],
  [83, 65, 84], [115, 97, 116], [83, 65, 84, 83], [115, 97, 116, 115]]

theorem forms_eq : denominations.map bytes = forms := by decide +kernel

theorem forms_none (s : Bytes) : Amt.Denom.forms s = none ↔ s ∉ denominations.map bytes := by
  rw [forms_eq]
  unfold Amt.Denom.forms forms
  simp only [List.mem_cons, List.not_mem_nil, or_false, not_or]
  constructor
  · intro h
    repeat' split at h
    all_goals try cases h
    simp_all
  · rintro ⟨h1, h2, h3, h4, h5, h6, h7, h8, h9, h10, h11, h12, h13, h14, h15, h16, h17, h18, h19, h20, h21, h22⟩
    simp [*]

theorem confusing_eq : ["CBTC", "Cbtc", "MBTC", "Mbtc", "UBTC", "Ubtc"].map bytes = CONFUSING_FORMS := by decide +kernel
theorem confusing_forms : ∀ s ∈ CONFUSING_FORMS, s ∉ forms := by decide +kernel

/-- A text is refused as a denomination exactly if it is none of the 22 texts; it is called confusing exactly if it is one of six, otherwise it is
called unknown, and quoted. -/
theorem C126_denomination (s : Bytes) (e : DenomE) : denomOf s = .error e ↔
    (e = .possiblyConfusing s ∧ s ∈ ["CBTC", "Cbtc", "MBTC", "Mbtc", "UBTC", "Ubtc"].map bytes) ∨
    (e = .unknown s ∧ s ∉ ["CBTC", "Cbtc", "MBTC", "Mbtc", "UBTC", "Ubtc"].map bytes ∧ s ∉ denominations.map bytes ∧
      denomMsg e = bytes "'" ++ s ++ bytes "' is not a known " ++ bytes "bitcoin denomination") := by
  rw [confusing_eq, ← forms_none]
  unfold denomOf
  by_cases hc : s ∈ CONFUSING_FORMS
  · rw [if_pos (List.contains_iff_mem.2 hc)]
    simp only [Except.error.injEq, hc, not_true_eq_false, and_true, false_and, and_false, or_false]
    exact eq_comm
  · rw [if_neg fun h => hc (List.contains_iff_mem.1 h)]
    simp only [hc, not_false_eq_true, and_false, true_and, false_or]
    cases hf : Amt.Denom.forms s with
    | some d => simp
    | none =>
      simp only [Except.error.injEq, true_and]
      exact ⟨fun h => h ▸ ⟨rfl, rfl⟩, fun h => h.1.symm⟩

/-- Exactly the 22 texts are accepted, and the amount parsers read the same denomination. -/
theorem C126_denomination_accepted (s : Bytes) : ((∃ d, denomOf s = .ok d) ↔ s ∈ denominations.map bytes) ∧
    (∀ d, denomOf s = .ok d ↔ Amt.Denom.fromStr s = some d) := by
  have hc : s ∈ CONFUSING_FORMS → Amt.Denom.forms s = none := by
    intro h
    rw [forms_none, forms_eq]
    exact confusing_forms s h
  have key : ∀ d, denomOf s = .ok d ↔ Amt.Denom.forms s = some d := by
    intro d
    unfold denomOf
    split
    · rename_i h
      rw [hc (List.contains_iff_mem.1 h)]
      simp
    · cases Amt.Denom.forms s <;> simp
  refine ⟨?_, key⟩
  constructor
  · rintro ⟨d, hd⟩
    refine Classical.byContradiction fun hn => ?_
    have := (forms_none s).2 hn
    rw [(key d).1 hd] at this
    cases this
  · intro hm
    cases hf : Amt.Denom.forms s with
    | none => exact absurd hm ((forms_none s).1 hf)
    | some d => exact ⟨d, (key d).2 hf⟩

example : ∃ e, denomOf [83, 97, 116] = .error e ∧ denomMsg e = bytes "'Sat' is not a known bitcoin denomination" :=
  ⟨_, rfl, by decide +kernel⟩

/-- FALSE: what the message about confusing denominations gives as its reason.  The letters `M` and `P` it speaks of are not in `UBTC` or `CBTC`, and
`PBTC` is not called confusing but unknown. -/
theorem C126_confusing_text_fails :
    (∃ s ∈ ["UBTC", "CBTC"].map bytes, 77 ∉ s ∧ 80 ∉ s ∧ ∃ e, denomOf s = .error e ∧
      denomMsg e = bytes "failed to parse '" ++ s ++ bytes "' as " ++ bytes "bitcoin denomination" ++
        bytes (": possibly confusing denomination - we intentionally do not support 'M' and 'P' " ++ "so as to not confuse mega/milli and peta/pico")) ∧
    ∃ e, denomOf (bytes "PBTC") = .error e ∧ denomMsg e = bytes "'PBTC' is not a known bitcoin denomination" := by
  refine ⟨⟨bytes "UBTC", by decide +kernel, by decide +kernel, by decide +kernel, .possiblyConfusing (bytes "UBTC"), ?_, rfl⟩,
    .unknown (bytes "PBTC"), ?_, by decide +kernel⟩
  · rw [C126_denomination]
    exact .inl ⟨rfl, by decide +kernel⟩
  · rw [C126_denomination]
    exact .inr ⟨rfl, by decide +kernel, by decide +kernel, rfl⟩

/-- No error of the number itself is the missing denomination. -/
theorem parseLoop_missing (k : Nat) (neg : Bool) : ∀ (s : Bytes) (i : Nat) (dec : Option Nat) (us : Bool) (v : Nat),
    Amt.parseLoop k neg i s dec us v ≠ .error .missingDenomination := by
  intro s
  induction s with
  | nil => intro i dec us v h; unfold Amt.parseLoop at h; cases h
  | cons c cs ih =>
    intro i dec us v h
    unfold Amt.parseLoop at h
    simp only [] at h
    repeat' split at h
    all_goals first | exact ih _ _ _ _ h | cases h

theorem parseSigned_missing (s : Bytes) (d : Amt.Denom) : Amt.parseSigned s d ≠ .error .missingDenomination := by
  have hb : ∀ neg t, Amt.parseBody neg t d ≠ .error .missingDenomination := by
    intro neg t h
    unfold Amt.parseBody at h
    simp only [] at h
    split at h
    · split at h <;> cases h
    · split at h
      · rename_i e he
        cases h
        exact parseLoop_missing _ _ _ _ _ _ _ he
      · repeat' split at h
        all_goals cases h
  intro h
  unfold Amt.parseSigned at h
  split at h
  · cases h
  split at h
  · cases h
  split at h
  · split at h
    · cases h
    · exact hb _ _ h
  · exact hb _ _ h

theorem convert_missing (b : Bool) (e : Amt.PErr) (h : e ≠ .missingDenomination) : e.convert b ≠ .missingDenomination := by
  cases e <;> simp_all [Amt.PErr.convert]

theorem fromStrIn_missing (s : Bytes) (d : Amt.Denom) : Amt.fromStrIn s d ≠ .error .missingDenomination := by
  intro h
  unfold Amt.fromStrIn at h
  split at h
  · rename_i e he
    exact convert_missing false e (fun e' => parseSigned_missing s d (e' ▸ he)) (by injection h)
  · repeat' split at h
    all_goals cases h

theorem sFromStrIn_missing (s : Bytes) (d : Amt.Denom) : Amt.sFromStrIn s d ≠ .error .missingDenomination := by
  intro h
  unfold Amt.sFromStrIn at h
  split at h
  · rename_i e he
    exact convert_missing true e (fun e' => parseSigned_missing s d (e' ▸ he)) (by injection h)
  · cases h

theorem splitDenom_missing (alpha : Bytes → Option Nat) (s : Bytes) :
    Amt.splitDenom alpha s = .error .missingDenomination ↔ 32 ∉ s ∧ alpha s = none := by
  unfold Amt.splitDenom
  have hf := Amt.findByte_spec 32 s
  cases hs : Amt.findByte 32 s with
  | some i =>
    rw [hs] at hf
    obtain ⟨a, b, rfl, -, -⟩ := hf
    simp only []
    constructor
    · intro h; split at h <;> cases h
    · rintro ⟨h, -⟩; simp at h
  | none =>
    rw [hs] at hf
    cases ha : alpha s with
    | none => simp only [Option.map_none, true_and, and_true, true_iff]; exact hf
    | some i =>
      simp only [Option.map_some]
      constructor
      · intro h; split at h <;> cases h
      · rintro ⟨-, h⟩; cases h

/-- A letter of the ASCII alphabet. -/
def Letter (c : UInt8) : Prop := (65 ≤ c ∧ c ≤ 90) ∨ (97 ≤ c ∧ c ≤ 122)

theorem forms_letter : ∀ f ∈ forms, ∃ c ∈ f, (65 ≤ c ∧ c ≤ 90) ∨ (97 ≤ c ∧ c ≤ 122) := by decide +kernel

/-- "the input does not contain a denomination": exactly for texts without a space and without an alphabetic character that are not zero satoshi, for
amounts and signed amounts.  `alpha` is the search for an alphabetic character; if it misses no ASCII letter, no denomination occurs in the text. -/
theorem C126_missing_denomination (alpha : Bytes → Option Nat) (s : Bytes) :
    (Amt.fromStrAmt alpha s = .error .missingDenomination ↔ 32 ∉ s ∧ alpha s = none ∧ Amt.fromStrIn s .sat ≠ .ok 0) ∧
    (Amt.sFromStrAmt alpha s = .error .missingDenomination ↔ 32 ∉ s ∧ alpha s = none ∧ Amt.sFromStrIn s .sat ≠ .ok 0) ∧
    ((∀ c ∈ s, Letter c → alpha s ≠ none) → alpha s = none → ∀ f ∈ denominations.map bytes, ¬ f <:+: s) := by
  have hs := splitDenom_missing alpha s
  refine ⟨?_, ?_, ?_⟩
  · unfold Amt.fromStrAmt Amt.fromStrWithDenom
    cases hd : Amt.splitDenom alpha s with
    | error e =>
      rw [hd] at hs
      by_cases he : e = .missingDenomination
      · subst he
        obtain ⟨h1, h2⟩ := hs.1 rfl
        simp only [h1, h2, not_false_eq_true, true_and]
        constructor
        · intro h hz; rw [hz] at h; cases h
        · intro h
          split
          · rename_i hz; exact absurd hz h
          · rfl
      · have : ¬ (32 ∉ s ∧ alpha s = none) := fun h => he (by have := hs.2 h; injection this)
        constructor
        · intro h
          split at h
          · rename_i h'; injection h' with h'; exact absurd h' he
          · injection h with h; exact absurd h he
        · rintro ⟨h1, h2, -⟩; exact absurd ⟨h1, h2⟩ this
    | ok p =>
      rw [hd] at hs
      have : ¬ (32 ∉ s ∧ alpha s = none) := fun h => by cases hs.2 h
      constructor
      · intro h
        simp only [] at h
        split at h
        · rename_i h'; exact absurd h' (fromStrIn_missing _ _)
        · exact absurd h (fromStrIn_missing _ _)
      · rintro ⟨h1, h2, -⟩; exact absurd ⟨h1, h2⟩ this
  · unfold Amt.sFromStrAmt Amt.sFromStrWithDenom
    cases hd : Amt.splitDenom alpha s with
    | error e =>
      rw [hd] at hs
      by_cases he : e = .missingDenomination
      · subst he
        obtain ⟨h1, h2⟩ := hs.1 rfl
        simp only [h1, h2, not_false_eq_true, true_and]
        constructor
        · intro h hz; rw [hz] at h; cases h
        · intro h
          split
          · rename_i hz; exact absurd hz h
          · rfl
      · have : ¬ (32 ∉ s ∧ alpha s = none) := fun h => he (by have := hs.2 h; injection this)
        constructor
        · intro h
          split at h
          · rename_i h'; injection h' with h'; exact absurd h' he
          · injection h with h; exact absurd h he
        · rintro ⟨h1, h2, -⟩; exact absurd ⟨h1, h2⟩ this
    | ok p =>
      rw [hd] at hs
      have : ¬ (32 ∉ s ∧ alpha s = none) := fun h => by cases hs.2 h
      constructor
      · intro h
        simp only [] at h
        split at h
        · rename_i h'; exact absurd h' (sFromStrIn_missing _ _)
        · exact absurd h (sFromStrIn_missing _ _)
      · rintro ⟨h1, h2, -⟩; exact absurd ⟨h1, h2⟩ this
  · intro h hn f hf hin
    rw [forms_eq] at hf
    obtain ⟨c, hc, hl⟩ := forms_letter f hf
    exact h c (hin.subset hc) hl hn

example : Amt.fromStrAmt (fun _ => none) [49, 48] = .error .missingDenomination := rfl
example : Amt.fromStrAmt (fun _ => none) [48] = .ok 0 := rfl

/-! ## Block intervals -/

/-- A block interval is refused exactly if it is above 65535, and the message gives it. -/
theorem C126_interval (h : UInt32) (m : Bytes) : (∃ e, intervalOf h = .error e ∧ intervalMsg e = m) ↔
    65535 < h.toNat ∧ m = bytes "block interval is too big to be used as a relative lock time: " ++ bytes (toString h.toNat) ++ bytes " (max: " ++
      bytes (toString 65535) ++ bytes ")" := by
  have hk : h ≤ 65535 ↔ h.toNat ≤ 65535 := UInt32.le_iff_toNat_le
  unfold intervalOf Lock.intervalToBlocks
  by_cases hl : h ≤ 65535
  · rw [if_pos hl]
    have := hk.1 hl
    simp only [reduceCtorEq, false_and, exists_false, false_iff, not_and]
    omega
  · rw [if_neg hl]
    have : 65535 < h.toNat := by rw [hk] at hl; omega
    constructor
    · rintro ⟨e, he, rfl⟩; cases he; exact ⟨this, rfl⟩
    · rintro ⟨_, rfl⟩; exact ⟨_, rfl, rfl⟩

example : ∃ e, intervalOf 65536 = .error e ∧
    intervalMsg e = bytes "block interval is too big to be used as a relative lock time: 65536 (max: 65535)" := ⟨_, rfl, by decide +kernel⟩

/-! ## Addresses -/

def networkName : Pow.Network → String
  | .bitcoin => "bitcoin" | .testnet3 => "testnet" | .testnet4 => "testnet4" | .signet => "signet" | .regtest => "regtest"

/-- An address is refused for a network exactly if the network does not use it; the message shows the address and names the network, and there is
always a message. -/
theorem C126_network (D : Bytes → Arr 32) (alt : Bool) (a : Addr.Address) (ha : a.Valid) (n : Pow.Network) (m : Bytes) :
    ((∃ e, requireNetwork a n = .error e ∧ networkMsg D alt e = some m) ↔
      ¬ Addr.Uses n a ∧ ∃ t, Addr.IsText D alt a t ∧ m = bytes "address " ++ t ++ bytes " is not valid on " ++ bytes (networkName n)) ∧
    (∀ e, requireNetwork a n = .error e → ∃ m, networkMsg D alt e = some m) ∧
    ((∃ e, requireNetwork a n = .error e) ↔ a.requireNetwork n = .error (.networkValidation n)) := by
  have hn : Net.display n = bytes (networkName n) := by cases n <;> decide +kernel
  have hv := Addr.valid_for_iff a n
  have hr := Addr.C75_require_network a n
  unfold requireNetwork
  by_cases hu : Addr.Uses n a
  · rw [if_pos (hv.2 hu), hr.1 hu]
    simp [hu]
  · rw [if_neg fun h => hu (hv.1 h), hr.2 hu]
    obtain ⟨t, ht⟩ := Addr.C75_display_total D alt a ha
    have hm : networkMsg D alt (n, a) = some (bytes "address " ++ t ++ bytes " is not valid on " ++ bytes (networkName n)) := by
      unfold networkMsg
      simp only [ht, hn]
    refine ⟨?_, ?_, ⟨fun _ => rfl, fun _ => ⟨_, rfl⟩⟩⟩
    · constructor
      · rintro ⟨e, he, h⟩
        cases he
        rw [hm] at h
        cases h
        exact ⟨hu, t, (Addr.C75_display D alt a ha t).1 ht, rfl⟩
      · rintro ⟨_, t', ht', rfl⟩
        have h2 := (Addr.C75_display D alt a ha t').2 ht'
        rw [ht] at h2
        cases h2
        exact ⟨_, rfl, hm⟩
    · intro e he
      cases he
      exact ⟨_, hm⟩

/-- A script has no address exactly if it is neither p2pkh nor p2sh nor a witness program, or is a version 0 witness program of the wrong length, and the
message says which. -/
theorem C126_from_script (s : Bytes) (n : Pow.Network) (m : Bytes) :
    (∃ e, Addr.Address.fromScript s n = .error e ∧ fromScriptMsg e = m) ↔
      (¬ Scr.Pattern .p2pkh s ∧ ¬ Scr.Pattern .p2sh s ∧ (¬ ∃ v p, Scr.WitnessScript v p s) ∧
        m = bytes "script is not a p2pkh, p2sh or witness program") ∨
      (∃ p, Scr.WitnessScript 0 p s ∧ p.length ≠ 20 ∧ p.length ≠ 32 ∧
        m = bytes ("a v0 witness program must be either 20 or 32 bytes: length=" ++ toString p.length)) := by
  rcases Addr.fromScript_cases s n with ⟨h, hs, e⟩ | ⟨h, hs, e⟩ | ⟨v, p, hs, e⟩ | ⟨h1, h2, h3, e⟩
  · rw [e]
    constructor
    · rintro ⟨_, h', _⟩; cases h'
    · rintro (⟨h1, _⟩ | ⟨p, hp, _⟩)
      · exact absurd ⟨h.1, h.2, hs⟩ h1
      · have := hp.2.2.2
        rw [hs] at this
        simp [Scr.verByte] at this
  · rw [e]
    constructor
    · rintro ⟨_, h', _⟩; cases h'
    · rintro (⟨_, h1, _⟩ | ⟨p, hp, _⟩)
      · exact absurd ⟨h.1, h.2, hs⟩ h1
      · have := hp.2.2.2
        rw [hs] at this
        simp [Scr.verByte] at this
  · rw [e]
    have hlen := hs.2.1
    have hlen' := hs.2.2.1
    unfold Scr.WitProgram.new
    rw [if_neg (by omega)]
    by_cases hc : v = 0 ∧ (p.length ≠ 20 ∧ p.length ≠ 32)
    · rw [if_pos hc]
      obtain ⟨rfl, hc⟩ := hc
      constructor
      · rintro ⟨e', he, rfl⟩
        cases he
        exact .inr ⟨p, hs, hc.1, hc.2, rfl⟩
      · rintro (⟨_, _, h3, _⟩ | ⟨p', hp, h20, h32, rfl⟩)
        · exact absurd ⟨_, _, hs⟩ h3
        · have := hs.2.2.2.symm.trans hp.2.2.2
          simp only [List.cons.injEq] at this
          rw [← this.2.2]
          exact ⟨_, rfl, rfl⟩
    · rw [if_neg hc]
      constructor
      · rintro ⟨_, h', _⟩; cases h'
      · rintro (⟨_, _, h3, _⟩ | ⟨p', hp, h20, h32, rfl⟩)
        · exact absurd ⟨_, _, hs⟩ h3
        · have := hs.2.2.2.symm.trans hp.2.2.2
          simp only [List.cons.injEq] at this
          refine absurd ⟨?_, this.2.2 ▸ ⟨h20, h32⟩⟩ hc
          have hv := hs.1
          have h1 := this.1
          unfold Scr.verByte at h1
          split at h1
          · assumption
          · rename_i hne
            rw [if_pos rfl] at h1
            have := congrArg UInt8.toNat h1
            rw [UInt8.toNat_add] at this
            have e80 : (80 : UInt8).toNat = 80 := rfl
            simp at this
            omega
  · rw [e]
    constructor
    · rintro ⟨e', he, rfl⟩
      cases he
      exact .inl ⟨h1, h2, h3, rfl⟩
    · rintro (⟨_, _, _, rfl⟩ | ⟨p, hp, _⟩)
      · exact ⟨_, rfl, rfl⟩
      · exact absurd ⟨_, _, hp⟩ h3

example : requireNetwork (.p2pkh ⟨List.replicate 20 7, rfl⟩ .main) .signet = .error (.signet, .p2pkh ⟨List.replicate 20 7, rfl⟩ .main) := rfl
example : ∃ e, Addr.Address.fromScript [0, 3, 1, 2, 3] .bitcoin = .error e ∧
    fromScriptMsg e = bytes "a v0 witness program must be either 20 or 32 bytes: length=3" := ⟨_, rfl, by decide +kernel⟩

/-- Address types: exactly the six names are known, any other text is quoted. -/
theorem C126_address_type (s m : Bytes) : (∃ e, addressTypeOf s = .error e ∧ addressTypeMsg e = m) ↔
    s ∉ ["p2pkh", "p2sh", "p2wpkh", "p2wsh", "p2tr", "p2a"].map bytes ∧
    m = bytes "failed to parse '" ++ s ++ bytes "' as " ++ bytes "address type" := by
  have hk : (∃ t, Addr.AddressType.parse s = some t) ↔ s ∈ ["p2pkh", "p2sh", "p2wpkh", "p2wsh", "p2tr", "p2a"].map bytes := by
    constructor
    · rintro ⟨t, ht⟩
      rw [(Addr.C75_type_text s t).1.1 ht]
      cases t <;> decide +kernel
    · simp only [List.map_cons, List.map_nil, List.mem_cons, List.not_mem_nil, or_false]
      have e : ∀ t : Addr.AddressType, s = t.display → ∃ t, Addr.AddressType.parse s = some t := fun t h => ⟨t, (Addr.C75_type_text s t).1.2 h⟩
      rintro (h | h | h | h | h | h)
      · exact e .p2pkh (h.trans (by decide +kernel))
      · exact e .p2sh (h.trans (by decide +kernel))
      · exact e .p2wpkh (h.trans (by decide +kernel))
      · exact e .p2wsh (h.trans (by decide +kernel))
      · exact e .p2tr (h.trans (by decide +kernel))
      · exact e .p2a (h.trans (by decide +kernel))
  rw [← hk]
  unfold addressTypeOf
  cases Addr.AddressType.parse s with
  | some t => simp
  | none =>
    constructor
    · rintro ⟨e, he, rfl⟩; cases he; exact ⟨fun ⟨_, h⟩ => (by cases h), rfl⟩
    · rintro ⟨_, rfl⟩; exact ⟨_, rfl, rfl⟩

example : ∃ e, addressTypeOf [80, 50] = .error e ∧ addressTypeMsg e = bytes "failed to parse 'P2' as address type" := ⟨_, rfl, by decide +kernel⟩

/-! ## Lock times -/

theorem toString_inj {n m : Nat} (hn : n < 2 ^ 63) (hm : m < 2 ^ 63) (h : bytes (toString n) = bytes (toString m)) : n = m := by
  have h1 : LockErr.parseI64 (bytes (toString n)) = .ok (n : Int) := LockErr.parseI64_ok.2 ⟨denotes_repr n, by omega, by omega⟩
  have h2 : LockErr.parseI64 (bytes (toString m)) = .ok (m : Int) := LockErr.parseI64_ok.2 ⟨denotes_repr m, by omega, by omega⟩
  rw [h, h2] at h1
  injection h1 with h1
  omega

theorem height_time (a b : Bytes) (h : bytes "block-height " ++ a = bytes "block-time " ++ b) : False := by
  have e1 : bytes "block-height " = [98, 108, 111, 99, 107, 45, 104] ++ [101, 105, 103, 104, 116, 32] := by decide +kernel
  have e2 : bytes "block-time " = [98, 108, 111, 99, 107, 45, 116] ++ [105, 109, 101, 32] := by decide +kernel
  rw [e1, e2] at h
  simp at h

/-- The alternate text of a lock time determines it, for absolute and for relative ones. -/
theorem C126_alternate_text (a b : Lock.LockTime) (r q : Lock.RelLock) :
    (absText true a = absText true b → a = b) ∧ (relText true r = relText true q → r = q) := by
  have u32 : ∀ x y : UInt32, bytes (toString x.toNat) = bytes (toString y.toNat) → x = y := fun x y h => by
    have hx := x.toNat_lt; have hy := y.toNat_lt
    exact UInt32.toNat_inj.1 (toString_inj (by omega) (by omega) h)
  have u16 : ∀ x y : UInt16, bytes (toString x.toNat) = bytes (toString y.toNat) → x = y := fun x y h => by
    have hx := x.toNat_lt; have hy := y.toNat_lt
    exact UInt16.toNat_inj.1 (toString_inj (by omega) (by omega) h)
  constructor
  · intro h
    match a, b with
    | .blocks ⟨x⟩, .blocks ⟨y⟩ => rw [u32 x y (List.append_cancel_left h)]
    | .seconds ⟨x⟩, .seconds ⟨y⟩ => rw [u32 x y (List.append_cancel_left (List.append_cancel_right h))]
    | .blocks x, .seconds y => exact (height_time _ _ (h.trans (List.append_assoc _ _ _))).elim
    | .seconds x, .blocks y => exact (height_time _ _ (h.symm.trans (List.append_assoc _ _ _))).elim
  · intro h
    match r, q with
    | .blocks x, .blocks y => rw [u16 x y (List.append_cancel_left h)]
    | .time x, .time y => rw [u16 x y (List.append_cancel_left (List.append_cancel_right h))]
    | .blocks x, .time y => exact (height_time _ _ (h.trans (List.append_assoc _ _ _))).elim
    | .time x, .blocks y => exact (height_time _ _ (h.symm.trans (List.append_assoc _ _ _))).elim

/-- The plain text of an absolute lock time is its consensus number, so it determines it. -/
theorem C126_absolute_text (n k : UInt32) (a b : Lock.LockTime) (ha : Lock.LockTime.fromConsensus n = some a)
    (hb : Lock.LockTime.fromConsensus k = some b) :
    Denotes (absText false a) n.toNat ∧ (absText false a = absText false b → a = b) := by
  have key : ∀ n a, Lock.LockTime.fromConsensus n = some a → absText false a = bytes (toString n.toNat) := by
    intro n a h
    unfold Lock.LockTime.fromConsensus at h
    split at h
    · rename_i hh
      unfold Lock.Height.fromU32 at h
      rw [if_pos hh] at h
      cases h; rfl
    · unfold Lock.Mtp.fromU32 at h
      split at h
      · cases h; rfl
      · cases h
  rw [key n a ha, key k b hb]
  refine ⟨denotes_repr _, fun h => ?_⟩
  have hx := n.toNat_lt; have hy := k.toNat_lt
  have := UInt32.toNat_inj.1 (toString_inj (by omega) (by omega) h)
  subst this
  rw [ha] at hb
  exact Option.some.inj hb

example : Lock.LockTime.fromConsensus 741521 = some (.blocks ⟨741521⟩) ∧ absText true (.blocks ⟨741521⟩) = bytes "block-height 741521" := by
  constructor <;> decide +kernel

/-- FALSE for relative lock times: the plain text does not tell blocks from units of 512 seconds; and the alternate text of a number of blocks calls it a
height, in the words used for the absolute lock time of that height. -/
theorem C126_relative_text_fails (n : UInt16) :
    (Lock.RelLock.blocks n ≠ .time n ∧ relText false (.blocks n) = relText false (.time n)) ∧
    relText true (.blocks n) = absText true (.blocks ⟨n.toUInt32⟩) := by
  refine ⟨⟨by simp, rfl⟩, ?_⟩
  unfold relText absText
  simp

end TextErrs
end Btc
