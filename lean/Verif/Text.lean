import Verif.Bytes
/-!
# Text: decimal and hexadecimal numbers

Strings are modelled by their UTF-8 bytes (`Bytes`).  Integer parsing is Rust's
`core::num::from_str_radix` for unsigned types, which `units/src/parse_int.rs` (79-92, 246-330) wraps:
an optional leading `+`, then at least one digit, with overflow detected digit by digit.
-/
namespace Btc

/-- `core::num::IntErrorKind`. -/
inductive IntErr where
  | empty
  | invalidDigit
  | posOverflow
deriving DecidableEq, Repr

/-- `char::to_digit(radix)` for radix at most 16. -/
def digitVal (radix : Nat) (b : UInt8) : Option Nat :=
  let n := b.toNat
  let v := if 48 ≤ n ∧ n ≤ 57 then some (n - 48)
    else if 97 ≤ n ∧ n ≤ 102 then some (n - 87)
    else if 65 ≤ n ∧ n ≤ 70 then some (n - 55)
    else none
  match v with
  | some x => if x < radix then some x else none
  | none => none

/-- The digit loop of `from_str_radix`: multiply (checked), get the digit, fail on its absence before
failing on overflow, add (checked). -/
def parseDigits (max radix : Nat) : Nat → Bytes → Except IntErr Nat
  | acc, [] => .ok acc
  | acc, b :: bs =>
    match digitVal radix b with
    | none => .error .invalidDigit
    | some x =>
      if max < acc * radix then .error .posOverflow
      else if max < acc * radix + x then .error .posOverflow
      else parseDigits max radix (acc * radix + x) bs

/-- `<uN>::from_str_radix` for an unsigned type with maximum `max`. -/
def parseUInt (max radix : Nat) : Bytes → Except IntErr Nat
  | [] => .error .empty
  | [43] => .error .invalidDigit
  | [45] => .error .invalidDigit
  | 43 :: bs => parseDigits max radix 0 bs
  | bs => parseDigits max radix 0 bs

/-- Value of a digit string. -/
def digitsVal (radix : Nat) : Nat → Bytes → Option Nat
  | acc, [] => some acc
  | acc, b :: bs => match digitVal radix b with
    | none => none
    | some x => digitsVal radix (acc * radix + x) bs

theorem digitsVal_ge {radix : Nat} (hr : 0 < radix) : ∀ (bs : Bytes) (acc n : Nat),
    digitsVal radix acc bs = some n → acc ≤ n := by
  intro bs
  induction bs with
  | nil => intro acc n h; simp [digitsVal] at h; omega
  | cons b bs ih =>
    intro acc n h
    simp only [digitsVal] at h
    split at h
    · cases h
    · have := ih _ _ h
      have : acc * 1 ≤ acc * radix := Nat.mul_le_mul_left _ hr
      omega

theorem parseDigits_ok_iff {max radix : Nat} (hr : 0 < radix) : ∀ (bs : Bytes) (acc n : Nat),
    acc ≤ max → (parseDigits max radix acc bs = .ok n ↔ digitsVal radix acc bs = some n ∧ n ≤ max) := by
  intro bs
  induction bs with
  | nil =>
    intro acc n h
    simp only [parseDigits, digitsVal, Except.ok.injEq, Option.some.injEq]
    omega
  | cons b bs ih =>
    intro acc n h
    simp only [parseDigits, digitsVal]
    split
    · simp
    · rename_i x hx
      split
      · rename_i h1
        simp only [reduceCtorEq, false_iff]
        rintro ⟨h2, h3⟩
        have := digitsVal_ge hr _ _ _ h2
        omega
      · split
        · simp only [reduceCtorEq, false_iff]
          rintro ⟨h2, h3⟩
          have := digitsVal_ge hr _ _ _ h2
          omega
        · exact ih _ _ (by omega)

theorem parseUInt_ok_iff {max radix : Nat} (hr : 0 < radix) (s : Bytes) (n : Nat) :
    parseUInt max radix s = .ok n ↔
      ∃ ds, (s = ds ∨ s = 43 :: ds) ∧ ds ≠ [] ∧ digitsVal radix 0 ds = some n ∧ n ≤ max := by
  have hplus : ∀ ds : Bytes, digitsVal radix 0 (43 :: ds) = none := fun ds => by
    simp [digitsVal, digitVal]
  have hminus : ∀ ds : Bytes, digitsVal radix 0 (45 :: ds) = none := fun ds => by
    simp [digitsVal, digitVal]
  unfold parseUInt
  split
  · simp only [reduceCtorEq, false_iff]
    rintro ⟨ds, h | h, h2, _⟩
    · exact h2 h.symm
    · cases h
  · simp only [reduceCtorEq, false_iff]
    rintro ⟨ds, h | h, h2, h3, _⟩
    · rw [← h, hplus] at h3; cases h3
    · cases h; exact h2 rfl
  · simp only [reduceCtorEq, false_iff]
    rintro ⟨ds, h | h, h2, h3, _⟩
    · rw [← h, hminus] at h3; cases h3
    · cases h
  · rename_i bs hne
    rw [parseDigits_ok_iff hr _ _ _ (by omega)]
    constructor
    · intro h
      exact ⟨bs, .inr rfl, fun hb => hne (by rw [hb]), h.1, h.2⟩
    · rintro ⟨ds, h | h, h2, h3, h4⟩
      · rw [← h, hplus] at h3; cases h3
      · cases h; exact ⟨h3, h4⟩
  · rename_i h1 h2 h3 h4
    rw [parseDigits_ok_iff hr _ _ _ (by omega)]
    constructor
    · intro h
      exact ⟨s, .inl rfl, h1, h.1, h.2⟩
    · rintro ⟨ds, h | h, g2, g3, g4⟩
      · rw [h]; exact ⟨g3, g4⟩
      · exact absurd h (h4 ds)

/-! ## Printing -/

/-- Decimal `Display` of an unsigned integer. -/
def decBytes (n : Nat) : Bytes :=
  if n < 10 then [UInt8.ofNat (48 + n)] else decBytes (n / 10) ++ [UInt8.ofNat (48 + n % 10)]
termination_by n

/-- Lower case hex digit. -/
def hexDigit (n : Nat) : UInt8 := if n < 10 then UInt8.ofNat (48 + n) else UInt8.ofNat (87 + n)

/-- Lower case hex of a byte string (`LowerHex`/`Display` through the external hex crate). -/
def hexBytes (bs : Bytes) : Bytes := bs.flatMap fun b => [hexDigit (b.toNat / 16), hexDigit (b.toNat % 16)]

/-- Hex decoding of the external crate (`hex::decode_to_array` and friends): pairs of digits of either
case. -/
def unhex : Bytes → Option Bytes
  | [] => some []
  | [_] => none
  | a :: b :: bs =>
    match digitVal 16 a, digitVal 16 b, unhex bs with
    | some x, some y, some r => some (UInt8.ofNat (16 * x + y) :: r)
    | _, _, _ => none

/-- Is the byte an upper case hex digit? -/
def isUpperHex (b : UInt8) : Bool := 65 ≤ b.toNat && b.toNat ≤ 70

theorem digitVal_dec (d : Nat) (h : d < 10) (radix : Nat) (hr : 10 ≤ radix) :
    digitVal radix (UInt8.ofNat (48 + d)) = some d := by
  unfold digitVal
  have : (UInt8.ofNat (48 + d)).toNat = 48 + d := by
    rw [UInt8.toNat_ofNat']; omega
  simp only [this]
  rw [if_pos (by omega)]
  simp only
  rw [if_pos (by omega)]
  congr 1
  omega

theorem digitVal_ten {b : UInt8} {x : Nat} (h : digitVal 10 b = some x) :
    x < 10 ∧ b = UInt8.ofNat (48 + x) := by
  unfold digitVal at h
  simp only at h
  split at h
  · rename_i y hy
    split at h
    · cases h
      split at hy
      · cases hy
        refine ⟨by omega, ?_⟩
        apply UInt8.toNat_inj.mp
        rw [UInt8.toNat_ofNat']
        omega
      · split at hy
        · cases hy; omega
        · split at hy
          · cases hy; omega
          · cases hy
    · cases h
  · cases h

theorem digitsVal_append (radix : Nat) : ∀ (a b : Bytes) (acc : Nat),
    digitsVal radix acc (a ++ b) = (digitsVal radix acc a).bind fun x => digitsVal radix x b := by
  intro a
  induction a with
  | nil => intros; rfl
  | cons x a ih =>
    intro b acc
    simp only [List.cons_append, digitsVal]
    split
    · rfl
    · exact ih _ _

theorem decBytes_ne_nil (n : Nat) : decBytes n ≠ [] := by
  unfold decBytes
  split <;> simp

theorem digitsVal_decBytes (n : Nat) : digitsVal 10 0 (decBytes n) = some n := by
  induction n using Nat.strongRecOn with
  | _ n ih =>
    unfold decBytes
    split
    · rename_i h
      simp only [digitsVal, digitVal_dec n h 10 (by omega)]
      simp
    · rename_i h
      rw [digitsVal_append, ih (n / 10) (by omega)]
      simp only [Option.bind_some, digitsVal, digitVal_dec (n % 10) (by omega) 10 (by omega)]
      congr 1
      omega

/-- The first digit of a printed number is not zero, unless the number is zero. -/
theorem decBytes_head (n : Nat) (h : n ≠ 0) : ∃ b t, decBytes n = b :: t ∧ b ≠ 48 := by
  induction n using Nat.strongRecOn with
  | _ n ih =>
    unfold decBytes
    split
    · rename_i hn
      refine ⟨_, _, rfl, ?_⟩
      intro hc
      have := congrArg UInt8.toNat hc
      rw [UInt8.toNat_ofNat'] at this
      have h48 : (48 : UInt8).toNat = 48 := rfl
      omega
    · rename_i hn
      obtain ⟨b, t, h1, h2⟩ := ih (n / 10) (by omega) (by omega)
      exact ⟨b, t ++ [UInt8.ofNat (48 + n % 10)], by rw [h1]; rfl, h2⟩

theorem decBytes_digit (n : Nat) : ∀ b ∈ decBytes n, 48 ≤ b.toNat ∧ b.toNat ≤ 57 := by
  induction n using Nat.strongRecOn with
  | _ n ih =>
    unfold decBytes
    split
    · intro b hb
      simp only [List.mem_singleton] at hb
      subst hb
      rw [UInt8.toNat_ofNat']; omega
    · intro b hb
      simp only [List.mem_append, List.mem_singleton] at hb
      rcases hb with hb | rfl
      · exact ih (n / 10) (by omega) b hb
      · rw [UInt8.toNat_ofNat']; omega

theorem decBytes_length (k n : Nat) (hk : 0 < k) (h : n < 10 ^ k) : (decBytes n).length ≤ k := by
  induction k generalizing n with
  | zero => omega
  | succ k ih =>
    unfold decBytes
    split
    · simp
    · rename_i hn
      simp only [List.length_append, List.length_singleton]
      have h1 : n / 10 < 10 ^ k := by
        rw [Nat.div_lt_iff_lt_mul (by omega)]
        rw [Nat.pow_succ] at h
        exact h
      have hk' : 0 < k := by
        rcases Nat.eq_zero_or_pos k with hk0 | hk0
        · rw [hk0] at h1; simp at h1; omega
        · exact hk0
      have := ih (n / 10) hk' h1
      omega

/-- A nonempty digit string without superfluous leading zero is the printed form of its value. -/
theorem decBytes_canonical (ds : Bytes) (n : Nat) (h : digitsVal 10 0 ds = some n) (hne : ds ≠ [])
    (hz : ∀ t, ds = 48 :: t → t = []) : decBytes n = ds := by
  induction hl : ds.length generalizing ds n with
  | zero => exact absurd (List.length_eq_zero_iff.mp hl) hne
  | succ k ih =>
    -- split off the last digit
    obtain ⟨init, last, rfl⟩ : ∃ i l, ds = i ++ [l] :=
      ⟨ds.dropLast, ds.getLast hne, (List.dropLast_concat_getLast hne).symm⟩
    rw [digitsVal_append] at h
    cases hi : digitsVal 10 0 init with
    | none => rw [hi] at h; cases h
    | some m =>
      rw [hi] at h
      simp only [Option.bind_some, digitsVal] at h
      split at h
      · cases h
      · rename_i x hx
        obtain ⟨hx1, hx2⟩ := digitVal_ten hx
        simp only [Option.some.injEq] at h
        match init, hi, hz, hl with
        | [], hi, hz, hl =>
          simp only [digitsVal, Option.some.injEq] at hi
          unfold decBytes
          rw [if_pos (by omega), hx2]
          simp
          congr 1
          omega
        | c :: t, hi, hz, hl =>
          have hc : c ≠ 48 := by
            rintro rfl
            have := hz (t ++ [last]) rfl
            simp at this
          have h1 := ih (c :: t) m hi (by simp) (by
            intro t' ht'
            simp only [List.cons.injEq] at ht'
            exact absurd ht'.1 hc) (by simpa using hl)
          have hm : m ≠ 0 := by
            rintro rfl
            have h0 : decBytes 0 = [48] := by unfold decBytes; rfl
            rw [h0] at h1
            simp only [List.cons.injEq] at h1
            exact hc h1.1.symm
          have hn : ¬ n < 10 := by omega
          unfold decBytes
          rw [if_neg hn, show n / 10 = m by omega, h1, hx2, show n % 10 = x by omega]

/-- Printing then parsing. -/
theorem parse_decBytes (max n : Nat) (h : n ≤ max) : parseUInt max 10 (decBytes n) = .ok n :=
  (parseUInt_ok_iff (by omega) _ _).mpr
    ⟨decBytes n, .inl rfl, decBytes_ne_nil n, digitsVal_decBytes n, h⟩

theorem decBytes_inj {a b : Nat} (h : decBytes a = decBytes b) : a = b := by
  have h1 := digitsVal_decBytes a
  rw [h, digitsVal_decBytes] at h1
  exact (Option.some.inj h1).symm

/-! ## Hex -/

theorem digitVal_hexDigit (d : Nat) (h : d < 16) : digitVal 16 (hexDigit d) = some d := by
  have : ∀ d : Fin 16, digitVal 16 (hexDigit d.1) = some d.1 := by decide
  exact this ⟨d, h⟩

theorem hexDigit_digitVal (b : UInt8) (x : Nat) (h : digitVal 16 b = some x)
    (hu : isUpperHex b = false) : x < 16 ∧ hexDigit x = b := by
  have hb := b.toNat_lt
  unfold isUpperHex at hu
  simp only [Bool.and_eq_false_iff, decide_eq_false_iff_not] at hu
  unfold digitVal at h
  simp only at h
  split at h
  · rename_i y hy
    split at h
    · cases h
      refine ⟨by assumption, ?_⟩
      unfold hexDigit
      split at hy
      · cases hy
        rw [if_pos (by omega), show 48 + (b.toNat - 48) = b.toNat by omega]
        exact UInt8.ofNat_toNat
      · split at hy
        · cases hy
          rw [if_neg (by omega), show 87 + (b.toNat - 87) = b.toNat by omega]
          exact UInt8.ofNat_toNat
        · split at hy
          · cases hy; omega
          · cases hy
    · cases h
  · cases h

theorem digitVal_lt {radix : Nat} {b : UInt8} {x : Nat} (h : digitVal radix b = some x) : x < radix := by
  unfold digitVal at h
  simp only at h
  split at h
  · split at h
    · cases h; assumption
    · cases h
  · cases h

theorem unhex_hexBytes (bs : Bytes) : unhex (hexBytes bs) = some bs := by
  induction bs with
  | nil => rfl
  | cons b bs ih =>
    have hb := b.toNat_lt
    have h1 := digitVal_hexDigit (b.toNat / 16) (by omega)
    have h2 := digitVal_hexDigit (b.toNat % 16) (by omega)
    show unhex (hexDigit (b.toNat / 16) :: hexDigit (b.toNat % 16) :: hexBytes bs) = _
    rw [unhex, h1, h2, ih]
    simp only [Option.some.injEq, List.cons.injEq, and_true]
    rw [Nat.div_add_mod]
    exact UInt8.ofNat_toNat

theorem hexBytes_length (bs : Bytes) : (hexBytes bs).length = 2 * bs.length := by
  induction bs with
  | nil => rfl
  | cons b bs ih => 
    show (hexBytes bs).length + 1 + 1 = _
    rw [ih, List.length_cons]; omega

theorem hexBytes_unhex : ∀ (s bs : Bytes), unhex s = some bs → (∀ c ∈ s, isUpperHex c = false) →
    hexBytes bs = s
  | [], bs, h, _ => by simp only [unhex, Option.some.injEq] at h; subst h; rfl
  | [_], bs, h, _ => by simp [unhex] at h
  | a :: b :: s, bs, h, hu => by
    simp only [unhex] at h
    split at h
    · rename_i x y r hx hy hr
      cases h
      obtain ⟨hx1, hx2⟩ := hexDigit_digitVal a x hx (hu a (by simp))
      obtain ⟨hy1, hy2⟩ := hexDigit_digitVal b y hy (hu b (by simp))
      have ih := hexBytes_unhex s r hr (fun c hc => hu c (by simp [hc]))
      show hexDigit ((UInt8.ofNat (16 * x + y)).toNat / 16) ::
        hexDigit ((UInt8.ofNat (16 * x + y)).toNat % 16) :: hexBytes r = _
      have e : (UInt8.ofNat (16 * x + y)).toNat = 16 * x + y := by
        rw [UInt8.toNat_ofNat']; omega
      rw [e, ih, show (16 * x + y) / 16 = x by omega, show (16 * x + y) % 16 = y by omega, hx2, hy2]
    · cases h

theorem unhex_length : ∀ (s bs : Bytes), unhex s = some bs → s.length = 2 * bs.length
  | [], bs, h => by simp only [unhex, Option.some.injEq] at h; subst h; rfl
  | [_], bs, h => by simp [unhex] at h
  | a :: b :: s, bs, h => by
    simp only [unhex] at h
    split at h
    · rename_i x y r hx hy hr
      cases h
      have := unhex_length s r hr
      simp only [List.length_cons]; omega
    · cases h

theorem hexBytes_digit (bs : Bytes) : ∀ c ∈ hexBytes bs, isUpperHex c = false ∧
    ((48 ≤ c.toNat ∧ c.toNat ≤ 57) ∨ (97 ≤ c.toNat ∧ c.toNat ≤ 102)) := by
  have h1 : ∀ d : Fin 16, isUpperHex (hexDigit d.1) = false ∧
    ((48 ≤ (hexDigit d.1).toNat ∧ (hexDigit d.1).toNat ≤ 57) ∨
      (97 ≤ (hexDigit d.1).toNat ∧ (hexDigit d.1).toNat ≤ 102)) := by decide
  intro c hc
  simp only [hexBytes, List.mem_flatMap, List.mem_cons, List.not_mem_nil, or_false] at hc
  obtain ⟨b, _, rfl | rfl⟩ := hc
  · have := b.toNat_lt
    exact h1 ⟨b.toNat / 16, by omega⟩
  · exact h1 ⟨b.toNat % 16, by omega⟩

end Btc
