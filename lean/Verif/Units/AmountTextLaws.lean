import Verif.Units.AmountText
import Verif.Props.C40
/-!
# Laws of amount parsing and formatting
-/
namespace Btc
namespace Amt

/-- A text without its underscores. -/
def clean (s : Bytes) : Bytes := s.filter (· ≠ 95)

/-- No underscore directly after an underscore; `prev` tells whether one precedes. -/
def okUs : Bool → Bytes → Bool
  | _, [] => true
  | prev, c :: cs => if c = 95 then !prev && okUs true cs else okUs false cs

theorem clean_cons_us (s : Bytes) : clean (95 :: s) = clean s := by simp [clean]
theorem clean_cons {c : UInt8} (h : c ≠ 95) (s : Bytes) : clean (c :: s) = c :: clean s := by simp [clean, h]
theorem clean_append (a b : Bytes) : clean (a ++ b) = clean a ++ clean b := by simp [clean]

theorem okUs_us (prev : Bool) (s : Bytes) : okUs prev (95 :: s) = (!prev && okUs true s) := by simp [okUs]
theorem okUs_cons {c : UInt8} (h : c ≠ 95) (prev : Bool) (s : Bytes) :
    okUs prev (c :: s) = okUs false s := by simp [okUs, h]

theorem okUs_none : ∀ (s : Bytes) (prev : Bool), 95 ∉ s → okUs prev s = true
  | [], _, _ => rfl
  | c :: cs, prev, h => by
    rw [okUs_cons (fun e => h (by rw [e]; exact List.mem_cons_self ..))]
    exact okUs_none cs false (fun hm => h (List.mem_cons_of_mem _ hm))

theorem clean_none (s : Bytes) (h : 95 ∉ s) : clean s = s := by
  unfold clean
  rw [List.filter_eq_self]
  intro a ha
  simp only [ne_eq, decide_eq_true_eq]
  intro e
  rw [e] at ha
  exact h ha

/-- `okUs true`: no underscore in front, no two adjacent. -/
theorem okUs_iff : ∀ (s : Bytes) (prev : Bool), okUs prev s = true ↔
    (prev = true → s.head? ≠ some 95) ∧ ¬ [95, 95] <:+: s
  | [], prev => by simp [okUs]
  | c :: cs, prev => by
    rw [List.infix_cons_iff]
    by_cases hc : c = 95
    · subst hc
      rw [okUs_us, Bool.and_eq_true, okUs_iff cs true]
      cases cs with
      | nil => cases prev <;> simp
      | cons d ds =>
        by_cases hd : d = 95
        · subst hd; cases prev <;> simp
        · have hd' : ¬ (95 : UInt8) = d := fun e => hd e.symm
          cases prev <;> simp [hd, hd']
    · have hc' : ¬ (95 : UInt8) = c := fun e => hc e.symm
      rw [okUs_cons hc, okUs_iff cs false]
      cases prev <;> simp [hc, hc']

theorem isDigit_iff (c : UInt8) : (48 ≤ c ∧ c ≤ 57) ↔ 48 ≤ c.toNat ∧ c.toNat ≤ 57 := by
  rw [UInt8.le_iff_toNat_le, UInt8.le_iff_toNat_le]
  exact Iff.rfl

theorem digitVal_of_digit {c : UInt8} (h : 48 ≤ c ∧ c ≤ 57) : digitVal 10 c = some (c.toNat - 48) := by
  have := (isDigit_iff c).1 h
  unfold digitVal
  simp only []
  rw [if_pos this]
  simp only []
  rw [if_pos (by omega)]

theorem digitVal_not_digit {c : UInt8} (h : ¬ (48 ≤ c ∧ c ≤ 57)) : digitVal 10 c = none := by
  have h' : ¬ _ := fun e => h ((isDigit_iff c).2 e)
  cases hd : digitVal 10 c with
  | none => rfl
  | some x =>
    exfalso
    unfold digitVal at hd
    simp only [] at hd
    rw [if_neg h'] at hd
    split at hd
    · rename_i y hy
      split at hy
      · cases hy
        rw [if_neg (by omega)] at hd
        cases hd
      · split at hy
        · cases hy
          rw [if_neg (by omega)] at hd
          cases hd
        · cases hy
    · cases hd

theorem pushDigit_eq {c : UInt8} (_h : 48 ≤ c ∧ c ≤ 57) (v : Nat) :
    pushDigit v c = if v * 10 + (c.toNat - 48) < 2 ^ 63 then some (v * 10 + (c.toNat - 48)) else none := by
  unfold pushDigit
  rw [Nat.mul_comm 10 v]
  by_cases h1 : v * 10 + (c.toNat - 48) < 2 ^ 63
  · rw [if_pos h1, if_pos (by omega)]
  · rw [if_neg h1]
    by_cases h2 : v * 10 < 2 ^ 63
    · rw [if_pos h2]
    · rw [if_neg h2]

theorem digitsVal_cons {c : UInt8} (h : 48 ≤ c ∧ c ≤ 57) (v : Nat) (s : Bytes) :
    digitsVal 10 v (c :: s) = digitsVal 10 (v * 10 + (c.toNat - 48)) s := by
  rw [digitsVal, digitVal_of_digit h]

theorem digitsVal_bad {c : UInt8} (h : ¬ (48 ≤ c ∧ c ≤ 57)) (v : Nat) (s : Bytes) :
    digitsVal 10 v (c :: s) = none := by
  rw [digitsVal, digitVal_not_digit h]

/-- The loop behind the decimal point. -/
theorem parseLoop_frac (M : Nat) (neg : Bool) : ∀ (s : Bytes) (i d v : Nat) (us : Bool) (dec' : Option Nat)
    (v' : Nat), v < 2 ^ 63 → d ≤ M →
    (parseLoop M neg i s (some d) us v = .ok (dec', v') ↔
      okUs (us || decide (i = 0)) s = true ∧ digitsVal 10 v (clean s) = some v' ∧ v' < 2 ^ 63 ∧
      d + (clean s).length ≤ M ∧ dec' = some (d + (clean s).length)) := by
  intro s
  induction s with
  | nil =>
    intro i d v us dec' v' hv hd
    simp only [parseLoop, okUs, clean, List.filter_nil, digitsVal, List.length_nil, Nat.add_zero,
      Except.ok.injEq, Prod.mk.injEq, Option.some.injEq, true_and]
    constructor
    · rintro ⟨e1, e2⟩; exact ⟨e2, by omega, hd, e1.symm⟩
    · rintro ⟨e1, _, _, e2⟩; exact ⟨e2.symm, e1⟩
  | cons c cs ih =>
    intro i d v us dec' v' hv hd
    unfold parseLoop
    simp only []
    by_cases hc : 48 ≤ c ∧ c ≤ 57
    · have h95 : c ≠ 95 := by intro e; subst e; exact absurd hc (by decide)
      rw [if_pos hc, pushDigit_eq hc, okUs_cons h95, clean_cons h95, digitsVal_cons hc, List.length_cons]
      by_cases hp : v * 10 + (c.toNat - 48) < 2 ^ 63
      · rw [if_pos hp]
        simp only []
        by_cases hm : d < M
        · rw [if_pos hm, ih (i + 1) (d + 1) _ false dec' v' hp hm]
          rw [show (false || decide (i + 1 = 0)) = false from rfl,
            show d + 1 + (clean cs).length = d + ((clean cs).length + 1) by omega]
        · rw [if_neg hm]
          constructor
          · intro h; cases h
          · rintro ⟨_, _, _, h, _⟩; omega
      · rw [if_neg hp]
        constructor
        · intro h; cases h
        · rintro ⟨_, h2, h3, _⟩
          have := digitsVal_ge (by omega) _ _ _ h2
          omega
    · rw [if_neg hc]
      by_cases h95 : c = 95
      · subst h95
        rw [if_pos rfl, okUs_us, clean_cons_us]
        by_cases hi : i = 0
        · rw [if_pos hi]
          constructor
          · intro h; cases h
          · rintro ⟨h, _⟩; simp [hi] at h
        · rw [if_neg hi]
          cases us with
          | true =>
            simp
          | false =>
            simp only [Bool.false_eq_true, if_false]
            rw [ih (i + 1) d v true dec' v' hv hd]
            simp [hi]
      · rw [if_neg h95]
        rw [clean_cons h95, digitsVal_bad hc]
        by_cases h46 : c = 46
        · rw [if_pos h46]
          simp
        · rw [if_neg h46]
          simp

/-- The loop before the decimal point. -/
theorem parseLoop_int (M : Nat) (neg : Bool) : ∀ (s : Bytes) (i v : Nat) (us : Bool) (dec' : Option Nat)
    (v' : Nat), v < 2 ^ 63 → (0 < M ∨ 46 ∉ s) →
    (parseLoop M neg i s none us v = .ok (dec', v') ↔
      okUs (us || decide (i = 0)) s = true ∧ v' < 2 ^ 63 ∧
      ((digitsVal 10 v (clean s) = some v' ∧ dec' = none) ∨
       ∃ ip fp, clean s = ip ++ 46 :: fp ∧ digitsVal 10 v (ip ++ fp) = some v' ∧ fp.length ≤ M ∧
         dec' = some fp.length)) := by
  intro s
  induction s with
  | nil =>
    intro i v us dec' v' hv hM
    simp only [parseLoop, okUs, clean, List.filter_nil, digitsVal, 
      Except.ok.injEq, Prod.mk.injEq, Option.some.injEq, true_and]
    constructor
    · rintro ⟨e1, e2⟩; exact ⟨by omega, .inl ⟨e2, e1.symm⟩⟩
    · rintro ⟨_, ⟨e1, e2⟩ | ⟨ip, fp, h, _⟩⟩
      · exact ⟨e2.symm, e1⟩
      · simp at h
  | cons c cs ih =>
    intro i v us dec' v' hv hM
    have hM' : 0 < M ∨ 46 ∉ cs := hM.imp id fun h hm => h (List.mem_cons_of_mem _ hm)
    unfold parseLoop
    simp only []
    by_cases hc : 48 ≤ c ∧ c ≤ 57
    · have h95 : c ≠ 95 := by intro e; subst e; exact absurd hc (by decide)
      have h46 : c ≠ 46 := by intro e; subst e; exact absurd hc (by decide)
      rw [if_pos hc, pushDigit_eq hc, okUs_cons h95, clean_cons h95, digitsVal_cons hc]
      have hsplit : (∃ ip fp, c :: clean cs = ip ++ 46 :: fp ∧ digitsVal 10 v (ip ++ fp) = some v' ∧
          fp.length ≤ M ∧ dec' = some fp.length) ↔
          ∃ ip fp, clean cs = ip ++ 46 :: fp ∧
            digitsVal 10 (v * 10 + (c.toNat - 48)) (ip ++ fp) = some v' ∧
            fp.length ≤ M ∧ dec' = some fp.length := by
        constructor
        · rintro ⟨ip, fp, h1, h2, h3⟩
          cases ip with
          | nil => simp only [List.nil_append, List.cons.injEq] at h1; exact absurd h1.1 h46
          | cons x ip =>
            simp only [List.cons_append, List.cons.injEq] at h1
            obtain ⟨rfl, h1⟩ := h1
            rw [List.cons_append, digitsVal_cons hc] at h2
            exact ⟨ip, fp, h1, h2, h3⟩
        · rintro ⟨ip, fp, h1, h2, h3⟩
          exact ⟨c :: ip, fp, by rw [h1]; rfl, by rw [List.cons_append, digitsVal_cons hc]; exact h2, h3⟩
      rw [hsplit]
      by_cases hp : v * 10 + (c.toNat - 48) < 2 ^ 63
      · rw [if_pos hp]
        simp only []
        rw [ih (i + 1) _ false dec' v' hp hM', show (false || decide (i + 1 = 0)) = false from rfl]
      · rw [if_neg hp]
        constructor
        · intro h; cases h
        · rintro ⟨_, h3, ⟨h2, _⟩ | ⟨ip, fp, _, h2, _⟩⟩
          · have := digitsVal_ge (by omega) _ _ _ h2
            omega
          · have := digitsVal_ge (by omega) _ _ _ h2
            omega
    · rw [if_neg hc]
      by_cases h95 : c = 95
      · subst h95
        rw [if_pos rfl, okUs_us, clean_cons_us]
        by_cases hi : i = 0
        · rw [if_pos hi]
          constructor
          · intro h; cases h
          · rintro ⟨h, _⟩; simp [hi] at h
        · rw [if_neg hi]
          cases us with
          | true =>
            simp
          | false =>
            simp only [Bool.false_eq_true, if_false]
            rw [ih (i + 1) v true dec' v' hv hM']
            simp [hi]
      · rw [if_neg h95]
        rw [clean_cons h95, digitsVal_bad hc]
        by_cases h46 : c = 46
        · subst h46
          have hpos : 0 < M := hM.resolve_right (by simp)
          rw [if_pos rfl]
          rw [if_neg (by omega), parseLoop_frac M neg cs (i + 1) 0 v false dec' v' hv (Nat.zero_le _),
            okUs_cons (by decide), show (false || decide (i + 1 = 0)) = false from rfl, Nat.zero_add]
          constructor
          · rintro ⟨h1, h2, h3, h4, h5⟩
            exact ⟨h1, h3, .inr ⟨[], clean cs, rfl, h2, h4, h5⟩⟩
          · rintro ⟨h1, h3, h | ⟨ip, fp, e1, e2, e3, e4⟩⟩
            · simp at h
            · cases ip with
              | nil =>
                simp only [List.nil_append, List.cons.injEq, true_and] at e1
                rw [e1]
                exact ⟨h1, e2, h3, e3, e4⟩
              | cons x ip =>
                simp only [List.cons_append, List.cons.injEq] at e1
                rw [← e1.1, List.cons_append, digitsVal_bad (by decide)] at e2
                cases e2
        · rw [if_neg h46]
          constructor
          · intro h; cases h
          · rintro ⟨_, _, h | ⟨ip, fp, e1, e2, _⟩⟩
            · simp at h
            · cases ip with
              | nil =>
                simp only [List.nil_append, List.cons.injEq] at e1
                exact absurd e1.1 h46
              | cons x ip =>
                simp only [List.cons_append, List.cons.injEq] at e1
                rw [← e1.1, List.cons_append, digitsVal_bad hc] at e2
                cases e2

theorem scaleUp_eq : ∀ (k v : Nat), v < 2 ^ 63 →
    scaleUp k v = if v * 10 ^ k < 2 ^ 63 then some (v * 10 ^ k) else none
  | 0, v, h => by rw [scaleUp, Nat.pow_zero, Nat.mul_one, if_pos h]
  | k + 1, v, h => by
    rw [scaleUp]
    have e : v * 10 ^ (k + 1) = 10 * v * 10 ^ k := by
      rw [Nat.pow_succ, ← Nat.mul_assoc, Nat.mul_comm (v * 10 ^ k) 10, Nat.mul_assoc]
    by_cases h1 : 10 * v < 2 ^ 63
    · rw [if_pos h1, scaleUp_eq k _ h1, e]
    · have : 10 * v * 1 ≤ 10 * v * 10 ^ k := Nat.mul_le_mul_left _ (Nat.pow_pos (by omega))
      rw [if_neg h1, e, if_neg (by omega)]

end Amt
end Btc
