import Verif.Text
/-!
# Printing numbers in radix 2, 8 and 16

`LowerHex`, `Octal` and `Binary` of Rust's unsigned integers without flags: no prefix, no leading zeros, lower case.
-/
namespace Btc

/-- The digits of a number, most significant first. -/
def radixBytes (r n : Nat) : Bytes :=
  if h : n < r ∨ r < 2 then [hexDigit n] else radixBytes r (n / r) ++ [hexDigit (n % r)]
termination_by n
decreasing_by exact Nat.div_lt_self (by omega) (by omega)

theorem digitVal_radix (r d : Nat) (hr : r ≤ 16) (hd : d < r) : digitVal r (hexDigit d) = some d := by
  have h : ∀ d : Fin 16, (if 48 ≤ (hexDigit d.1).toNat ∧ (hexDigit d.1).toNat ≤ 57 then some ((hexDigit d.1).toNat - 48)
    else if 97 ≤ (hexDigit d.1).toNat ∧ (hexDigit d.1).toNat ≤ 102 then some ((hexDigit d.1).toNat - 87)
    else if 65 ≤ (hexDigit d.1).toNat ∧ (hexDigit d.1).toNat ≤ 70 then some ((hexDigit d.1).toNat - 55)
    else none) = some d.1 := by decide
  unfold digitVal
  simp only [h ⟨d, by omega⟩]
  rw [if_pos hd]

theorem radixBytes_ne_nil (r n : Nat) : radixBytes r n ≠ [] := by
  unfold radixBytes
  split <;> simp

theorem digitsVal_radixBytes (r n : Nat) (h2 : 2 ≤ r) (hr : r ≤ 16) : digitsVal r 0 (radixBytes r n) = some n := by
  induction n using Nat.strongRecOn with
  | _ n ih =>
    unfold radixBytes
    split
    · rename_i h
      simp only [digitsVal, digitVal_radix r n hr (by omega)]
      simp
    · rename_i h
      rw [digitsVal_append, ih (n / r) (Nat.div_lt_self (by omega) (by omega))]
      simp only [Option.bind_some, digitsVal, digitVal_radix r (n % r) hr (Nat.mod_lt _ (by omega))]
      rw [Nat.mul_comm, Nat.div_add_mod]

theorem radixBytes_inj {r a b : Nat} (h2 : 2 ≤ r) (hr : r ≤ 16) (h : radixBytes r a = radixBytes r b) : a = b := by
  have h1 := digitsVal_radixBytes r a h2 hr
  rw [h, digitsVal_radixBytes r b h2 hr] at h1
  exact (Option.some.inj h1).symm

/-- Every character is one of `0-9a-f`. -/
theorem radixBytes_digit (r n : Nat) (h2 : 2 ≤ r) (hr : r ≤ 16) : ∀ c ∈ radixBytes r n, ∃ d, d < r ∧ c = hexDigit d := by
  induction n using Nat.strongRecOn with
  | _ n ih =>
    unfold radixBytes
    split
    · intro c hc
      simp only [List.mem_singleton] at hc
      exact ⟨n, by omega, hc⟩
    · intro c hc
      simp only [List.mem_append, List.mem_singleton] at hc
      rcases hc with hc | hc
      · exact ih (n / r) (Nat.div_lt_self (by omega) (by omega)) c hc
      · exact ⟨n % r, Nat.mod_lt _ (by omega), hc⟩

theorem hexDigit_char : ∀ d : Nat, d < 16 → (48 ≤ (hexDigit d).toNat ∧ (hexDigit d).toNat ≤ 57) ∨ (97 ≤ (hexDigit d).toNat ∧ (hexDigit d).toNat ≤ 102) := by
  intro d hd
  have : ∀ d : Fin 16, (48 ≤ (hexDigit d.1).toNat ∧ (hexDigit d.1).toNat ≤ 57) ∨ (97 ≤ (hexDigit d.1).toNat ∧ (hexDigit d.1).toNat ≤ 102) := by decide
  exact this ⟨d, hd⟩

/-- No superfluous leading zero. -/
theorem radixBytes_head (r n : Nat) (h2 : 2 ≤ r) (hr : r ≤ 16) (h : n ≠ 0) : ∃ b t, radixBytes r n = b :: t ∧ b ≠ 48 := by
  induction n using Nat.strongRecOn with
  | _ n ih =>
    unfold radixBytes
    split
    · rename_i hn
      refine ⟨_, _, rfl, ?_⟩
      have : ∀ d : Fin 16, d.1 ≠ 0 → hexDigit d.1 ≠ 48 := by decide
      exact this ⟨n, by omega⟩ h
    · rename_i hn
      have h0 : n / r ≠ 0 := by
        intro hc
        rcases Nat.div_eq_zero_iff.1 hc with h | h <;> omega
      obtain ⟨b, t, h1, h2⟩ := ih (n / r) (Nat.div_lt_self (by omega) (by omega)) h0
      exact ⟨b, t ++ [hexDigit (n % r)], by rw [h1]; rfl, h2⟩

theorem radixBytes_length (r k n : Nat) (h2 : 2 ≤ r) (hk : 0 < k) (h : n < r ^ k) : (radixBytes r n).length ≤ k := by
  induction k generalizing n with
  | zero => omega
  | succ k ih =>
    unfold radixBytes
    split
    · simp
    · rename_i hn
      simp only [List.length_append, List.length_singleton]
      have h1 : n / r < r ^ k := by
        rw [Nat.div_lt_iff_lt_mul (by omega)]
        rw [Nat.pow_succ] at h
        exact h
      have hk' : 0 < k := by
        rcases Nat.eq_zero_or_pos k with hk0 | hk0
        · rw [hk0] at h1
          simp only [Nat.pow_zero] at h1
          have h0 : n / r = 0 := Nat.lt_one_iff.1 h1
          rcases Nat.div_eq_zero_iff.1 h0 with h | h <;> omega
        · exact hk0
      have := ih (n / r) hk' h1
      omega

/-- Printing then parsing. -/
theorem parse_radixBytes (max r n : Nat) (h2 : 2 ≤ r) (hr : r ≤ 16) (h : n ≤ max) : parseUInt max r (radixBytes r n) = .ok n :=
  (parseUInt_ok_iff (by omega) _ _).mpr ⟨radixBytes r n, .inl rfl, radixBytes_ne_nil r n, digitsVal_radixBytes r n h2 hr, h⟩

end Btc
