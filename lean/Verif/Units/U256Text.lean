import Verif.Units.U256Laws
/-! # Decimal text of `U256` -/
namespace Btc
namespace U256

theorem val_ten : (⟨0, 10⟩ : U256).val = 10 := by decide

theorem fmtLoop_spec : ∀ (i : Nat) (cur : U256) (acc : Bytes), cur.val < 10 ^ (i + 1) →
    fmtLoop i cur acc = some (decBytes cur.val ++ acc) := by
  intro i
  induction i with
  | zero =>
    intro cur acc h
    unfold fmtLoop
    obtain ⟨r, er, hr⟩ := rem_spec cur ⟨0, 10⟩ (by rw [val_ten]; omega)
    obtain ⟨q, eq, hq⟩ := div_spec cur ⟨0, 10⟩ (by rw [val_ten]; omega)
    rw [er, eq]
    rw [val_ten] at hr hq
    simp only []
    have hq0 : q.val = 0 := by omega
    rw [if_pos ((isZero_iff q).2 hq0)]
    unfold decBytes
    rw [if_pos (by omega)]
    simp only [List.cons_append, List.nil_append, Option.some.injEq, List.cons.injEq, and_true]
    apply UInt8.toNat.inj
    have hlo : r.lo.toNat = cur.val := by
      have : r.val = cur.val := by omega
      rw [← this]; rw [← this] at h; unfold val at h ⊢; omega
    simp only [UInt8.toNat_add, UInt8.toNat_ofNat', BitVec.toNat_setWidth, Nat.toUInt8, hlo]
    have : (48 : UInt8).toNat = 48 := rfl
    omega
  | succ i ih =>
    intro cur acc h
    unfold fmtLoop
    obtain ⟨r, er, hr⟩ := rem_spec cur ⟨0, 10⟩ (by rw [val_ten]; omega)
    obtain ⟨q, eq, hq⟩ := div_spec cur ⟨0, 10⟩ (by rw [val_ten]; omega)
    rw [er, eq]
    rw [val_ten] at hr hq
    simp only []
    have hlo : r.lo.toNat = cur.val % 10 := by unfold val at hr; unfold val; omega
    have hd : (r.lo.setWidth 8).toNat.toUInt8 + 48 = UInt8.ofNat (48 + cur.val % 10) := by
      apply UInt8.toNat.inj
      simp only [UInt8.toNat_add, UInt8.toNat_ofNat', BitVec.toNat_setWidth, Nat.toUInt8, hlo]
      have : (48 : UInt8).toNat = 48 := rfl
      omega
    rw [hd]
    by_cases hz : q.isZero = true
    · rw [if_pos hz]
      have hq0 := (isZero_iff q).1 hz
      unfold decBytes
      rw [if_pos (by omega), Nat.mod_eq_of_lt (by omega)]
      rfl
    · rw [if_neg hz]
      have hq0 : q.val ≠ 0 := fun e => hz ((isZero_iff q).2 e)
      rw [ih q _ (by rw [Nat.pow_succ 10 (i + 1)] at h; omega)]
      conv => rhs; unfold decBytes
      rw [if_neg (by omega), hq]
      simp

theorem display_eq (x : U256) : display x = some (decBytes x.val) := by
  unfold display
  by_cases h : x.isZero = true
  · rw [if_pos h, (isZero_iff x).1 h]
    unfold decBytes
    rfl
  · rw [if_neg h, fmtLoop_spec, List.append_nil]
    have := x.val_lt
    exact Nat.lt_trans this (by decide)

theorem digitsVal_shift (radix : Nat) : ∀ (ds : Bytes) (acc : Nat),
    digitsVal radix acc ds = (digitsVal radix 0 ds).map fun n => acc * radix ^ ds.length + n := by
  intro ds
  induction ds with
  | nil => intro acc; simp [digitsVal]
  | cons b ds ih =>
    intro acc
    simp only [digitsVal]
    split
    · rfl
    · next x hx =>
      rw [ih (acc * radix + x), ih (0 * radix + x)]
      cases digitsVal radix 0 ds with
      | none => rfl
      | some n =>
        simp only [Option.map_some, List.length_cons, Option.some.injEq, Nat.pow_succ, Nat.zero_mul,
          Nat.zero_add, Nat.add_mul]
        rw [Nat.mul_assoc, Nat.mul_comm radix, ← Nat.add_assoc]

theorem digitsVal_bound : ∀ (ds : Bytes) (n : Nat), digitsVal 10 0 ds = some n → n < 10 ^ ds.length := by
  intro ds
  induction ds with
  | nil => intro n h; simp [digitsVal] at h; subst h; simp
  | cons b ds ih =>
    intro n h
    simp only [digitsVal] at h
    split at h
    · cases h
    · next x hx =>
      rw [digitsVal_shift] at h
      cases hd : digitsVal 10 0 ds with
      | none => rw [hd] at h; cases h
      | some m =>
        rw [hd] at h
        simp only [Option.map_some, Option.some.injEq] at h
        have h1 := ih m hd
        have h2 := digitVal_lt hx
        rw [List.length_cons, Nat.pow_succ, ← h]
        have h3 : (0 * 10 + x + 1) * 10 ^ ds.length ≤ 10 * 10 ^ ds.length :=
          Nat.mul_le_mul_right _ (by omega)
        rw [Nat.add_mul] at h3
        omega

theorem val_pow38 : (ofU128 (BitVec.ofNat 128 (10 ^ 38))).val = 10 ^ 38 := by decide

theorem val_ofU128 (n : Nat) (h : n < 2 ^ 128) : (ofU128 (BitVec.ofNat 128 n)).val = n := by
  unfold ofU128 val
  have : (0 : BitVec 128).toNat = 0 := rfl
  simp only [this, BitVec.toNat_ofNat]
  omega

/-- A run of the loop: any number of chunks of at most 38 digits; the value so far is multiplied by
`10^38` for every chunk. -/
theorem fromStrLoop_spec : ∀ (chunks : List Bytes) (res : U256) (n : Nat),
    (∀ c ∈ chunks, c.length = 38) → digitsVal 10 res.val chunks.flatten = some n →
    (n < 2 ^ 256 → ∃ x, fromStrLoop chunks res = .ok x ∧ x.val = n) ∧
    (2 ^ 256 ≤ n → fromStrLoop chunks res = .error .overflow) := by
  intro chunks
  induction chunks with
  | nil =>
    intro res n _ h
    simp only [List.flatten_nil, digitsVal, Option.some.injEq] at h
    have := res.val_lt
    exact ⟨fun _ => ⟨res, rfl, h⟩, fun h' => by omega⟩
  | cons c cs ih =>
    intro res n hl h
    have hc := hl c (List.mem_cons_self ..)
    rw [List.flatten_cons, digitsVal_append, digitsVal_shift] at h
    cases hv : digitsVal 10 0 c with
    | none => rw [hv] at h; cases h
    | some v =>
      rw [hv, hc] at h
      simp only [Option.map_some, Option.bind_some] at h
      have hvb := digitsVal_bound c v hv
      rw [hc] at hvb
      have h38 : (10 : Nat) ^ 38 < 2 ^ 128 := by decide
      have hparse : parseUInt (2 ^ 128 - 1) 10 c = .ok v :=
        (parseUInt_ok_iff (by omega) _ _).2
          ⟨c, Or.inl rfl, by intro e; rw [e] at hc; simp at hc, hv, by omega⟩
      have m := overflowingMul_spec res (ofU128 (BitVec.ofNat 128 (10 ^ 38)))
      rw [val_pow38] at m
      have a := overflowingAdd_spec (overflowingMul res (ofU128 (BitVec.ofNat 128 (10 ^ 38)))).1
        (ofU128 (BitVec.ofNat 128 v))
      rw [val_ofU128 v (by omega), m.1] at a
      unfold fromStrLoop
      rw [hparse]
      simp only []
      have hge := digitsVal_ge (by omega) _ _ _ h
      generalize overflowingMul res (ofU128 (BitVec.ofNat 128 (10 ^ 38))) = r1 at *
      generalize overflowingAdd r1.1 (ofU128 (BitVec.ofNat 128 v)) = r2 at *
      generalize res.val * 10 ^ 38 = t at *
      have hflag : (r1.2 || r2.2) = true ↔ 2 ^ 256 ≤ t + v := by
        rw [Bool.or_eq_true, m.2, a.2]
        by_cases ht : 2 ^ 256 ≤ t
        · exact ⟨fun _ => by omega, fun _ => Or.inl ht⟩
        · rw [Nat.mod_eq_of_lt (by omega)]
          omega
      by_cases hf : (r1.2 || r2.2) = true
      · rw [if_pos hf]
        have := hflag.1 hf
        exact ⟨fun h' => by omega, fun _ => rfl⟩
      · rw [if_neg hf]
        have hlt : ¬ 2 ^ 256 ≤ t + v := fun h' => hf (hflag.2 h')
        have e2 : r2.1.val = t + v := by
          rw [a.1, Nat.mod_eq_of_lt (show t < 2 ^ 256 by omega), Nat.mod_eq_of_lt (by omega)]
        rw [← e2] at h
        exact ih r2.1 n (fun c' hc' => hl c' (List.mem_cons_of_mem _ hc')) h

theorem chunks38_spec : ∀ (fuel : Nat) (s : Bytes), s.length % 38 = 0 → s.length ≤ fuel →
    (∀ c ∈ chunks38 fuel s, c.length = 38) ∧ (chunks38 fuel s).flatten = s := by
  intro fuel
  induction fuel with
  | zero =>
    intro s h1 h2
    have : s = [] := List.length_eq_zero_iff.1 (by omega)
    subst this
    exact ⟨by simp [chunks38], rfl⟩
  | succ fuel ih =>
    intro s h1 h2
    unfold chunks38
    cases s with
    | nil => exact ⟨by simp, rfl⟩
    | cons b s =>
      rw [if_neg (by simp)]
      have hl : 38 ≤ (b :: s).length := by simp only [List.length_cons] at *; omega
      obtain ⟨i1, i2⟩ := ih ((b :: s).drop 38) (by rw [List.length_drop]; omega)
        (by rw [List.length_drop]; omega)
      refine ⟨?_, ?_⟩
      · intro c hc
        rcases List.mem_cons.1 hc with rfl | hc
        · rw [List.length_take]; omega
        · exact i1 c hc
      · rw [List.flatten_cons, i2, List.take_append_drop]

/-- The value of a string of digits of any length, or overflow. -/
theorem fromStr_digits (s : Bytes) (n : Nat) (hne : s ≠ []) (h : digitsVal 10 0 s = some n) :
    (n < 2 ^ 256 → ∃ x, fromStr s = .ok x ∧ x.val = n) ∧
    (2 ^ 256 ≤ n → fromStr s = .error .overflow) := by
  unfold fromStr
  rw [if_neg (by simpa using hne)]
  unfold rchunks38
  simp only []
  have hlen : (s.drop (s.length % 38)).length % 38 = 0 := by rw [List.length_drop]; omega
  obtain ⟨c1, c2⟩ := chunks38_spec s.length (s.drop (s.length % 38)) hlen (by rw [List.length_drop]; omega)
  by_cases hr : s.length % 38 = 0
  · rw [if_pos hr, List.nil_append]
    refine fromStrLoop_spec _ zero n c1 ?_
    rw [c2, val_zero, hr]
    exact h
  · rw [if_neg hr, List.cons_append, List.nil_append]
    have h' := h
    rw [← List.take_append_drop (s.length % 38) s, digitsVal_append] at h'
    generalize hr' : s.length % 38 = r at *
    cases hv : digitsVal 10 0 (s.take r) with
    | none => rw [hv] at h'; cases h'
    | some v =>
      rw [hv, Option.bind_some] at h'
      have hvb := digitsVal_bound _ v hv
      have h38 : (10 : Nat) ^ 38 < 2 ^ 128 := by decide
      have hle : (10 : Nat) ^ (s.take r).length ≤ 10 ^ 38 :=
        Nat.pow_le_pow_right (by omega) (by rw [List.length_take]; omega)
      have hparse : parseUInt (2 ^ 128 - 1) 10 (s.take r) = .ok v :=
        (parseUInt_ok_iff (by omega) _ _).2
          ⟨_, Or.inl rfl, by
            intro e
            have := congrArg List.length e
            rw [List.length_take] at this
            simp only [List.length_nil] at this
            omega, hv, by omega⟩
      unfold fromStrLoop
      rw [hparse]
      simp only []
      have m := overflowingMul_spec zero (ofU128 (BitVec.ofNat 128 (10 ^ 38)))
      rw [val_zero, Nat.zero_mul] at m
      have a := overflowingAdd_spec (overflowingMul zero (ofU128 (BitVec.ofNat 128 (10 ^ 38)))).1
        (ofU128 (BitVec.ofNat 128 v))
      rw [val_ofU128 v (by omega), m.1] at a
      generalize overflowingMul zero (ofU128 (BitVec.ofNat 128 (10 ^ 38))) = r1 at *
      generalize overflowingAdd r1.1 (ofU128 (BitVec.ofNat 128 v)) = r2 at *
      have f1 : ¬ (r1.2 || r2.2) = true := by
        rw [Bool.or_eq_true, m.2, a.2]
        omega
      rw [if_neg f1]
      have e2 : r2.1.val = v := by rw [a.1]; omega
      rw [← e2] at h'
      exact fromStrLoop_spec _ r2.1 n c1 (by rw [c2]; exact h')

end U256
end Btc
