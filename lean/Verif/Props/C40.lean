import Verif.Units.Amount
/-!
# C40: checked amount arithmetic is exact
-/
namespace Btc
namespace Amt

/-- A valid amount: at most 21 million bitcoin. -/
def Valid (a : Nat) : Prop := a ≤ 2100000000000000

/-- A valid signed amount. -/
def SValid (a : Int) : Prop := -2100000000000000 ≤ a ∧ a ≤ 2100000000000000

instance (a : Nat) : Decidable (Valid a) := inferInstanceAs (Decidable (_ ≤ _))
instance (a : Int) : Decidable (SValid a) := inferInstanceAs (Decidable (_ ∧ _))

/-- "The exact result if it is valid, otherwise `None`". -/
def exactly (n : Nat) : Option Nat := if Valid n then some n else none
def sExactly (x : Int) : Option Int := if SValid x then some x else none

theorem okSat_eq (n : Nat) : okSat n = exactly n := by
  unfold okSat fromSat exactly
  by_cases h : n > MAX
  · rw [if_pos h, if_neg (fun hv => by unfold Valid at hv; unfold MAX at h; omega)]
  · rw [if_neg h, if_pos (by unfold Valid; unfold MAX at h; omega)]

theorem sOkSat_eq (x : Int) : sOkSat x = sExactly x := by
  unfold sOkSat sFromSat sExactly
  by_cases h : x < SMIN
  · rw [if_pos h, if_neg (fun hv => by unfold SValid at hv; unfold SMIN at h; omega)]
  · rw [if_neg h]
    by_cases h2 : x > SMAX
    · rw [if_pos h2, if_neg (fun hv => by unfold SValid at hv; unfold SMAX at h2; omega)]
    · rw [if_neg h2, if_pos (by unfold SValid; unfold SMAX at h2; unfold SMIN at h; omega)]

/-- Construction from satoshi: exactly the valid counts, unchanged. -/
theorem C40_from_sat (n m : Nat) : fromSat n = .ok m ↔ m = n ∧ Valid n := by
  unfold fromSat Valid MAX
  by_cases h : n > 21000000 * 100000000
  · rw [if_pos h]
    exact ⟨(fun e => by cases e), (fun e => by omega)⟩
  · rw [if_neg h]
    exact ⟨(fun e => by cases e; exact ⟨rfl, by omega⟩), (fun e => by rw [e.1])⟩

theorem C40_signed_from_sat (n m : Int) : sFromSat n = .ok m ↔ m = n ∧ SValid n := by
  unfold sFromSat SValid SMIN SMAX
  by_cases h : n < -21000000 * 100000000
  · rw [if_pos h]
    exact ⟨(fun e => by cases e), (fun e => by omega)⟩
  · rw [if_neg h]
    by_cases h2 : n > 21000000 * 100000000
    · rw [if_pos h2]
      exact ⟨(fun e => by cases e), (fun e => by omega)⟩
    · rw [if_neg h2]
      exact ⟨(fun e => by cases e; exact ⟨rfl, by omega⟩), (fun e => by rw [e.1])⟩

/-- The five checked operations on amounts; the outer `some` of `checked_add` says that its unchecked `u64`
addition cannot overflow. -/
theorem C40_unsigned (a b n : Nat) (ha : Valid a) (hb : Valid b) :
    checkedAdd a b = some (exactly (a + b)) ∧
    checkedSub a b = (if b ≤ a then some (a - b) else none) ∧
    checkedMul a n = exactly (a * n) ∧
    checkedDiv a n = (if n = 0 then none else some (a / n)) ∧
    checkedRem a n = (if n = 0 then none else some (a % n)) := by
  unfold Valid at ha hb
  refine ⟨?_, ?_, ?_, ?_, ?_⟩
  · unfold checkedAdd u64Add
    rw [if_pos (by omega), Option.map_some, okSat_eq]
  · unfold checkedSub u64Sub
    by_cases h : b ≤ a
    · rw [if_pos h, Option.bind_some, okSat_eq, exactly, if_pos]
      unfold Valid; omega
    · rw [if_neg h]; rfl
  · unfold checkedMul u64Mul
    by_cases h : a * n < 2 ^ 64
    · rw [if_pos h, Option.bind_some, okSat_eq]
    · rw [if_neg h, exactly, if_neg]
      · rfl
      · unfold Valid; omega
  · unfold checkedDiv u64Div
    by_cases h : n = 0
    · rw [if_pos h]; rfl
    · rw [if_neg h, Option.bind_some, okSat_eq, exactly, if_pos]
      unfold Valid
      have := Nat.div_le_self a n
      omega
  · unfold checkedRem u64Rem
    by_cases h : n = 0
    · rw [if_pos h]; rfl
    · rw [if_neg h, Option.bind_some, okSat_eq, exactly, if_pos]
      unfold Valid
      have := Nat.mod_le a n
      omega

theorem natAbs_valid {a : Int} : SValid a ↔ a.natAbs ≤ 2100000000000000 := by
  unfold SValid; omega

/-- The five checked operations on signed amounts; division truncates towards zero. -/
theorem C40_signed (a b n : Int) (ha : SValid a) (hb : SValid b) :
    sCheckedAdd a b = sExactly (a + b) ∧
    sCheckedSub a b = sExactly (a - b) ∧
    sCheckedMul a n = sExactly (a * n) ∧
    sCheckedDiv a n = (if n = 0 then none else some (a.tdiv n)) ∧
    sCheckedRem a n = (if n = 0 then none else some (a.tmod n)) := by
  have ha' := ha
  unfold SValid at ha hb
  refine ⟨?_, ?_, ?_, ?_, ?_⟩
  · unfold sCheckedAdd i64
    rw [if_pos (by omega), Option.bind_some, sOkSat_eq]
  · unfold sCheckedSub i64
    rw [if_pos (by omega), Option.bind_some, sOkSat_eq]
  · unfold sCheckedMul i64
    by_cases h : -(2 ^ 63) ≤ a * n ∧ a * n < 2 ^ 63
    · rw [if_pos h, Option.bind_some, sOkSat_eq]
    · rw [if_neg h, sExactly, if_neg]
      · rfl
      · unfold SValid; omega
  · unfold sCheckedDiv i64Div
    by_cases h : n = 0
    · rw [if_pos h, if_pos h]; rfl
    · rw [if_neg h, if_neg h, if_neg (by omega), Option.bind_some, sOkSat_eq, sExactly, if_pos]
      rw [natAbs_valid, Int.natAbs_tdiv]
      have : a.natAbs.div n.natAbs ≤ _ := Nat.div_le_self a.natAbs n.natAbs
      have := natAbs_valid.1 ha'
      omega
  · unfold sCheckedRem i64Rem
    by_cases h : n = 0
    · rw [if_pos h, if_pos h]; rfl
    · rw [if_neg h, if_neg h, if_neg (by omega), Option.bind_some, sOkSat_eq, sExactly, if_pos]
      rw [natAbs_valid, Int.natAbs_tmod]
      have := Nat.mod_le a.natAbs n.natAbs
      have := natAbs_valid.1 ha'
      omega

theorem expect_fromSat {n : Nat} (h : Valid n) : expect (fromSat n) = some n := by
  rw [(C40_from_sat n n).2 ⟨rfl, h⟩]; rfl
theorem expect_sFromSat {n : Int} (h : SValid n) : expect (sFromSat n) = some n := by
  rw [(C40_signed_from_sat n n).2 ⟨rfl, h⟩]; rfl

/-- Conversions, sign changes and division by a nonzero integer are exact and never panic. -/
theorem C40_conversions (a b : Nat) (x y : Int) (ha : Valid a) (hb : Valid b) (hx : SValid x)
    (hy : SValid y) :
    toSigned a = some (a : Int) ∧
    neg a = some (-(a : Int)) ∧
    signedSub a b = some ((a : Int) - b) ∧
    sNeg x = some (-x) ∧
    sAbs x = some (x.natAbs : Int) ∧
    unsignedAbs x = some x.natAbs ∧
    toUnsigned x = some (if x < 0 then .error ⟨false, false⟩ else .ok x.toNat) ∧
    positiveSub x y = (if 0 ≤ y ∧ y ≤ x then some (x - y) else none) := by
  unfold Valid at ha hb
  have hx' := hx
  unfold SValid at hx hy
  have sg : ∀ a : Nat, a ≤ 2100000000000000 → toSigned a = some (a : Int) := fun a ha => by
    unfold toSigned asI64
    rw [if_pos (by omega)]
    exact expect_sFromSat (by unfold SValid; omega)
  have ng : ∀ x : Int, SValid x → sNeg x = some (-x) := fun x hx => by
    unfold SValid at hx
    unfold sNeg i64
    rw [if_pos (by omega)]
    exact expect_sFromSat (by unfold SValid; omega)
  have ab : sAbs x = some (x.natAbs : Int) := by
    unfold sAbs i64
    by_cases h : x < 0
    · rw [if_pos h, if_pos (by omega), show (x.natAbs : Int) = -x by omega]
      exact expect_sFromSat (by unfold SValid; omega)
    · rw [if_neg h, if_pos (by omega), show (x.natAbs : Int) = x by omega]
      exact expect_sFromSat (by unfold SValid; omega)
  have tu : ∀ x : Int, SValid x →
      toUnsigned x = some (if x < 0 then .error ⟨false, false⟩ else .ok x.toNat) := fun x hx => by
    unfold SValid at hx
    unfold toUnsigned asU64
    by_cases h : x < 0
    · rw [if_pos h, if_pos h]
    · rw [if_neg h, if_neg h, if_neg h, expect_fromSat (by unfold Valid; omega)]
      rfl
  refine ⟨sg a ha, ?_, ?_, ng x hx', ab, ?_, tu x hx', ?_⟩
  · unfold neg
    rw [sg a ha, Option.bind_some]
    exact ng _ (by unfold SValid; omega)
  · unfold signedSub
    rw [sg a ha, sg b hb]
    simp only []
    unfold sCheckedSub i64
    rw [if_pos (by omega), Option.bind_some, sOkSat_eq, sExactly, if_pos]
    unfold SValid; omega
  · unfold unsignedAbs
    rw [ab]
    simp only []
    rw [tu _ (by unfold SValid; omega), if_neg (by omega)]
    simp
  · unfold positiveSub
    by_cases h : x < 0 ∨ y < 0 ∨ y > x
    · rw [if_pos h, if_neg (by omega)]
    · rw [if_neg h, if_pos (by omega)]
      unfold sCheckedSub i64
      rw [if_pos (by omega), Option.bind_some, sOkSat_eq, sExactly, if_pos]
      unfold SValid; omega

/-- Division by a nonzero integer (`NonZeroU64`, `NonZeroI64`) never panics. -/
theorem C40_div_nonzero (a n : Nat) (x m : Int) (ha : Valid a) (hx : SValid x) (hm : m ≠ 0) :
    divNonZero a n = some (a / n) ∧ sDivNonZero x m = some (x.tdiv m) := by
  constructor
  · unfold divNonZero
    apply expect_fromSat
    unfold Valid at *
    have := Nat.div_le_self a n
    omega
  · unfold sDivNonZero i64Div
    have hx' := natAbs_valid.1 hx
    rw [if_neg hm, if_neg (by omega)]
    simp only []
    apply expect_sFromSat
    rw [natAbs_valid, Int.natAbs_tdiv]
    have : x.natAbs.div m.natAbs ≤ _ := Nat.div_le_self x.natAbs m.natAbs
    omega

theorem fromBtc_aux (n c : Nat) (h1 : n * c < 2 ^ 64) (h2 : Valid (n * c)) :
    ((u64Mul n c).bind fun sats => expect (fromSat sats)) = some (n * c) := by
  unfold u64Mul
  rw [if_pos h1]
  exact expect_fromSat h2

theorem sFromBtc_aux (n c : Int) (h : SValid (n * c)) :
    ((i64 (n * c)).bind fun sats => expect (sFromSat sats)) = some (n * c) := by
  unfold i64
  rw [if_pos (by unfold SValid at h; omega)]
  exact expect_sFromSat h

/-- The small constructors never panic. -/
theorem C40_constructors (n : UInt32) (b : UInt16) (i : Int32) (j : Int16) :
    fromSatU32 n = some n.toNat ∧ fromBtcU16 b = some (b.toNat * 100000000) ∧
    sFromSatI32 i = some i.toInt ∧ sFromBtcI16 j = some (j.toInt * 100000000) := by
  have hn := n.toNat_lt
  have hb := b.toNat_lt
  have hi1 := Int32.le_toInt i
  have hi2 := Int32.toInt_lt i
  have hj1 := Int16.le_toInt j
  have hj2 := Int16.toInt_lt j
  refine ⟨?_, ?_, ?_, ?_⟩
  · exact expect_fromSat (by unfold Valid; omega)
  · exact fromBtc_aux _ _ (by omega) (by unfold Valid; omega)
  · exact expect_sFromSat (by unfold SValid; omega)
  · exact sFromBtc_aux _ _ (by unfold SValid; omega)

/-- A sum of amounts is the exact total if that is valid, an error otherwise; it never panics. -/
theorem C40_sum (xs : List Nat) (h : ∀ x ∈ xs, Valid x) :
    sum (xs.map .ok) = some (if Valid xs.sum then .ok xs.sum else .error .add) := by
  have key : ∀ (xs : List Nat) (acc : Nat), Valid acc → (∀ x ∈ xs, Valid x) →
      (xs.map (Except.ok (ε := MathOp))).foldl (fun acc x => acc.bind (sumStep · x)) (some (.ok acc)) =
        some (if Valid (acc + xs.sum) then .ok (acc + xs.sum) else .error .add) := by
    intro xs
    induction xs with
    | nil =>
      intro acc ha _
      rw [List.sum_nil, Nat.add_zero, if_pos ha]
      rfl
    | cons x xs ih =>
      intro acc ha hx
      have hxv := hx x (List.mem_cons_self ..)
      have hxs := fun y hy => hx y (List.mem_cons_of_mem _ hy)
      simp only [List.map_cons, List.foldl_cons, Option.bind_some]
      rw [List.sum_cons]
      have hstep : sumStep (.ok acc) (.ok x) = some (validOr .add (exactly (acc + x))) := by
        unfold sumStep
        simp only []
        rw [(C40_unsigned acc x 0 ha hxv).1]
        rfl
      rw [hstep]
      by_cases hv : Valid (acc + x)
      · rw [exactly, if_pos hv]
        simp only [validOr]
        rw [ih _ hv hxs, Nat.add_assoc]
      · rw [exactly, if_neg hv]
        have herr : ∀ ys : List (Res Nat),
            ys.foldl (fun acc x => acc.bind (sumStep · x)) (some (.error .add)) = some (.error .add) := by
          intro ys
          induction ys with
          | nil => rfl
          | cons y ys ih => rw [List.foldl_cons]; exact ih
        simp only [validOr]
        rw [herr, if_neg]
        unfold Valid at *
        omega
  have := key xs 0 (by unfold Valid; omega) h
  rw [Nat.zero_add] at this
  exact this

/-- A sum of signed amounts is the exact total if every partial sum is valid, an error otherwise. -/
theorem C40_signed_sum (xs : List Int) (h : ∀ x ∈ xs, SValid x) (v : Int) :
    sSum (xs.map .ok) = .ok v ↔
      v = xs.sum ∧ ∀ n, SValid (xs.take n).sum := by
  have key : ∀ (xs : List Int) (acc : Int), SValid acc → (∀ x ∈ xs, SValid x) →
      ((xs.map (Except.ok (ε := MathOp))).foldl sSumStep (.ok acc) = .ok v ↔
        v = acc + xs.sum ∧ ∀ n, SValid (acc + (xs.take n).sum)) := by
    intro xs
    induction xs with
    | nil =>
      intro acc ha _
      simp only [List.map_nil, List.foldl_nil, List.sum_nil, Int.add_zero, List.take_nil, Except.ok.injEq]
      exact ⟨fun e => ⟨e.symm, fun _ => ha⟩, fun e => e.1.symm⟩
    | cons x xs ih =>
      intro acc ha hx
      have hxv := hx x (List.mem_cons_self ..)
      have hxs := fun y hy => hx y (List.mem_cons_of_mem _ hy)
      simp only [List.map_cons, List.foldl_cons, List.sum_cons]
      have hstep : sSumStep (.ok acc) (.ok x) = validOr .add (sExactly (acc + x)) := by
        unfold sSumStep
        simp only []
        rw [(C40_signed acc x 0 ha hxv).1]
      rw [hstep]
      by_cases hv : SValid (acc + x)
      · rw [sExactly, if_pos hv]
        simp only [validOr]
        rw [ih _ hv hxs, Int.add_assoc]
        constructor
        · rintro ⟨e1, e2⟩
          refine ⟨e1, fun n => ?_⟩
          cases n with
          | zero => simpa using ha
          | succ n => rw [List.take_succ_cons, List.sum_cons, ← Int.add_assoc]; exact e2 n
        · rintro ⟨e1, e2⟩
          refine ⟨e1, fun n => ?_⟩
          have := e2 (n + 1)
          rw [List.take_succ_cons, List.sum_cons, ← Int.add_assoc] at this
          exact this
      · rw [sExactly, if_neg hv]
        have herr : ∀ ys : List (Res Int), ys.foldl sSumStep (.error .add) = .error .add := by
          intro ys
          induction ys with
          | nil => rfl
          | cons y ys ih => rw [List.foldl_cons]; exact ih
        simp only [validOr]
        rw [herr]
        constructor
        · intro e; cases e
        · rintro ⟨_, e2⟩
          have := e2 1
          simp only [List.take_succ_cons, List.take_zero, List.sum_cons, List.sum_nil, Int.add_zero] at this
          exact absurd this hv
  have := key xs 0 (by unfold SValid; omega) h
  simp only [Int.zero_add] at this
  exact this

example : Valid 2000000000000000 ∧ checkedAdd 2000000000000000 200000000000000 = some none ∧
    checkedMul 700000000000000 3 = some 2100000000000000 ∧ checkedMul (2 ^ 50) (2 ^ 14) = none := by decide
example : SValid (-7) ∧ sCheckedDiv (-7) 2 = some (-3) ∧ sCheckedRem (-7) 2 = some (-1) := by decide

end Amt
end Btc
