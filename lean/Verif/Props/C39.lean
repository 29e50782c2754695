import Verif.Props.C41
/-!
# C39: amounts never leave the valid range

`Amount a` and `Signed x` are the values a caller can get hold of by any sequence of calls of the modelled
API, starting from nothing.
-/
namespace Btc
namespace Amt
namespace Reach

mutual
/-- Amounts (in satoshi) obtainable through the API. -/
inductive Amount : Nat → Prop
  | max : Amount MAX
  | fromSat {n a} : fromSat n = .ok a → Amount a
  | fromSatU32 {n a} : fromSatU32 n = some a → Amount a
  | fromBtcU16 {n a} : fromBtcU16 n = some a → Amount a
  | fromStrIn {s d a} : fromStrIn s d = .ok a → Amount a
  | fromStrWithDenom {alpha s a} : fromStrWithDenom alpha s = .ok a → Amount a
  | fromStr {alpha s a} : fromStrAmt alpha s = .ok a → Amount a
  | fromHex {s a} : fromSatHex s = some a → Amount a
  | fromUnprefixedHex {s a} : fromSatUnprefixedHex s = some a → Amount a
  | decode {bs a} : decode bs = .ok a → Amount a
  | checkedAdd {a b c} : Amount a → Amount b → checkedAdd a b = some (some c) → Amount c
  | checkedSub {a b c} : Amount a → Amount b → checkedSub a b = some c → Amount c
  | checkedMul {a n c} : Amount a → checkedMul a n = some c → Amount c
  | checkedDiv {a n c} : Amount a → checkedDiv a n = some c → Amount c
  | checkedRem {a n c} : Amount a → checkedRem a n = some c → Amount c
  | divNonZero {a n c} : Amount a → divNonZero a n = some c → Amount c
  | sum {xs : List (Res Nat)} {c} : (∀ a, .ok a ∈ xs → Amount a) → sum xs = some (.ok c) → Amount c
  | toUnsigned {x c} : Signed x → toUnsigned x = some (.ok c) → Amount c
  | unsignedAbs {x c} : Signed x → unsignedAbs x = some c → Amount c
  | mulByWeight {r w c} : mulByWeight r w = .ok c → Amount c
  | toFee {r w} : Amount (toFee r w)
/-- Signed amounts obtainable through the API. -/
inductive Signed : Int → Prop
  | max : Signed SMAX
  | min : Signed SMIN
  | fromSat {n a} : sFromSat n = .ok a → Signed a
  | fromSatI32 {n a} : sFromSatI32 n = some a → Signed a
  | fromBtcI16 {n a} : sFromBtcI16 n = some a → Signed a
  | fromSatU64 {n a} : sFromSatU64 n = some a → Signed a
  | fromStrIn {s d a} : sFromStrIn s d = .ok a → Signed a
  | fromStrWithDenom {alpha s a} : sFromStrWithDenom alpha s = .ok a → Signed a
  | fromStr {alpha s a} : sFromStrAmt alpha s = .ok a → Signed a
  | fromHex {s a} : sFromSatHex s = some a → Signed a
  | fromUnprefixedHex {s a} : sFromSatUnprefixedHex s = some a → Signed a
  | checkedAdd {a b c} : Signed a → Signed b → sCheckedAdd a b = some c → Signed c
  | checkedSub {a b c} : Signed a → Signed b → sCheckedSub a b = some c → Signed c
  | checkedMul {a n c} : Signed a → sCheckedMul a n = some c → Signed c
  | checkedDiv {a n c} : Signed a → sCheckedDiv a n = some c → Signed c
  | checkedRem {a n c} : Signed a → sCheckedRem a n = some c → Signed c
  | divNonZero {a n c} : Signed a → sDivNonZero a n = some c → Signed c
  | positiveSub {a b c} : Signed a → Signed b → positiveSub a b = some c → Signed c
  | sum {xs : List (Res Int)} {c} : (∀ a, .ok a ∈ xs → Signed a) → sSum xs = .ok c → Signed c
  | abs {a c} : Signed a → sAbs a = some c → Signed c
  | neg {a c} : Signed a → sNeg a = some c → Signed c
  | ofAmount {a c} : Amount a → toSigned a = some c → Signed c
  | negAmount {a c} : Amount a → Amt.neg a = some c → Signed c
  | signedSub {a b c} : Amount a → Amount b → signedSub a b = some c → Signed c
end

theorem valid_ok {n a : Nat} (h : Amt.fromSat n = .ok a) : Valid a := by
  have := (C40_from_sat n a).1 h
  rw [this.1]; exact this.2
theorem sValid_ok {n a : Int} (h : sFromSat n = .ok a) : SValid a := by
  have := (C40_signed_from_sat n a).1 h
  rw [this.1]; exact this.2
theorem valid_expect {n a : Nat} (h : expect (Amt.fromSat n) = some a) : Valid a := by
  cases hf : Amt.fromSat n with
  | error e => rw [hf] at h; cases h
  | ok b => rw [hf] at h; cases h; exact valid_ok hf
theorem sValid_expect {n a : Int} (h : expect (sFromSat n) = some a) : SValid a := by
  cases hf : sFromSat n with
  | error e => rw [hf] at h; cases h
  | ok b => rw [hf] at h; cases h; exact sValid_ok hf
theorem valid_okSat {n a : Nat} (h : okSat n = some a) : Valid a := by
  rw [okSat_eq] at h
  unfold exactly at h
  split at h
  · cases h; assumption
  · cases h
theorem sValid_okSat {n a : Int} (h : sOkSat n = some a) : SValid a := by
  rw [sOkSat_eq] at h
  unfold sExactly at h
  split at h
  · cases h; assumption
  · cases h
theorem valid_bind {o : Option Nat} {a : Nat} (h : o.bind okSat = some a) : Valid a := by
  cases o with
  | none => cases h
  | some n => exact valid_okSat h
theorem sValid_bind {o : Option Int} {a : Int} (h : o.bind sOkSat = some a) : SValid a := by
  cases o with
  | none => cases h
  | some n => exact sValid_okSat h

theorem valid_str {s d a} (h : Amt.fromStrIn s d = .ok a) : Valid a := ((C41_parse s d a).1 h).2.2.1
theorem sValid_str {s d v} (h : sFromStrIn s d = .ok v) : SValid v := by
  obtain ⟨_, n, hn, ⟨_, _, _, _, e⟩ | ⟨_, _, e⟩⟩ := (C41_parse_signed s d v).1 h
  · unfold SValid; omega
  · unfold SValid; omega

theorem valid_sum {xs : List (Res Nat)} {c : Nat} (h : Amt.sum xs = some (.ok c)) : Valid c := by
  have key : ∀ (xs : List (Res Nat)) (acc : Option (Res Nat)), (∀ a, acc = some (.ok a) → Valid a) →
      xs.foldl (fun acc x => acc.bind (sumStep · x)) acc = some (.ok c) → Valid c := by
    intro xs
    induction xs with
    | nil => intro acc ha h; exact ha c h
    | cons x xs ih =>
      intro acc ha h
      rw [List.foldl_cons] at h
      refine ih _ ?_ h
      intro a e
      cases acc with
      | none => cases e
      | some r =>
        rw [Option.bind_some] at e
        unfold sumStep at e
        split at e
        · rename_i p q
          unfold Amt.checkedAdd at e
          cases hu : u64Add p q with
          | none => rw [hu] at e; cases e
          | some n =>
            rw [hu] at e
            simp only [Option.map_some, Option.some.injEq] at e
            cases ho : okSat n with
            | none => rw [ho] at e; cases e
            | some m => rw [ho] at e; cases e; exact valid_okSat ho
        · cases e
  exact key xs _ (by intro a e; cases e; decide) h

theorem sValid_sum {xs : List (Res Int)} {c : Int} (h : sSum xs = .ok c) : SValid c := by
  have key : ∀ (xs : List (Res Int)) (acc : Res Int), (∀ a, acc = .ok a → SValid a) →
      xs.foldl sSumStep acc = .ok c → SValid c := by
    intro xs
    induction xs with
    | nil => intro acc ha h; exact ha c h
    | cons x xs ih =>
      intro acc ha h
      rw [List.foldl_cons] at h
      refine ih _ ?_ h
      intro a e
      unfold sSumStep at e
      split at e
      · rename_i p q
        cases ho : sCheckedAdd p q with
        | none => rw [ho] at e; cases e
        | some m => rw [ho] at e; cases e; exact sValid_bind ho
      · cases e
  exact key xs _ (by intro a e; cases e; decide) h

theorem valid_toUnsigned {x : Int} {c : Nat} (h : Amt.toUnsigned x = some (.ok c)) : Valid c := by
  unfold Amt.toUnsigned at h
  split at h
  · cases h
  · cases he : expect (Amt.fromSat (asU64 x)) with
    | none => rw [he] at h; cases h
    | some a => rw [he] at h; cases h; exact valid_expect he

theorem valid_mulByWeight {r w c : Nat} (h : Amt.mulByWeight r w = .ok c) : Valid c := by
  unfold Amt.mulByWeight at h
  split at h
  · split at h
    · rename_i hf
      cases h; exact valid_ok hf
    · cases h
  · cases h

end Reach
open Reach

/-- **C39.** Every `Amount` a caller can obtain, by any sequence of calls, is at most 21 million bitcoin. -/
theorem C39_amount {a : Nat} (h : Amount a) : a ≤ 2100000000000000 := by
  cases h with
  | max => decide
  | fromSat h => exact valid_ok h
  | fromSatU32 h => exact valid_expect h
  | fromBtcU16 h =>
    unfold fromBtcU16 at h
    obtain ⟨n, _, hn⟩ := Option.bind_eq_some_iff.1 h
    exact valid_expect hn
  | fromStrIn h => exact valid_str h
  | fromStrWithDenom h =>
    unfold fromStrWithDenom at h
    split at h
    · cases h
    · exact valid_str h
  | fromStr h =>
    unfold fromStrAmt at h
    split at h
    · split at h
      · cases h; decide
      · cases h
    · unfold fromStrWithDenom at h
      split at h
      · cases h
      · exact valid_str h
  | fromHex h => exact valid_bind h
  | fromUnprefixedHex h => exact valid_bind h
  | decode h => exact valid_ok h
  | checkedAdd _ _ h =>
    unfold checkedAdd at h
    obtain ⟨n, _, hn⟩ := Option.map_eq_some_iff.1 h
    exact valid_okSat hn
  | checkedSub _ _ h => exact valid_bind h
  | checkedMul _ h => exact valid_bind h
  | checkedDiv _ h => exact valid_bind h
  | checkedRem _ h => exact valid_bind h
  | divNonZero _ h => exact valid_expect h
  | sum _ h => exact valid_sum h
  | toUnsigned _ h => exact valid_toUnsigned h
  | unsignedAbs _ h =>
    unfold unsignedAbs at h
    split at h
    · cases h
    · split at h
      · rename_i hu
        cases h
        exact valid_toUnsigned hu
      · cases h
  | mulByWeight h => exact valid_mulByWeight h
  | toFee =>
    unfold toFee
    split
    · rename_i h; exact valid_mulByWeight h
    · decide

/-- **C39 (signed).** -/
theorem C39_signed {x : Int} (h : Signed x) : -2100000000000000 ≤ x ∧ x ≤ 2100000000000000 := by
  cases h with
  | max => decide
  | min => decide
  | fromSat h => exact sValid_ok h
  | fromSatI32 h => exact sValid_expect h
  | fromBtcI16 h =>
    unfold sFromBtcI16 at h
    obtain ⟨n, _, hn⟩ := Option.bind_eq_some_iff.1 h
    exact sValid_expect hn
  | fromSatU64 h => exact sValid_bind h
  | fromStrIn h => exact sValid_str h
  | fromStrWithDenom h =>
    unfold sFromStrWithDenom at h
    split at h
    · cases h
    · exact sValid_str h
  | fromStr h =>
    unfold sFromStrAmt at h
    split at h
    · split at h
      · cases h; decide
      · cases h
    · unfold sFromStrWithDenom at h
      split at h
      · cases h
      · exact sValid_str h
  | fromHex h =>
    obtain ⟨n, _, hn⟩ := Option.bind_eq_some_iff.1 h
    exact sValid_bind hn
  | fromUnprefixedHex h =>
    obtain ⟨n, _, hn⟩ := Option.bind_eq_some_iff.1 h
    exact sValid_bind hn
  | checkedAdd _ _ h => exact sValid_bind h
  | checkedSub _ _ h => exact sValid_bind h
  | checkedMul _ h => exact sValid_bind h
  | checkedDiv _ h => exact sValid_bind h
  | checkedRem _ h => exact sValid_bind h
  | divNonZero _ h =>
    unfold sDivNonZero at h
    split at h
    · cases h
    · exact sValid_expect h
  | positiveSub _ _ h =>
    unfold positiveSub at h
    split at h
    · cases h
    · exact sValid_bind h
  | sum _ h => exact sValid_sum h
  | abs _ h =>
    unfold sAbs at h
    split at h
    · cases h
    · exact sValid_expect h
  | neg _ h =>
    unfold sNeg at h
    split at h
    · cases h
    · exact sValid_expect h
  | ofAmount _ h => exact sValid_expect h
  | negAmount _ h =>
    obtain ⟨n, _, hn⟩ := Option.bind_eq_some_iff.1 h
    unfold sNeg at hn
    split at hn
    · cases hn
    · exact sValid_expect hn
  | signedSub _ _ h =>
    unfold signedSub at h
    split at h
    · exact sValid_bind h
    · cases h

/-- **C39 (no call panics on obtainable values).** The `expect`s and unchecked operations inside the API
rely on the range; on values a caller can hold they never fire. -/
theorem C39_no_panic {a b : Nat} {x y : Int} (ha : Amount a) (hb : Amount b) (hx : Signed x) (hy : Signed y)
    (n : Nat) (m : Int) (hm : m ≠ 0) :
    (checkedAdd a b).isSome ∧ (toSigned a).isSome ∧ (neg a).isSome ∧ (signedSub a b).isSome ∧
    (divNonZero a n).isSome ∧ (sNeg x).isSome ∧ (sAbs x).isSome ∧ (unsignedAbs x).isSome ∧
    (toUnsigned x).isSome ∧ (sDivNonZero x m).isSome ∧
    (∀ xs : List Nat, (∀ c ∈ xs, Amount c) → (sum (xs.map .ok)).isSome) ∧
    (∀ r, (divByFeeRateFloor a r).isSome ∧ (divByFeeRateCeil a r).isSome) := by
  have va : Valid a := C39_amount ha
  have vb : Valid b := C39_amount hb
  have vx : SValid x := C39_signed hx
  have vy : SValid y := C39_signed hy
  obtain ⟨h1, h2, h3, h4, h5, h6, h7, _⟩ := C40_conversions a b x y va vb vx vy
  obtain ⟨d1, d2⟩ := C40_div_nonzero a n x m va vx hm
  have hu : u64Mul a 1000 = some (a * 1000) := by
    unfold u64Mul
    rw [if_pos]
    unfold Valid at va; omega
  refine ⟨by rw [(C40_unsigned a b 0 va vb).1]; rfl, by rw [h1]; rfl, by rw [h2]; rfl, by rw [h3]; rfl,
    by rw [d1]; rfl, by rw [h4]; rfl, by rw [h5]; rfl, by rw [h6]; rfl, by rw [h7]; rfl, by rw [d2]; rfl,
    fun xs hxs => by rw [C40_sum xs fun c hc => C39_amount (hxs c hc)]; rfl, fun r => ⟨?_, ?_⟩⟩
  · unfold divByFeeRateFloor
    rw [hu]; rfl
  · unfold divByFeeRateCeil
    split
    · rfl
    · rw [hu]; rfl

/-- Every value in the range can be obtained, so the invariant is exact. -/
theorem C39_exact (a : Nat) (x : Int) :
    (Amount a ↔ a ≤ 2100000000000000) ∧ (Signed x ↔ -2100000000000000 ≤ x ∧ x ≤ 2100000000000000) :=
  ⟨⟨C39_amount, fun h => .fromSat ((C40_from_sat a a).2 ⟨rfl, h⟩)⟩,
   ⟨C39_signed, fun h => .fromSat ((C40_signed_from_sat x x).2 ⟨rfl, h⟩)⟩⟩

-- -(50 BTC - 1.5 BTC) is obtainable, and in range
example : Signed (-4850000000) := by
  refine .negAmount (a := 4850000000) (.checkedSub (a := 5000000000) (b := 150000000) ?_ ?_ ?_) ?_
  · exact (C39_exact _ 0).1.2 (by decide)
  · exact .fromStrIn (C41_lenient.2.2)
  · rfl
  · rw [(C40_conversions _ 0 0 0 (by decide) (by decide) (by decide) (by decide)).2.1]; rfl

end Amt
end Btc
