import Verif.Serde.Amount
import Verif.Props.C86
import Verif.Props.C42
import Verif.Props.C91
/-!
# C92: amounts and fee rates survive serde
-/
namespace Btc.Serde
open Amt

/-- What the two types of amounts have in common; `good` is their range. -/
structure Lawful' {α : Type} (C : Conv α) (good : α → Prop) : Prop where
  back : ∀ a, good a → ∃ x, C.into a = some x ∧ SValid x ∧ C.tryFrom x = .ok a
  sound : ∀ x a, SValid x → C.tryFrom x = .ok a → good a
  total : ∀ x, SValid x → C.tryFrom x ≠ .error .panic

theorem unsigned_lawful : Lawful' unsigned Valid where
  back a ha := by
    have hx : SValid (a : Int) := by unfold Valid at ha; unfold SValid; omega
    obtain ⟨h1, _, _, _, _, _, h2, _⟩ := C40_conversions a a a a ha ha hx hx
    refine ⟨a, h1, hx, ?_⟩
    simp only [unsigned, h2]
    rw [if_neg (by omega)]
    simp [ofExcept]
  sound x a hx h := by
    obtain ⟨_, _, _, _, _, _, h2, _⟩ := C40_conversions 0 0 x x (by decide) (by decide) hx hx
    simp only [unsigned, h2] at h
    by_cases h0 : x < 0
    · rw [if_pos h0] at h; cases h
    · rw [if_neg h0] at h
      cases h
      unfold Valid; unfold SValid at hx; omega
  total x hx h := by
    obtain ⟨_, _, _, _, _, _, h2, _⟩ := C40_conversions 0 0 x x (by decide) (by decide) hx hx
    simp only [unsigned, h2] at h
    split at h <;> cases h

theorem signed_lawful : Lawful' signed SValid where
  back a ha := ⟨a, rfl, ha, rfl⟩
  sound x a hx h := by cases h; exact hx
  total x hx h := by cases h

theorem i64_of_valid {x : Int} (hx : SValid x) : -(2 ^ (64 - 1) : Nat) ≤ x ∧ x < (2 ^ (64 - 1) : Nat) := by
  unfold SValid at hx
  omega

theorem signed_ser {shw : Nat → Bytes} {parse : Bytes → Option Nat} (S : ShowLaws shw) (P : ParseLaws parse) (cast : Int → Nat) (st : Style)
    (x : Int) (hx : SValid x) : ∃ v, serSigned parse st x = some v ∧ ∀ F, deSigned cast shw st F v = .ok x := by
  cases st with
  | sat =>
    refine ⟨_, rfl, fun F => ?_⟩
    unfold deSigned
    simp only [deSint_ser F 64 x (i64_of_valid hx), (C40_signed_from_sat x x).2 ⟨rfl, hx⟩, ofExcept]
  | btc =>
    obtain ⟨b, h1, h2⟩ := C86_roundtrip_signed S P x hx .btc
    refine ⟨.f64 b, by simp [serSigned, h1], fun F => ?_⟩
    unfold deSigned
    simp only [deF64_ser, sFromBtc, h2, ofExcept]
  | str =>
    obtain ⟨s, h1, h2⟩ := C41_roundtrip_signed x hx .btc
    refine ⟨.str s, by simp [serSigned, h1], fun F => ?_⟩
    unfold deSigned
    simp only [deString_ser, h2, ofExcept]

theorem amount_ser {α : Type} {C : Conv α} {good : α → Prop} (L : Lawful' C good) {shw : Nat → Bytes} {parse : Bytes → Option Nat}
    (S : ShowLaws shw) (P : ParseLaws parse) (cast : Int → Nat) (st : Style) (a : α) (ha : good a) :
    ∃ v, serAmount C parse st a = some v ∧ ∀ F, deAmount C cast shw st F v = .ok a := by
  obtain ⟨x, h1, hx, h2⟩ := L.back a ha
  obtain ⟨v, h3, h4⟩ := signed_ser S P cast st x hx
  refine ⟨v, by simp [serAmount, h1, h3], fun F => ?_⟩
  unfold deAmount
  simp only [h4, h2]

/-- Every amount, signed or not, is read back exactly from satoshis, from a double and from text, in every data format. -/
theorem C92_amount {shw : Nat → Bytes} {parse : Bytes → Option Nat} (S : ShowLaws shw) (P : ParseLaws parse) (cast : Int → Nat) (st : Style) :
    (∀ a : Nat, a ≤ 2100000000000000 → ∃ v, serAmount unsigned parse st a = some v ∧ ∀ F, deAmount unsigned cast shw st F v = .ok a) ∧
    (∀ x : Int, x.natAbs ≤ 2100000000000000 → ∃ v, serAmount signed parse st x = some v ∧ ∀ F, deAmount signed cast shw st F v = .ok x) :=
  ⟨fun a ha => amount_ser unsigned_lawful S P cast st a ha,
    fun x hx => amount_ser signed_lawful S P cast st x (by unfold SValid; omega)⟩

theorem vec_ser {α : Type} {C : Conv α} {good : α → Prop} (L : Lawful' C good) {shw : Nat → Bytes} {parse : Bytes → Option Nat}
    (S : ShowLaws shw) (P : ParseLaws parse) (cast : Int → Nat) (st : Style) (l : List α) (hl : ∀ a ∈ l, good a) (hn : l.length < 2 ^ 60) :
    ∃ v, serAmountVec C parse st l = some v ∧ ∀ F, deAmountVec C cast shw st F v = .ok l := by
  have : ∃ vs, l.mapM (serAmount C parse st) = some vs ∧ vs.length = l.length ∧ ∀ F, readAll (deAmount C cast shw st F) vs = .ok l := by
    clear hn
    induction l with
    | nil => exact ⟨[], rfl, rfl, fun _ => rfl⟩
    | cons a l ih =>
      obtain ⟨vs, h2, h3, h4⟩ := ih fun b hb => hl b (by simp [hb])
      obtain ⟨v, h5, h6⟩ := amount_ser L S P cast st a (hl a (by simp))
      exact ⟨v :: vs, by simp [h2, h5], by simp [h3], fun F => by simp [readAll, h6, h4]⟩
  obtain ⟨vs, h1, h2, h3⟩ := this
  refine ⟨.seq vs, by simp [serAmountVec, h1], fun F => ?_⟩
  unfold deAmountVec
  rw [visit_fit rfl]
  simp only [canon, readVec]
  rw [if_neg (by split <;> simp [isizeMax] <;> omega), h3]

/-- Lists of amounts, of any length that fits in memory. -/
theorem C92_vec {shw : Nat → Bytes} {parse : Bytes → Option Nat} (S : ShowLaws shw) (P : ParseLaws parse) (cast : Int → Nat) (st : Style) :
    (∀ l : List Nat, (∀ a ∈ l, a ≤ 2100000000000000) → l.length < 2 ^ 60 →
      ∃ v, serAmountVec unsigned parse st l = some v ∧ ∀ F, deAmountVec unsigned cast shw st F v = .ok l) ∧
    (∀ l : List Int, (∀ x ∈ l, x.natAbs ≤ 2100000000000000) → l.length < 2 ^ 60 →
      ∃ v, serAmountVec signed parse st l = some v ∧ ∀ F, deAmountVec signed cast shw st F v = .ok l) :=
  ⟨fun l hl hn => vec_ser unsigned_lawful S P cast st l hl hn,
    fun l hl hn => vec_ser signed_lawful S P cast st l (fun x hx => by have := hl x hx; unfold SValid; omega) hn⟩

/-- Optional amounts as satoshis, in every data format. -/
theorem C92_opt_sat {shw : Nat → Bytes} {parse : Bytes → Option Nat} (S : ShowLaws shw) (P : ParseLaws parse) (cast : Int → Nat) :
    (∀ o : Option Nat, (∀ a ∈ o, a ≤ 2100000000000000) →
      ∃ v, serAmountOpt unsigned parse .sat o = some v ∧ ∀ F, deAmountOpt unsigned cast shw .sat F v = .ok o) ∧
    (∀ o : Option Int, (∀ x ∈ o, x.natAbs ≤ 2100000000000000) →
      ∃ v, serAmountOpt signed parse .sat o = some v ∧ ∀ F, deAmountOpt signed cast shw .sat F v = .ok o) := by
  obtain ⟨hu, hs⟩ := C92_amount S P cast .sat
  constructor
  · intro o ho
    cases o with
    | none => exact ⟨.none, rfl, fun F => deOption_none F _⟩
    | some a =>
      obtain ⟨v, h1, h2⟩ := hu a (ho a rfl)
      exact ⟨.some v, by simp [serAmountOpt, h1], fun F => deOption_some F _ v a (h2 F)⟩
  · intro o ho
    cases o with
    | none => exact ⟨.none, rfl, fun F => deOption_none F _⟩
    | some a =>
      obtain ⟨v, h1, h2⟩ := hs a (ho a rfl)
      exact ⟨.some v, by simp [serAmountOpt, h1], fun F => deOption_some F _ v a (h2 F)⟩

/-- Full statement: optional amounts survive as doubles and as text in every data format.  `Some(a)` is written as `a`, so this holds for
formats that give a plain value to the reader of an option (JSON), and for no format that answers only what was asked for (`C92_opt_refuted`). -/
theorem C92_opt_partial {shw : Nat → Bytes} {parse : Bytes → Option Nat} (S : ShowLaws shw) (P : ParseLaws parse) (cast : Int → Nat) (st : Style)
    (F : Fmt) (hst : st ≠ .sat) (h1 : ∀ b, F.other .option (.f64 b) = some (.some (.f64 b))) (h2 : ∀ s, F.other .option (.str s) = some (.some (.str s))) :
    (∀ o : Option Nat, (∀ a ∈ o, a ≤ 2100000000000000) →
      ∃ v, serAmountOpt unsigned parse st o = some v ∧ deAmountOpt unsigned cast shw st F v = .ok o) ∧
    (∀ o : Option Int, (∀ x ∈ o, x.natAbs ≤ 2100000000000000) →
      ∃ v, serAmountOpt signed parse st o = some v ∧ deAmountOpt signed cast shw st F v = .ok o) := by
  have key : ∀ {α : Type} (C : Conv α) (a : α) (v : SVal), serAmount C parse st a = some v →
      F.visit .option v = some (.some v) := by
    intro α C a v h
    unfold serAmount at h
    cases hi : C.into a with
    | none => rw [hi] at h; cases h
    | some x =>
      rw [hi] at h
      simp only [Option.bind_some] at h
      cases st with
      | sat => exact absurd rfl hst
      | btc =>
        simp only [serSigned] at h
        cases hf : sToFloatIn parse x .btc with
        | none => rw [hf] at h; cases h
        | some b => rw [hf] at h; cases h; rw [visit_misfit rfl, h1]
      | str =>
        simp only [serSigned] at h
        cases hf : sToStringIn x .btc with
        | none => rw [hf] at h; cases h
        | some b => rw [hf] at h; cases h; rw [visit_misfit rfl, h2]
  have opt : ∀ {α : Type} (C : Conv α) (a : α), serAmountOpt C parse st (some a) = serAmount C parse st a := by
    intro α C a
    cases st with
    | sat => exact absurd rfl hst
    | btc => rfl
    | str => rfl
  obtain ⟨hu, hs⟩ := C92_amount S P cast st
  constructor
  · intro o ho
    cases o with
    | none => exact ⟨.none, rfl, deOption_none F _⟩
    | some a =>
      obtain ⟨v, e1, e2⟩ := hu a (ho a rfl)
      refine ⟨v, (opt _ a).trans e1, ?_⟩
      unfold deAmountOpt deOption
      rw [key _ a v e1]
      simp only [e2]
  · intro o ho
    cases o with
    | none => exact ⟨.none, rfl, deOption_none F _⟩
    | some a =>
      obtain ⟨v, e1, e2⟩ := hs a (ho a rfl)
      refine ⟨v, (opt _ a).trans e1, ?_⟩
      unfold deAmountOpt deOption
      rw [key _ a v e1]
      simp only [e2]

/-- A format that answers only what was asked for refuses every `Some(a)` written by `as_btc::opt` and `as_str::opt`. -/
theorem C92_opt_refuted (shw : Nat → Bytes) (parse : Bytes → Option Nat) (cast : Int → Nat) (st : Style) (F : Fmt) (hst : st ≠ .sat)
    (hn : ∀ h v, F.other h v = none) (a : Nat) (v : SVal) (h : serAmountOpt unsigned parse st (some a) = some v) :
    deAmountOpt unsigned cast shw st F v = .error .refused := by
  have hm : fits F .option v = false := by
    cases st with
    | sat => exact absurd rfl hst
    | btc =>
      simp only [serAmountOpt, serAmount, serSigned] at h
      cases hi : unsigned.into a with
      | none => rw [hi] at h; cases h
      | some x =>
        rw [hi] at h
        simp only [Option.bind_some, serSigned] at h
        cases hf : sToFloatIn parse x .btc with
        | none => rw [hf] at h; cases h
        | some b => rw [hf] at h; cases h; rfl
    | str =>
      simp only [serAmountOpt, serAmount, serSigned] at h
      cases hi : unsigned.into a with
      | none => rw [hi] at h; cases h
      | some x =>
        rw [hi] at h
        simp only [Option.bind_some, serSigned] at h
        cases hf : sToStringIn x .btc with
        | none => rw [hf] at h; cases h
        | some b => rw [hf] at h; cases h; rfl
  unfold deAmountOpt deOption
  rw [visit_misfit hm, hn]

/-- Whatever was stored, an amount that is read is in range, and reading a single amount does not panic. -/
theorem C92_sound (shw : Nat → Bytes) (cast : Int → Nat) (st : Style) (F : Fmt) (v : SVal) :
    (∀ a, deAmount unsigned cast shw st F v = .ok a → a ≤ 2100000000000000) ∧
    (∀ x, deAmount signed cast shw st F v = .ok x → x.natAbs ≤ 2100000000000000) ∧
    deAmount unsigned cast shw st F v ≠ .error .panic ∧ deAmount signed cast shw st F v ≠ .error .panic := by
  have htext : ∀ s x, sFromStrIn s .btc = .ok x → SValid x := by
    intro s x h
    obtain ⟨_, n, hn, ⟨_, _, _, _, rfl⟩ | ⟨_, _, rfl⟩⟩ := (C41_parse_signed s .btc x).1 h
    · unfold SValid; omega
    · unfold SValid; omega
  have e1 : ∀ {ε : Type} (r : Except ε Int), (ofExcept r ≠ .error .panic) := by
    intro ε r; cases r <;> simp [ofExcept]
  have key : deSigned cast shw st F v ≠ .error .panic ∧ ∀ x, deSigned cast shw st F v = .ok x → SValid x := by
    unfold deSigned
    cases st with
    | sat =>
      cases hd : deSint 64 F v with
      | error e =>
        refine ⟨?_, fun x h => by cases h⟩
        rintro h
        cases h
        unfold deSint at hd
        split at hd
        · split at hd <;> cases hd
        · split at hd <;> cases hd
        · cases hd
      | ok z =>
        refine ⟨e1 _, fun x h => ?_⟩
        simp only [] at h
        cases hz : sFromSat z with
        | error e => rw [hz] at h; cases h
        | ok y =>
          have := (C40_signed_from_sat z y).1 hz
          rw [hz] at h; cases h
          rw [this.1]; exact this.2
    | btc =>
      cases hd : deF64 cast F v with
      | error e =>
        refine ⟨?_, fun x h => by cases h⟩
        rintro h
        cases h
        unfold deF64 at hd
        split at hd <;> cases hd
      | ok z =>
        refine ⟨e1 _, fun x h => ?_⟩
        simp only [sFromBtc, sFromFloatIn] at h
        cases hz : sFromStrIn (shw z) .btc with
        | error e => rw [hz] at h; cases h
        | ok y => rw [hz] at h; cases h; exact htext _ _ hz
    | str =>
      cases hd : deString F v with
      | error e =>
        refine ⟨?_, fun x h => by cases h⟩
        rintro h
        cases h
        unfold deString at hd
        split at hd
        · cases hd
        · split at hd <;> cases hd
        · cases hd
      | ok z =>
        refine ⟨e1 _, fun x h => ?_⟩
        simp only [] at h
        cases hz : sFromStrIn z .btc with
        | error e => rw [hz] at h; cases h
        | ok y => rw [hz] at h; cases h; exact htext _ _ hz
  have snd : ∀ {α : Type} {C : Conv α} {good : α → Prop}, Lawful' C good →
      (∀ a, deAmount C cast shw st F v = .ok a → good a) ∧ deAmount C cast shw st F v ≠ .error .panic := by
    intro α C good L
    unfold deAmount
    cases hd : deSigned cast shw st F v with
    | error e =>
      refine ⟨fun a h => (by cases h), fun h => ?_⟩
      cases h
      exact key.1 hd
    | ok x => exact ⟨fun a h => L.sound x a (key.2 x hd) h, fun h => L.total x (key.2 x hd) h⟩
  have hs := snd signed_lawful
  have hu := snd unsigned_lawful
  exact ⟨hu.1, fun x hx => by have := hs.1 x hx; unfold SValid at this; omega, hu.2, hs.2⟩

/-- A data format that believes a stored length, as binary formats do. -/
def trusting : Fmt where
  human := false
  structAsMap := false
  posAsUint := false
  sized := true
  lends := true
  other h v :=
    match h, v with
    | .seq, .uint 64 n => some (.seq (some n) [])
    | _, _ => none

/-- The memory for a list is reserved before it is read: a stored length of `2^60` or more makes reading panic, in all three modules, and in those for
fee rates. -/
theorem C92_vec_panic (shw : Nat → Bytes) (cast : Int → Nat) (st : Style) (rs : RateStyle) :
    ∃ F v, deAmountVec unsigned cast shw st F v = .error .panic ∧ deRateVec rs F v = .error .panic := by
  refine ⟨trusting, .uint 64 (2 ^ 60), ?_, ?_⟩
  · unfold deAmountVec
    rw [visit_misfit rfl]
    simp [trusting, readVec, isizeMax]
  · unfold deRateVec
    rw [visit_misfit rfl]
    simp [trusting, readVec, isizeMax]

/-- And only then. -/
theorem C92_vec_panic_only (shw : Nat → Bytes) (cast : Int → Nat) (st : Style) (F : Fmt) (v : SVal)
    (h : deAmountVec unsigned cast shw st F v = .error .panic) :
    ∃ n vs, F.visit .seq v = some (.seq (some n) vs) ∧ 2 ^ 60 ≤ n := by
  unfold deAmountVec at h
  split at h
  · rename_i hint vs hv
    unfold readVec at h
    split at h
    · rename_i hc
      cases hint with
      | none => simp [isizeMax] at hc
      | some n => exact ⟨n, vs, hv, by simp [isizeMax] at hc; omega⟩
    · exfalso
      clear hv
      induction vs with
      | nil => simp [readAll] at h
      | cons x vs ih =>
        rw [readAll] at h
        have := (C92_sound shw cast st F x).2.2.1
        cases hd : deAmount unsigned cast shw st F x with
        | error e => rw [hd] at h this; simp only [] at h; cases h; exact this rfl
        | ok a =>
          rw [hd] at h
          simp only [] at h
          cases hr : readAll (deAmount unsigned cast shw st F) vs with
          | error e => rw [hr] at h; simp only [] at h; cases h; exact ih hr
          | ok l => rw [hr] at h; cases h
  · cases h

/-! ### Fee rates -/

/-- Satoshis per million virtual bytes for a unit of the module, and the number written. -/
def unitOf : RateStyle → Nat
  | .kwuFloor => 4000
  | .vbFloor => 1000000
  | .vbCeil => 1000000
def written : RateStyle → Nat → Nat
  | .kwuFloor, r => r / 4000
  | .vbFloor, r => r / 1000000
  | .vbCeil, r => (r + 999999) / 1000000

def rateStep (F : Fmt) (de : Nat → Res Nat) (v : SVal) : R Nat :=
  match deUint 64 F v with
  | .error e => .error e
  | .ok n =>
    match fromSat n with
    | .error _ => .error .refused
    | .ok a => ofExcept (de a)
def deStep : RateStyle → Nat → Res Nat
  | .kwuFloor => rateFromKwu
  | .vbFloor => rateFromVb
  | .vbCeil => rateFromVb
theorem deRate_step (st : RateStyle) (F : Fmt) (v : SVal) : deRate st F v = rateStep F (deStep st) v := by
  unfold deRate rateStep deStep
  cases deUint 64 F v with
  | error e => rfl
  | ok n =>
    simp only []
    cases fromSat n with
    | error e => rfl
    | ok a => cases st <;> rfl

/-- A fee rate is read back rounded to a whole number of units, down or up as the module says, provided that rounded rate is at most 21 million
bitcoin per million virtual bytes; otherwise what was written is refused. -/
theorem C92_fee (st : RateStyle) (F : Fmt) (rate : Nat) (h : rate < 2 ^ 64) :
    deRate st F (serRate st rate) =
      if written st rate * unitOf st ≤ 2100000000000000 then .ok (written st rate * unitOf st) else .error .refused := by
  have hmul : ∀ w u, w ≤ 2100000000000000 → ofExcept (validOr .mul (checkedMul w u)) =
      if w * u ≤ 2100000000000000 then .ok (w * u) else .error .refused := by
    intro w u hw
    rw [(C40_unsigned w w u hw hw).2.2.1]
    unfold exactly
    by_cases hm : w * u ≤ 2100000000000000
    · rw [if_pos hm, if_pos (show Valid (w * u) from hm)]; rfl
    · rw [if_neg hm, if_neg (show ¬ Valid (w * u) from hm)]; rfl
  have key : ∀ u w, 0 < u → w ≤ rate → ∀ (de : Nat → Res Nat), (∀ a, de a = validOr .mul (checkedMul a u)) →
      rateStep F de (.uint 64 w) = if w * u ≤ 2100000000000000 then .ok (w * u) else .error .refused := by
    intro u w hu hwr de hde
    unfold rateStep
    rw [deUint_ser F 64 w (by omega)]
    simp only []
    by_cases hw : w ≤ 2100000000000000
    · rw [(C40_from_sat w w).2 ⟨rfl, hw⟩]
      simp only [hde]
      exact hmul w u hw
    · cases hf : fromSat w with
      | ok m => exact absurd ((C40_from_sat w m).1 hf).2 hw
      | error e =>
        simp only []
        rw [if_neg]
        have : w * 1 ≤ w * u := Nat.mul_le_mul_left w hu
        omega
  have hk : ∀ a, rateFromKwu a = validOr .mul (checkedMul a 4000) := fun a => by rw [rateFromKwu]
  have hv : ∀ a, rateFromVb a = validOr .mul (checkedMul a 1000000) := fun a => by rw [rateFromVb]
  rw [deRate_step]
  cases st with
  | kwuFloor =>
    simp only [serRate, written, unitOf, kwuFloor, deStep]
    exact key 4000 (rate / 4000) (by omega) (by omega) _ hk
  | vbFloor =>
    simp only [serRate, written, unitOf, vbFloor, deStep]
    exact key 1000000 (rate / 1000000) (by omega) (by omega) _ hv
  | vbCeil =>
    have e : divCeil rate 1000000 = (rate + 999999) / 1000000 := by
      unfold divCeil
      split <;> omega
    simp only [serRate, written, unitOf, vbCeil, deStep, e]
    exact key 1000000 ((rate + 999999) / 1000000) (by omega) (by omega) _ hv

/-- In particular a whole number of units up to the limit survives, and the largest fee rate is refused. -/
theorem C92_fee_exact (st : RateStyle) (F : Fmt) (n : Nat) (h : n * unitOf st ≤ 2100000000000000) :
    deRate st F (serRate st (n * unitOf st)) = .ok (n * unitOf st) ∧ deRate st F (serRate st (2 ^ 64 - 1)) = .error .refused := by
  have hw : written st (n * unitOf st) = n := by
    cases st <;> simp only [written, unitOf] <;> omega
  constructor
  · rw [C92_fee st F _ (by omega), hw, if_pos h]
  · rw [C92_fee st F _ (by omega), if_neg]
    cases st <;> simp only [written, unitOf] <;> omega

/-- Optional fee rates and lists of them. -/
theorem C92_fee_lists (st : RateStyle) (F : Fmt) :
    (∀ o : Option Nat, (∀ r ∈ o, ∃ n, r = n * unitOf st ∧ r ≤ 2100000000000000) → deRateOpt st F (serRateOpt st o) = .ok o) ∧
    (∀ l : List Nat, (∀ r ∈ l, ∃ n, r = n * unitOf st ∧ r ≤ 2100000000000000) → l.length < 2 ^ 60 → deRateVec st F (serRateVec st l) = .ok l) := by
  have one : ∀ r, (∃ n, r = n * unitOf st ∧ r ≤ 2100000000000000) → deRate st F (serRate st r) = .ok r := by
    rintro r ⟨n, rfl, h⟩
    exact (C92_fee_exact st F n h).1
  constructor
  · intro o ho
    cases o with
    | none => exact deOption_none F _
    | some r => exact deOption_some F _ _ r (one r (ho r rfl))
  · intro l hl hn
    unfold deRateVec serRateVec
    rw [visit_fit rfl]
    simp only [canon, readVec, List.length_map]
    rw [if_neg (by split <;> simp [isizeMax] <;> omega)]
    exact readAll_map _ _ l fun r hr => one r (hl r hr)

/-! ### Instances -/

/-- A format as in `C92_opt_partial`. -/
def json : Fmt where
  human := true
  structAsMap := true
  posAsUint := true
  sized := false
  lends := false
  other h v :=
    match h, v with
    | .option, .f64 b => some (.some (.f64 b))
    | .option, .str s => some (.some (.str s))
    | _, _ => none

example : ∃ shw parse, ∀ cast : Int → Nat, ∃ v, serAmountOpt unsigned parse .btc (some 12345) = some v ∧
    deAmountOpt unsigned cast shw .btc json v = .ok (some 12345) ∧
    deAmountOpt unsigned cast shw .btc (strict true true) v = .error .refused := by
  obtain ⟨shw, parse, S, P⟩ := laws_exist
  refine ⟨shw, parse, fun cast => ?_⟩
  obtain ⟨v, h1, h2⟩ := (C92_opt_partial S P cast .btc json (by decide) (fun _ => rfl) (fun _ => rfl)).1 (some 12345) (by simp)
  exact ⟨v, h1, h2, C92_opt_refuted shw parse cast .btc (strict true true) (by decide) (fun _ _ => rfl) 12345 v h1⟩
example : deRate .vbCeil json (serRate .vbCeil 1000001) = .ok 2000000 := by
  rw [C92_fee .vbCeil json _ (by decide)]; rfl
example : deRate .kwuFloor json (serRate .kwuFloor 2100000000003999) = .ok 2100000000000000 ∧
    deRate .kwuFloor json (serRate .kwuFloor 2100000000004000) = .error .refused := by
  rw [C92_fee .kwuFloor json _ (by decide), C92_fee .kwuFloor json _ (by decide)]; exact ⟨rfl, rfl⟩
example : deAmount unsigned (fun _ => 0) (fun _ => []) .sat json (.sint 64 (-1)) = .error .refused := by rfl
example : deAmount signed (fun _ => 0) (fun _ => []) .sat json (.sint 64 (-1)) = .ok (-1) := by rfl

end Btc.Serde
