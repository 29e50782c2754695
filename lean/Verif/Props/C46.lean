import Verif.Props.C44
/-!
# C46: difficulty adjustment
-/

namespace Btc
namespace Pow
open U256

/-! ## C46 -/

/-- The limit of a network. -/
def limit (n : Network) : Nat := n.params.maxAttainable.val

/-- The time an adjustment period took, clamped to a quarter and four times two weeks. -/
def clamped (timespan : Int) : Nat := (max 302400 (min 4838400 timespan)).toNat

/-- The new target before it is rounded to compact form: `old * timespan / two weeks`, at most the
network limit. -/
def newTarget (n : Network) (old : Nat) (timespan : Int) : Nat :=
  min (limit n) (old * clamped timespan / 1209600)

theorem limit_lt (n : Network) (h : n ≠ .regtest) : limit n ≤ 0x0377ae00 * 2 ^ 208 := by
  cases n
  · decide
  · decide
  · decide
  · decide
  · exact absurd rfl h

theorem params_timespan (n : Network) : n.params.timespan = 1209600 := by cases n <;> rfl
theorem params_spacing (n : Network) : n.params.spacing = 600 := by cases n <;> rfl
theorem params_noRetargeting (n : Network) (h : n ≠ .regtest) : n.params.noRetargeting = false := by
  cases n <;> first | rfl | exact absurd rfl h

theorem clamped_bounds (ts : Int) : 302400 ≤ clamped ts ∧ clamped ts ≤ 4838400 := by
  unfold clamped; omega

theorem maxThreshold_val (prev : U256) (p : Params) (h : prev.val < 2 ^ 254) :
    (maxThreshold prev p).val = min (4 * prev.val) p.maxAttainable.val := by
  have hsh : (maxThresholdUnchecked prev).val = 4 * prev.val := by
    unfold maxThresholdUnchecked
    rw [val_shl _ _ (by omega)]
    generalize prev.val = v at *
    omega
  unfold maxThreshold
  generalize maxThresholdUnchecked prev = x at *
  generalize p.maxAttainable = y
  by_cases hc : le x y = true
  · rw [if_pos hc]
    have := (le_iff _ _).1 hc
    omega
  · rw [if_neg hc]
    have : ¬ x.val ≤ y.val := fun h => hc ((le_iff _ _).2 h)
    omega

/-- For every network with retargeting, every time span and every previous target within the limit, the
next target is the consensus formula in compact form; no panic. -/
theorem C46_formula (n : Network) (hn : n ≠ .regtest) (last : UInt32) (timespan : Int)
    (h : (fromCompact last).val ≤ limit n) :
    ∃ t : U256, t.val = newTarget n (fromCompact last).val timespan ∧
      fromNextWorkRequired last timespan n.params = some (toCompactLossy t) := by
  have hl := limit_lt n hn
  unfold fromNextWorkRequired
  rw [params_noRetargeting n hn, params_timespan]
  simp only [Bool.false_eq_true, if_false]
  have hclamp : clamp timespan ((1209600 >>> 2 : Nat) : Int) ((1209600 <<< 2 % 2 ^ 32 : Nat) : Int) =
      some (clamped timespan : Int) := by
    have e1 : (1209600 >>> 2 : Nat) = 302400 := by decide
    have e2 : (1209600 <<< 2 % 2 ^ 32 : Nat) = 4838400 := by decide
    rw [e1, e2]
    unfold clamp clamped
    rw [if_neg (by omega)]
    congr 1
    by_cases h1 : timespan < (302400 : Nat)
    · rw [if_pos h1]; omega
    · rw [if_neg h1]
      by_cases h2 : timespan > (4838400 : Nat)
      · rw [if_pos h2]; omega
      · rw [if_neg h2]; omega
  rw [hclamp]
  simp only [Int.toNat_natCast]
  obtain ⟨c1, c2⟩ := clamped_bounds timespan
  unfold newTarget
  generalize clamped timespan = ts at *
  generalize fromCompact last = prev at *
  have hmul : prev.val * ts < 2 ^ 256 := by
    have : prev.val * ts ≤ 0x0377ae00 * 2 ^ 208 * 4838400 := Nat.mul_le_mul (by omega) c2
    omega
  have m := (mulU64_spec prev (BitVec.ofNat 64 ts)).1
  rw [BitVec.toNat_ofNat, Nat.mod_eq_of_lt (show ts < 2 ^ 64 by omega), Nat.mod_eq_of_lt hmul] at m
  have ht : (ofU128 (BitVec.ofNat 128 1209600)).val = 1209600 := val_ofU128' _ (by omega)
  obtain ⟨r, e, hr⟩ := div_spec (mulU64 prev (BitVec.ofNat 64 ts)).1 (ofU128 (BitVec.ofNat 128 1209600))
    (by rw [ht]; omega)
  rw [e]
  rw [m, ht] at hr
  -- the maximum
  have hmax : (maxThreshold prev n.params).val = min (4 * prev.val) (limit n) :=
    maxThreshold_val prev n.params (by omega)
  clear hclamp e m ht
  generalize maxThreshold prev n.params = mx at *
  generalize limit n = lim at *
  have h4 : r.val ≤ 4 * prev.val := by
    rw [hr]
    apply Nat.div_le_of_le_mul
    have : prev.val * ts ≤ prev.val * 4838400 := Nat.mul_le_mul_left _ c2
    omega
  by_cases hc : le mx r = true
  · refine ⟨mx, ?_, by simp only [hc, if_true]⟩
    have := (le_iff _ _).1 hc
    rw [← hr]
    omega
  · refine ⟨r, ?_, by simp only [hc, Bool.false_eq_true, if_false]⟩
    have : ¬ mx.val ≤ r.val := fun h => hc ((le_iff _ _).2 h)
    rw [← hr]
    omega

/-- The adjustment from the first and the last header of a period: the base is the target of the last
header, on testnet4 (BIP 94) of the first one; the time span is the (signed) difference. -/
theorem C46_headers (n : Network) (hn : n ≠ .regtest) (first last : Header)
    (h : (fromCompact (if n = .testnet4 then first.bits else last.bits)).val ≤ limit n) :
    ∃ t : U256, t.val = newTarget n (fromCompact (if n = .testnet4 then first.bits else last.bits)).val
        ((last.time.toNat : Int) - first.time.toNat) ∧
      fromHeaders first last n.params = some (toCompactLossy t) := by
  have e : (if n.params.enforceBip94 = true then first.bits else last.bits) =
      if n = .testnet4 then first.bits else last.bits := by
    cases n <;> rfl
  unfold fromHeaders
  rw [e]
  exact C46_formula n hn _ _ h

/-- Before rounding, the target changes by at most a factor of four and respects the limit. -/
theorem C46_bounds (n : Network) (old : Nat) (timespan : Int) (h : old ≤ limit n) :
    old / 4 ≤ newTarget n old timespan ∧ newTarget n old timespan ≤ 4 * old ∧
    newTarget n old timespan ≤ limit n := by
  obtain ⟨c1, c2⟩ := clamped_bounds timespan
  unfold newTarget
  generalize clamped timespan = ts at *
  have h1 : old * 302400 ≤ old * ts := Nat.mul_le_mul_left _ c1
  have h2 : old * ts ≤ old * 4838400 := Nat.mul_le_mul_left _ c2
  generalize old * ts = p at *
  omega

/-- The resulting compact target never exceeds the network limit or the documented maximum transition
threshold. -/
theorem C46_limit (n : Network) (hn : n ≠ .regtest) (last new : UInt32) (timespan : Int)
    (h : (fromCompact last).val ≤ limit n) (hnew : fromNextWorkRequired last timespan n.params = some new) :
    (fromCompact new).val ≤ limit n ∧ (fromCompact new).val ≤ 4 * (fromCompact last).val ∧
    (fromCompact new).val ≤ (maxThreshold (fromCompact last) n.params).val := by
  obtain ⟨t, ht, e⟩ := C46_formula n hn last timespan h
  rw [e] at hnew
  cases hnew
  obtain ⟨-, b2, b3⟩ := C46_bounds n (fromCompact last).val timespan h
  have hlossy := (C44_lossy t).1
  have hl := limit_lt n hn
  refine ⟨Nat.le_trans hlossy (by rw [ht]; exact b3), Nat.le_trans hlossy (by rw [ht]; exact b2), ?_⟩
  rw [maxThreshold_val _ _ (Nat.lt_of_le_of_lt (Nat.le_trans h hl) (by decide))]
  exact Nat.le_min.2 ⟨Nat.le_trans hlossy (by rw [ht]; exact b2), Nat.le_trans hlossy (by rw [ht]; exact b3)⟩

/-- Regtest keeps its target. -/
theorem C46_regtest (last : UInt32) (timespan : Int) :
    fromNextWorkRequired last timespan (Network.params .regtest) = some last := rfl

/-- `min_transition_threshold` is documented as the minimum target after an adjustment.  It is not: the
rounding to compact form happens afterwards, so a valid adjustment on mainnet can end below it. -/
theorem C46_min_threshold_violated : ∃ last new, ∃ timespan : Int,
    (fromCompact last).val ≤ limit .bitcoin ∧
    fromNextWorkRequired last timespan (Network.params .bitcoin) = some new ∧
    (fromCompact new).val < (minThreshold (fromCompact last)).val := by
  have hv : (fromCompact 0x1b7fffff).val = 0x7fffff * 2 ^ 192 := by rw [C44_from_compact]; decide
  have hlim : (fromCompact 0x1b7fffff).val ≤ limit .bitcoin := by rw [hv]; decide
  obtain ⟨t, ht, e⟩ := C46_formula .bitcoin (by decide) 0x1b7fffff 0 hlim
  refine ⟨0x1b7fffff, _, 0, hlim, e, ?_⟩
  rw [hv] at ht
  have ht' : t.val = 0x1fffff * 2 ^ 192 + 2 ^ 191 + 2 ^ 190 := by rw [ht]; decide
  have hm : (minThreshold (fromCompact 0x1b7fffff)).val = t.val := by
    unfold minThreshold
    rw [val_shr _ _ (by omega), hv, ht']
  rw [hm]
  have hcan := C44_to_compact t
  have hcan2 : Canonical t.val 0x1fffff 27 := by
    rw [ht']
    exact ⟨by decide, by decide, fun _ => by decide, fun h => absurd h (by decide)⟩
  obtain ⟨q1, q2⟩ := canonical_unique hcan hcan2
  rw [compact_roundtrip_val t _ _ hcan2 q1 q2, ht']
  decide

/-- The unchecked shift wraps for large targets: on regtest, the maximum threshold of target `2^254`, which
is below the limit, is zero. -/
theorem C46_max_threshold_wraps (t : U256) (h : t.val = 2 ^ 254) :
    t.val ≤ limit .regtest ∧ (maxThreshold t (Network.params .regtest)).val = 0 := by
  refine ⟨by rw [h]; decide, ?_⟩
  have hs : (maxThresholdUnchecked t).val = 0 := by
    unfold maxThresholdUnchecked
    rw [val_shl _ _ (by omega), h]
  unfold maxThreshold
  rw [if_pos ((le_iff _ _).2 (by rw [hs]; exact Nat.zero_le _)), hs]

example : (ofNat (2 ^ 254)).val = 2 ^ 254 := by rw [val_ofNat]

/-- Where the walk back over minimum-difficulty blocks stops. -/
def Stops (lim : UInt32) (hdr : Nat → Header) (h : Nat) : Prop :=
  (hdr h).prev = genesisPrev ∨ h % 2016 = 0 ∨ (hdr h).bits ≠ lim

theorem walkBack_spec {ε : Type} (lim : UInt32) (hdr : Nat → Header) (get : Nat → Except ε Header)
    (hget : ∀ h, get h = .ok (hdr h)) : ∀ (height fuel : Nat), height ≤ fuel →
    ∃ h ≤ height, walkBack get 2016 lim fuel (hdr height) height = some (.ok (hdr h).bits) ∧
      Stops lim hdr h ∧ ∀ j, h < j → j ≤ height → ¬ Stops lim hdr j := by
  intro height
  induction height with
  | zero =>
    intro fuel _
    refine ⟨0, Nat.le_refl _, ?_, Or.inr (Or.inl rfl), fun j h1 h2 => by omega⟩
    unfold walkBack isRetarget
    by_cases hp : (hdr 0).prev ≠ genesisPrev
    · rw [if_pos hp]; simp
    · rw [if_neg hp]
  | succ height ih =>
    intro fuel hf
    by_cases hs : Stops lim hdr (height + 1)
    · refine ⟨height + 1, Nat.le_refl _, ?_, hs, fun j h1 h2 => by omega⟩
      unfold walkBack isRetarget
      by_cases hp : (hdr (height + 1)).prev ≠ genesisPrev
      · rw [if_pos hp]
        simp only [Nat.reduceEqDiff, if_false]
        rw [if_neg]
        rintro ⟨h1, h2⟩
        rcases hs with h | h | h
        · exact hp h
        · simp [h] at h1
        · exact h h2
      · rw [if_neg hp]
    · obtain ⟨f, rfl⟩ : ∃ f, fuel = f + 1 := ⟨fuel - 1, by omega⟩
      obtain ⟨h, k1, k2, k3, k4⟩ := ih f (by omega)
      refine ⟨h, by omega, ?_, k3, fun j j1 j2 => ?_⟩
      · unfold walkBack isRetarget
        have hp : (hdr (height + 1)).prev ≠ genesisPrev := fun e => hs (Or.inl e)
        have hm : (height + 1) % 2016 ≠ 0 := fun e => hs (Or.inr (Or.inl e))
        have hb : (hdr (height + 1)).bits = lim := Classical.byContradiction fun e => hs (Or.inr (Or.inr e))
        rw [if_pos hp]
        simp only [Nat.reduceEqDiff, if_false]
        rw [if_pos ⟨by simp [hm], hb⟩, Nat.add_sub_cancel, hget]
        exact k2
      · by_cases hj : j = height + 1
        · subst hj; exact hs
        · exact k4 j j1 (by omega)

/-- `next_target_after` on a chain of headers `hdr`: unchanged inside a period (main network, signet), the
testnet rules (minimum difficulty after twenty minutes, otherwise the last block that was not such a
block), and the adjustment at the end of a period from the first and last block of the period. -/
theorem C46_next_target {ε : Type} (n : Network) (hdr : Nat → Header) (height : Nat)
    (hh : height + 1 < 2 ^ 32) (newTime : UInt32) (get : Nat → Except ε Header)
    (hget : ∀ h, get h = .ok (hdr h)) :
    ((height + 1) % 2016 = 0 → nextTargetAfter (hdr height) height n.params (some newTime) get =
      (fromHeaders (hdr (height - 2015)) (hdr height) n.params).map .ok) ∧
    ((height + 1) % 2016 ≠ 0 → n = .bitcoin ∨ n = .signet →
      nextTargetAfter (hdr height) height n.params (some newTime) get = some (.ok (hdr height).bits)) ∧
    ((height + 1) % 2016 ≠ 0 → n = .testnet3 ∨ n = .testnet4 ∨ n = .regtest →
      (hdr height).time.toNat + 1200 < 2 ^ 32 →
      (newTime.toNat > (hdr height).time.toNat + 1200 →
        nextTargetAfter (hdr height) height n.params (some newTime) get =
          some (.ok (toCompactLossy n.params.maxAttainable))) ∧
      (newTime.toNat ≤ (hdr height).time.toNat + 1200 →
        ∃ h ≤ height, nextTargetAfter (hdr height) height n.params (some newTime) get =
            some (.ok (hdr h).bits) ∧
          Stops (toCompactLossy n.params.maxAttainable) hdr h ∧
          ∀ j, h < j → j ≤ height → ¬ Stops (toCompactLossy n.params.maxAttainable) hdr j)) := by
  have hmin : min (height + 1) (2 ^ 32 - 1) = height + 1 := by omega
  have hre : isRetarget (height + 1) 2016 = some (decide ((height + 1) % 2016 = 0)) := rfl
  unfold nextTargetAfter
  simp only [params_spacing, params_timespan, hmin]
  rw [if_neg (by omega), show 1209600 / 600 = 2016 from rfl, hre]
  refine ⟨fun h0 => ?_, fun h0 hn => ?_, fun h0 hn ht => ?_⟩
  · rw [decide_eq_true h0]
    simp only [hget]
  · rw [decide_eq_false h0]
    rcases hn with rfl | rfl <;> rfl
  · rw [decide_eq_false h0]
    have ha : n.params.allowMinDifficulty = true := by rcases hn with rfl | rfl | rfl <;> rfl
    simp only [ha, if_true]
    rw [if_neg (by omega), if_neg (by omega)]
    refine ⟨fun hgt => by rw [if_pos (by omega)], fun hle => ?_⟩
    rw [if_neg (by omega)]
    exact walkBack_spec _ hdr get hget height height (Nat.le_refl _)

/-- Inside a testnet period, timestamps of the last twenty minutes of the `u32` range make
`next_target_after` overflow (a panic in debug builds). -/
theorem C46_time_overflow {ε : Type} (n : Network) (hn : n = .testnet3 ∨ n = .testnet4 ∨ n = .regtest)
    (current : Header) (height : Nat) (hh : height + 1 < 2 ^ 32) (h0 : (height + 1) % 2016 ≠ 0)
    (newTime : UInt32) (get : Nat → Except ε Header) (ht : 2 ^ 32 ≤ current.time.toNat + 1200) :
    nextTargetAfter current height n.params (some newTime) get = none := by
  have hmin : min (height + 1) (2 ^ 32 - 1) = height + 1 := by omega
  have hre : isRetarget (height + 1) 2016 = some (decide ((height + 1) % 2016 = 0)) := rfl
  unfold nextTargetAfter
  simp only [params_spacing, params_timespan, hmin]
  rw [if_neg (by omega), show 1209600 / 600 = 2016 from rfl, hre, decide_eq_false h0]
  have ha : n.params.allowMinDifficulty = true := by rcases hn with rfl | rfl | rfl <;> rfl
  simp only [ha, if_true]
  rw [if_neg (by omega), if_pos (by omega)]

example : (fromCompact 0x1b7fffff).val ≤ limit .bitcoin ∧ (Network.bitcoin ≠ .regtest) := by
  refine ⟨?_, by decide⟩
  rw [C44_from_compact]; decide

end Pow
end Btc
