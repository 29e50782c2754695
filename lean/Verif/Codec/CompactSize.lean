import Verif.Codec.Laws
/-!
# Compact sizes: encoder against decoder
-/
namespace Btc

theorem csEncode_length (v : Nat) : (csEncode v).length = csSize v := by
  unfold csEncode csSize
  split; rfl
  split; simp
  split <;> simp

theorem csSize_pos (v : Nat) : 0 < csSize v := by
  unfold csSize; split; omega; split; omega; split <;> omega

theorem ofNat_ne_marker {v : Nat} (h : v ≤ 0xFC) :
    UInt8.ofNat v ≠ 0xFF ∧ UInt8.ofNat v ≠ 0xFE ∧ UInt8.ofNat v ≠ 0xFD := by
  refine ⟨?_, ?_, ?_⟩ <;>
  · intro hc
    have := congrArg UInt8.toNat hc
    simp [UInt8.toNat_ofNat'] at this
    omega

theorem csComplete_csEncode (v : Nat) : csComplete (csEncode v) := by
  unfold csEncode
  split
  · rename_i h
    obtain ⟨h1, h2, h3⟩ := ofNat_ne_marker h
    simp [csComplete, csNeed, h1, h2, h3]
  · split
    · simp [csComplete, csNeed]
    · split <;> simp [csComplete, csNeed]

theorem csDecode_csEncode (v : Nat) (hv : v < 2 ^ 64) : csDecode (csEncode v) = .ok v := by
  unfold csEncode
  split
  · rename_i h
    obtain ⟨h1, h2, h3⟩ := ofNat_ne_marker h
    simp [csDecode, h1, h2, h3]
    omega
  · split
    · simp [csDecode]
      rw [leNat_leBytes 2 v (by omega), if_neg (by omega)]
    · split
      · simp [csDecode]
        rw [leNat_leBytes 4 v (by omega), if_neg (by omega)]
      · simp [csDecode]
        rw [leNat_leBytes 8 v (by omega), if_neg (by omega)]

/-- Acceptance forces the canonical bytes. -/
theorem csDecode_ok {p : Bytes} {v : Nat} (hc : csComplete p) (h : csDecode p = .ok v) :
    p = csEncode v ∧ v < 2 ^ 64 := by
  match p with
  | [] => exact hc.elim
  | b0 :: t =>
    have hlt := leNat_lt t
    simp only [csDecode] at h
    split at h
    · rename_i hb
      split at h
      · rename_i hl
        split at h
        · cases h
        · rename_i hm
          cases h
          rw [hl] at hlt
          refine ⟨?_, by simpa using hlt⟩
          unfold csEncode
          rw [if_neg (by omega), if_neg (by omega), if_neg (by omega), hb, leBytes_leNat' 8 t hl]
      · cases h
    · split at h
      · rename_i hb
        split at h
        · rename_i hl
          split at h
          · cases h
          · rename_i hm
            cases h
            rw [hl] at hlt
            refine ⟨?_, by simp at hlt ⊢; omega⟩
            unfold csEncode
            rw [if_neg (by omega), if_neg (by omega), if_pos (by simp at hlt; omega), hb, leBytes_leNat' 4 t hl]
        · cases h
      · split at h
        · rename_i hb
          split at h
          · rename_i hl
            split at h
            · cases h
            · rename_i hm
              cases h
              rw [hl] at hlt
              refine ⟨?_, by simp at hlt ⊢; omega⟩
              unfold csEncode
              rw [if_neg (by omega), if_pos (by simp at hlt; omega), hb, leBytes_leNat' 2 t hl]
          · cases h
        · rename_i h1 h2 h3
          cases h
          simp only [csComplete, csNeed, h1, h2, h3, if_false] at hc
          have ht : t = [] := List.length_eq_zero_iff.mp (by omega)
          have hb := b0.toNat_lt
          refine ⟨?_, by omega⟩
          unfold csEncode
          have : b0.toNat ≤ 0xFC := by
            have e1 : b0.toNat ≠ 0xFF := fun hx => h1 (UInt8.toNat_inj.mp hx)
            have e2 : b0.toNat ≠ 0xFE := fun hx => h2 (UInt8.toNat_inj.mp hx)
            have e3 : b0.toNat ≠ 0xFD := fun hx => h3 (UInt8.toNat_inj.mp hx)
            omega
          rw [if_pos this, ht]
          simp

theorem csView_csEncode (v : Nat) (ext : Bytes) :
    csView (csEncode v ++ ext) = some (csEncode v, ext) := csView_complete (csComplete_csEncode v) ext

theorem csEnd_csEncode (lim v : Nat) (hv : v < 2 ^ 64) :
    csEnd lim (csEncode v) = if v ≤ lim then .ok v else .error (.exceeds lim v) := by
  rw [csEnd, csDecode_csEncode v hv]

theorem csEnd_ok {lim : Nat} {p : Bytes} {v : Nat} (hc : csComplete p) (h : csEnd lim p = .ok v) :
    p = csEncode v ∧ v < 2 ^ 64 ∧ v ≤ lim := by
  unfold csEnd at h
  split at h
  · cases h
  · rename_i w hw
    split at h
    · cases h
      obtain ⟨h1, h2⟩ := csDecode_ok hc hw
      exact ⟨h1, h2, by assumption⟩
    · cases h

/-- Success of a compact-size-prefixed parser. -/
theorem csThen_done {α : Type} {em : Bytes → DErr} {k : Bytes → Parser α} {bs : Bytes} {a : α}
    {rest : Bytes} : csThen em k [] bs = .done a rest ↔
      ∃ p r, bs = p ++ r ∧ csComplete p ∧ k p r = .done a rest := by
  constructor
  · intro h
    unfold csThen at h
    rw [List.nil_append] at h
    split at h
    · rename_i p r hv
      obtain ⟨h1, h2⟩ := csView_some hv
      exact ⟨p, r, h1, h2, h⟩
    · cases h
  · rintro ⟨p, r, rfl, hc, h⟩
    have := csThen_complete (em := em) (k := k) (buf := []) (c := p) (by simpa using hc) r
    rw [this]
    simpa using h

theorem csParser_done (f : Bytes → Except DErr Nat) (bs : Bytes) (v : Nat) (rest : Bytes) :
    csParser f bs = .done v rest ↔ ∃ p, bs = p ++ rest ∧ csComplete p ∧ f p = .ok v := by
  unfold csParser
  rw [csThen_done]
  constructor
  · rintro ⟨p, r, h1, h2, h3⟩
    cases hf : f p with
    | ok w =>
      simp only [hf, POut.ofEnd, POut.done.injEq] at h3
      obtain ⟨rfl, rfl⟩ := h3
      exact ⟨p, h1, h2, hf⟩
    | error e => simp [hf, POut.ofEnd] at h3
  · rintro ⟨p, h1, h2, h3⟩
    exact ⟨p, rest, h1, h2, by simp [h3, POut.ofEnd]⟩

theorem csParser_u64_done (bs : Bytes) (v : Nat) (rest : Bytes) :
    csParser csDecode bs = .done v rest ↔ bs = csEncode v ++ rest ∧ v < 2 ^ 64 := by
  rw [csParser_done]
  constructor
  · rintro ⟨p, h1, h2, h3⟩
    obtain ⟨h4, h5⟩ := csDecode_ok h2 h3
    exact ⟨h4 ▸ h1, h5⟩
  · rintro ⟨h1, h2⟩
    exact ⟨_, h1, csComplete_csEncode v, csDecode_csEncode v h2⟩

theorem csParser_lim_done (lim : Nat) (bs : Bytes) (v : Nat) (rest : Bytes) :
    csParser (csEnd lim) bs = .done v rest ↔ bs = csEncode v ++ rest ∧ v < 2 ^ 64 ∧ v ≤ lim := by
  rw [csParser_done]
  constructor
  · rintro ⟨p, h1, h2, h3⟩
    obtain ⟨h4, h5, h6⟩ := csEnd_ok h2 h3
    exact ⟨h4 ▸ h1, h5, h6⟩
  · rintro ⟨h1, h2, h3⟩
    exact ⟨_, h1, csComplete_csEncode v, by rw [csEnd_csEncode lim v h2, if_pos h3]⟩

end Btc
