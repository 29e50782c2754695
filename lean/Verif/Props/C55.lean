import Verif.Crypto.SighashType
/-!
# C55: sighash type bytes convert consistently
-/
namespace Btc
namespace Crypto

/-- A standard number is exactly one that `to_u32` produces, and it comes back as the type it came from; any other number is
refused and reported. -/
theorem C55_from_standard (n : UInt32) (t : Ecdsa) : Ecdsa.fromStandard n = .ok t ↔ n = t.toU32 := by
  unfold Ecdsa.fromStandard
  constructor
  · intro h
    repeat' split at h
    all_goals (cases h; try assumption)
  · rintro rfl
    cases t <;> rfl
theorem C55_from_standard_error (n e : UInt32) :
    Ecdsa.fromStandard n = .error e ↔ e = n ∧ n ∉ [0x01, 0x02, 0x03, 0x81, 0x82, 0x83] := by
  unfold Ecdsa.fromStandard
  constructor
  · intro h
    repeat' split at h
    all_goals cases h
    refine ⟨rfl, ?_⟩
    simp only [List.mem_cons, List.not_mem_nil, or_false, not_or]
    exact ⟨by assumption, by assumption, by assumption, by assumption, by assumption, by assumption⟩
  · rintro ⟨rfl, h⟩
    simp only [List.mem_cons, List.not_mem_nil, or_false, not_or] at h
    rw [if_neg h.1, if_neg h.2.1, if_neg h.2.2.1, if_neg h.2.2.2.1, if_neg h.2.2.2.2.1, if_neg h.2.2.2.2.2]

/-- A number decides on what is signed the way Bitcoin Core's `SignatureHash` reads it: the five low bits say NONE (2), SINGLE (3) or,
for everything else, ALL; the bit 0x80 says ANYONECANPAY. -/
def coreReading (n : UInt32) : Ecdsa :=
  match decide (n &&& 0x80 ≠ 0), decide (n &&& 0x1f = 2), decide (n &&& 0x1f = 3) with
  | false, true, _ => .none
  | false, false, true => .single
  | false, false, false => .all
  | true, true, _ => .noneAcp
  | true, false, true => .singleAcp
  | true, false, false => .allAcp

theorem mask_small (n : UInt32) : n &&& 0x9f = UInt32.ofNat (n &&& 0x9f).toNat ∧ (n &&& 0x9f).toNat < 256 := by
  refine ⟨by simp, ?_⟩
  rw [UInt32.toNat_and]
  exact Nat.lt_of_le_of_lt Nat.and_le_right (by decide)

theorem masked (f : UInt32 → Ecdsa) (g : UInt32 → Ecdsa) (hf : ∀ n, f n = f (n &&& 0x9f)) (hg : ∀ n, g n = g (n &&& 0x9f))
    (h : ∀ k : Fin 256, f (UInt32.ofNat k.val) = g (UInt32.ofNat k.val)) (n : UInt32) : f n = g n := by
  rw [hf, hg]
  have ⟨h1, h2⟩ := mask_small n
  rw [h1]
  exact h ⟨_, h2⟩

set_option maxRecDepth 20000 in
/-- `from_consensus` reads every number like that. -/
theorem C55_from_consensus (n : UInt32) : Ecdsa.fromConsensus n = coreReading n := by
  refine masked _ _ ?_ ?_ (by decide) n
  · intro n
    unfold Ecdsa.fromConsensus
    have : n &&& 0x9f &&& (0x1f ||| 0x80) = n &&& (0x1f ||| 0x80) := by
      rw [UInt32.and_assoc]; rfl
    simp only [this]
  · intro n
    unfold coreReading
    have h1 : n &&& 0x9f &&& 0x80 = n &&& 0x80 := by rw [UInt32.and_assoc]; rfl
    have h2 : n &&& 0x9f &&& 0x1f = n &&& 0x1f := by rw [UInt32.and_assoc]; rfl
    rw [h1, h2]

/-- Only the bits 0x9f count. -/
theorem C55_from_consensus_bits (n m : UInt32) (h : n &&& 0x9f = m &&& 0x9f) : Ecdsa.fromConsensus n = Ecdsa.fromConsensus m := by
  unfold Ecdsa.fromConsensus
  have : (0x1f ||| 0x80 : UInt32) = 0x9f := by decide
  simp only [this, h]

/-- `from_consensus` undoes `to_u32`, agrees with `from_standard` where that accepts, and settles in one step. -/
theorem C55_round_trip (t : Ecdsa) : Ecdsa.fromConsensus t.toU32 = t ∧ Ecdsa.fromStandard t.toU32 = .ok t := by
  cases t <;> exact ⟨rfl, rfl⟩
theorem C55_agree (n : UInt32) (t : Ecdsa) (h : Ecdsa.fromStandard n = .ok t) : Ecdsa.fromConsensus n = t := by
  rw [(C55_from_standard n t).mp h]; exact (C55_round_trip t).1
theorem C55_to_u32_injective (s t : Ecdsa) (h : s.toU32 = t.toU32) : s = t := by
  rw [← (C55_round_trip s).1, h, (C55_round_trip t).1]

/-- `is_single` and `split_anyonecanpay_flag` read the bits of the number. -/
theorem C55_is_single (n : UInt32) : (Ecdsa.fromConsensus n).isSingle = true ↔ n &&& 0x1f = 3 := by
  rw [C55_from_consensus]
  unfold coreReading
  by_cases h1 : n &&& 0x80 ≠ 0 <;> by_cases h2 : n &&& 0x1f = 2 <;> by_cases h3 : n &&& 0x1f = 3 <;>
    simp_all [Ecdsa.isSingle]
theorem C55_split (t : Ecdsa) : (t.splitAcp.2 = true ↔ t.toU32 &&& 0x80 ≠ 0) ∧ t.splitAcp.1.toU32 = t.toU32 &&& 0x1f ∧
    t.splitAcp.1.splitAcp.2 = false := by
  cases t <;> decide
theorem C55_tap_split (t : Tap) : (t.splitAcp.2 = true ↔ t.toU8 &&& 0x80 ≠ 0) ∧ t.splitAcp.1.toU8 = t.toU8 &&& 3 ∧
    t.splitAcp.1.splitAcp.2 = false := by
  cases t <;> decide

/-- The taproot byte: exactly the seven listed bytes are accepted, each coming back as itself. -/
theorem C55_tap (b : UInt8) (t : Tap) : Tap.fromConsensusU8 b = .ok t ↔ b = t.toU8 := by
  unfold Tap.fromConsensusU8
  constructor
  · intro h
    repeat' split at h
    all_goals (cases h; try assumption)
  · rintro rfl
    cases t <;> rfl
theorem C55_tap_error (b : UInt8) (e : UInt32) :
    Tap.fromConsensusU8 b = .error e ↔ e.toNat = b.toNat ∧ b ∉ [0x00, 0x01, 0x02, 0x03, 0x81, 0x82, 0x83] := by
  unfold Tap.fromConsensusU8
  constructor
  · intro h
    repeat' split at h
    all_goals cases h
    refine ⟨by simp, ?_⟩
    simp only [List.mem_cons, List.not_mem_nil, or_false, not_or]
    exact ⟨by assumption, by assumption, by assumption, by assumption, by assumption, by assumption, by assumption⟩
  · rintro ⟨he, h⟩
    simp only [List.mem_cons, List.not_mem_nil, or_false, not_or] at h
    rw [if_neg h.1, if_neg h.2.1, if_neg h.2.2.1, if_neg h.2.2.2.1, if_neg h.2.2.2.2.1, if_neg h.2.2.2.2.2.1, if_neg h.2.2.2.2.2.2]
    congr 1
    apply UInt32.toNat_inj.mp
    rw [he]; simp

/-- An ECDSA type becomes the taproot type of the same byte. -/
theorem C55_of_ecdsa (t : Ecdsa) : (Tap.ofEcdsa t).toU8 = t.toU32.toUInt8 ∧ Tap.fromConsensusU8 t.toU32.toUInt8 = .ok (Tap.ofEcdsa t) := by
  cases t <;> exact ⟨rfl, rfl⟩

/-- Printed names: exactly what `Display` prints is accepted, and read back as the value printed. -/
theorem C55_ecdsa_text (s : String) (t : Ecdsa) : Ecdsa.parse s = .ok t ↔ s = t.display := by
  unfold Ecdsa.parse
  constructor
  · intro h
    split at h <;> cases h <;> rfl
  · rintro rfl
    cases t <;> rfl
theorem C55_tap_text (s : String) (t : Tap) : Tap.parse s = .ok t ↔ s = t.display := by
  unfold Tap.parse
  constructor
  · intro h
    split at h <;> cases h <;> rfl
  · rintro rfl
    cases t <;> rfl
theorem C55_text_error (s e : String) : (Ecdsa.parse s = .error e → e = s) ∧ (Tap.parse s = .error e → e = s) := by
  unfold Ecdsa.parse Tap.parse
  constructor
  · intro h; split at h <;> cases h; rfl
  · intro h; split at h <;> cases h; rfl

example : Ecdsa.fromStandard 0x82 = .ok .noneAcp ∧ Ecdsa.fromStandard 0x80 = .error 0x80 := ⟨rfl, rfl⟩
/-- 0x1000_00e3: SINGLE with ANYONECANPAY for consensus, not standard; 0x50: ALL. -/
example : Ecdsa.fromConsensus 0x100000e3 = .singleAcp ∧ Ecdsa.fromConsensus 0x50 = .all ∧ Ecdsa.fromConsensus 0 = .all := by decide
example : (0x100000e3 : UInt32) &&& 0x1f = 3 := by decide
example : Tap.fromConsensusU8 0x84 = .error 0x84 ∧ Tap.fromConsensusU8 0 = .ok .default := ⟨rfl, rfl⟩
example : Ecdsa.parse "SIGHASH_ALL|SIGHASH_ANYONECANPAY" = .ok .allAcp ∧ Ecdsa.parse "ALL" = .error "ALL" := ⟨rfl, rfl⟩
example : Tap.parse "SIGHASH_DEFAULT" = .ok .default ∧ Ecdsa.parse "SIGHASH_DEFAULT" = .error "SIGHASH_DEFAULT" := ⟨rfl, rfl⟩

end Crypto
end Btc
