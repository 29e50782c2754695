import Verif.Fuzz.Targets
import Verif.Props.C08_C12
import Verif.Props.C41
import Verif.Props.C80
import Verif.Props.C31_C33
import Verif.Props.C75
import Verif.Props.C88
/-!
# C112  What the fuzz targets on text and scripts assert, for every input
-/
namespace Btc
namespace Fuzz

theorem lowerHexLetters_clean (data : Bytes) : ∀ c ∈ lowerHexLetters data, isUpperHex c = false := by
  intro c hc
  obtain ⟨x, _, rfl⟩ := List.mem_map.1 hc
  unfold isUpperHex
  have hx := x.toNat_lt
  split
  · rename_i h
    have : (x + 32).toNat = x.toNat + 32 := by
      rw [UInt8.toNat_add]
      show (x.toNat + 32) % 256 = _
      omega
    rw [this]
    simp only [Bool.and_eq_false_iff, decide_eq_false_iff_not]
    omega
  · rename_i h
    simp only [Bool.and_eq_false_iff, decide_eq_false_iff_not]
    omega

/-- **C112 (outpoints).** The assertions of `parse_outpoint` hold for every input. -/
theorem C112_outpoint (data : Bytes) : parseOutPointTarget data := by
  unfold parseOutPointTarget
  split
  · rename_i op h
    exact (C15_canonical _ op h (lowerHexLetters_clean data)).symm
  · split
    · rename_i o h
      obtain ⟨inv, den, L, hP⟩ := outPointDec_lawful
      rw [L.decodeSlice_ok_iff, hP, outPoint_wire] at h
      obtain ⟨_, rfl⟩ := h
      exact ⟨(List.append_nil (o.txid.1 ++ u32le o.vout)).symm ▸ outPointEnc_drains o, C15_roundtrip o⟩
    · trivial

/-- Capital hexadecimal digits are accepted by the parser, and the target lowers them; a text that is no outpoint but 36 bytes long is decoded. -/
example : parseOutPoint (lowerHexLetters (List.replicate 64 65 ++ [58, 55])) = .ok ⟨⟨List.replicate 32 0xaa, rfl⟩, 7⟩ ∧
    outPointDec.decodeSlice (List.replicate 32 7 ++ [1, 0, 0, 0]) = .ok ⟨⟨List.replicate 32 7, rfl⟩, 1⟩ :=
  ⟨by with_unfolding_all rfl, by with_unfolding_all rfl⟩

/-- A parsed amount is valid. -/
theorem parsed_valid (alpha : Bytes → Option Nat) (s : Bytes) (a : Nat) (h : Amt.fromStrAmt alpha s = .ok a) : Amt.Valid a := by
  have hin : ∀ t d n, Amt.fromStrIn t d = .ok n → Amt.Valid n := fun t d n h => ((Amt.C41_parse t d n).1 h).2.2.1
  unfold Amt.fromStrAmt at h
  split at h
  · split at h
    · cases h; exact Nat.zero_le _
    · cases h
  · unfold Amt.fromStrWithDenom at h
    split at h
    · cases h
    · exact hin _ _ _ h

/-- A parsed signed amount is valid. -/
theorem parsed_valid_signed (alpha : Bytes → Option Nat) (s : Bytes) (x : Int) (h : Amt.sFromStrAmt alpha s = .ok x) : Amt.SValid x := by
  have hin : ∀ t d n, Amt.sFromStrIn t d = .ok n → Amt.SValid n := fun t d n h => by
    obtain ⟨_, m, hm, ⟨_, _, _, _, rfl⟩ | ⟨_, _, rfl⟩⟩ := (Amt.C41_parse_signed t d n).1 h
    · constructor <;> omega
    · constructor <;> omega
  unfold Amt.sFromStrAmt at h
  split at h
  · split at h
    · cases h; constructor <;> omega
    · cases h
  · unfold Amt.sFromStrWithDenom at h
    split at h
    · cases h
    · exact hin _ _ _ h

/-- **C112 (amounts).** The assertions of `parse_amount` hold for every text, and the texts written back always parse: the two silent returns in
the middle of the target are never taken. -/
theorem C112_amount (alpha : Bytes → Option Nat) (s : Bytes) : parseAmountTarget alpha s ∧
    (∀ x, Amt.sFromStrAmt alpha s = .ok x → ∃ t, Amt.sToStringWithDenom x .btc = some t ∧ Amt.sFromStrAmt alpha t = .ok x) ∧
    (∀ a, Amt.fromStrAmt alpha s = .ok a → Amt.fromStrAmt alpha (Amt.display a) = .ok a) := by
  have hs : ∀ x, Amt.sFromStrAmt alpha s = .ok x →
      ∃ t, Amt.sToStringWithDenom x .btc = some t ∧ Amt.sFromStrAmt alpha t = .ok x := fun x h => by
    obtain ⟨t, h1, _, h2⟩ := Amt.C41_roundtrip_denomination_signed alpha x (parsed_valid_signed alpha s x h) .btc
    exact ⟨t, h1, h2⟩
  have hu : ∀ a, Amt.fromStrAmt alpha s = .ok a → Amt.fromStrAmt alpha (Amt.display a) = .ok a := fun a h =>
    (Amt.C41_roundtrip_denomination alpha a (parsed_valid alpha s a h) .btc).2.2.1
  refine ⟨?_, hs, hu⟩
  unfold parseAmountTarget
  split
  · trivial
  · rename_i x h
    obtain ⟨t, h1, h2⟩ := hs x h
    simp only [h1, Option.map_some, h2, true_and]
    split
    · trivial
    · rename_i a ha
      simp only [hu a ha]

example : Amt.fromStrAmt (fun _ => none) [48, 46, 53, 32, 66, 84, 67] = .ok 50000000 ∧
    Amt.sFromStrAmt (fun _ => none) [45, 51, 32, 115, 97, 116] = .ok (-3) := ⟨by with_unfolding_all rfl, by with_unfolding_all rfl⟩

/-- **C112 (integers).** The assertions of `parse_int` hold for every text, at every width. -/
theorem C112_int (bits : Nat) (s : Bytes) : parseIntTarget bits s := by
  have hk : ∀ {ε α : Type} (r : Except ε α), r.isOk = true ↔ ∃ a, r = .ok a := fun r => by
    cases r <;> simp [Except.isOk, Except.toBool]
  unfold parseIntTarget
  simp only [hk]
  refine ⟨?_, ?_⟩
  · rintro ⟨n, h⟩
    exact ⟨⟨n, (HexInt.C80_any bits s n n).1.2 (.inl h)⟩, fun ⟨m, hm⟩ => (HexInt.C80_any bits s n m).2 ⟨h, hm⟩⟩
  · rintro ⟨n, h⟩
    exact ⟨⟨n, (HexInt.C80_any bits s n n).1.2 (.inr h)⟩, fun ⟨m, hm⟩ => (HexInt.C80_any bits s m n).2 ⟨hm, h⟩⟩

example : (HexInt.prefixed 32 [48, 120, 102]).isOk = true ∧ (HexInt.unprefixed 32 [102]).isOk = true := by decide

theorem rebuild_walk : ∀ (fuel : Nat) (s b t : Bytes), s.length ≤ fuel → rebuild b (Scr.walk true fuel s) = some t → t = b ++ s := by
  intro fuel
  induction fuel with
  | zero =>
    intro s b t hl h
    have : s = [] := List.length_eq_zero_iff.1 (by omega)
    subst this
    simp only [Scr.walk, rebuild, Option.some.injEq] at h
    rw [List.append_nil, h]
  | succ k ih =>
    intro s b t hl h
    by_cases hs : s = []
    · subst hs
      simp only [Scr.walk, Scr.next, rebuild, Option.some.injEq] at h
      rw [List.append_nil, h]
    · unfold Scr.walk at h
      rcases Scr.next_cases true s hs with ⟨p, i, rest, he, henc, hmin, hn⟩ | ⟨_, hn, _⟩ | ⟨hn, _⟩
      · simp only [hn] at h
        have hp : 0 < p.length := List.length_pos_iff.2 henc.ne_nil
        have hr : rest.length ≤ k := by
          have := congrArg List.length he
          rw [List.length_append] at this
          omega
        cases i with
        | op o =>
          cases henc
          rw [ih rest _ t hr h, he]
          simp [Scr.pushOpcode]
        | push d =>
          have hm : p = Scr.pushHeader d.length ++ d := (hmin rfl).1
          rw [ih rest _ t hr h, he, hm]
          simp [Scr.pushSliceNonMinimal, Scr.pushSliceNoOpt]
      · simp only [hn, rebuild] at h
        cases h
      · simp only [hn, rebuild] at h
        cases h

/-- **C112 (scripts).** The assertions of `arbitrary_script` hold for every script: instructions read under the minimality rule and written back
make the same script, and an address recognised in it pays to it. -/
theorem C112_script (s : Bytes) : scriptTarget s := by
  unfold scriptTarget
  split
  · trivial
  · rename_i t h
    refine ⟨by simpa using rebuild_walk s.length s [] t (Nat.le_refl _) h, ?_⟩
    split
    · trivial
    · rename_i a ha
      obtain ⟨hv, _, hs⟩ := (Addr.C74_from_script s .bitcoin a).1 ha
      rw [Addr.C74_script_pubkey a hv, hs]

/-- A script that is rebuilt, one where the target returns at a push that is not minimal, and one that is an address. -/
example : rebuild [] (Scr.instructionsMinimal [0x51, 0x02, 0x07, 0x08, 0xac]) = some [0x51, 0x02, 0x07, 0x08, 0xac] ∧
    rebuild [] (Scr.instructionsMinimal [0x01, 0x05]) = none ∧
    Addr.Address.fromScript ([0xa9, 0x14] ++ List.replicate 20 9 ++ [0x87]) .bitcoin = .ok (.p2sh ⟨List.replicate 20 9, rfl⟩ .main) := by
  refine ⟨by decide, by decide, by with_unfolding_all rfl⟩

/-- **C112 (network addresses).** The assertions of `arbitrary_addrv2` hold for every address. -/
theorem C112_addrv2 (a : P2p.AddrV2) : addrV2Target a := by
  obtain ⟨h1, h2, h3⟩ := P2p.C88_v2_ip a
  refine ⟨?_, ?_, ?_⟩
  · split
    · trivial
    · rename_i ip h; exact ((h1 ip).1 h).symm
  · split
    · trivial
    · rename_i ip h; exact ((h1 _).1 ((h2 ip).1 h)).symm
  · split
    · trivial
    · rename_i ip h; exact ((h1 _).1 ((h3 ip).1 h)).symm

example : (P2p.AddrV2.ofIp (.v4 ⟨[1, 2, 3, 4], rfl⟩)).toIp = .ok (.v4 ⟨[1, 2, 3, 4], rfl⟩) := rfl

/-- The text starts with the human-readable part. -/
theorem encodeLower_head (hrp : Addr.KnownHrp) (v : BitVec 5) (p : Bytes) :
    ∃ c ∈ Bech32.encodeLower (Net.str (Addr.hrpText hrp)) v p, 97 ≤ c.toNat ∧ c.toNat ≤ 122 := by
  have : ∀ hrp : Addr.KnownHrp, ∃ c ∈ Net.str (Addr.hrpText hrp), 97 ≤ c.toNat ∧ c.toNat ≤ 122 := by
    intro hrp
    cases hrp <;> decide
  obtain ⟨c, hc, h⟩ := this hrp
  refine ⟨c, ?_, h⟩
  unfold Bech32.encodeLower
  simp [hc]

theorem upper_no_lower (c : UInt8) : ¬ (97 ≤ (Bech32.upper c).toNat ∧ (Bech32.upper c).toNat ≤ 122) := by
  intro hc
  have := (Bech32.case_facts c).2.2.2.2.2.1
  unfold Bech32.isLower at this
  simp only [Bool.and_eq_false_iff, decide_eq_false_iff_not] at this
  omega

/-- **C112 (addresses), partial.** The assertion of `parse_address` holds for a text that parses exactly when the address is a legacy one or the text
has a lower-case letter.  The target asserts it of every text. -/
theorem C112_address_partial (D : Bytes → Arr 32) (s : Bytes) (a : Addr.Address) (h : Addr.Address.parse D s = .ok a) :
    parseAddressTarget D s ↔ (∀ p hrp, a ≠ .segwit p hrp) ∨ ∃ c ∈ s, 97 ≤ c.toNat ∧ c.toNat ≤ 122 := by
  obtain ⟨hv, u, ht⟩ := (Addr.C75_parse D s a).1 h
  unfold parseAddressTarget
  simp only [h]
  rw [Addr.C75_display D false a hv s]
  cases a with
  | p2pkh x n => exact ⟨fun _ => .inl (by simp), fun _ => ht⟩
  | p2sh x n => exact ⟨fun _ => .inl (by simp), fun _ => ht⟩
  | segwit p hrp =>
    constructor
    · intro hl
      right
      have hl : s = Bech32.encodeLower (Net.str (Addr.hrpText hrp)) (BitVec.ofNat 5 p.version.toNat) p.program := hl
      rw [hl]
      exact encodeLower_head _ _ _
    · rintro (hne | ⟨c, hc, hr⟩)
      · exact absurd rfl (hne p hrp)
      · cases u
        · exact ht
        · have ht : s = (Bech32.encodeLower (Net.str (Addr.hrpText hrp)) (BitVec.ofNat 5 p.version.toNat) p.program).map Bech32.upper := ht
          rw [ht] at hc
          obtain ⟨x, _, rfl⟩ := List.mem_map.1 hc
          exact absurd hr (upper_no_lower x)

/-- **C112 (addresses), refuted.** Every segwit address has a text, the one in capitals, at which the assertion of `parse_address` fails. -/
theorem C112_address_fails (D : Bytes → Arr 32) (a : Addr.Address) (h : a.Valid) (hs : ∃ p hrp, a = .segwit p hrp) :
    ∃ t, Addr.Address.parse D t = .ok a ∧ ¬ parseAddressTarget D t := by
  obtain ⟨t, _, hp, hn⟩ := Addr.C75_qr_uri D a h
  refine ⟨t, hp, fun ht => ?_⟩
  rcases (C112_address_partial D t a hp).1 ht with h1 | ⟨c, hc, hr⟩
  · obtain ⟨p, hrp, rfl⟩ := hs
    exact h1 p hrp rfl
  · exact hn hs c hc hr

/-- The mainnet address of BIP-173 in capitals. -/
example (D : Bytes → Arr 32) : ∃ t, Addr.Address.parse D t = .ok (.segwit ⟨0, Addr.genHash⟩ .mainnet) ∧ ¬ parseAddressTarget D t :=
  C112_address_fails D _ ⟨by decide, by decide, by decide, fun _ => by decide⟩ ⟨_, _, rfl⟩

end Fuzz
end Btc
