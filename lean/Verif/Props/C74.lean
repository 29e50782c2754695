import Verif.Addresses.Address
import Verif.Props.C35
/-!
# C74: addresses and output scripts
-/
namespace Btc.Addr
open Crypto (NetworkKind Secp LegacyPublicKey FullPublicKey)
open Pow (Network)
open Scr (WitProgram WitnessScript verByte Template Pattern)

/-! ## Specification -/

/-- The witness programs that exist (BIP-141): version at most 16, 2 to 40 bytes, and 20 or 32 for version 0. -/
def Address.Valid : Address → Prop
  | .segwit p _ => p.version.toNat ≤ 16 ∧ 2 ≤ p.program.length ∧ p.program.length ≤ 40 ∧
      (p.version = 0 → p.program.length = 20 ∨ p.program.length = 32)
  | _ => True

/-- The bytes an address stands for. -/
def scriptSpec : Address → Bytes
  | .p2pkh h _ => [0x76, 0xa9, 0x14] ++ h.1 ++ [0x88, 0xac]
  | .p2sh h _ => [0xa9, 0x14] ++ h.1 ++ [0x87]
  | .segwit p _ => verByte p.version :: UInt8.ofNat p.program.length :: p.program

/-- The addresses in use on a network. -/
def Uses : Network → Address → Prop
  | .bitcoin, .p2pkh _ n => n = .main
  | .bitcoin, .p2sh _ n => n = .main
  | .bitcoin, .segwit _ hrp => hrp = .mainnet
  | .regtest, .segwit _ hrp => hrp = .regtest
  | _, .segwit _ hrp => hrp = .testnets
  | _, .p2pkh _ n => n = .test
  | _, .p2sh _ n => n = .test

/-- The script template of an address type. -/
def templateOf : AddressType → Template
  | .p2pkh => .p2pkh
  | .p2sh => .p2sh
  | .p2wpkh => .p2wpkh
  | .p2wsh => .p2wsh
  | .p2tr => .p2tr
  | .p2a => .p2a

/-! ## Proofs -/

theorem new_iff (v : UInt8) (p : Bytes) (w : WitProgram) : WitProgram.new v p = .ok w ↔
    w = ⟨v, p⟩ ∧ 2 ≤ p.length ∧ p.length ≤ 40 ∧ (v = 0 → p.length = 20 ∨ p.length = 32) := by
  unfold WitProgram.new
  by_cases h1 : p.length < 2 ∨ p.length > 40
  · rw [if_pos h1]
    constructor
    · intro h; cases h
    · rintro ⟨_, h2, h3, _⟩; omega
  · rw [if_neg h1]
    by_cases h2 : v = 0 ∧ (p.length ≠ 20 ∧ p.length ≠ 32)
    · rw [if_pos h2]
      constructor
      · intro h; cases h
      · rintro ⟨_, _, _, h3⟩
        have := h3 h2.1; omega
    · rw [if_neg h2]
      simp only [Except.ok.injEq]
      constructor
      · intro h
        refine ⟨h.symm, by omega, by omega, fun e => ?_⟩
        false_or_by_contra
        exact h2 ⟨e, by omega, by omega⟩
      · rintro ⟨h, _⟩; exact h.symm

/-- **C74 (script of an address).** The output script of an address is the one of its template, carrying its hash or program. -/
theorem C74_script_pubkey (a : Address) (h : a.Valid) : a.scriptPubkey = scriptSpec a := by
  cases a with
  | p2pkh x n => exact (Scr.C35_constructors.2.1 x).2
  | p2sh x n => exact (Scr.C35_constructors.2.2.1 x).2
  | segwit p hrp =>
    obtain ⟨hv, h1, h2, h3⟩ := h
    exact (Scr.C35_constructors.2.2.2.2.2.2.2.2 p.version p.program p hv ((new_iff _ _ _).2 ⟨rfl, h1, h2, h3⟩)).2.2.2.2

/-- The two ways from a network to its kind agree. -/
theorem C74_hrp_kind (n : Network) : (KnownHrp.fromNetwork n).kind = Net.kindOf n ∧ (Net.kindOf n = .main ↔ n = .bitcoin) := by
  cases n <;> exact ⟨rfl, by decide⟩

theorem valid_for_iff (a : Address) (n : Network) : a.isValidForNetwork n = true ↔ Uses n a := by
  cases a with
  | p2pkh x k => cases k <;> cases n <;> simp [Uses, Address.isValidForNetwork, Net.kindOf, KnownHrp.fromNetwork]
  | p2sh x k => cases k <;> cases n <;> simp [Uses, Address.isValidForNetwork, Net.kindOf, KnownHrp.fromNetwork]
  | segwit p k => cases k <;> cases n <;> simp [Uses, Address.isValidForNetwork, Net.kindOf, KnownHrp.fromNetwork]

theorem kindOf_uses (n : Network) (k : NetworkKind) (x : Arr 20) : Uses n (.p2pkh x k) ↔ k = Net.kindOf n := by
  cases n <;> cases k <;> simp [Uses, Address.isValidForNetwork, Net.kindOf, KnownHrp.fromNetwork]
theorem kindOf_uses' (n : Network) (k : NetworkKind) (x : Arr 20) : Uses n (.p2sh x k) ↔ k = Net.kindOf n := by
  cases n <;> cases k <;> simp [Uses, Address.isValidForNetwork, Net.kindOf, KnownHrp.fromNetwork]
theorem hrp_uses (n : Network) (k : KnownHrp) (p : WitProgram) : Uses n (.segwit p k) ↔ k = .fromNetwork n := by
  cases n <;> cases k <;> simp [Uses, Address.isValidForNetwork, Net.kindOf, KnownHrp.fromNetwork]

theorem verByte_ne (v : UInt8) : v.toNat ≤ 16 → verByte v ≠ 0x76 ∧ verByte v ≠ 0xa9 := by
  revert v; set_option maxRecDepth 8000 in apply Scr.forall_u8; decide

theorem isWit_iff (s : Bytes) : Scr.isWitnessProgram s = true ↔ ∃ v p, WitnessScript v p s := by
  unfold Scr.isWitnessProgram
  rw [Option.isSome_iff_exists]
  constructor
  · rintro ⟨v, h⟩; exact ⟨v, (Scr.C35_witness_version s v).1 h⟩
  · rintro ⟨v, p, h⟩; exact ⟨v, (Scr.C35_witness_version s v).2 ⟨p, h⟩⟩

theorem p2pkh_fields (h : Bytes) (hl : h.length = 20) :
    ((([0x76, 0xa9, 0x14] ++ h ++ [0x88, 0xac] : Bytes).drop 3).take 20) = h := by
  simp only [List.cons_append, List.nil_append, List.drop_succ_cons, List.drop_zero]
  rw [← hl, List.take_left]

theorem p2sh_fields (h : Bytes) (hl : h.length = 20) : ((([0xa9, 0x14] ++ h ++ [0x87] : Bytes).drop 2).take 20) = h := by
  simp only [List.cons_append, List.nil_append, List.drop_succ_cons, List.drop_zero]
  rw [← hl, List.take_left]

/-- What `from_script` does on each kind of script. -/
theorem fromScript_cases (s : Bytes) (n : Network) :
    (∃ h : Arr 20, s = [0x76, 0xa9, 0x14] ++ h.1 ++ [0x88, 0xac] ∧ Address.fromScript s n = .ok (.p2pkh h (Net.kindOf n))) ∨
    (∃ h : Arr 20, s = [0xa9, 0x14] ++ h.1 ++ [0x87] ∧ Address.fromScript s n = .ok (.p2sh h (Net.kindOf n))) ∨
    (∃ v p, WitnessScript v p s ∧ Address.fromScript s n =
      match WitProgram.new v p with
      | .error e => .error (.witnessProgram e)
      | .ok w => .ok (.segwit w (KnownHrp.fromNetwork n))) ∨
    (¬ Pattern .p2pkh s ∧ ¬ Pattern .p2sh s ∧ (¬ ∃ v p, WitnessScript v p s) ∧ Address.fromScript s n = .error .unrecognized) := by
  by_cases h1 : Pattern .p2pkh s
  · have hr : Scr.isP2pkh s = true := (Scr.C35_exact .p2pkh s).2 h1
    obtain ⟨h, hl, rfl⟩ := h1
    refine .inl ⟨⟨h, hl⟩, rfl, ?_⟩
    unfold Address.fromScript
    rw [if_pos hr]
    have e := p2pkh_fields h hl
    rw [dif_pos (by rw [e]; exact hl)]
    simp only [e]
  by_cases h2 : Pattern .p2sh s
  · have hr : Scr.isP2sh s = true := (Scr.C35_exact .p2sh s).2 h2
    have hn : ¬ Scr.isP2pkh s = true := fun h => h1 ((Scr.C35_exact .p2pkh s).1 h)
    obtain ⟨h, hl, rfl⟩ := h2
    refine .inr (.inl ⟨⟨h, hl⟩, rfl, ?_⟩)
    unfold Address.fromScript
    rw [if_neg hn, if_pos hr]
    have e := p2sh_fields h hl
    rw [dif_pos (by rw [e]; exact hl)]
    simp only [e]
  have hn1 : ¬ Scr.isP2pkh s = true := fun h => h1 ((Scr.C35_exact .p2pkh s).1 h)
  have hn2 : ¬ Scr.isP2sh s = true := fun h => h2 ((Scr.C35_exact .p2sh s).1 h)
  by_cases h3 : ∃ v p, WitnessScript v p s
  · have hw := (isWit_iff s).2 h3
    obtain ⟨v, p, hs⟩ := h3
    refine .inr (.inr (.inl ⟨v, p, hs, ?_⟩))
    unfold Address.fromScript
    rw [if_neg hn1, if_neg hn2, if_pos hw]
    obtain ⟨hv, _, _, rfl⟩ := hs
    simp only [List.head?_cons, Scr.fromOp_verByte v hv, List.drop_succ_cons, List.drop_zero]
    cases WitProgram.new v p <;> rfl
  · refine .inr (.inr (.inr ⟨h1, h2, h3, ?_⟩))
    unfold Address.fromScript
    rw [if_neg hn1, if_neg hn2, if_neg (fun h => h3 ((isWit_iff s).1 h))]

theorem ver_inj (v w : UInt8) (hv : v.toNat ≤ 16) (hw : w.toNat ≤ 16) (h : verByte v = verByte w) : v = w := by
  have h1 := Scr.fromOp_verByte v hv
  rw [h, Scr.fromOp_verByte w hw] at h1
  exact (Option.some.inj h1).symm

/-- A script is of one kind only. -/
theorem kinds (s : Bytes) :
    (∀ h : Arr 20, s = [0x76, 0xa9, 0x14] ++ h.1 ++ [0x88, 0xac] → (∀ k : Arr 20, s ≠ [0xa9, 0x14] ++ k.1 ++ [0x87]) ∧ ¬ ∃ v p, WitnessScript v p s) ∧
    (∀ h : Arr 20, s = [0xa9, 0x14] ++ h.1 ++ [0x87] → ¬ ∃ v p, WitnessScript v p s) := by
  constructor
  · rintro h rfl
    refine ⟨fun k e => ?_, fun ⟨v, p, hv, _, _, e⟩ => ?_⟩
    · simp at e
    · rw [List.cons_append, List.cons_append, List.cons.injEq] at e
      exact (verByte_ne v hv).1 e.1.symm
  · rintro h rfl ⟨v, p, hv, _, _, e⟩
    rw [List.cons_append, List.cons_append, List.cons.injEq] at e
    exact (verByte_ne v hv).2 e.1.symm

theorem arr_ext {n : Nat} {a b : Arr n} (h : a.1 = b.1) : a = b := Subtype.ext h

/-- **C74 (from_script).** A script has the address `a` on a network exactly if it is the output script of `a` and `a` is in use there. -/
theorem C74_from_script (s : Bytes) (n : Network) (a : Address) :
    Address.fromScript s n = .ok a ↔ a.Valid ∧ Uses n a ∧ s = scriptSpec a := by
  rcases fromScript_cases s n with ⟨h, hs, hf⟩ | ⟨h, hs, hf⟩ | ⟨v, p, hs, hf⟩ | ⟨n1, n2, n3, hf⟩
  · rw [hf]
    constructor
    · intro e; cases e
      exact ⟨trivial, (kindOf_uses _ _ _).2 rfl, hs⟩
    · rintro ⟨hv, hu, e⟩
      cases a with
      | p2pkh x k =>
        rw [(kindOf_uses _ _ _).1 hu]
        have : h = x := arr_ext (by
          rw [hs] at e
          have e' := congrArg (fun l : Bytes => (l.drop 3).take 20) e
          exact (p2pkh_fields _ h.2).symm.trans (e'.trans (p2pkh_fields _ x.2)))
        rw [this]
      | p2sh x k => exact absurd e (((kinds s).1 h hs).1 x)
      | segwit q k => exact absurd ⟨q.version, q.program, hv.1, hv.2.1, hv.2.2.1, e⟩ ((kinds s).1 h hs).2
  · rw [hf]
    constructor
    · intro e; cases e
      exact ⟨trivial, (kindOf_uses' _ _ _).2 rfl, hs⟩
    · rintro ⟨hv, hu, e⟩
      cases a with
      | p2pkh x k => exact absurd hs (((kinds s).1 x e).1 h)
      | p2sh x k =>
        rw [(kindOf_uses' _ _ _).1 hu]
        have : h = x := arr_ext (by
          rw [hs] at e
          have e' := congrArg (fun l : Bytes => (l.drop 2).take 20) e
          exact (p2sh_fields _ h.2).symm.trans (e'.trans (p2sh_fields _ x.2)))
        rw [this]
      | segwit q k => exact absurd ⟨q.version, q.program, hv.1, hv.2.1, hv.2.2.1, e⟩ ((kinds s).2 h hs)
  · rw [hf]
    constructor
    · intro e
      cases hw : WitProgram.new v p with
      | error x => rw [hw] at e; cases e
      | ok w =>
        rw [hw] at e; cases e
        obtain ⟨rfl, h2, h3, h4⟩ := (new_iff _ _ _).1 hw
        exact ⟨⟨hs.1, h2, h3, h4⟩, (hrp_uses _ _ _).2 rfl, hs.2.2.2⟩
    · rintro ⟨hv, hu, e⟩
      cases a with
      | p2pkh x k => exact absurd ⟨v, p, hs⟩ ((kinds s).1 x e).2
      | p2sh x k => exact absurd ⟨v, p, hs⟩ ((kinds s).2 x e)
      | segwit q k =>
        obtain ⟨hq, h2, h3, h4⟩ := hv
        rw [(hrp_uses _ _ _).1 hu]
        have e' := hs.2.2.2.symm.trans e
        simp only [scriptSpec, List.cons.injEq] at e'
        obtain ⟨e1, -, e3⟩ := e'
        have hvq := ver_inj _ _ hs.1 hq e1
        have : WitProgram.new v p = .ok q := (new_iff _ _ _).2 ⟨by cases q; simp_all, by rw [e3]; exact h2, by rw [e3]; exact h3, by rw [e3, hvq]; exact h4⟩
        rw [this]
  · rw [hf]
    constructor
    · intro e; cases e
    · rintro ⟨hv, -, e⟩
      cases a with
      | p2pkh x k => exact absurd ⟨x.1, x.2, e⟩ n1
      | p2sh x k => exact absurd ⟨x.1, x.2, e⟩ n2
      | segwit q k => exact absurd ⟨q.version, q.program, hv.1, hv.2.1, hv.2.2.1, e⟩ n3

/-- **C74 (round trip).** The script of an address gives the address back, on the networks where the address is in use and no other. -/
theorem C74_round_trip (a : Address) (h : a.Valid) (n : Network) :
    Address.fromScript a.scriptPubkey n = .ok a ↔ a.isValidForNetwork n = true := by
  rw [C74_from_script, C74_script_pubkey a h, valid_for_iff]
  exact ⟨fun x => x.2.1, fun x => ⟨h, x, rfl⟩⟩

/-- **C74 (injectivity).** Two addresses in use on the same network with the same script are equal. -/
theorem C74_injective (a b : Address) (ha : a.Valid) (hb : b.Valid) (n : Network) (ua : Uses n a) (ub : Uses n b)
    (h : a.scriptPubkey = b.scriptPubkey) : a = b := by
  have h1 := (C74_round_trip a ha n).2 ((valid_for_iff a n).2 ua)
  rw [h, (C74_round_trip b hb n).2 ((valid_for_iff b n).2 ub)] at h1
  cases h1; rfl

/-- **C74 (scripts without an address).** `from_script` fails on a version 0 program that is not of 20 or 32 bytes with that length, on
every other script that is not pay-to-pubkey-hash, pay-to-script-hash or a witness program as unrecognized, and it does not panic. -/
theorem C74_from_script_error (s : Bytes) (n : Network) (e : Address.FromScriptErr) : Address.fromScript s n = .error e ↔
    (e = .unrecognized ∧ ¬ Pattern .p2pkh s ∧ ¬ Pattern .p2sh s ∧ ¬ ∃ v p, WitnessScript v p s) ∨
    (∃ p, WitnessScript 0 p s ∧ p.length ≠ 20 ∧ p.length ≠ 32 ∧ e = .witnessProgram (.invalidSegwitV0Length p.length)) := by
  have p1 : ∀ h : Arr 20, s = [0x76, 0xa9, 0x14] ++ h.1 ++ [0x88, 0xac] → Pattern .p2pkh s := fun h e => ⟨h.1, h.2, e⟩
  have p2 : ∀ h : Arr 20, s = [0xa9, 0x14] ++ h.1 ++ [0x87] → Pattern .p2sh s := fun h e => ⟨h.1, h.2, e⟩
  rcases fromScript_cases s n with ⟨h, hs, hf⟩ | ⟨h, hs, hf⟩ | ⟨v, p, hs, hf⟩ | ⟨n1, n2, n3, hf⟩
  · rw [hf]
    constructor
    · intro h; cases h
    · rintro (⟨_, h1, _⟩ | ⟨p, hp, _⟩)
      · exact absurd (p1 h hs) h1
      · exact absurd ⟨0, p, hp⟩ ((kinds s).1 h hs).2
  · rw [hf]
    constructor
    · intro h; cases h
    · rintro (⟨_, _, h1, _⟩ | ⟨p, hp, _⟩)
      · exact absurd (p2 h hs) h1
      · exact absurd ⟨0, p, hp⟩ ((kinds s).2 h hs)
  · rw [hf]
    obtain ⟨hv, h2, h3, hs'⟩ := hs
    constructor
    · intro h
      right
      unfold WitProgram.new at h
      rw [if_neg (by omega)] at h
      by_cases h4 : v = 0 ∧ (p.length ≠ 20 ∧ p.length ≠ 32)
      · rw [if_pos h4] at h
        obtain ⟨rfl, h5, h6⟩ := h4
        cases h
        exact ⟨p, ⟨hv, h2, h3, hs'⟩, h5, h6, rfl⟩
      · rw [if_neg h4] at h; cases h
    · rintro (⟨_, _, _, h1⟩ | ⟨q, ⟨_, _, _, hq⟩, h5, h6, rfl⟩)
      · exact absurd ⟨v, p, hv, h2, h3, hs'⟩ h1
      · have e' := hs'.symm.trans hq
        simp only [List.cons.injEq] at e'
        have hv0 := ver_inj _ _ hv (by decide) e'.1
        obtain ⟨-, -, rfl⟩ := e'
        subst hv0
        unfold WitProgram.new
        rw [if_neg (by omega), if_pos ⟨rfl, h5, h6⟩]
  · rw [hf]
    constructor
    · intro h; cases h; exact .inl ⟨rfl, n1, n2, n3⟩
    · rintro (⟨rfl, _⟩ | ⟨p, hp, _⟩)
      · rfl
      · exact absurd ⟨0, p, hp⟩ n3

/-- **C74 (address types).** The type of an address is the template of its output script. -/
theorem C74_address_type (a : Address) (h : a.Valid) (t : AddressType) :
    a.addressType = some t ↔ Pattern (templateOf t) (scriptSpec a) := by
  cases a with
  | p2pkh x n =>
    show some AddressType.p2pkh = some t ↔ _
    have hp : Pattern .p2pkh (scriptSpec (.p2pkh x n)) := ⟨x.1, x.2, rfl⟩
    constructor
    · intro e; cases e; exact hp
    · intro h2
      have := Scr.pattern_tag _ _ hp
      rw [Scr.pattern_tag _ _ h2] at this
      cases t <;> first | rfl | (exact absurd this (by decide))
  | p2sh x n =>
    show some AddressType.p2sh = some t ↔ _
    have hp : Pattern .p2sh (scriptSpec (.p2sh x n)) := ⟨x.1, x.2, rfl⟩
    constructor
    · intro e; cases e; exact hp
    · intro h2
      have := Scr.pattern_tag _ _ hp
      rw [Scr.pattern_tag _ _ h2] at this
      cases t <;> first | rfl | (exact absurd this (by decide))
  | segwit p hrp =>
    obtain ⟨hv, h1, h2, h3⟩ := h
    have hn := (new_iff p.version p.program p).2 ⟨rfl, h1, h2, h3⟩
    obtain ⟨q1, q2, q3, q4⟩ := (Scr.C35_witness_program p.version p.program hv).2 p hn
    have hs : p.script = scriptSpec (.segwit p hrp) := C74_script_pubkey (.segwit p hrp) ⟨hv, h1, h2, h3⟩
    rw [hs] at q1 q2 q3 q4
    have r1 : p.isP2wpkh = true ↔ Pattern .p2wpkh (scriptSpec (.segwit p hrp)) := by rw [q1]; exact Scr.C35_exact .p2wpkh _
    have r2 : p.isP2wsh = true ↔ Pattern .p2wsh (scriptSpec (.segwit p hrp)) := by rw [q2]; exact Scr.C35_exact .p2wsh _
    have r3 : p.isP2tr = true ↔ Pattern .p2tr (scriptSpec (.segwit p hrp)) := by rw [q3]; exact Scr.C35_exact .p2tr _
    have r4 : p.isP2a = true ↔ Pattern .p2a (scriptSpec (.segwit p hrp)) := by rw [q4]; exact Scr.C35_exact .p2a _
    have ex : ∀ t u : Template, Pattern t (scriptSpec (.segwit p hrp)) → Pattern u (scriptSpec (.segwit p hrp)) → t.code = u.code := by
      intro t u ht hu
      rw [← Scr.pattern_tag _ _ ht, Scr.pattern_tag _ _ hu]
    have no : ¬ Pattern .p2pkh (scriptSpec (.segwit p hrp)) ∧ ¬ Pattern .p2sh (scriptSpec (.segwit p hrp)) := by
      constructor
      · rintro ⟨h, hl, e⟩
        exact ((kinds _).1 ⟨h, hl⟩ e).2 ⟨p.version, p.program, hv, h1, h2, rfl⟩
      · rintro ⟨h, hl, e⟩
        exact (kinds _).2 ⟨h, hl⟩ e ⟨p.version, p.program, hv, h1, h2, rfl⟩
    show (if p.isP2wpkh then some AddressType.p2wpkh else if p.isP2wsh then some .p2wsh else if p.isP2tr then some .p2tr
      else if p.isP2a then some .p2a else none) = some t ↔ _
    generalize hS : scriptSpec (.segwit p hrp) = S at *
    by_cases c1 : p.isP2wpkh = true
    · rw [if_pos c1]
      constructor
      · intro e; cases e; exact r1.1 c1
      · intro hp; have := ex _ _ (r1.1 c1) hp
        cases t <;> first | rfl | (exact absurd this (by decide))
    rw [if_neg c1]
    by_cases c2 : p.isP2wsh = true
    · rw [if_pos c2]
      constructor
      · intro e; cases e; exact r2.1 c2
      · intro hp; have := ex _ _ (r2.1 c2) hp
        cases t <;> first | rfl | (exact absurd this (by decide))
    rw [if_neg c2]
    by_cases c3 : p.isP2tr = true
    · rw [if_pos c3]
      constructor
      · intro e; cases e; exact r3.1 c3
      · intro hp; have := ex _ _ (r3.1 c3) hp
        cases t <;> first | rfl | (exact absurd this (by decide))
    rw [if_neg c3]
    by_cases c4 : p.isP2a = true
    · rw [if_pos c4]
      constructor
      · intro e; cases e; exact r4.1 c4
      · intro hp; have := ex _ _ (r4.1 c4) hp
        cases t <;> first | rfl | (exact absurd this (by decide))
    rw [if_neg c4]
    constructor
    · intro e; cases e
    · intro hp
      cases t with
      | p2pkh => exact absurd hp no.1
      | p2sh => exact absurd hp no.2
      | p2wpkh => exact absurd (r1.2 hp) c1
      | p2wsh => exact absurd (r2.2 hp) c2
      | p2tr => exact absurd (r3.2 hp) c3
      | p2a => exact absurd (r4.2 hp) c4

/-- **C74 (constructors).** Every constructor makes a valid address of its type; the size limits are the only errors. -/
theorem C74_constructors (H160 : Bytes → Arr 20) (H256 : Bytes → Arr 32) (n : NetworkKind) (hrp : KnownHrp) :
    (∀ script, Address.ofRedeemScript H160 script n = if script.length ≤ 520 then some (.p2sh (H160 script) n) else none) ∧
    (∀ h : Arr 20, (Address.ofWpubkeyHash h hrp).Valid ∧ scriptSpec (.ofWpubkeyHash h hrp) = [0, 0x14] ++ h.1) ∧
    (∀ h : Arr 20, Address.p2shwpkh H160 h n = some (.p2sh (H160 ([0, 0x14] ++ h.1)) n)) ∧
    (∀ script, Address.p2wsh H256 script hrp = if script.length ≤ 10000 then some (.ofWscriptHash (H256 script) hrp) else none) ∧
    (∀ h : Arr 32, (Address.ofWscriptHash h hrp).Valid ∧ scriptSpec (.ofWscriptHash h hrp) = [0, 0x20] ++ h.1) ∧
    (∀ script, Address.p2shwsh H160 H256 script n =
      if script.length ≤ 10000 then some (.p2sh (H160 ([0, 0x20] ++ (H256 script).1)) n) else none) ∧
    (∀ k : Arr 32, (Address.p2trTweaked k hrp).Valid ∧ scriptSpec (.p2trTweaked k hrp) = [0x51, 0x20] ++ k.1) ∧
    ((Address.p2a hrp).Valid ∧ scriptSpec (.p2a hrp) = [0x51, 0x02, 0x4e, 0x73]) := by
  have push : ∀ h : Bytes, h.length = 20 ∨ h.length = 32 → Scr.pushSlice (Scr.pushOpcode [] 0) h = [0, UInt8.ofNat h.length] ++ h := by
    intro h hl
    unfold Scr.pushOpcode
    rw [Scr.pushSlice_long _ _ (by omega) (by omega)]; rfl
  have len20 : ∀ h : Arr 20, ((0 : UInt8) = 0 → h.1.length = 20 ∨ h.1.length = 32) := fun h _ => .inl h.2
  refine ⟨?_, ?_, ?_, ?_, ?_, ?_, ?_, ?_⟩
  · intro s; unfold Address.ofRedeemScript; split <;> split <;> first | rfl | omega
  · intro h
    refine ⟨⟨Nat.le_of_ble_eq_true rfl, by simp only; rw [h.2]; decide, by simp only; rw [h.2]; decide, fun _ => .inl h.2⟩, ?_⟩
    show verByte 0 :: UInt8.ofNat h.1.length :: h.1 = _
    rw [h.2]; rfl
  · intro h
    unfold Address.p2shwpkh Address.ofRedeemScript
    rw [push _ (.inl h.2), h.2, if_neg (by simp [h.2])]; rfl
  · intro s; unfold Address.p2wsh; split <;> split <;> first | rfl | omega
  · intro h
    refine ⟨⟨Nat.le_of_ble_eq_true rfl, by simp only; rw [h.2]; decide, by simp only; rw [h.2]; decide, fun _ => .inr h.2⟩, ?_⟩
    show verByte 0 :: UInt8.ofNat h.1.length :: h.1 = _
    rw [h.2]; rfl
  · intro s
    unfold Address.p2shwsh Address.ofRedeemScript
    rw [push _ (.inr (H256 s).2), (H256 s).2, if_neg (c := _ > 520) (by simp [(H256 s).2])]
    split <;> split <;> first | rfl | omega
  · intro h
    refine ⟨⟨Nat.le_of_ble_eq_true rfl, by simp only; rw [h.2]; decide, by simp only; rw [h.2]; decide, fun e => by cases e⟩, ?_⟩
    show verByte 1 :: UInt8.ofNat h.1.length :: h.1 = _
    rw [h.2]; rfl
  · exact ⟨⟨by decide, by decide, by decide, fun e => by cases e⟩, rfl⟩

/-- **C74 (matching, what holds).** Claimed: `matches_script_pubkey` is true exactly for the output script of the address.  That holds for
pay-to-pubkey-hash and pay-to-script-hash.  For a segwit address the witness version is not compared: the matching scripts are
those with its program under any version. -/
theorem C74_matches_partial (a : Address) (h : a.Valid) (s : Bytes) : a.matchesScriptPubkey s = true ↔
    match a with
    | .segwit p _ => ∃ v, v.toNat ≤ 16 ∧ s = verByte v :: UInt8.ofNat p.program.length :: p.program
    | _ => s = scriptSpec a := by
  cases a with
  | p2pkh x n =>
    show (Scr.isP2pkh s && (s.drop 3).take 20 == x.1) = true ↔ s = scriptSpec _
    rw [Bool.and_eq_true, beq_iff_eq]
    constructor
    · rintro ⟨h1, h2⟩
      obtain ⟨k, hk, rfl⟩ := (Scr.C35_exact .p2pkh s).1 h1
      rw [p2pkh_fields k hk] at h2
      rw [h2]; rfl
    · rintro rfl
      exact ⟨(Scr.C35_exact .p2pkh _).2 ⟨x.1, x.2, rfl⟩, p2pkh_fields _ x.2⟩
  | p2sh x n =>
    show (Scr.isP2sh s && (s.drop 2).take 20 == x.1) = true ↔ s = scriptSpec _
    rw [Bool.and_eq_true, beq_iff_eq]
    constructor
    · rintro ⟨h1, h2⟩
      obtain ⟨k, hk, rfl⟩ := (Scr.C35_exact .p2sh s).1 h1
      rw [p2sh_fields k hk] at h2
      rw [h2]; rfl
    · rintro rfl
      exact ⟨(Scr.C35_exact .p2sh _).2 ⟨x.1, x.2, rfl⟩, p2sh_fields _ x.2⟩
  | segwit p hrp =>
    show (Scr.isWitnessProgram s && s.drop 2 == p.program) = true ↔ _
    rw [Bool.and_eq_true, beq_iff_eq, isWit_iff]
    constructor
    · rintro ⟨⟨v, q, hv, _, _, rfl⟩, h2⟩
      simp only [List.drop_succ_cons, List.drop_zero] at h2
      exact ⟨v, hv, by rw [h2]⟩
    · rintro ⟨v, hv, rfl⟩
      exact ⟨⟨v, p.program, hv, h.2.1, h.2.2.1, rfl⟩, rfl⟩

/-- Finding: an address with a 32 byte program under version 0 (pay-to-witness-script-hash) matches the taproot output script with the
same 32 bytes, which is not its script. -/
theorem C74_matches_ignores_version (k : Arr 32) (hrp : KnownHrp) :
    (Address.ofWscriptHash k hrp).matchesScriptPubkey ([0x51, 0x20] ++ k.1) = true ∧
    (Address.ofWscriptHash k hrp).scriptPubkey ≠ [0x51, 0x20] ++ k.1 := by
  have hc := (C74_constructors (fun _ => ⟨List.replicate 20 0, rfl⟩) (fun _ => k) .main hrp).2.2.2.2.1 k
  constructor
  · rw [C74_matches_partial _ hc.1]
    refine ⟨1, by decide, ?_⟩
    show _ = verByte 1 :: UInt8.ofNat k.1.length :: k.1
    rw [k.2]; rfl
  · rw [C74_script_pubkey _ hc.1, hc.2]
    simp

/-- **C74 (related keys).** A key is related to the addresses made from it with `p2pkh`, `p2wpkh`, `p2shwpkh` and, as an output key,
`p2tr_tweaked`; and an address related to a key carries the hash of the key, the hash of its segwit redeem script, or its x
coordinate as payload (under whatever type). -/
theorem C74_related (H160 : Bytes → Arr 20) {S : Secp} (k : LegacyPublicKey S) (n : NetworkKind) (hrp : KnownHrp) :
    (Address.p2pkh (H160 k.serialize) n).isRelatedToPubkey H160 k = true ∧
    (∀ f : FullPublicKey S, FullPublicKey.tryFrom k = some f →
      (Address.ofWpubkeyHash (H160 f.toBytes) hrp).isRelatedToPubkey H160 k = true ∧
      ∀ a, Address.p2shwpkh H160 (H160 f.toBytes) n = some a → a.isRelatedToPubkey H160 k = true) ∧
    (∀ x : Arr 32, x.1 = (S.ser k.inner).1.drop 1 →
      (Address.p2trTweaked x hrp).isRelatedToPubkey H160 k = true ∧ (Address.p2trTweaked x hrp).isRelatedToXonlyPubkey x = true) ∧
    (∀ a : Address, a.isRelatedToPubkey H160 k = true ↔
      a.payload = (H160 k.serialize).1 ∨ a.payload = (H160 ([0x00, 0x14] ++ (H160 k.serialize).1)).1 ∨
      a.payload = (S.ser k.inner).1.drop 1) := by
  have key : ∀ a : Address, a.isRelatedToPubkey H160 k = true ↔
      a.payload = (H160 k.serialize).1 ∨ a.payload = (H160 ([0x00, 0x14] ++ (H160 k.serialize).1)).1 ∨
      a.payload = (S.ser k.inner).1.drop 1 := by
    intro a
    unfold Address.isRelatedToPubkey Address.pubkeyHash Address.xonly Address.segwitRedeemHash
    rw [Bool.or_eq_true, Bool.or_eq_true, beq_iff_eq, beq_iff_eq, beq_iff_eq]
    constructor
    · rintro ((h | h) | h)
      · exact .inl h.symm
      · exact .inr (.inr h.symm)
      · exact .inr (.inl h.symm)
    · rintro (h | h | h)
      · exact .inl (.inl h.symm)
      · exact .inr h.symm
      · exact .inl (.inr h.symm)
  have ser : ∀ f : FullPublicKey S, FullPublicKey.tryFrom k = some f → f.toBytes = k.serialize := by
    intro f hf
    unfold FullPublicKey.tryFrom at hf
    split at hf
    · rename_i hc
      cases hf
      unfold FullPublicKey.toBytes LegacyPublicKey.serialize
      rw [if_pos hc]
    · cases hf
  refine ⟨(key _).2 (.inl rfl), ?_, ?_, key⟩
  · intro f hf
    rw [ser f hf]
    refine ⟨(key _).2 (.inl rfl), ?_⟩
    intro a ha
    rw [(C74_constructors H160 (fun _ => ⟨List.replicate 32 0, rfl⟩) n hrp).2.2.1] at ha
    cases ha
    exact (key _).2 (.inr (.inl rfl))
  · intro x hx
    exact ⟨(key _).2 (.inr (.inr hx)), by simp [Address.isRelatedToXonlyPubkey, Address.p2trTweaked, Address.payload]⟩

/-! ## Examples -/

/-- A taproot address for the second BIP-350 vector, valid on the main network only; its script and the way back. -/
def exKey : Arr 32 := ⟨List.replicate 31 7 ++ [9], rfl⟩
example : (Address.p2trTweaked exKey .mainnet).Valid := (C74_constructors (fun _ => ⟨List.replicate 20 0, rfl⟩) (fun _ => exKey) .main .mainnet).2.2.2.2.2.2.1 exKey |>.1
example : (Address.fromScript (Address.p2trTweaked exKey .mainnet).scriptPubkey .bitcoin).toOption = some (.p2trTweaked exKey .mainnet) := by decide
example : (Address.fromScript (Address.p2trTweaked exKey .mainnet).scriptPubkey .regtest).toOption = some (.p2trTweaked exKey .regtest) := by decide
example : (Address.p2trTweaked exKey .mainnet).addressType = some .p2tr := by decide
example : (Address.segwit ⟨2, [1, 2, 3]⟩ .testnets).addressType = none := by decide
example : Uses .signet (.segwit ⟨2, [1, 2, 3]⟩ .testnets) := rfl
example : Address.fromScript [0, 3, 1, 2, 3] .bitcoin = .error (.witnessProgram (.invalidSegwitV0Length 3)) := by
  rw [C74_from_script_error]
  exact .inr ⟨[1, 2, 3], ⟨by decide, by decide, by decide, rfl⟩, by decide, by decide, rfl⟩
example : (Address.ofWscriptHash exKey .mainnet).matchesScriptPubkey (Address.p2trTweaked exKey .mainnet).scriptPubkey = true := by decide
/-- A compressed key and the conversion `C74_related` assumes. -/
example : ∃ f, FullPublicKey.tryFrom (S := Secp.toy) (LegacyPublicKey.fromSecp (S := Secp.toy) (⟨⟨List.replicate 31 0 ++ [7], by decide⟩, by decide, by decide⟩ : Crypto.SecretKey)) = some f := ⟨_, rfl⟩

end Btc.Addr
