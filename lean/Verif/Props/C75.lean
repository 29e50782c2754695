import Verif.Addresses.Bech32Laws
import Verif.Props.C29_C30
import Verif.Props.C74
import Verif.Hashes.Sha2
/-!
# C75: addresses as text
-/
namespace Btc.Addr
open Crypto (NetworkKind)
open Pow (Network)
open Scr (WitProgram)
open Net (str)
open B58 (Text58)

/-! ## Specification -/

/-- The version byte of a base58 address. -/
def legacyVersion : Bool → NetworkKind → UInt8
  | false, .main => 0x00
  | true, .main => 0x05
  | false, .test => 0x6f
  | true, .test => 0xc4

/-- The human-readable part of segwit addresses. -/
def hrpText : KnownHrp → String
  | .mainnet => "bc"
  | .testnets => "tb"
  | .regtest => "bcrt"

/-- The text of an address: base58 of version, hash and the first four bytes of the double SHA256, or BIP-173/BIP-350 in either
case. -/
def IsText (D : Bytes → Arr 32) (upper : Bool) : Address → Bytes → Prop
  | .p2pkh h n, t => Text58 (legacyVersion false n :: h.1 ++ (D (legacyVersion false n :: h.1)).1.take 4) t
  | .p2sh h n, t => Text58 (legacyVersion true n :: h.1 ++ (D (legacyVersion true n :: h.1)).1.take 4) t
  | .segwit p hrp, t =>
    let lowerText := Bech32.encodeLower (str (hrpText hrp)) (BitVec.ofNat 5 p.version.toNat) p.program
    t = if upper then lowerText.map Bech32.upper else lowerText

/-- What the text of an address starts with. -/
def startsWith : Address → List String
  | .p2pkh _ .main => ["1"]
  | .p2pkh _ .test => ["m", "n"]
  | .p2sh _ .main => ["3"]
  | .p2sh _ .test => ["2"]
  | .segwit _ hrp => [hrpText hrp ++ "1"]

/-! ## Base58 -/

theorem beVal_cons (B : Nat) (d : UInt8) (ds : Bytes) : B58.beVal B (d :: ds) = d.toNat * B ^ ds.length + B58.beVal B ds := by
  rw [← B58.leVal_reverse, List.reverse_cons, B58.leVal_append, List.length_reverse, B58.leVal_reverse]
  simp only [B58.leVal, Nat.mul_zero, Nat.add_zero]
  rw [Nat.mul_comm]; omega

theorem beVal_lt {B : Nat} {ds : Bytes} (h : ∀ d ∈ ds, d.toNat < B) : B58.beVal B ds < B ^ ds.length := by
  have := B58.leVal_lt (B := B) (ds := ds.reverse) (fun d hd => h d (by simpa using hd))
  rwa [B58.leVal_reverse, List.length_reverse] at this

/-- The number of digits and the leading digit from the size of the number. -/
theorem leading {ds : Bytes} (hd : ∀ d ∈ ds, d.toNat < 58) (hh : ds.head? ≠ some 0) {a b k : Nat} (ha : 1 ≤ a) (hb : b ≤ 58)
    (h1 : a * 58 ^ k ≤ B58.beVal 58 ds) (h2 : B58.beVal 58 ds < b * 58 ^ k) :
    ∃ d rest, ds = d :: rest ∧ rest.length = k ∧ a ≤ d.toNat ∧ d.toNat < b := by
  have hp : 0 < 58 ^ k := Nat.pow_pos (by omega)
  have hak : 58 ^ k ≤ a * 58 ^ k := Nat.le_mul_of_pos_left _ ha
  match ds with
  | [] => simp [B58.beVal] at h1; omega
  | d :: rest =>
    rw [beVal_cons] at h1 h2
    have hv : B58.beVal 58 rest < 58 ^ rest.length := beVal_lt fun x hx => hd x (List.mem_cons_of_mem _ hx)
    have hd0 : 1 ≤ d.toNat := by
      rcases Nat.eq_zero_or_pos d.toNat with h | h
      · exact absurd (by rw [List.head?_cons]; exact congrArg some (UInt8.toNat_inj.1 h)) hh
      · exact h
    have hd58 := hd d List.mem_cons_self
    have e1 : 58 ^ rest.length ≤ d.toNat * 58 ^ rest.length := Nat.le_mul_of_pos_left _ hd0
    have e2 : d.toNat * 58 ^ rest.length + 58 ^ rest.length ≤ 58 ^ (rest.length + 1) := by
      rw [Nat.pow_succ, Nat.mul_comm _ 58]
      have := Nat.mul_le_mul_right (58 ^ rest.length) (show d.toNat + 1 ≤ 58 by omega)
      rw [Nat.add_mul] at this; omega
    have e3 : b * 58 ^ k ≤ 58 ^ (k + 1) := by
      rw [Nat.pow_succ, Nat.mul_comm _ 58]; exact Nat.mul_le_mul_right _ hb
    have l1 : rest.length < k + 1 := (Nat.pow_lt_pow_iff_right (a := 58) (by omega)).1 (by omega)
    have l2 : k < rest.length + 1 := (Nat.pow_lt_pow_iff_right (a := 58) (by omega)).1 (by omega)
    have l : rest.length = k := by omega
    rw [l] at h1 h2 hv
    refine ⟨d, rest, rfl, l, ?_, ?_⟩
    · have : a * 58 ^ k < (d.toNat + 1) * 58 ^ k := by rw [Nat.add_mul]; omega
      have := Nat.lt_of_mul_lt_mul_right this; omega
    · have : d.toNat * 58 ^ k < b * 58 ^ k := by omega
      exact Nat.lt_of_mul_lt_mul_right this

/-- The text of 25 bytes that do not start with zero starts with the character for the leading digit. -/
theorem text_head {V : UInt8} {r t : Bytes} (hV : V ≠ 0) (hr : r.length = 24) (ht : Text58 (V :: r) t) {a b k : Nat} (ha : 1 ≤ a)
    (hb : b ≤ 58) (h1 : a * 58 ^ k ≤ V.toNat * 256 ^ 24) (h2 : (V.toNat + 1) * 256 ^ 24 ≤ b * 58 ^ k) :
    ∃ d c t', t = c :: t' ∧ B58.alphabet[d]? = some c ∧ a ≤ d ∧ d < b ∧ t'.length = k := by
  obtain ⟨z, body, ds, e, hb0, rfl, hd, hh, hv⟩ := ht
  have hz : z = 0 := by
    cases z with
    | zero => rfl
    | succ z =>
      rw [List.replicate_succ, List.cons_append, List.cons.injEq] at e
      exact absurd e.1 hV
  subst hz
  rw [List.replicate_zero, List.nil_append] at e
  subst e
  have hlt : B58.beVal 256 r < 256 ^ 24 := by
    have := beVal_lt (B := 256) (ds := r) (fun d _ => d.toNat_lt)
    rwa [hr] at this
  rw [beVal_cons, hr] at hv
  obtain ⟨d, rest, rfl, hl, h3, h4⟩ := leading hd hh ha hb (k := k) (by omega) (by rw [Nat.add_mul] at h2; omega)
  have hdl : d.toNat < B58.alphabet.length := Nat.lt_of_lt_of_le (hd d List.mem_cons_self) (by decide)
  refine ⟨d.toNat, B58.alphabet[d.toNat], B58.chars rest, ?_, List.getElem?_eq_getElem hdl, h3, h4, ?_⟩
  · simp only [List.replicate_zero, List.nil_append, List.filterMap_cons, List.getElem?_eq_getElem hdl]; rfl
  · rw [B58.chars_length fun x hx => hd x (List.mem_cons_of_mem _ hx), hl]

theorem text_len {b t : Bytes} (hb : b.length = 25) (ht : Text58 b t) : t.length ≤ 50 := by
  obtain ⟨z, body, ds, rfl, hb0, rfl, hd, hh, hv⟩ := ht
  rw [List.length_append, List.length_replicate] at hb
  have hc : (List.replicate z (49 : UInt8) ++ ds.filterMap fun d => B58.alphabet[d.toNat]?).length = z + ds.length := by
    rw [List.length_append, List.length_replicate]
    exact congrArg _ (B58.chars_length hd)
  rw [hc]
  have hlt : B58.beVal 256 body < 256 ^ body.length := beVal_lt fun d _ => d.toNat_lt
  match ds, hh, hv with
  | [], _, _ => simp; omega
  | d :: rest, hh, hv =>
    rw [beVal_cons] at hv
    have hd0 : 1 ≤ d.toNat := by
      rcases Nat.eq_zero_or_pos d.toNat with h | h
      · exact absurd (by rw [List.head?_cons]; exact congrArg some (UInt8.toNat_inj.1 h)) hh
      · exact h
    have e1 : 58 ^ rest.length ≤ d.toNat * 58 ^ rest.length := Nat.le_mul_of_pos_left _ hd0
    have e2 : 256 ^ body.length ≤ 58 ^ (2 * body.length) := by
      rw [Nat.pow_mul]; exact Nat.pow_le_pow_left (by decide) _
    have := (Nat.pow_lt_pow_iff_right (a := 58) (n := rest.length) (m := 2 * body.length) (by omega)).1 (by omega)
    simp only [List.length_cons]
    have : z + body.length = 25 := hb
    omega

/-- What the text of the four legacy versions starts with. -/
theorem legacy_start (s : Bool) (n : NetworkKind) (r t : Bytes) (hr : r.length = 24) (ht : Text58 (legacyVersion s n :: r) t) :
    ∃ c t', t = c :: t' ∧ c ∈ (match s, n with
      | false, .main => str "1" | true, .main => str "3" | false, .test => str "mn" | true, .test => str "2") := by
  match s, n with
  | false, .main =>
    obtain ⟨z, body, ds, e, hb0, rfl, hd, hh, hv⟩ := ht
    cases z with
    | zero =>
      rw [List.replicate_zero, List.nil_append] at e
      rw [← e] at hb0
      exact absurd rfl hb0
    | succ z => exact ⟨49, _, by rw [List.replicate_succ, List.cons_append], by decide⟩
  | true, .main =>
    obtain ⟨d, c, t', rfl, hc, h1, h2, _⟩ := text_head (a := 2) (b := 3) (k := 33) (by decide) hr ht (by decide) (by decide) (by decide +kernel) (by decide +kernel)
    have : d = 2 := by omega
    subst this
    cases hc
    exact ⟨_, t', rfl, by decide⟩
  | false, .test =>
    obtain ⟨d, c, t', rfl, hc, h1, h2, _⟩ := text_head (a := 44) (b := 46) (k := 33) (by decide) hr ht (by decide) (by decide) (by decide +kernel) (by decide +kernel)
    have : d = 44 ∨ d = 45 := by omega
    rcases this with rfl | rfl
    · cases hc; exact ⟨_, t', rfl, by decide⟩
    · cases hc; exact ⟨_, t', rfl, by decide⟩
  | true, .test =>
    obtain ⟨d, c, t', rfl, hc, h1, h2, _⟩ := text_head (a := 1) (b := 2) (k := 34) (by decide) hr ht (by decide) (by decide) (by decide +kernel) (by decide +kernel)
    have : d = 1 := by omega
    subst this
    cases hc
    exact ⟨_, t', rfl, by decide⟩

theorem enc21 (D : Bytes → Arr 32) (v : UInt8) (h : Arr 20) : ∃ t, B58.encodeUnbounded D (v :: h.1) = some t ∧
    Text58 (v :: h.1 ++ (D (v :: h.1)).1.take 4) t := by
  obtain ⟨t, h1, _, h3, _⟩ := B58.C30_encode D (v :: h.1)
  refine ⟨t, ?_, h1⟩
  rw [h3, if_neg]
  rintro ⟨h, _⟩
  have := Subtype.property ‹Arr 20›
  simp at h; omega

theorem check25 (D : Bytes → Arr 32) (v : UInt8) (h : Arr 20) : (h.1 ++ (D (v :: h.1)).1.take 4).length = 24 := by
  rw [List.length_append, h.2, B58.H4]

theorem prefix_eq (k : Bool) (n : NetworkKind) :
    (bif k then Address.scriptPrefix n else Address.pubkeyPrefix n) = legacyVersion k n := by cases k <;> cases n <;> rfl

/-- The two legacy addresses as one. -/
def legacy (k : Bool) (h : Arr 20) (n : NetworkKind) : Address := bif k then .p2sh h n else .p2pkh h n

theorem ofPrefix_legacy (k : Bool) (n : NetworkKind) (h : Arr 20) : Address.ofPrefix (legacyVersion k n) h = .ok (legacy k h n) := by
  cases k <;> cases n <;> rfl

theorem ofPrefix_ok (v : UInt8) (h : Arr 20) (a : Address) (e : Address.ofPrefix v h = .ok a) : ∃ k n, v = legacyVersion k n ∧ a = legacy k h n := by
  unfold Address.ofPrefix at e
  split at e
  · rename_i h; cases e; exact ⟨false, .main, h, rfl⟩
  split at e
  · rename_i h; cases e; exact ⟨false, .test, h, rfl⟩
  split at e
  · rename_i h; cases e; exact ⟨true, .main, h, rfl⟩
  split at e
  · rename_i h; cases e; exact ⟨true, .test, h, rfl⟩
  · cases e

theorem fromBase58_iff (D : Bytes → Arr 32) (s : Bytes) (a : Address) : Address.fromBase58Str D s = .ok a ↔
    ∃ k h n, a = legacy k h n ∧ Text58 (legacyVersion k n :: h.1 ++ (D (legacyVersion k n :: h.1)).1.take 4) s := by
  unfold Address.fromBase58Str
  constructor
  · intro e
    split at e
    · cases e
    split at e
    · cases e
    rename_i data hdec
    split at e
    · cases e
    rename_i pre rest
    split at e
    · rename_i hl
      obtain ⟨k, n, rfl, rfl⟩ := ofPrefix_ok _ _ _ e
      exact ⟨k, ⟨rest, hl⟩, n, rfl, (B58.C30_decode_check D s _).1 ((B58.C30_decode_check_to_array D 21 s _).1 hdec).1⟩
    · cases e
  · rintro ⟨k, h, n, rfl, ht⟩
    have hlen : s.length ≤ 50 := text_len (by rw [List.cons_append, List.length_cons, check25]) ht
    rw [if_neg (by omega)]
    have := (B58.C30_decode_check_to_array D 21 s (legacyVersion k n :: h.1)).2
      ⟨(B58.C30_decode_check D s _).2 ht, by rw [List.length_cons, h.2], by decide⟩
    rw [this]
    simp only
    rw [dif_pos h.2]
    exact ofPrefix_legacy k n h

/-- The first character of a legacy text selects base58. -/
theorem parse_legacy (D : Bytes → Arr 32) (c : UInt8) (t : Bytes) (h : c ∈ str "123mn") : Address.parse D (c :: t) = Address.fromBase58Str D (c :: t) := by
  unfold Address.parse
  have key : ∀ c ∈ str "123mn", (98 == Bech32.lower c) = false ∧ (116 == Bech32.lower c) = false ∧
      (c = 49 ∨ c = 50 ∨ c = 51 ∨ c = 109 ∨ c = 110) := by decide
  obtain ⟨h1, h2, h3⟩ := key c h
  rw [if_neg, if_pos]
  · rcases h3 with rfl | rfl | rfl | rfl | rfl <;> rfl
  · show ¬ ((98 == Bech32.lower c && _) || ((98 == Bech32.lower c && _) || ((116 == Bech32.lower c && _) || false))) = true
    rw [h1, h2]; simp

/-! ## Bech32 -/

theorem toHrp_text (k : KnownHrp) : k.toHrp = str (hrpText k) := by cases k <;> rfl
theorem fromHrp_iff (h : Bytes) (k : KnownHrp) : KnownHrp.fromHrp h = some k ↔ h = str (hrpText k) := by
  constructor
  · intro e
    unfold KnownHrp.fromHrp at e
    split at e
    · rename_i h; cases e; exact h
    split at e
    · rename_i h; cases e; exact h
    split at e
    · rename_i h; cases e; exact h
    · cases e
  · rintro rfl; cases k <;> decide
theorem hrp_facts (k : KnownHrp) : Bech32.hrpOk (str (hrpText k)) = true ∧ (∀ c ∈ str (hrpText k), Bech32.isUpper c = false) ∧
    (str (hrpText k)).length ≤ 4 ∧ (str (hrpText k)).map Bech32.lower = str (hrpText k) ∧
    ((str (hrpText k)).map Bech32.upper).map Bech32.lower = str (hrpText k) := by
  cases k <;> decide

set_option maxRecDepth 8000 in
theorem ver_back (v : UInt8) : v.toNat ≤ 16 → (BitVec.ofNat 5 v.toNat).toNat = v.toNat := by
  intro h; rw [BitVec.toNat_ofNat]; exact Nat.mod_eq_of_lt (by omega)
theorem fe_back : ∀ f : Bech32.Fe, BitVec.ofNat 5 (UInt8.ofNat f.toNat).toNat = f ∧ (UInt8.ofNat f.toNat).toNat = f.toNat ∧
    (UInt8.ofNat f.toNat = 0 ↔ f = 0#5) := by decide

theorem valid_lengthOk (p : WitProgram) (hrp : KnownHrp) : (Address.segwit p hrp).Valid ↔
    p.version.toNat ≤ 16 ∧ Bech32.lengthOk (BitVec.ofNat 5 p.version.toNat) p.program.length = true := by
  unfold Address.Valid Bech32.lengthOk
  simp only [Bool.and_eq_true, Bool.or_eq_true, decide_eq_true_eq]
  constructor
  · rintro ⟨h1, h2, h3, h4⟩
    refine ⟨h1, ⟨h2, h3⟩, ?_⟩
    by_cases h : p.version = 0
    · rcases h4 h with h | h
      · exact .inl (.inr h)
      · exact .inr h
    · refine .inl (.inl fun e => h ?_)
      have := congrArg BitVec.toNat e
      rw [ver_back _ h1] at this
      exact UInt8.toNat_inj.1 this
  · rintro ⟨h1, ⟨h2, h3⟩, h4⟩
    refine ⟨h1, h2, h3, fun h => ?_⟩
    rw [h] at h4
    rcases h4 with (h4 | h4) | h4
    · exact absurd rfl h4
    · exact .inl h4
    · exact .inr h4

theorem fromBech32_iff (s : Bytes) (a : Address) : Address.fromBech32Str s = .ok a ↔
    ∃ p hrp, a = .segwit p hrp ∧ a.Valid ∧ ∃ u, IsText (fun _ => ⟨List.replicate 32 0, rfl⟩) u a s := by
  unfold Address.fromBech32Str
  constructor
  · intro e
    cases hd : Bech32.decode s with
    | none => rw [hd] at e; cases e
    | some x =>
      obtain ⟨hrp, v, p⟩ := x
      rw [hd] at e
      obtain ⟨h1, h2, h3, h4⟩ := Bech32.decode_some _ _ _ _ hd
      simp only [if_pos h2] at e
      have hval : (Address.segwit ⟨UInt8.ofNat v.toNat, p⟩ .mainnet).Valid := by
        rw [valid_lengthOk]
        exact ⟨by rw [(fe_back v).2.1]; exact h2, by rw [(fe_back v).1]; exact h3⟩
      have hn := (new_iff _ _ _).2 ⟨rfl, hval.2⟩
      rw [hn] at e
      simp only at e
      cases hk : KnownHrp.fromHrp hrp with
      | none => rw [hk] at e; cases e
      | some k =>
        rw [hk] at e
        cases e
        have hk' := (fromHrp_iff _ _).1 hk
        subst hk'
        refine ⟨_, _, rfl, hval, ?_⟩
        rcases h1 with rfl | rfl
        · exact ⟨false, by simp only [IsText, (fe_back v).1]; rfl⟩
        · exact ⟨true, by simp only [IsText, (fe_back v).1]; rfl⟩
  · rintro ⟨p, hrp, rfl, hval, u, ht⟩
    obtain ⟨hv, hl⟩ := (valid_lengthOk p hrp).1 hval
    obtain ⟨f1, f2, f3, _⟩ := hrp_facts hrp
    have hb : (BitVec.ofNat 5 p.version.toNat).toNat = p.version.toNat := ver_back _ hv
    have hlen : (Bech32.encodeLower (str (hrpText hrp)) (BitVec.ofNat 5 p.version.toNat) p.program).length ≤ 90 := by
      rw [Bech32.encodeLower_length]
      have := hval.2.2.1
      omega
    have hd : Bech32.decode s = some (str (hrpText hrp), BitVec.ofNat 5 p.version.toNat, p.program) := by
      rw [show s = _ from ht]
      cases u
      · exact Bech32.decode_encodeLower _ _ _ f1 f2 (by rw [hb]; exact hv) hl hlen
      · exact Bech32.decode_encodeUpper _ _ _ f1 f2 (by rw [hb]; exact hv) hl hlen
    rw [hd]
    simp only [hb, if_pos hv]
    have e1 : UInt8.ofNat p.version.toNat = p.version := UInt8.ofNat_toNat
    rw [e1, (new_iff p.version p.program p).2 ⟨rfl, hval.2⟩]
    simp only
    rw [(fromHrp_iff _ _).2 rfl]

theorem text_lower (u : Bool) (p : WitProgram) (hrp : KnownHrp) (t : Bytes) (D : Bytes → Arr 32) (h : IsText D u (.segwit p hrp) t) :
    ∃ r, t.map Bech32.lower = str (hrpText hrp ++ "1") ++ r := by
  obtain ⟨_, _, _, f4, f5⟩ := hrp_facts hrp
  have e : str (hrpText hrp ++ "1") = str (hrpText hrp) ++ [49] := by cases hrp <;> decide
  rw [show t = _ from h, e]
  unfold Bech32.encodeLower
  cases u
  · rw [if_neg (by decide), List.map_append, List.map_append, f4]; exact ⟨_, rfl⟩
  · rw [if_pos rfl, List.map_append, List.map_append, List.map_append, List.map_append, f5]; exact ⟨_, rfl⟩

theorem parse_segwit (D : Bytes → Arr 32) (s r : Bytes) (hrp : KnownHrp) (h : s.map Bech32.lower = str (hrpText hrp ++ "1") ++ r) :
    Address.parse D s = Address.fromBech32Str s := by
  unfold Address.parse
  rw [h, if_pos]
  cases hrp
  · rfl
  · show (_ || (_ || (_ || false))) = true
    have : (str "tb1").isPrefixOf (str "tb1" ++ r) = true := List.isPrefixOf_iff_prefix.2 (List.prefix_append _ _)
    show (_ || (_ || ((str "tb1").isPrefixOf (str "tb1" ++ r) || false))) = true
    rw [this]; simp
  · have : (str "bcrt1").isPrefixOf (str "bcrt1" ++ r) = true := List.isPrefixOf_iff_prefix.2 (List.prefix_append _ _)
    show (_ || ((str "bcrt1").isPrefixOf (str "bcrt1" ++ r) || _)) = true
    rw [this]; simp

/-! ## The property -/

/-- **C75 (display).** Every address has a text: displaying does not panic, and makes the text of the specification (upper case segwit
with the flag `#`). -/
theorem C75_display (D : Bytes → Arr 32) (u : Bool) (a : Address) (h : a.Valid) (t : Bytes) : a.display D u = some t ↔ IsText D u a t := by
  have leg : ∀ (v : UInt8) (x : Arr 20), B58.encodeUnbounded D (v :: x.1) = some t ↔ Text58 (v :: x.1 ++ (D (v :: x.1)).1.take 4) t := by
    intro v x
    obtain ⟨t', e, ht⟩ := enc21 D v x
    rw [e, Option.some.injEq]
    constructor
    · rintro rfl; exact ht
    · intro h'; exact (B58.C29_unique _ _ _ _ ht h').1 rfl
  cases a with
  | p2pkh x n =>
    show B58.encodeUnbounded D (Address.pubkeyPrefix n :: x.1) = some t ↔ Text58 (legacyVersion false n :: _ ++ (D (legacyVersion false n :: _)).1.take 4) t
    rw [← prefix_eq false n]; exact leg _ x
  | p2sh x n =>
    show B58.encodeUnbounded D (Address.scriptPrefix n :: x.1) = some t ↔ Text58 (legacyVersion true n :: _ ++ (D (legacyVersion true n :: _)).1.take 4) t
    rw [← prefix_eq true n]; exact leg _ x
  | segwit p hrp =>
    have hv := h.1
    unfold Address.display IsText
    simp only
    rw [if_pos (by omega), Option.some.injEq, toHrp_text]
    cases u
    · exact eq_comm
    · exact eq_comm

/-- Displaying does not panic. -/
theorem C75_display_total (D : Bytes → Arr 32) (u : Bool) (a : Address) (h : a.Valid) : ∃ t, a.display D u = some t := by
  cases a with
  | p2pkh x n => obtain ⟨t, e, _⟩ := enc21 D (Address.pubkeyPrefix n) x; exact ⟨t, e⟩
  | p2sh x n => obtain ⟨t, e, _⟩ := enc21 D (Address.scriptPrefix n) x; exact ⟨t, e⟩
  | segwit p hrp =>
    have hv := h.1
    unfold Address.display
    simp only
    rw [if_pos (by omega)]; exact ⟨_, rfl⟩

theorem isText_legacy (D : Bytes → Arr 32) (u k : Bool) (h : Arr 20) (n : NetworkKind) (t : Bytes) :
    IsText D u (legacy k h n) t ↔ Text58 (legacyVersion k n :: h.1 ++ (D (legacyVersion k n :: h.1)).1.take 4) t := by
  cases k <;> exact Iff.rfl

/-- **C75 (parsing).** The parser accepts exactly the texts of addresses, in either case for segwit, and returns the address. -/
theorem C75_parse (D : Bytes → Arr 32) (s : Bytes) (a : Address) :
    Address.parse D s = .ok a ↔ a.Valid ∧ ∃ u, IsText D u a s := by
  constructor
  · intro h
    unfold Address.parse at h
    split at h
    · obtain ⟨p, hrp, rfl, hv, u, ht⟩ := (fromBech32_iff s a).1 h
      exact ⟨hv, u, ht⟩
    split at h
    · obtain ⟨k, x, n, rfl, ht⟩ := (fromBase58_iff D s a).1 h
      exact ⟨by cases k <;> exact trivial, false, (isText_legacy D _ k x n s).2 ht⟩
    · cases h
  · rintro ⟨hv, u, ht⟩
    have leg : ∀ k x n, a = legacy k x n → Address.parse D s = .ok a := by
      rintro k x n rfl
      have ht' := (isText_legacy D u k x n s).1 ht
      obtain ⟨c, t', rfl, hc⟩ := legacy_start k n _ s (check25 D (legacyVersion k n) x) ht'
      rw [parse_legacy D c t']
      · exact (fromBase58_iff D _ _).2 ⟨k, x, n, rfl, ht'⟩
      · have sub : ∀ l ∈ [str "1", str "3", str "mn", str "2"], ∀ c ∈ l, c ∈ str "123mn" := by decide
        match k, n, hc with
        | false, .main, hc => exact sub _ (by decide) _ hc
        | true, .main, hc => exact sub _ (by decide) _ hc
        | false, .test, hc => exact sub _ (by decide) _ hc
        | true, .test, hc => exact sub _ (by decide) _ hc
    cases a with
    | p2pkh x n => exact leg false x n rfl
    | p2sh x n => exact leg true x n rfl
    | segwit p hrp =>
      obtain ⟨r, hr⟩ := text_lower u p hrp s D ht
      rw [parse_segwit D s r hrp hr]
      exact (fromBech32_iff s _).2 ⟨p, hrp, rfl, hv, u, ht⟩

/-- **C75 (round trip).** Parsing the text of an address, in either case, gives the address back. -/
theorem C75_round_trip (D : Bytes → Arr 32) (u : Bool) (a : Address) (h : a.Valid) :
    ∃ t, a.display D u = some t ∧ Address.parse D t = .ok a := by
  obtain ⟨t, ht⟩ := C75_display_total D u a h
  exact ⟨t, ht, (C75_parse D t a).2 ⟨h, u, (C75_display D u a h t).1 ht⟩⟩

/-- The URI for QR codes: the scheme, then a text that parses to the address and, for segwit, has no lower case letters. -/
theorem C75_qr_uri (D : Bytes → Arr 32) (a : Address) (h : a.Valid) :
    ∃ t, Address.toQrUri D a = some (str "bitcoin:" ++ t) ∧ Address.parse D t = .ok a ∧
      ((∃ p hrp, a = .segwit p hrp) → ∀ c ∈ t, ¬ (97 ≤ c.toNat ∧ c.toNat ≤ 122)) := by
  obtain ⟨t, ht, hp⟩ := C75_round_trip D true a h
  refine ⟨t, by unfold Address.toQrUri; rw [ht]; rfl, hp, ?_⟩
  rintro ⟨p, hrp, rfl⟩ c hc
  have h1 := (C75_display D true _ h t).1 ht
  rw [show t = _ from h1, if_pos rfl] at hc
  obtain ⟨c', _, rfl⟩ := List.mem_map.1 hc
  have key : ∀ c : UInt8, ¬ (97 ≤ (Bech32.upper c).toNat ∧ (Bech32.upper c).toNat ≤ 122) := by
    intro c hc
    have := (Bech32.case_facts c).2.2.2.2.2.1
    unfold Bech32.isLower at this
    simp only [Bool.and_eq_false_iff, decide_eq_false_iff_not] at this
    omega
  exact key c'

/-- **C75 (canonical).** An accepted text is one of the two displays of the address it denotes. -/
theorem C75_canonical (D : Bytes → Arr 32) (s : Bytes) (a : Address) (h : Address.parse D s = .ok a) :
    a.display D false = some s ∨ a.display D true = some s := by
  obtain ⟨hv, u, ht⟩ := (C75_parse D s a).1 h
  cases u
  · exact .inl ((C75_display D _ a hv s).2 ht)
  · exact .inr ((C75_display D _ a hv s).2 ht)

/-- **C75 (what texts start with).** The kind and network of an address show in the first characters of its text. -/
theorem C75_start (D : Bytes → Arr 32) (u : Bool) (a : Address) (t : Bytes) (h : IsText D u a t) :
    ∃ p ∈ startsWith a, ∃ r, (match a with | .segwit _ _ => t.map Bech32.lower | _ => t) = str p ++ r := by
  have leg : ∀ k x n, IsText D u (legacy k x n) t → ∃ p ∈ startsWith (legacy k x n), ∃ r, t = str p ++ r := by
    intro k x n ht
    obtain ⟨c, t', rfl, hc⟩ := legacy_start k n _ t (check25 D (legacyVersion k n) x) ((isText_legacy D u k x n t).1 ht)
    match k, n, hc with
    | false, .main, hc => exact ⟨"1", by simp [legacy, startsWith], t', by rw [show c = 49 by simpa [str] using hc]; rfl⟩
    | true, .main, hc => exact ⟨"3", by simp [legacy, startsWith], t', by rw [show c = 51 by simpa [str] using hc]; rfl⟩
    | true, .test, hc => exact ⟨"2", by simp [legacy, startsWith], t', by rw [show c = 50 by simpa [str] using hc]; rfl⟩
    | false, .test, hc =>
      have : c = 109 ∨ c = 110 := by simpa [str] using hc
      rcases this with rfl | rfl
      · exact ⟨"m", by simp [legacy, startsWith], t', rfl⟩
      · exact ⟨"n", by simp [legacy, startsWith], t', rfl⟩
  cases a with
  | p2pkh x n => exact leg false x n h
  | p2sh x n => exact leg true x n h
  | segwit p hrp =>
    obtain ⟨r, hr⟩ := text_lower u p hrp t D h
    exact ⟨hrpText hrp ++ "1", by simp [startsWith], r, hr⟩

/-- **C75 (network check).** `require_network` passes exactly the addresses in use on the network, unchanged. -/
theorem C75_require_network (a : Address) (n : Network) :
    (Uses n a → a.requireNetwork n = .ok a) ∧ (¬ Uses n a → a.requireNetwork n = .error (.networkValidation n)) := by
  unfold Address.requireNetwork
  constructor
  · intro h; rw [if_pos ((valid_for_iff a n).2 h)]
  · intro h; rw [if_neg fun e => h ((valid_for_iff a n).1 e)]

/-- **C75 (no panic).** The `expect` and the array conversions in the parser do not fail. -/
theorem C75_no_panic (D : Bytes → Arr 32) (s : Bytes) : Address.parse D s ≠ .error .panic := by
  unfold Address.parse
  split
  · unfold Address.fromBech32Str
    intro e
    split at e
    · cases e
    rename_i hrp v p hd
    obtain ⟨_, h2, h3, _⟩ := Bech32.decode_some _ _ _ _ hd
    rw [if_pos h2] at e
    have hval : (Address.segwit ⟨UInt8.ofNat v.toNat, p⟩ .mainnet).Valid := by
      rw [valid_lengthOk]
      exact ⟨by rw [(fe_back v).2.1]; exact h2, by rw [(fe_back v).1]; exact h3⟩
    rw [(new_iff _ _ _).2 ⟨rfl, hval.2⟩] at e
    simp only at e
    split at e <;> cases e
  split
  · unfold Address.fromBase58Str
    intro e
    split at e
    · cases e
    split at e
    · cases e
    rename_i data hdec
    have hl := ((B58.C30_decode_check_to_array D 21 s _).1 hdec).2.1
    split at e
    · simp at hl
    rename_i pre rest
    rw [dif_pos (by simpa using hl)] at e
    unfold Address.ofPrefix at e
    repeat (split at e; · cases e)
    cases e
  · intro e; cases e

/-! ## Typing errors -/

theorem gen_low : ∀ t : BitVec 5, (Bech32.gen t).extractLsb' 0 5 = 0#5 → t = 0#5 := by decide

theorem step_zero (c : BitVec 30) (h : Bech32.step c 0#5 = 0#30) : c = 0#30 := by
  have low : (Bech32.step c 0#5).extractLsb' 0 5 = (Bech32.gen (c.extractLsb' 25 5)).extractLsb' 0 5 := by
    unfold Bech32.step
    apply BitVec.eq_of_getLsbD_eq; intro i hi
    simp only [BitVec.getLsbD_extractLsb', BitVec.getLsbD_xor, BitVec.getLsbD_shiftLeft, BitVec.getLsbD_setWidth]
    grind
  rw [h] at low
  have top : c.extractLsb' 25 5 = 0#5 := gen_low _ (by rw [← low]; rfl)
  rw [Bech32.step_small c _ top] at h
  apply BitVec.eq_of_getLsbD_eq; intro i hi
  by_cases h25 : i < 25
  · have := congrArg (fun x => BitVec.getLsbD x (i + 5)) h
    simp only [BitVec.getLsbD_xor, BitVec.getLsbD_shiftLeft, BitVec.getLsbD_setWidth] at this
    grind
  · have := congrArg (fun x => BitVec.getLsbD x (i - 25)) top
    simp only [BitVec.getLsbD_extractLsb'] at this
    grind

theorem step_state (a b : BitVec 30) (v : Bech32.Fe) (h : Bech32.step a v = Bech32.step b v) : a = b := by
  have : Bech32.step (a ^^^ b) 0#5 = 0#30 := by
    rw [show (0#5 : BitVec 5) = v ^^^ v by rw [BitVec.xor_self], Bech32.step_xor, h, BitVec.xor_self]
  have := step_zero _ this
  have e : a ^^^ b ^^^ b = 0#30 ^^^ b := by rw [this]
  rwa [BitVec.xor_assoc, BitVec.xor_self, BitVec.xor_zero, BitVec.zero_xor] at e

theorem step_value (a : BitVec 30) (u v : Bech32.Fe) (h : Bech32.step a u = Bech32.step a v) : u = v := by
  apply BitVec.eq_of_getLsbD_eq; intro i hi
  have := congrArg (fun x => BitVec.getLsbD x i) h
  unfold Bech32.step at this
  simp only [BitVec.getLsbD_xor, BitVec.getLsbD_shiftLeft, BitVec.getLsbD_setWidth] at this
  grind

theorem run_state : ∀ (l : List Bech32.Fe) (a b : BitVec 30), l.foldl Bech32.step a = l.foldl Bech32.step b → a = b
  | [], _, _, h => h
  | v :: l, a, b, h => step_state a b v (run_state l _ _ h)

theorem polymod_one (l r : List Bech32.Fe) (u v : Bech32.Fe) (h : Bech32.polymod (l ++ u :: r) = Bech32.polymod (l ++ v :: r)) : u = v := by
  unfold Bech32.polymod at h
  rw [List.foldl_append, List.foldl_append, List.foldl_cons, List.foldl_cons] at h
  exact step_value _ _ _ (run_state _ _ _ h)

theorem charOf_inj (a b : Bech32.Fe) (h : Bech32.charOf a = Bech32.charOf b) : a = b := by
  have := Bech32.feOf_charOf a
  rw [h, Bech32.feOf_charOf] at this
  exact (Option.some.inj this).symm

theorem map_charOf_inj : ∀ (a b : List Bech32.Fe), a.map Bech32.charOf = b.map Bech32.charOf → a = b
  | [], [], _ => rfl
  | [], _ :: _, h => by cases h
  | _ :: _, [], h => by cases h
  | x :: a, y :: b, h => by
    simp only [List.map_cons, List.cons.injEq] at h
    rw [charOf_inj x y h.1, map_charOf_inj a b h.2]

/-- The lower case form of a segwit text: human-readable part, separator, version and the other characters, whose checksum is right. -/
theorem text_parts (D : Bytes → Arr 32) (u : Bool) (p : WitProgram) (hrp : KnownHrp) (t : Bytes) (h : IsText D u (.segwit p hrp) t) :
    ∃ fs : List Bech32.Fe, t.map Bech32.lower = str (hrpText hrp) ++ 49 :: (BitVec.ofNat 5 p.version.toNat :: fs).map Bech32.charOf ∧
      Bech32.polymod (Bech32.hrpExpand (str (hrpText hrp)) ++ BitVec.ofNat 5 p.version.toNat :: fs) =
        Bech32.residue (BitVec.ofNat 5 p.version.toNat) := by
  obtain ⟨_, _, _, f4, f5⟩ := hrp_facts hrp
  generalize hv : BitVec.ofNat 5 p.version.toNat = v at *
  refine ⟨Bech32.toFes p.program ++ Bech32.createChecksum (str (hrpText hrp)) (v :: Bech32.toFes p.program) (Bech32.residue v), ?_, ?_⟩
  · have low : ∀ l : List Bech32.Fe, (l.map Bech32.charOf).map Bech32.lower = l.map Bech32.charOf := by
      intro l; rw [List.map_map]; apply List.map_congr_left; intro f _; exact (Bech32.charOf_class f).2.2
    have up : ∀ l : List Bech32.Fe, ((l.map Bech32.charOf).map Bech32.upper).map Bech32.lower = l.map Bech32.charOf := by
      intro l; rw [List.map_map, List.map_map]; apply List.map_congr_left; intro f _
      exact (Bech32.case_facts _).2.2.2.2.2.2 (Bech32.charOf_class f).2.1
    rw [show t = _ from h, hv]
    unfold Bech32.encodeLower
    cases u
    · rw [if_neg (by decide), List.map_append, List.map_append, f4, low, List.append_assoc]; rfl
    · rw [if_pos rfl, List.map_append, List.map_append, List.map_append, List.map_append, f5, up, List.append_assoc]; rfl
  · have := (Bech32.verify_iff (str (hrpText hrp)) (v :: Bech32.toFes p.program) _ (Bech32.residue v) (Bech32.split6_length _)).2 rfl
    unfold Bech32.verifyChecksum at this
    rw [beq_iff_eq] at this
    exact this

theorem hrp_prefix (k k' : KnownHrp) (x y : Bytes) (l : Bytes) (hl : (str (hrpText k)).length + 1 ≤ l.length)
    (h1 : l ++ x = str (hrpText k) ++ 49 :: y) (z y' : Bytes) (h2 : l ++ z = str (hrpText k') ++ 49 :: y') : k = k' := by
  have n3 : ∀ k : KnownHrp, 2 ≤ (str (hrpText k)).length := by intro k; cases k <;> decide
  have key : ∀ a b c l', l = a :: b :: c :: l' → (k = k' ∨ False) := by
    intro a b c l' e
    subst e
    simp only [List.cons_append] at h1 h2
    left
    cases k <;> cases k' <;> first
      | rfl
      | (simp [hrpText, str] at h1 h2; simp_all)
  match l, hl with
  | [], hl => simp at hl
  | [a], hl => have := n3 k; simp only [List.length_cons, List.length_nil] at hl; omega
  | [a, b], hl => have := n3 k; simp only [List.length_cons, List.length_nil] at hl; omega
  | a :: b :: c :: l', _ => exact (key a b c l' rfl).resolve_right id

/-- **C75 (typing errors).** Changing one character after the version character of a segwit address to a different one never gives a
text that is accepted as an address. -/
theorem C75_typo (D : Bytes → Arr 32) (l r : Bytes) (c c' : UInt8) (p : WitProgram) (hrp : KnownHrp)
    (h : Address.parse D (l ++ c :: r) = .ok (.segwit p hrp)) (hl : (hrpText hrp).length + 2 ≤ l.length)
    (hc : Bech32.lower c ≠ Bech32.lower c') (a : Address) : Address.parse D (l ++ c' :: r) ≠ .ok a := by
  intro h'
  obtain ⟨_, u, ht⟩ := (C75_parse D _ _).1 h
  obtain ⟨_, u', ht'⟩ := (C75_parse D _ _).1 h'
  obtain ⟨fs, e1, e2⟩ := text_parts D u p hrp _ ht
  have hlen : (str (hrpText hrp)).length = (hrpText hrp).length := by cases hrp <;> rfl
  rw [List.map_append, List.map_cons] at e1
  -- the changed text is not a legacy one
  have seg : ∃ p' hrp', a = .segwit p' hrp' := by
    have no : ∀ k x n, a = legacy k x n → False := by
      rintro k x n rfl
      obtain ⟨d, t', e, hd⟩ := legacy_start k n _ _ (check25 D (legacyVersion k n) x) ((isText_legacy D u' k x n _).1 ht')
      match l, hl with
      | [], hl => simp at hl
      | b :: l', _ =>
        simp only [List.cons_append, List.cons.injEq] at e
        obtain ⟨rfl, _⟩ := e
        have hb : Bech32.lower b = 98 ∨ Bech32.lower b = 116 := by
          simp only [List.map_cons, List.cons_append] at e1
          cases hrp <;> (simp [hrpText, str] at e1; first | exact .inl e1.1 | exact .inr e1.1)
        have sub : ∀ l ∈ [str "1", str "3", str "mn", str "2"], ∀ c ∈ l, Bech32.lower c ≠ 98 ∧ Bech32.lower c ≠ 116 := by decide
        have : Bech32.lower b ≠ 98 ∧ Bech32.lower b ≠ 116 := by
          match k, n, hd with
          | false, .main, hd => exact sub _ (by decide) _ hd
          | true, .main, hd => exact sub _ (by decide) _ hd
          | false, .test, hd => exact sub _ (by decide) _ hd
          | true, .test, hd => exact sub _ (by decide) _ hd
        rcases hb with hb | hb
        · exact this.1 hb
        · exact this.2 hb
    cases a with
    | p2pkh x n => exact (no false x n rfl).elim
    | p2sh x n => exact (no true x n rfl).elim
    | segwit p' hrp' => exact ⟨p', hrp', rfl⟩
  obtain ⟨p', hrp', rfl⟩ := seg
  obtain ⟨fs', e1', e2'⟩ := text_parts D u' p' hrp' _ ht'
  rw [List.map_append, List.map_cons] at e1'
  have hk : hrp = hrp' := hrp_prefix hrp hrp' _ _ (l.map Bech32.lower) (by rw [List.length_map, hlen]; omega) e1 _ _ e1'
  subst hk
  generalize BitVec.ofNat 5 p.version.toNat = v at e1 e2
  generalize BitVec.ofNat 5 p'.version.toNat = v' at e1' e2'
  -- split the common part
  obtain ⟨m, hm⟩ : ∃ m, l.map Bech32.lower = str (hrpText hrp) ++ 49 :: Bech32.charOf v :: m := by
    have ht : l.map Bech32.lower = (str (hrpText hrp) ++ 49 :: (v :: fs).map Bech32.charOf).take l.length := by
      rw [← e1, ← List.length_map (f := Bech32.lower) (as := l), List.take_left]
    rw [ht, List.take_append, List.take_of_length_le (by rw [hlen]; omega)]
    obtain ⟨q, hq⟩ : ∃ q, l.length - (str (hrpText hrp)).length = q + 2 := ⟨l.length - (str (hrpText hrp)).length - 2, by rw [hlen]; omega⟩
    rw [hq, List.take_succ_cons, List.map_cons, List.take_succ_cons]
    exact ⟨_, rfl⟩
  rw [hm] at e1 e1'
  simp only [List.append_assoc, List.cons_append, List.map_cons] at e1 e1'
  replace e1 := List.append_cancel_left e1
  replace e1' := List.append_cancel_left e1'
  simp only [List.cons.injEq, true_and] at e1 e1'
  obtain ⟨hv', e1'⟩ := e1'
  have := charOf_inj _ _ hv'
  subst this
  obtain ⟨g, g', rfl, hg1, hg2⟩ := List.map_eq_append_iff.1 e1.symm
  obtain ⟨f, gr, rfl, hf, hgr⟩ := List.map_eq_cons_iff.1 hg2
  obtain ⟨i, i', rfl, hi1, hi2⟩ := List.map_eq_append_iff.1 e1'.symm
  obtain ⟨f', ir, rfl, hf', hir⟩ := List.map_eq_cons_iff.1 hi2
  have : g = i := map_charOf_inj _ _ (hg1.trans hi1.symm)
  subst this
  have : gr = ir := map_charOf_inj _ _ (hgr.trans hir.symm)
  subst this
  have he := polymod_one (Bech32.hrpExpand (str (hrpText hrp)) ++ v :: g) gr f f' (by
    simp only [List.append_assoc, List.cons_append] at e2 e2' ⊢
    rw [e2, e2'])
  apply hc
  rw [← hf, ← hf', he]

/-! ## Names -/

/-- **C75 (networks as text).** `Display`/`FromStr` and `to_core_arg`/`from_core_arg` are inverse to each other: each name is accepted for
one network, and nothing else is accepted. -/
theorem C75_network_text (s : Bytes) (n : Network) :
    (Net.parse s = some n ↔ s = Net.display n) ∧ (Net.fromCoreArg s = some n ↔ s = Net.toCoreArg n) ∧
    (Net.display n = match n with
      | .bitcoin => str "bitcoin" | .testnet3 => str "testnet" | .testnet4 => str "testnet4" | .signet => str "signet" | .regtest => str "regtest") ∧
    (Net.toCoreArg n = match n with
      | .bitcoin => str "main" | .testnet3 => str "test" | .testnet4 => str "testnet4" | .signet => str "signet" | .regtest => str "regtest") := by
  refine ⟨⟨fun h => ?_, fun h => ?_⟩, ⟨fun h => ?_, fun h => ?_⟩, ?_, ?_⟩
  · unfold Net.parse at h
    repeat (split at h; · rename_i hs; cases h; exact hs)
    cases h
  · subst h; cases n <;> decide
  · unfold Net.fromCoreArg at h
    repeat (split at h; · rename_i hs; cases h; exact hs)
    cases h
  · subst h; cases n <;> decide
  · cases n <;> rfl
  · cases n <;> rfl

/-- **C75 (address types as text).** -/
theorem C75_type_text (s : Bytes) (t : AddressType) : (AddressType.parse s = some t ↔ s = t.display) ∧
    (t.display = match t with
      | .p2pkh => str "p2pkh" | .p2sh => str "p2sh" | .p2wpkh => str "p2wpkh" | .p2wsh => str "p2wsh" | .p2tr => str "p2tr" | .p2a => str "p2a") := by
  refine ⟨⟨fun h => ?_, fun h => ?_⟩, ?_⟩
  · unfold AddressType.parse at h
    repeat (split at h; · rename_i hs; cases h; exact hs)
    cases h
  · subst h; cases t <;> decide
  · cases t <;> rfl

/-! ## Examples -/

/-- Double SHA256. -/
def sha256d (b : Bytes) : Arr 32 :=
  if h : (Sha2.sha256 (Sha2.sha256 b)).length = 32 then ⟨Sha2.sha256 (Sha2.sha256 b), h⟩ else ⟨List.replicate 32 0, rfl⟩

def isOk : Except Address.ParseErr Address → Option Address
  | .ok a => some a
  | .error _ => none

/-- The first vector of BIP-173 (the key hash of the generator), its upper case form, and the text of its program under version 1. -/
def genHash : Bytes := [0x75, 0x1e, 0x76, 0xe8, 0x19, 0x91, 0x96, 0xd4, 0x54, 0x94, 0x1c, 0x45, 0xd1, 0xb3, 0xa3, 0x23, 0xf1, 0x43, 0x3b, 0xd6]
example : (Address.segwit ⟨0, genHash⟩ .mainnet).Valid := ⟨by decide, by decide, by decide, fun _ => by decide⟩
example : (Address.segwit ⟨0, genHash⟩ .mainnet).display sha256d false = some (str "bc1qw508d6qejxtdg4y5r3zarvary0c5xw7kv8f3t4") := by decide +kernel
example : (Address.segwit ⟨0, genHash⟩ .mainnet).display sha256d true = some (str "BC1QW508D6QEJXTDG4Y5R3ZARVARY0C5XW7KV8F3T4") := by decide +kernel
example : isOk (Address.parse sha256d (str "tb1qw508d6qejxtdg4y5r3zarvary0c5xw7kxpjzsx")) = some (.segwit ⟨0, genHash⟩ .testnets) := by decide +kernel
example : isOk (Address.parse sha256d (str "bc1sw50qgdz25j")) = some (.segwit ⟨16, [0x75, 0x1e]⟩ .mainnet) := by decide +kernel
/-- Mixed case; bech32 where bech32m is due; another human-readable part. -/
example : isOk (Address.parse sha256d (str "bc1qw508d6qejxtdg4y5r3zarvary0c5xw7kv8f3T4")) = none := by decide +kernel
example : isOk (Address.parse sha256d (str "BC1SW50QA3JX3S")) = none := by decide +kernel
example : isOk (Address.parse sha256d (str "tc1qw508d6qejxtdg4y5r3zarvary0c5xw7kg3g4ty")) = none := by decide +kernel
/-- A typing error that `C75_typo` speaks about. -/
example : isOk (Address.parse sha256d (str "bc1qw508d6qejxtdg4y5r3zarvary0c5xw7kv8f3t5")) = none := by decide +kernel
/-- The address of the genesis block reward. -/
def genesisHash : Arr 20 := ⟨[0x62, 0xe9, 0x07, 0xb1, 0x5c, 0xbf, 0x27, 0xd5, 0x42, 0x53, 0x99, 0xeb, 0xf6, 0xf0, 0xfb, 0x50, 0xeb, 0xb8, 0x8f, 0x18], rfl⟩
example : (Address.p2pkh genesisHash .main).display sha256d false = some (str "1A1zP1eP5QGefi2DMPTfTL5SLmv7DivfNa") := by decide +kernel
example : isOk (Address.parse sha256d (str "1A1zP1eP5QGefi2DMPTfTL5SLmv7DivfNa")) = some (.p2pkh genesisHash .main) := by decide +kernel
example : (Address.p2sh genesisHash .test).display sha256d true = some (str "2N2GDNJ4rEm6NxfMC9ck8VuRdheQzXWaNZv") := by decide +kernel
example : ¬ Uses .signet (Address.p2pkh genesisHash .main) := fun h => by cases h

end Btc.Addr
