import Verif.Crypto.KeyErrors
import Verif.Props.C54
import Verif.Props.C71
import Verif.Props.C73
import Verif.Props.C117
import Verif.Props.C119
/-!
# C120: the errors of keys, extended keys and derivation paths
-/
namespace Btc
namespace KeyErr
open Crypto Bip32
open B58 (Text58)

/-- An error is given exactly for the faults `F`, if only for them, one for each input, and for no accepted input. -/
theorem exact_of {α ε : Type} {x : Except ε α} {F : ε → Prop} (h1 : ∀ e, x = .error e → F e) (h2 : ∀ e e', F e → F e' → e = e')
    (h3 : ∀ a e, x = .ok a → ¬ F e) (e : ε) : x = .error e ↔ F e := by
  refine ⟨h1 e, fun h => ?_⟩
  cases hx : x with
  | ok a => exact absurd h (h3 a e hx)
  | error e' => rw [h2 e e' h (h1 e' hx)]

/-! ## Public keys -/

/-- Bytes of the length and with the first byte of a public key. -/
def Shaped (b : Bytes) : Prop := (b.length = 33 ∧ (b.head? = some 2 ∨ b.head? = some 3)) ∨ (b.length = 65 ∧ b.head? = some 4)

/-- What can be wrong with the bytes of a public key. -/
inductive KeyBad (S : Secp) (b : Bytes) : FromSliceErr → Prop
  | length : b.length ≠ 33 → b.length ≠ 65 → KeyBad S b (.invalidLength b.length)
  | «prefix» (x : UInt8) (t : Bytes) : b = x :: t → (t.length = 32 ∧ x ≠ 2 ∧ x ≠ 3) ∨ (t.length = 64 ∧ x ≠ 4) → KeyBad S b (.invalidKeyPrefix x)
  | point : Shaped b → (∀ p, b ≠ (S.ser p).1 ∧ b ≠ (S.serU p).1) → KeyBad S b .invalidPublicKey

theorem cons_of {b : Bytes} {x : UInt8} {n : Nat} (h : b.head? = some x) (hl : b.length = n + 1) : ∃ t, b = x :: t ∧ t.length = n := by
  cases b with
  | nil => cases h
  | cons y t => simp only [List.head?_cons, Option.some.injEq] at h; subst h; exact ⟨t, rfl, by simpa using hl⟩

theorem keyBad_unique {S : Secp} {b : Bytes} {e e' : FromSliceErr} (h : KeyBad S b e) (h' : KeyBad S b e') : e = e' := by
  have hs : ∀ x t, b = x :: t → (t.length = 32 ∧ x ≠ 2 ∧ x ≠ 3) ∨ (t.length = 64 ∧ x ≠ 4) → ¬ Shaped b := by
    rintro x t rfl h (⟨h1, h2⟩ | ⟨h1, h2⟩)
    · simp at h1 h2; rcases h with h | h
      · rcases h2 with h2 | h2 <;> simp_all
      · omega
    · simp at h1 h2; rcases h with h | h
      · omega
      · exact h.2 h2
  have hlen : b.length ≠ 33 → b.length ≠ 65 → ¬ Shaped b := by rintro h1 h2 (⟨h, _⟩ | ⟨h, _⟩) <;> contradiction
  cases h with
  | length h1 h2 =>
    cases h' with
    | length => rfl
    | «prefix» x t h3 h4 => subst h3; simp at h1 h2; omega
    | point h3 _ => exact absurd h3 (hlen h1 h2)
  | «prefix» x t h1 h2 =>
    cases h' with
    | length h3 h4 => subst h1; simp at h3 h4; omega
    | «prefix» y u h3 h4 => rw [h1] at h3; cases h3; rfl
    | point h3 _ => exact absurd h3 (hs x t h1 h2)
  | point h1 h2 =>
    cases h' with
    | length h3 h4 => exact absurd h1 (hlen h3 h4)
    | «prefix» x t h3 h4 => exact absurd h1 (hs x t h3 h4)
    | point => rfl

/-- The errors of `LegacyPublicKey::from_slice` say exactly what is wrong with the bytes. -/
theorem C120_public_key (S : Secp) (b : Bytes) (e : FromSliceErr) :
    (LegacyPublicKey.fromSlice b : Except _ (LegacyPublicKey S)) = .error e ↔ KeyBad S b e := by
  have hpre : ∀ x, (LegacyPublicKey.fromSlice b : Except _ (LegacyPublicKey S)) = .error (.invalidKeyPrefix x) ↔ KeyBad S b (.invalidKeyPrefix x) := by
    intro x
    rw [C71_prefix]
    constructor
    · rintro ⟨h1, h2⟩
      rcases h2 with ⟨h2, h3⟩ | ⟨h2, h3⟩
      · obtain ⟨t, rfl, h4⟩ := cons_of h1 h2; exact .prefix x t rfl (.inl ⟨h4, h3⟩)
      · obtain ⟨t, rfl, h4⟩ := cons_of h1 h2; exact .prefix x t rfl (.inr ⟨h4, h3⟩)
    · intro h
      cases h with
      | «prefix» _ t h1 h2 => subst h1; refine ⟨rfl, ?_⟩; simpa using h2
  refine exact_of ?_ (fun _ _ => keyBad_unique) ?_ e
  · intro e h
    cases e with
    | invalidKeyPrefix x => exact (hpre x).mp h
    | invalidLength n =>
      unfold LegacyPublicKey.fromSlice at h
      have hc : ∀ c, (LegacyPublicKey.checkPrefix c b : Except _ (LegacyPublicKey S)) ≠ .error (.invalidLength n) := by
        intro c h
        unfold LegacyPublicKey.checkPrefix LegacyPublicKey.finishSlice at h
        split at h
        all_goals first | cases h | (split at h; · cases h
                                     · split at h <;> cases h)
      by_cases h1 : b.length = 33
      · rw [if_pos h1] at h; exact absurd h (hc _)
      · rw [if_neg h1] at h
        by_cases h2 : b.length = 65
        · rw [if_pos h2] at h; exact absurd h (hc _)
        · rw [if_neg h2] at h; cases h; exact .length h1 h2
    | invalidPublicKey =>
      refine .point ?_ ?_
      · have hn : ∀ x, ¬ KeyBad S b (.invalidKeyPrefix x) := by
          intro x hx; rw [← hpre x, h] at hx; cases hx
        by_cases h1 : b.length = 33
        · refine .inl ⟨h1, ?_⟩
          cases b with
          | nil => cases h1
          | cons x t =>
            simp only [List.head?_cons, Option.some.injEq]
            by_cases hx : x = 2
            · exact .inl hx
            · by_cases hy : x = 3
              · exact .inr hy
              · exact absurd (.prefix x t rfl (.inl ⟨by simpa using h1, hx, hy⟩)) (hn x)
        · by_cases h2 : b.length = 65
          · refine .inr ⟨h2, ?_⟩
            cases b with
            | nil => cases h2
            | cons x t =>
              simp only [List.head?_cons, Option.some.injEq]
              by_cases hx : x = 4
              · exact hx
              · exact absurd (.prefix x t rfl (.inr ⟨by simpa using h2, hx⟩)) (hn x)
          · unfold LegacyPublicKey.fromSlice at h
            rw [if_neg h1, if_neg h2] at h; cases h
      · intro p
        constructor
        · intro hb
          have := (C71_public (S := S) b ⟨true, p⟩).mpr (by rw [hb]; rfl)
          rw [h] at this; cases this
        · intro hb
          have := (C71_public (S := S) b ⟨false, p⟩).mpr (by rw [hb]; rfl)
          rw [h] at this; cases this
  · intro k e hk he
    rw [C71_public] at hk
    cases k with
    | mk c p =>
      have hs : Shaped b := by
        rw [hk]; cases c
        · exact .inr ⟨(S.serU p).2, S.serU_head p⟩
        · exact .inl ⟨(S.ser p).2, S.ser_head p⟩
      cases he with
      | length h1 h2 => rcases hs with ⟨h, _⟩ | ⟨h, _⟩ <;> contradiction
      | «prefix» x t h1 h2 =>
        subst h1
        rcases hs with ⟨h3, h4⟩ | ⟨h3, h4⟩ <;> simp at h3 h4
        · rcases h2 with h2 | h2
          · rcases h4 with h4 | h4 <;> simp_all
          · omega
        · rcases h2 with h2 | h2
          · omega
          · exact h2.2 h4
      | point h1 h2 => cases c
                       · exact (h2 p).2 hk
                       · exact (h2 p).1 hk

example : KeyBad Secp.toy (5 :: List.replicate 32 0) (.invalidKeyPrefix 5) := .prefix 5 _ rfl (.inl ⟨by decide, by decide, by decide⟩)

/-- What the messages about bytes of a public key say. -/
inductive KeySays (S : Secp) (b : Bytes) : String → Prop
  | length (n : Nat) : b.length = n → n ≠ 33 → n ≠ 65 → KeySays S b ("slice length should be 33 or 65 bytes, got: " ++ toString n)
  | «prefix» (x : UInt8) : b.head? = some x → (∀ t, ¬ Shaped (x :: t) ∨ t.length ≠ b.tail.length) → KeySays S b ("key prefix invalid: " ++ toString x.toNat)
  | point : (∀ p, b ≠ (S.ser p).1 ∧ b ≠ (S.serU p).1) → KeySays S b "invalid public key"

/-- The messages are true. -/
theorem C120_public_key_messages (S : Secp) (b : Bytes) (e : FromSliceErr)
    (h : (LegacyPublicKey.fromSlice b : Except _ (LegacyPublicKey S)) = .error e) : KeySays S b (Crypto.Msg.fromSlice e) := by
  cases (C120_public_key S b e).mp h with
  | length h1 h2 => exact .length _ rfl h1 h2
  | «prefix» x t h1 h2 =>
    subst h1
    refine .prefix x rfl fun u => ?_
    by_cases hu : u.length = t.length
    · refine .inl ?_
      rintro (⟨h3, h4⟩ | ⟨h3, h4⟩) <;> simp at h3 h4
      · rcases h2 with h2 | h2
        · rcases h4 with h4 | h4 <;> simp_all
        · omega
      · rcases h2 with h2 | h2
        · omega
        · exact h2.2 h4
    · exact .inr hu
  | point _ h2 => exact .point h2

example : (LegacyPublicKey.fromSlice [2, 7] : Except _ (LegacyPublicKey Secp.toy)) = .error (.invalidLength 2) ∧
    Crypto.Msg.fromSlice (.invalidLength 2) = "slice length should be 33 or 65 bytes, got: 2" := ⟨rfl, rfl⟩

/-! ## Texts of public keys -/

/-- What the messages about texts say: a text has so many characters, or its bytes are no key. -/
inductive KeyTextSays (S : Secp) (s : String) : String → Prop
  | digits (n : Nat) : s.length = n → n ≠ 66 → n ≠ 130 → KeyTextSays S s ("pubkey string should be 66 or 130 digits long, got: " ++ toString n)
  | bytes (b : Bytes) (m : String) : unhex (LockErr.bytes s) = some b → KeySays S b m → KeyTextSays S s m

theorem bytes_ascii (s : String) (h : ∀ c ∈ s.toList, c.toNat < 128) : (LockErr.bytes s).length = s.length := by
  have hs : s = String.ofList s.toList := (String.ofList_toList).symm
  rw [hs, LockErr.bytes_ofList, String.length_ofList]
  generalize s.toList = l at h
  induction l with
  | nil => rfl
  | cons c l ih =>
    rw [List.flatMap_cons, List.length_append, ih fun x hx => h x (List.mem_cons_of_mem _ hx), String.length_utf8EncodeChar, List.length_cons]
    have hc := h c (by simp)
    have : c.utf8Size = 1 := by
      unfold Char.utf8Size
      rw [if_pos]
      show c.val ≤ 127
      have : c.val.toNat < 128 := hc
      exact UInt32.le_iff_toNat_le.mpr (by show c.val.toNat ≤ 127; omega)
    omega

/-- Full claim: the messages about the text of a public key are true.  Proved: for ASCII texts.  Missing: in other texts the bytes are counted as
digits (`C120_digits_fails`). -/
theorem C120_text_messages_partial (S : Secp) (s : String) (e : ParsePublicKeyErr) (m : String) (ha : ∀ c ∈ s.toList, c.toNat < 128)
    (h : (LegacyPublicKey.parse (LockErr.bytes s) : Except _ (LegacyPublicKey S)) = .error e) (hm : Crypto.Msg.parsePublic e = some m) :
    KeyTextSays S s m := by
  unfold LegacyPublicKey.parse at h
  by_cases hl : (LockErr.bytes s).length = 66 ∨ (LockErr.bytes s).length = 130
  · rw [if_pos hl] at h
    cases hu : unhex (LockErr.bytes s) with
    | none => rw [hu] at h; cases h; cases hm
    | some b =>
      rw [hu] at h
      simp only at h
      cases hf : (LegacyPublicKey.fromSlice b : Except _ (LegacyPublicKey S)) with
      | ok k => rw [hf] at h; cases h
      | error e' =>
        rw [hf] at h; cases h; cases hm
        exact .bytes b _ hu (C120_public_key_messages S b e' hf)
  · rw [if_neg hl] at h; cases h; cases hm
    rw [bytes_ascii s ha] at hl ⊢
    exact .digits _ rfl (fun h => hl (.inl h)) (fun h => hl (.inr h))

example : (∀ c ∈ "02".toList, c.toNat < 128) ∧ (LegacyPublicKey.parse (LockErr.bytes "02") : Except _ (LegacyPublicKey Secp.toy)) = .error (.invalidHexLength 2) ∧
    Crypto.Msg.parsePublic (.invalidHexLength 2) = some "pubkey string should be 66 or 130 digits long, got: 2" :=
  ⟨by decide, rfl, rfl⟩

/-- A text of 66 characters, one of them of two bytes: the message says there are 67. -/
theorem C120_digits_fails (S : Secp) : let s := String.ofList ('é' :: List.replicate 65 '0')
    s.length = 66 ∧ ∃ e, (LegacyPublicKey.parse (LockErr.bytes s) : Except _ (LegacyPublicKey S)) = .error e ∧
      Crypto.Msg.parsePublic e = some "pubkey string should be 66 or 130 digits long, got: 67" := by
  refine ⟨by rw [String.length_ofList]; rfl, .invalidHexLength 67, ?_, rfl⟩
  have : (LockErr.bytes (String.ofList ('é' :: List.replicate 65 '0'))).length = 67 := by
    rw [LockErr.bytes_ofList]; decide +kernel
  unfold LegacyPublicKey.parse
  rw [this]; rfl

/-! ## WIF -/

/-- The text is base58 for the payload and its checksum. -/
def Holds (H : Bytes → Arr 32) (t p : Bytes) : Prop := Text58 (p ++ (H p).val.take 4) t

/-- What can be wrong with a WIF text. -/
inductive WifBad (H : Bytes → Arr 32) (t : Bytes) : FromWifErr → Prop
  | base58 (e : B58.DecErr) : B58.decodeCheck H t = .error e → WifBad H t (.base58 e)
  | length (p : Bytes) : Holds H t p → p.length ≠ 33 → p.length ≠ 34 → WifBad H t (.invalidPayloadLength p.length)
  | flag (p : Bytes) (x : UInt8) : Holds H t (p ++ [x]) → p.length = 33 → x ≠ 1 → WifBad H t (.invalidCompressionFlag x)
  | version (v : UInt8) (k f : Bytes) : Holds H t (v :: k ++ f) → k.length = 32 → f = [] ∨ f = [1] → v ≠ 0x80 → v ≠ 0xef →
      WifBad H t (.invalidAddressVersion v)
  | secret (v : UInt8) (k f : Bytes) : Holds H t (v :: k ++ f) → k.length = 32 → f = [] ∨ f = [1] → v = 0x80 ∨ v = 0xef →
      beNat k = 0 ∨ ORDER ≤ beNat k → WifBad H t .fromSecretBytes

theorem finish_bad {c : Bool} {v : UInt8} {k : Bytes} (hk : k.length = 32) {e : FromWifErr} (h : WifKey.finishWif c (v :: k) = .error e) :
    (e = .invalidAddressVersion v ∧ v ≠ 0x80 ∧ v ≠ 0xef) ∨ (e = .fromSecretBytes ∧ (v = 0x80 ∨ v = 0xef) ∧ (beNat k = 0 ∨ ORDER ≤ beNat k)) := by
  unfold WifKey.finishWif at h
  simp only at h
  by_cases hv : v = 128 ∨ v = 239
  · rw [if_pos hv, dif_pos hk] at h
    cases hs : SecretKey.fromSecretBytes ⟨k, hk⟩ with
    | some s => rw [hs] at h; cases h
    | none =>
      rw [hs] at h; cases h
      refine .inr ⟨rfl, hv, ?_⟩
      unfold SecretKey.fromSecretBytes at hs
      split at hs
      · cases hs
      · rename_i hn; simp only at hn; omega
  · rw [if_neg hv] at h; cases h
    exact .inl ⟨rfl, fun h => hv (.inl h), fun h => hv (.inr h)⟩

theorem wifBad_unique {H : Bytes → Arr 32} {t : Bytes} {e e' : FromWifErr} (h : WifBad H t e) (h' : WifBad H t e') : e = e' := by
  have hu : ∀ {p q}, Holds H t p → Holds H t q → p = q := by
    intro p q hp hq
    have a := (B58.C30_decode_check H t p).mpr hp
    have b := (B58.C30_decode_check H t q).mpr hq
    rw [a] at b; cases b; rfl
  have hb : ∀ {p e}, Holds H t p → B58.decodeCheck H t = .error e → False := by
    intro p e hp he
    rw [(B58.C30_decode_check H t p).mpr hp] at he; cases he
  cases h with
  | base58 e1 h1 =>
    cases h' with
    | base58 e2 h2 => rw [h1] at h2; cases h2; rfl
    | length p h2 _ _ => exact (hb h2 h1).elim
    | flag p x h2 _ _ => exact (hb h2 h1).elim
    | version v k f h2 _ _ _ _ => exact (hb h2 h1).elim
    | secret v k f h2 _ _ _ _ => exact (hb h2 h1).elim
  | length p h1 h2 h3 =>
    cases h' with
    | base58 e2 h4 => exact (hb h1 h4).elim
    | length q h4 _ _ => rw [hu h1 h4]
    | flag q x h4 h5 _ => rw [hu h1 h4] at h3; simp at h3; omega
    | version v k f h4 h5 h6 _ _ => rw [hu h1 h4] at h2 h3; rcases h6 with rfl | rfl <;> simp at h2 h3 <;> omega
    | secret v k f h4 h5 h6 _ _ => rw [hu h1 h4] at h2 h3; rcases h6 with rfl | rfl <;> simp at h2 h3 <;> omega
  | flag p x h1 h2 h3 =>
    have hno : ∀ (v : UInt8) (k f : Bytes), Holds H t (v :: k ++ f) → k.length = 32 → f = [] ∨ f = [1] → False := by
      intro v k f h4 h5 h6
      have := hu h1 h4
      rcases h6 with rfl | rfl
      · have := congrArg List.length this; simp at this; omega
      · have := List.append_inj_right' this rfl
        simp at this; exact h3 this
    cases h' with
    | base58 e2 h4 => exact (hb h1 h4).elim
    | length q h4 h5 h6 => rw [← hu h1 h4] at h6; simp at h6; omega
    | flag q y h4 _ _ =>
      have := List.append_inj_right' (hu h1 h4) rfl
      simp at this; rw [this]
    | version v k f h4 h5 h6 _ _ => exact (hno v k f h4 h5 h6).elim
    | secret v k f h4 h5 h6 _ _ => exact (hno v k f h4 h5 h6).elim
  | version v k f h1 h2 h3 h4 h5 =>
    cases h' with
    | base58 e2 h6 => exact (hb h1 h6).elim
    | length q h6 h7 h8 => rw [← hu h1 h6] at h7 h8; rcases h3 with rfl | rfl <;> simp at h7 h8 <;> omega
    | flag q y h6 h7 h8 =>
      have := hu h1 h6
      rcases h3 with rfl | rfl
      · have := congrArg List.length this; simp at this; omega
      · have := List.append_inj_right' this rfl
        simp at this; exact (h8 this.symm).elim
    | version w l g h6 _ _ _ _ =>
      have := hu h1 h6
      simp at this; rw [this.1]
    | secret w l g h6 _ _ h7 _ =>
      have := hu h1 h6
      simp at this; rw [← this.1] at h7
      rcases h7 with h7 | h7 <;> contradiction
  | secret v k f h1 h2 h3 h4 h5 =>
    cases h' with
    | base58 e2 h6 => exact (hb h1 h6).elim
    | length q h6 h7 h8 => rw [← hu h1 h6] at h7 h8; rcases h3 with rfl | rfl <;> simp at h7 h8 <;> omega
    | flag q y h6 h7 h8 =>
      have := hu h1 h6
      rcases h3 with rfl | rfl
      · have := congrArg List.length this; simp at this; omega
      · have := List.append_inj_right' this rfl
        simp at this; exact (h8 this.symm).elim
    | version w l g h6 _ _ h7 h8 =>
      have := hu h1 h6
      simp at this; rw [← this.1] at h7 h8
      rcases h4 with h4 | h4 <;> contradiction
    | secret => rfl

/-- The errors of `from_wif` say exactly what is wrong with the text. -/
theorem C120_wif (H : Bytes → Arr 32) (t : Bytes) (e : FromWifErr) : WifKey.fromWif H t = .error e ↔ WifBad H t e := by
  refine exact_of ?_ (fun _ _ => wifBad_unique) ?_ e
  · intro e h
    unfold WifKey.fromWif at h
    cases hd : B58.decodeCheck H t with
    | error e' => rw [hd] at h; cases h; exact .base58 e' hd
    | ok p =>
      have hp : Holds H t p := (B58.C30_decode_check H t p).mp hd
      rw [hd] at h
      simp only at h
      by_cases h1 : p.length = 33
      · rw [if_pos h1] at h
        cases p with
        | nil => cases h1
        | cons v k =>
          have hk : k.length = 32 := by simpa using h1
          have hp' : Holds H t (v :: k ++ []) := by simpa using hp
          rcases finish_bad hk h with ⟨rfl, h2, h3⟩ | ⟨rfl, h2, h3⟩
          · exact .version v k [] hp' hk (.inl rfl) h2 h3
          · exact .secret v k [] hp' hk (.inl rfl) h2 h3
      · rw [if_neg h1] at h
        by_cases h2 : p.length = 34
        · rw [if_pos h2] at h
          have hne : p ≠ [] := by rintro rfl; cases h2
          have hsplit := (List.dropLast_concat_getLast hne).symm
          have hl : p.getLastD 0 = p.getLast hne := by rw [List.getLastD_eq_getLast?, List.getLast?_eq_some_getLast hne]; rfl
          have hdl : p.dropLast.length = 33 := by rw [List.length_dropLast]; omega
          by_cases h3 : p.getLastD 0 ≠ 1
          · rw [if_pos h3] at h; cases h
            rw [hl] at h3 ⊢
            rw [hsplit] at hp
            exact .flag p.dropLast _ hp hdl h3
          · rw [if_neg h3] at h
            have h3 : p.getLast hne = 1 := by rw [← hl]; exact Decidable.not_not.mp h3
            rw [h3] at hsplit
            cases hq : p.dropLast with
            | nil => rw [hq] at hdl; cases hdl
            | cons v k =>
              rw [hq] at h hdl hsplit
              rw [hsplit] at hp
              have hk : k.length = 32 := by simpa using hdl
              rcases finish_bad hk h with ⟨rfl, h4, h5⟩ | ⟨rfl, h4, h5⟩
              · exact .version v k [1] hp hk (.inr rfl) h4 h5
              · exact .secret v k [1] hp hk (.inr rfl) h4 h5
        · rw [if_neg h2] at h; cases h
          exact .length p hp h1 h2
  · intro w e hw he
    have hp := (C71_wif_parse H t w).mp hw
    have hd := (B58.C30_decode_check H t _).mpr hp
    have hu : ∀ {p}, Holds H t p → p = wifBytes w := by
      intro p hp
      have := (B58.C30_decode_check H t p).mpr hp
      rw [hd] at this; cases this; rfl
    have hkl := w.privateKey.inner.bytes.2
    have hlen : (wifBytes w).length = if w.privateKey.compressed then 34 else 33 := by
      unfold wifBytes; cases w.privateKey.compressed <;> simp [hkl]
    have hvk : ∀ {v : UInt8} {k f : Bytes}, v :: k ++ f = wifBytes w → k.length = 32 → v = wifVersion w.networkKind ∧ k = w.privateKey.inner.bytes.1 := by
      intro v k f h hk
      unfold wifBytes at h
      simp only [List.cons_append, List.nil_append, List.cons.injEq] at h
      exact ⟨h.1, (List.append_inj h.2 (by rw [hk, hkl])).1⟩
    cases he with
    | base58 e' h => rw [hd] at h; cases h
    | length p h1 h2 h3 => rw [hu h1, hlen] at h2 h3; cases hc : w.privateKey.compressed <;> simp [hc] at h2 h3
    | flag p x h1 h2 h3 =>
      have := hu h1
      unfold wifBytes at this
      cases hc : w.privateKey.compressed
      · have := congrArg List.length this; simp [hc, hkl] at this; omega
      · rw [hc] at this
        have := List.append_inj_right' this rfl
        simp at this; exact h3 this
    | version v k f h1 h2 h3 h4 h5 =>
      have := (hvk (hu h1) h2).1
      rw [this] at h4 h5
      cases hn : w.networkKind <;> rw [hn] at h4 h5
      · exact h4 rfl
      · exact h5 rfl
    | secret v k f h1 h2 h3 h4 h5 =>
      have := (hvk (hu h1) h2).2
      rw [this] at h5
      have p := w.privateKey.inner.pos
      have q := w.privateKey.inner.lt
      omega

/-- `1111` holds no bytes, 37 times `1` holds 33 zero bytes, if the checksums are zero. -/
example : let H := fun _ => (⟨List.replicate 32 0, by decide⟩ : Arr 32)
    WifKey.fromWif H [49, 49, 49, 49] = .error (.invalidPayloadLength 0) ∧
    WifKey.fromWif H (List.replicate 37 49) = .error (.invalidAddressVersion 0) ∧ WifKey.fromWif H (List.replicate 38 49) = .error (.invalidCompressionFlag 0) :=
  ⟨by with_unfolding_all rfl, by with_unfolding_all rfl, by with_unfolding_all rfl⟩

/-- What the messages about WIF texts say. -/
inductive WifSays (H : Bytes → Arr 32) (t : Bytes) : String → Prop
  | base58 (m : String) : B58.Says H 0 t m → WifSays H t m
  | length (p : Bytes) (n : Nat) : Holds H t p → p.length = n → n ≠ 33 → n ≠ 34 →
      WifSays H t ("decoded base58 data was an invalid length: " ++ toString n ++ " (expected 33 or 34)")
  | version (v : UInt8) (k : Bytes) : Holds H t (v :: k) → v ≠ 0x80 → v ≠ 0xef →
      WifSays H t ("invalid address version in decoded base58 data " ++ toString v.toNat)
  | flag (v : UInt8) (k : Bytes) (x : UInt8) : Holds H t (v :: k ++ [x]) → k.length = 32 → x ≠ 1 →
      WifSays H t ("invalid WIF compression flag. Expected a 0x01 byte at the end of the key but found: " ++ toString x.toNat)
  | secret (v : UInt8) (k f : Bytes) : Holds H t (v :: k ++ f) → k.length = 32 → f.length ≤ 1 → (∀ s : SecretKey, s.bytes.1 ≠ k) →
      WifSays H t "invalid secret key"

/-- The messages about WIF texts are true. -/
theorem C120_wif_messages (H : Bytes → Arr 32) (t : Bytes) (e : FromWifErr) (h : WifKey.fromWif H t = .error e) : WifSays H t (Crypto.Msg.wif e) := by
  cases (C120_wif H t e).mp h with
  | base58 e h1 => exact .base58 _ (B58.C119_decode_messages H t e h1)
  | length p h1 h2 h3 => exact .length p _ h1 rfl h2 h3
  | flag p x h1 h2 h3 =>
    cases p with
    | nil => cases h2
    | cons v k => exact .flag v k x h1 (by simpa using h2) h3
  | version v k f h1 h2 h3 h4 h5 => exact .version v (k ++ f) h1 h4 h5
  | secret v k f h1 h2 h3 h4 h5 =>
    refine .secret v k f h1 h2 (by rcases h3 with rfl | rfl <;> simp) ?_
    rintro s rfl
    have p := s.pos
    have q := s.lt
    omega

example : Crypto.Msg.wif (.invalidPayloadLength 0) = "decoded base58 data was an invalid length: 0 (expected 33 or 34)" ∧
    Crypto.Msg.wif (.invalidCompressionFlag 0) =
      "invalid WIF compression flag. Expected a 0x01 byte at the end of the key but found: 0" := by decide +kernel

/-! ## Extended keys -/

/-- What can be wrong with the fields: the parent, the child number, the version, the key, in this order. -/
inductive FieldBad (vers : NetworkKind → Bytes) (bad : Bytes → XkeyErr → Prop) (v : Bytes) (d : UInt8) (f c k : Bytes) : XkeyErr → Prop
  | parent : d = 0 → f ≠ [0, 0, 0, 0] → FieldBad vers bad v d f c k .nonZeroParentFingerprint
  | child : d = 0 → f = [0, 0, 0, 0] → c ≠ [0, 0, 0, 0] → FieldBad vers bad v d f c k .nonZeroChildNumber
  | version : (d = 0 → f = [0, 0, 0, 0] ∧ c = [0, 0, 0, 0]) → (∀ n, v ≠ vers n) → FieldBad vers bad v d f c k (.unknownVersion v)
  | key (n : NetworkKind) (e : XkeyErr) : (d = 0 → f = [0, 0, 0, 0] ∧ c = [0, 0, 0, 0]) → v = vers n → bad k e → FieldBad vers bad v d f c k e

/-- The bytes have the wrong length, or one of their fields is wrong. -/
def XkeyBad (vers : NetworkKind → Bytes) (bad : Bytes → XkeyErr → Prop) (b : Bytes) (e : XkeyErr) : Prop :=
  (b.length ≠ 78 ∧ e = .wrongLength b.length) ∨
  ∃ v d f c ch k, b = layout v d f c ch k ∧ v.length = 4 ∧ f.length = 4 ∧ c.length = 4 ∧ ch.length = 32 ∧ k.length = 33 ∧ FieldBad vers bad v d f c k e

/-- The last field of a private key: a zero byte and a secret. -/
inductive PrivBad (k : Bytes) : XkeyErr → Prop
  | byte45 : k.head? ≠ some 0 → PrivBad k .invalidPrivateKeyPrefix
  | secret (t : Bytes) : k = 0 :: t → beNat t = 0 ∨ ORDER ≤ beNat t → PrivBad k .secp256k1

/-- The last field of a public key: a compressed point. -/
inductive PubBad (S : Secp) (k : Bytes) : XkeyErr → Prop
  | point : (∀ p, k ≠ (S.ser p).1) → PubBad S k .secp256k1

theorem xkeyBad_unique {vers : NetworkKind → Bytes} {bad : Bytes → XkeyErr → Prop} (hb : ∀ k e e', bad k e → bad k e' → e = e')
    {b : Bytes} {e e' : XkeyErr} (h : XkeyBad vers bad b e) (h' : XkeyBad vers bad b e') : e = e' := by
  rcases h with ⟨h1, rfl⟩ | ⟨v, d, f, c, ch, k, rfl, g1, g2, g3, g4, g5, h⟩
  · rcases h' with ⟨_, rfl⟩ | ⟨v, d, f, c, ch, k, rfl, g1, g2, g3, g4, g5, _⟩
    · rfl
    · exact absurd (layout_length _ _ _ _ _ _ g1 g2 g3 g4 g5) h1
  · rcases h' with ⟨h2, rfl⟩ | ⟨v', d', f', c', ch', k', he, g1', g2', g3', g4', g5', h'⟩
    · exact absurd (layout_length _ _ _ _ _ _ g1 g2 g3 g4 g5) h2
    · obtain ⟨rfl, rfl, rfl, rfl, rfl, rfl⟩ := layout_inj (by rw [g1, g1']) (by rw [g2, g2']) (by rw [g3, g3']) (by rw [g4, g4']) he
      cases h with
      | parent a1 a2 =>
        cases h' with
        | parent => rfl
        | child _ b2 _ => exact absurd b2 a2
        | version b1 _ => exact absurd (b1 a1).1 a2
        | key n _ b1 _ _ => exact absurd (b1 a1).1 a2
      | child a1 a2 a3 =>
        cases h' with
        | parent _ b2 => exact absurd a2 b2
        | child => rfl
        | version b1 _ => exact absurd (b1 a1).2 a3
        | key n _ b1 _ _ => exact absurd (b1 a1).2 a3
      | version a1 a2 =>
        cases h' with
        | parent b1 b2 => exact absurd (a1 b1).1 b2
        | child b1 _ b3 => exact absurd (a1 b1).2 b3
        | version => rfl
        | key n _ _ b2 _ => exact absurd b2 (a2 n)
      | key n _ a1 a2 a3 =>
        cases h' with
        | parent b1 b2 => exact absurd (a1 b1).1 b2
        | child b1 _ b3 => exact absurd (a1 b1).2 b3
        | version _ b2 => exact absurd a2 (b2 n)
        | key m _ _ _ b3 => exact hb _ _ _ a3 b3

theorem common_bad {vers : NetworkKind → Bytes} {bad : Bytes → XkeyErr → Prop} {b : Bytes} {e : XkeyErr} (h : Common.decode b = .error e) :
    XkeyBad vers bad b e := by
  unfold Common.decode at h
  by_cases hl : b.length = 78
  · rw [dif_pos hl] at h
    refine .inr ⟨b.take 4, b[4], (b.drop 5).take 4, (b.drop 9).take 4, (b.drop 13).take 32, b.drop 45, layout_split b hl, by simp; omega, by simp; omega,
      by simp; omega, by simp; omega, by simp; omega, ?_⟩
    simp only at h
    split at h
    · rename_i hd
      split at h
      · rename_i hf; cases h; exact .parent hd hf
      · rename_i hf
        split at h
        · rename_i hc; cases h; exact .child hd (Decidable.not_not.mp hf) hc
        · cases h
    · cases h
  · rw [dif_neg hl] at h; cases h; exact .inl ⟨hl, rfl⟩

theorem common_fields {b : Bytes} {c : Common} (h : Common.decode b = .ok c) :
    ∃ cn, b = layout c.version c.depth c.parentFingerprint.1 cn c.chainCode.1 c.key.1 ∧ c.version.length = 4 ∧ cn.length = 4 ∧
      (c.depth = 0 → c.parentFingerprint.1 = [0, 0, 0, 0] ∧ cn = [0, 0, 0, 0]) := by
  obtain ⟨h1, h2, h3⟩ := (common_ok b c).mp h
  refine ⟨_, h2, h1, beBytes_length _ _, fun hd => ⟨(h3 hd).1, ?_⟩⟩
  rw [(h3 hd).2]; rfl

theorem ok_not_bad {vers : NetworkKind → Bytes} {bad : Bytes → XkeyErr → Prop} {n : NetworkKind} {d : UInt8} {f : Arr 4} {cn : ChildNumber} {ch : Arr 32}
    {k b : Bytes} (hv : (vers n).length = 4) (hk : k.length = 33) (hb : ∀ e, ¬ bad k e) (hm : MasterOk d f cn)
    (h : b = layout (vers n) d f.1 (beBytes 4 cn.toRaw.toNat) ch.1 k) (e : XkeyErr) : ¬ XkeyBad vers bad b e := by
  subst h
  rintro (⟨h1, _⟩ | ⟨v', d', f', c', ch', k', he, g1, g2, g3, g4, g5, h⟩)
  · exact h1 (layout_length _ _ _ _ _ _ hv f.2 (beBytes_length _ _) ch.2 hk)
  · obtain ⟨rfl, rfl, rfl, rfl, rfl, rfl⟩ := layout_inj (by rw [hv, g1]) (by rw [f.2, g2]) (by rw [beBytes_length, g3]) (by rw [ch.2, g4]) he
    have hz : d = 0 → beBytes 4 cn.toRaw.toNat = [0, 0, 0, 0] := fun hd => by rw [(hm hd).2]; rfl
    cases h with
    | parent a1 a2 => exact a2 (hm a1).1
    | child a1 _ a3 => exact a3 (hz a1)
    | version _ a2 => exact a2 n rfl
    | key m _ _ _ a3 => exact hb _ a3

/-- The errors of `Xpriv::decode` say exactly what is wrong with the bytes. -/
theorem C120_xpriv (b : Bytes) (e : XkeyErr) : Xpriv.decode b = .error e ↔ XkeyBad privVersion PrivBad b e := by
  refine exact_of ?_ (fun _ _ => xkeyBad_unique ?_) ?_ e
  · intro e h
    unfold Xpriv.decode at h
    cases hc : Common.decode b with
    | error e' => rw [hc] at h; cases h; exact common_bad hc
    | ok c =>
      rw [hc] at h
      obtain ⟨cn, h1, h2, h3, h4⟩ := common_fields hc
      refine .inr ⟨_, _, _, _, _, _, h1, h2, c.parentFingerprint.2, h3, c.chainCode.2, c.key.2, ?_⟩
      have fin : ∀ n, Xpriv.finish n c = .error e → PrivBad c.key.1 e := by
        intro n hf
        unfold Xpriv.finish at hf
        obtain ⟨cv, cd, cf, cc, cch, ⟨ck, hck⟩⟩ := c
        cases ck with
        | nil => cases hck
        | cons z t =>
          by_cases hz : z = 0
          · subst hz
            rw [if_neg (by simp)] at hf
            refine (?_ : PrivBad (0 :: t) e)
            have hr : t.length = 32 := by simpa using hck
            have hs : ∀ p, SecretKey.fromSecretBytes ⟨(0 :: t).drop 1, p⟩ = SecretKey.fromSecretBytes ⟨t, hr⟩ := fun p => rfl
            rw [hs] at hf
            unfold SecretKey.fromSecretBytes at hf
            by_cases hv : 0 < beNat t ∧ beNat t < ORDER
            · rw [dif_pos hv] at hf; cases hf
            · rw [dif_neg hv] at hf; cases hf
              exact .secret t rfl (by omega)
          · rw [if_pos (by simpa using hz)] at hf; cases hf
            exact .byte45 (by simpa using hz)
      simp only at h
      split at h
      · rename_i hv; exact .key .main e h4 hv (fin _ h)
      · split at h
        · rename_i hv; exact .key .test e h4 hv (fin _ h)
        · rename_i hm ht; cases h
          refine .version h4 ?_
          intro n; cases n
          · exact hm
          · exact ht
  · intro k e e' h h'
    cases h with
    | byte45 h1 => cases h' with
      | byte45 => rfl
      | secret t h2 _ => subst h2; simp at h1
    | secret t h1 _ => cases h' with
      | byte45 h2 => subst h1; simp at h2
      | secret => rfl
  · intro k e hk
    obtain ⟨h1, h2⟩ := (C72_xpriv_decode b k).mp hk
    refine ok_not_bad (privVersion_length k.network) (by rw [List.length_cons, k.privateKey.bytes.2]) ?_ h2 h1 e
    intro e he
    cases he with
    | byte45 h => simp at h
    | secret t h h3 =>
      have p := k.privateKey.pos
      have q := k.privateKey.lt
      cases h
      omega

example : XkeyBad privVersion PrivBad (layout [4, 136, 173, 228] 1 [1, 2, 3, 4] [0, 0, 0, 7] (List.replicate 32 9) (1 :: List.replicate 32 5)) .invalidPrivateKeyPrefix :=
  .inr ⟨_, _, _, _, _, _, rfl, rfl, rfl, rfl, by decide, by decide, .key .main _ (by decide) rfl (.byte45 (by decide))⟩

/-- The errors of `Xpub::decode` say exactly what is wrong with the bytes. -/
theorem C120_xpub (S : Secp) (b : Bytes) (e : XkeyErr) :
    (Xpub.decode b : Except _ (Xpub S)) = .error e ↔ XkeyBad pubVersion (PubBad S) b e := by
  refine exact_of ?_ (fun _ _ => xkeyBad_unique ?_) ?_ e
  · intro e h
    unfold Xpub.decode at h
    cases hc : Common.decode b with
    | error e' => rw [hc] at h; cases h; exact common_bad hc
    | ok c =>
      rw [hc] at h
      obtain ⟨cn, h1, h2, h3, h4⟩ := common_fields hc
      refine .inr ⟨_, _, _, _, _, _, h1, h2, c.parentFingerprint.2, h3, c.chainCode.2, c.key.2, ?_⟩
      have fin : ∀ n, (Xpub.finish n c : Except _ (Xpub S)) = .error e → PubBad S c.key.1 e := by
        intro n hf
        unfold Xpub.finish at hf
        cases hs : S.fromSlice c.key.1 with
        | some k => rw [hs] at hf; cases hf
        | none =>
          rw [hs] at hf; cases hf
          refine .point fun p hp => ?_
          rw [hp, S.from_ser] at hs; cases hs
      simp only at h
      split at h
      · rename_i hv; exact .key .main e h4 hv (fin _ h)
      · split at h
        · rename_i hv; exact .key .test e h4 hv (fin _ h)
        · rename_i hm ht; cases h
          refine .version h4 ?_
          intro n; cases n
          · exact hm
          · exact ht
  · intro k e e' h h'
    cases h; cases h'; rfl
  · intro k e hk
    obtain ⟨h1, h2⟩ := (C72_xpub_decode b k).mp hk
    refine ok_not_bad (pubVersion_length k.network) (S.ser k.publicKey).2 ?_ h2 h1 e
    intro e he
    cases he with
    | point h => exact h _ rfl

example : XkeyBad pubVersion (PubBad Secp.toy) (layout [4, 136, 173, 228] 1 [1, 2, 3, 4] [0, 0, 0, 7] (List.replicate 32 9) (2 :: List.replicate 32 5))
    (.unknownVersion [4, 136, 173, 228]) :=
  .inr ⟨_, _, _, _, _, _, rfl, rfl, rfl, rfl, by decide, by decide, .version (by decide) (by intro n; cases n <;> decide)⟩

/-- What can be wrong with the text of an extended key. -/
inductive XtextBad (H : Bytes → Arr 32) (bad : Bytes → XkeyErr → Prop) (t : Bytes) : ParseXkeyErr → Prop
  | base58 (e : B58.DecErr) : B58.decodeCheck H t = .error e → XtextBad H bad t (.base58 e)
  | length (p : Bytes) : Holds H t p → p.length ≠ 78 → XtextBad H bad t (.invalidPayloadLength p.length)
  | decode (p : Bytes) (e : XkeyErr) : Holds H t p → p.length = 78 → bad p e → XtextBad H bad t (.decode e)

theorem xtext {H : Bytes → Arr 32} {t : Bytes} {α : Type} {dec : Bytes → Except XkeyErr α} {bad : Bytes → XkeyErr → Prop}
    (hd : ∀ b e, dec b = .error e ↔ bad b e) (e : ParseXkeyErr) :
    (match B58.decodeCheck H t with
      | .error e => .error (.base58 e)
      | .ok data => if data.length ≠ 78 then .error (.invalidPayloadLength data.length) else (dec data).mapError .decode) = (.error e : Except _ α) ↔
      XtextBad H bad t e := by
  cases hc : B58.decodeCheck H t with
  | error e' =>
    constructor
    · intro h; cases h; exact .base58 e' hc
    · intro h
      cases h with
      | base58 e2 h2 => rw [hc] at h2; cases h2; rfl
      | length p h2 _ => rw [(B58.C30_decode_check H t p).mpr h2] at hc; cases hc
      | decode p e2 h2 _ _ => rw [(B58.C30_decode_check H t p).mpr h2] at hc; cases hc
  | ok p =>
    have hp : Holds H t p := (B58.C30_decode_check H t p).mp hc
    have hu : ∀ {q}, Holds H t q → q = p := by
      intro q hq
      have := (B58.C30_decode_check H t q).mpr hq
      rw [hc] at this; cases this; rfl
    simp only
    by_cases hl : p.length = 78
    · rw [if_neg (fun h => h hl)]
      constructor
      · intro h
        cases hx : dec p with
        | ok a => rw [hx] at h; cases h
        | error e' => rw [hx] at h; cases h; exact .decode p e' hp hl ((hd p e').mp hx)
      · intro h
        cases h with
        | base58 e2 h2 => rw [hc] at h2; cases h2
        | length q h2 h3 => rw [hu h2] at h3; exact absurd hl h3
        | decode q e2 h2 _ h3 => rw [hu h2] at h3; rw [(hd p e2).mpr h3]; rfl
    · rw [if_pos hl]
      constructor
      · intro h; cases h; exact .length p hp hl
      · intro h
        cases h with
        | base58 e2 h2 => rw [hc] at h2; cases h2
        | length q h2 h3 => rw [hu h2]
        | decode q e2 h2 h3 _ => rw [hu h2] at h3; exact absurd h3 hl

/-- The errors of reading the texts of extended keys say exactly what is wrong with the text. -/
theorem C120_xkey_text (S : Secp) (H : Bytes → Arr 32) (t : Bytes) (e : ParseXkeyErr) :
    (Xpriv.parse H t = .error e ↔ XtextBad H (XkeyBad privVersion PrivBad) t e) ∧
    ((Xpub.parse H t : Except _ (Xpub S)) = .error e ↔ XtextBad H (XkeyBad pubVersion (PubBad S)) t e) :=
  ⟨xtext C120_xpriv e, xtext (C120_xpub S) e⟩

example : let H := fun _ => (⟨List.replicate 32 0, by decide⟩ : Arr 32)
    Xpriv.parse H [49, 49, 49, 49] = .error (.invalidPayloadLength 0) ∧ Xpriv.parse H (List.replicate 82 49) = .error (.decode (.unknownVersion [0, 0, 0, 0])) ∧
    (Xpub.parse H [49, 48] : Except _ (Xpub Secp.toy)) = .error (.base58 (.invalidChar 48)) :=
  ⟨by with_unfolding_all rfl, by with_unfolding_all rfl, by with_unfolding_all rfl⟩

/-- What the messages about bytes of an extended key say; `xs` are the known versions, `Key` the last fields that are keys. -/
inductive XkeySays (what : String) (xs : List Bytes) (Key : Bytes → Prop) (b : Bytes) : String → Prop
  | length (n : Nat) : b.length = n → n ≠ 78 → XkeySays what xs Key b ("encoded extended key data has wrong length " ++ toString n)
  | parent : b[4]? = some 0 → (b.drop 5).take 4 ≠ [0, 0, 0, 0] → XkeySays what xs Key b "non-zero parent fingerprint in master key"
  | child : b[4]? = some 0 → (b.drop 9).take 4 ≠ [0, 0, 0, 0] → XkeySays what xs Key b "non-zero child number in master key"
  | version (w x y z : UInt8) : b.take 4 = [w, x, y, z] → [w, x, y, z] ∉ xs →
      XkeySays what xs Key b ("unknown " ++ what ++ " version magic bytes: " ++
        ("[" ++ (toString w.toNat ++ ", " ++ toString x.toNat ++ ", " ++ toString y.toNat ++ ", " ++ toString z.toNat) ++ "]"))
  | byte45 : what = "private" → b[45]? ≠ some 0 → XkeySays what xs Key b "invalid private key prefix, byte 45 must be 0 as required by BIP-0032"
  | secp : ¬ Key (b.drop 45) → XkeySays what xs Key b "secp256k1 error"

theorem layout_parts {v : Bytes} {d : UInt8} {f c ch k : Bytes} (g1 : v.length = 4) (g2 : f.length = 4) (g3 : c.length = 4) (g4 : ch.length = 32) :
    (layout v d f c ch k).take 4 = v ∧ (layout v d f c ch k)[4]? = some d ∧ ((layout v d f c ch k).drop 5).take 4 = f ∧
      ((layout v d f c ch k).drop 9).take 4 = c ∧ (layout v d f c ch k).drop 45 = k ∧ (layout v d f c ch k)[45]? = k.head? := by
  have e5 : (layout v d f c ch k).drop 5 = f ++ (c ++ (ch ++ k)) := by
    unfold layout; rw [← List.append_assoc]; exact List.drop_left' (by simp [g1])
  have e9 : (layout v d f c ch k).drop 9 = c ++ (ch ++ k) := by
    rw [show 9 = 5 + 4 from rfl, ← List.drop_drop, e5]; exact List.drop_left' g2
  have e45 : (layout v d f c ch k).drop 45 = k := by
    rw [show 45 = 9 + (4 + 32) from rfl, ← List.drop_drop, e9, ← List.append_assoc]; exact List.drop_left' (by simp [g3, g4])
  refine ⟨List.take_left' g1, ?_, ?_, ?_, e45, ?_⟩
  · unfold layout; rw [List.getElem?_append_right (by omega), g1]; rfl
  · rw [e5]; exact List.take_left' g2
  · rw [e9]; exact List.take_left' g3
  · rw [← e45, List.head?_drop, e45]

theorem xkey_says {vers : NetworkKind → Bytes} {bad : Bytes → XkeyErr → Prop} {Key : Bytes → Prop} (priv : Bool) {b : Bytes} {e : XkeyErr}
    (hbad : ∀ k e, bad k e → (e = .invalidPrivateKeyPrefix ∧ priv = true ∧ k.head? ≠ some 0) ∨ (e = .secp256k1 ∧ ¬ Key k))
    (h : XkeyBad vers bad b e) : XkeySays (if priv then "private" else "public") [vers .main, vers .test] Key b (Bip32.Msg.xkey priv e) := by
  rcases h with ⟨h1, rfl⟩ | ⟨v, d, f, c, ch, k, rfl, g1, g2, g3, g4, g5, h⟩
  · exact .length _ rfl h1
  · obtain ⟨p1, p2, p3, p4, p5, p6⟩ := layout_parts (d := d) (k := k) g1 g2 g3 g4
    cases h with
    | parent a1 a2 => exact .parent (by rw [p2, a1]) (by rw [p3]; exact a2)
    | child a1 _ a3 => exact .child (by rw [p2, a1]) (by rw [p4]; exact a3)
    | version a1 a2 =>
      match v, g1 with
      | [w, x, y, z], _ => exact .version w x y z p1 (by simpa using ⟨a2 .main, a2 .test⟩)
    | key n _ a1 a2 a3 =>
      rcases hbad _ _ a3 with ⟨rfl, h2, h3⟩ | ⟨rfl, h2⟩
      · exact .byte45 (by rw [h2]; rfl) (by rw [p6]; exact h3)
      · exact .secp (by rw [p5]; exact h2)

/-- The messages about the bytes of extended keys are true. -/
theorem C120_xkey_messages (S : Secp) (b : Bytes) (e : XkeyErr) :
    (Xpriv.decode b = .error e → XkeySays "private" [[4, 136, 173, 228], [4, 53, 131, 148]] (fun k => ∃ s : SecretKey, k = 0 :: s.bytes.1) b (Bip32.Msg.xkey true e)) ∧
    ((Xpub.decode b : Except _ (Xpub S)) = .error e → XkeySays "public" [[4, 136, 178, 30], [4, 53, 135, 207]] (fun k => ∃ p, k = (S.ser p).1) b (Bip32.Msg.xkey false e)) := by
  constructor
  · intro h
    refine xkey_says (vers := privVersion) (bad := PrivBad) true ?_ ((C120_xpriv b e).mp h)
    intro k e h
    cases h with
    | byte45 h => exact .inl ⟨rfl, rfl, h⟩
    | secret t h1 h2 =>
      refine .inr ⟨rfl, ?_⟩
      rintro ⟨s, h3⟩
      rw [h1] at h3; cases h3
      have p := s.pos
      have q := s.lt
      omega
  · intro h
    refine xkey_says (vers := pubVersion) (bad := PubBad S) false ?_ ((C120_xpub S b e).mp h)
    intro k e h
    cases h with
    | point h => exact .inr ⟨rfl, fun ⟨p, hp⟩ => h p hp⟩

example : Xpriv.decode (List.replicate 78 0) = .error (.unknownVersion [0, 0, 0, 0]) ∧
    Bip32.Msg.xkey true (.unknownVersion [0, 0, 0, 0]) = "unknown private version magic bytes: [0, 0, 0, 0]" := ⟨by with_unfolding_all rfl, by decide +kernel⟩

/-- What the messages about texts of extended keys say. -/
inductive XtextSays (H : Bytes → Arr 32) (Says : Bytes → String → Prop) (t : Bytes) : String → Prop
  | base58 (m : String) : B58.Says H 0 t m → XtextSays H Says t m
  | length (p : Bytes) (n : Nat) : Holds H t p → p.length = n → n ≠ 78 →
      XtextSays H Says t ("decoded base58 xpriv/xpub data was an invalid length: " ++ toString n ++ " (expected 78)")
  | decode (p : Bytes) (m : String) : Holds H t p → Says p m → XtextSays H Says t m

/-- The messages about the texts of extended keys are true. -/
theorem C120_xkey_text_messages (S : Secp) (H : Bytes → Arr 32) (t : Bytes) (e : ParseXkeyErr) :
    (Xpriv.parse H t = .error e →
      XtextSays H (XkeySays "private" [[4, 136, 173, 228], [4, 53, 131, 148]] fun k => ∃ s : SecretKey, k = 0 :: s.bytes.1) t (Bip32.Msg.parseXkey true e)) ∧
    ((Xpub.parse H t : Except _ (Xpub S)) = .error e →
      XtextSays H (XkeySays "public" [[4, 136, 178, 30], [4, 53, 135, 207]] fun k => ∃ p, k = (S.ser p).1) t (Bip32.Msg.parseXkey false e)) := by
  constructor
  · intro h
    cases (C120_xkey_text S H t e).1.mp h with
    | base58 e h1 => exact .base58 _ (B58.C119_decode_messages H t e h1)
    | length p h1 h2 => exact .length p _ h1 rfl h2
    | decode p e h1 _ h3 => exact .decode p _ h1 ((C120_xkey_messages S p e).1 ((C120_xpriv p e).mpr h3))
  · intro h
    cases (C120_xkey_text S H t e).2.mp h with
    | base58 e h1 => exact .base58 _ (B58.C119_decode_messages H t e h1)
    | length p h1 h2 => exact .length p _ h1 rfl h2
    | decode p e h1 _ h3 => exact .decode p _ h1 ((C120_xkey_messages S p e).2 ((C120_xpub S p e).mpr h3))

example : Bip32.Msg.parseXkey true (.invalidPayloadLength 0) = "decoded base58 xpriv/xpub data was an invalid length: 0 (expected 78)" := by decide +kernel

/-! ## Numbers -/

/-- The digits of a number, after an optional plus sign. -/
def Plus (s ds : Bytes) : Prop := s = 43 :: ds ∨ (s = ds ∧ ds.head? ≠ some 43)

/-- What can be wrong with the text of a number: it is empty or only a sign, a prefix of the digits is too large, or, after digits that are not too
large, there is something else. -/
inductive NumBad (max : Nat) (s : Bytes) : IntErr → Prop
  | empty : s = [] → NumBad max s .empty
  | sign : s = [43] → NumBad max s .invalidDigit
  | digit (ds p : Bytes) (c : UInt8) (t : Bytes) (n : Nat) : Plus s ds → ds = p ++ c :: t → digitsVal 10 0 p = some n → n ≤ max → digitVal 10 c = none →
      NumBad max s .invalidDigit
  | over (ds p t : Bytes) (n : Nat) : Plus s ds → ds = p ++ t → digitsVal 10 0 p = some n → max < n → NumBad max s .posOverflow

theorem plus_unique {s a b : Bytes} (h : Plus s a) (h' : Plus s b) : a = b := by
  rcases h with rfl | ⟨rfl, h⟩
  · rcases h' with h' | ⟨rfl, h'⟩
    · cases h'; rfl
    · simp at h'
  · rcases h' with rfl | ⟨h', _⟩
    · simp at h
    · exact h'

theorem digitsVal_le {p q : Bytes} {n m : Nat} (hp : digitsVal 10 0 p = some n) (hq : digitsVal 10 0 (p ++ q) = some m) : n ≤ m := by
  rw [digitsVal_append, hp] at hq
  exact digitsVal_ge (by omega) _ _ _ hq

theorem digit_over {p t p' t' : Bytes} {c : UInt8} {n n' max : Nat} (he : p ++ c :: t = p' ++ t') (hp : digitsVal 10 0 p = some n) (hn : n ≤ max)
    (hc : digitVal 10 c = none) (hp' : digitsVal 10 0 p' = some n') (hn' : max < n') : False := by
  rcases List.append_eq_append_iff.mp he with ⟨q, h1, h2⟩ | ⟨q, h1, h2⟩
  · cases q with
    | nil => rw [List.append_nil] at h1; rw [h1, hp] at hp'; cases hp'; omega
    | cons x q =>
      cases h2
      rw [h1, digitsVal_append, hp] at hp'
      simp [digitsVal, hc] at hp'
  · rw [h1] at hp
    have := digitsVal_le hp' hp
    omega

theorem numBad_unique {max : Nat} {s : Bytes} {e e' : IntErr} (h : NumBad max s e) (h' : NumBad max s e') : e = e' := by
  cases h with
  | empty h1 =>
    cases h' with
    | empty => rfl
    | sign h2 => rw [h1] at h2; cases h2
    | digit ds p c t n h2 h3 _ _ _ => subst h1 h3; rcases h2 with h2 | ⟨h2, _⟩ <;> simp at h2
    | over ds p t n h2 h3 h4 h5 =>
      subst h1 h3; rcases h2 with h2 | ⟨h2, _⟩ <;> simp at h2
      rw [h2.1] at h4; simp [digitsVal] at h4; omega
  | sign h1 =>
    cases h' with
    | empty h2 => rw [h1] at h2; cases h2
    | sign => rfl
    | digit => rfl
    | over ds p t n h2 h3 h4 h5 =>
      subst h1
      have : ds = [] := plus_unique h2 (.inl rfl)
      rw [this] at h3
      have := List.append_eq_nil_iff.mp h3.symm
      rw [this.1] at h4; simp [digitsVal] at h4; omega
  | digit ds p c t n h1 h2 h3 h4 h5 =>
    cases h' with
    | empty h6 => subst h6 h2; rcases h1 with h1 | ⟨h1, _⟩ <;> simp at h1
    | sign => rfl
    | digit => rfl
    | over ds' p' t' n' h6 h7 h8 h9 =>
      have := plus_unique h1 h6
      exact (digit_over (h2.symm.trans (this.trans h7)) h3 h4 h5 h8 h9).elim
  | over ds p t n h1 h2 h3 h4 =>
    cases h' with
    | empty h6 =>
      subst h6 h2; rcases h1 with h1 | ⟨h1, _⟩ <;> simp at h1
      rw [h1.1] at h3; simp [digitsVal] at h3; omega
    | sign h6 =>
      subst h6
      have : ds = [] := plus_unique h1 (.inl rfl)
      rw [this] at h2
      have := List.append_eq_nil_iff.mp h2.symm
      rw [this.1] at h3; simp [digitsVal] at h3; omega
    | digit ds' p' c t' n' h6 h7 h8 h9 h10 =>
      have := plus_unique h6 h1
      exact (digit_over (h7.symm.trans (this.trans h2)) h8 h9 h10 h3 h4).elim
    | over => rfl

theorem digits_bad {max : Nat} : ∀ (ds : Bytes) (acc : Nat), acc ≤ max → parseDigits max 10 acc ds = .error .invalidDigit →
    ∃ p c t n, ds = p ++ c :: t ∧ digitsVal 10 acc p = some n ∧ n ≤ max ∧ digitVal 10 c = none
  | [], _, _, h => by simp [parseDigits] at h
  | b :: bs, acc, ha, h => by
    rw [parseDigits] at h
    cases hd : digitVal 10 b with
    | none => exact ⟨[], b, bs, acc, rfl, rfl, ha, hd⟩
    | some x =>
      rw [hd] at h
      simp only [] at h
      by_cases c : max < acc * 10 + x
      · split at h
        · cases h
        · cases h
      · rw [if_neg (by omega), if_neg (by omega)] at h
        obtain ⟨p, y, t, n, h1, h2, h3, h4⟩ := digits_bad bs (acc * 10 + x) (by omega) h
        exact ⟨b :: p, y, t, n, by rw [h1]; rfl, by simp [digitsVal, hd, h2], h3, h4⟩

/-- The errors of reading a number say exactly what is wrong with the text. -/
theorem C120_number (max : Nat) (s : Bytes) (e : IntErr) : parseUInt max 10 s = .error e ↔ NumBad max s e := by
  refine exact_of ?_ (fun _ _ => numBad_unique) ?_ e
  · intro e h
    have key : ∀ ds, Plus s ds → parseDigits max 10 0 ds = .error e → NumBad max s e := by
      intro ds hs h
      cases e with
      | empty => exact absurd h (LockErr.parseDigits_not_empty _ _)
      | invalidDigit =>
        obtain ⟨p, c, t, n, h1, h2, h3, h4⟩ := digits_bad ds 0 (by omega) h
        exact .digit ds p c t n hs h1 h2 h3 h4
      | posOverflow =>
        obtain ⟨p, n, ⟨t, h1⟩, _, h3, h4⟩ := LockErr.parseDigits_over ds 0 (by omega) h
        exact .over ds p t n hs h1.symm h3 h4
    unfold parseUInt at h
    split at h
    · cases h; exact .empty rfl
    · cases h; exact .sign rfl
    · cases h; exact .digit [45] [] 45 [] 0 (.inr ⟨rfl, by simp⟩) rfl rfl (by omega) (by decide)
    · exact key _ (.inl rfl) h
    · rename_i h1
      refine key _ (.inr ⟨rfl, ?_⟩) h
      intro hh
      cases s with
      | nil => cases hh
      | cons x t => simp at hh; exact h1 t (by rw [hh])
  · intro n e hn he
    obtain ⟨ds, h1, h2, h3, h4⟩ := (parseUInt_ok_iff (by decide) s n).mp hn
    have hs : Plus s ds := by
      rcases h1 with rfl | rfl
      · refine .inr ⟨rfl, fun hh => ?_⟩
        cases s with
        | nil => cases hh
        | cons x t => simp at hh; subst hh; simp [digitsVal, digitVal] at h3
      · exact .inl rfl
    cases he with
    | empty h => subst h; rcases h1 with h1 | h1
                 · exact h2 h1.symm
                 · cases h1
    | sign h => subst h; exact h2 (plus_unique hs (.inl rfl))
    | digit ds' p c t m h5 h6 h7 h8 h9 =>
      rw [plus_unique hs h5, h6, digitsVal_append, h7] at h3
      simp [digitsVal, h9] at h3
    | over ds' p t m h5 h6 h7 h8 =>
      rw [plus_unique hs h5, h6] at h3
      have := digitsVal_le h7 h3
      omega

/-- `12x`, `+` and `+4294967296`. -/
example : NumBad (2 ^ 32 - 1) [49, 50, 120] .invalidDigit ∧ NumBad 7 [43] .invalidDigit ∧
    NumBad (2 ^ 32 - 1) [43, 52, 50, 57, 52, 57, 54, 55, 50, 57, 54] .posOverflow :=
  ⟨.digit _ [49, 50] 120 [] 12 (.inr ⟨rfl, by decide⟩) rfl (by decide) (by decide) (by decide), .sign rfl,
    .over _ [52, 50, 57, 52, 57, 54, 55, 50, 57, 54] [] (2 ^ 32) (.inl rfl) rfl (by decide +kernel) (by decide)⟩

/-! ## Child numbers -/

/-- The index of the text of a child number: what is before a last `'` or `h`, if there is one. -/
def Body (s b : Bytes) : Prop := s = b ++ [39] ∨ s = b ++ [104] ∨ (s = b ∧ b.getLast? ≠ some 39 ∧ b.getLast? ≠ some 104)

/-- What can be wrong with the text of a child number. -/
inductive ChildBad (s : Bytes) : ParseChildErr → Prop
  | number (b : Bytes) (e : IntErr) : Body s b → NumBad (2 ^ 32 - 1) b e → ChildBad s (.parseInt e)
  | range (b ds : Bytes) (i : UInt32) : Body s b → Plus b ds → ds ≠ [] → digitsVal 10 0 ds = some i.toNat → 2 ^ 31 ≤ i.toNat →
      ChildBad s (.indexOutOfRange ⟨i⟩)

theorem body_unique {s a b : Bytes} (h : Body s a) (h' : Body s b) : a = b := by
  have one : ∀ {x y : UInt8}, a ++ [x] = b ++ [y] → a = b := fun h => (List.append_inj' h rfl).1
  rcases h with h | h | ⟨h, h1, h2⟩ <;> rcases h' with h' | h' | ⟨h', h3, h4⟩
  · exact one (h.symm.trans h')
  · exact one (h.symm.trans h')
  · rw [← h', h] at h3; simp at h3
  · exact one (h.symm.trans h')
  · exact one (h.symm.trans h')
  · rw [← h', h] at h4; simp at h4
  · rw [← h, h'] at h1; simp at h1
  · rw [← h, h'] at h2; simp at h2
  · rw [← h, h']

theorem number_value {b ds : Bytes} (h1 : Plus b ds) (h2 : ds ≠ []) (i : UInt32) (h3 : digitsVal 10 0 ds = some i.toNat) : parseU32 b = .ok i := by
  unfold parseU32
  rw [(parseUInt_ok_iff (max := 2 ^ 32 - 1) (radix := 10) (by decide) b i.toNat).mpr
    ⟨ds, by rcases h1 with h1 | h1; exact .inr h1; exact .inl h1.1, h2, h3, by have := i.toNat_lt; omega⟩]
  simp

theorem parseU32_err (b : Bytes) (e : ParseChildErr) (h : parseU32 b = .error e) : ∃ e', e = .parseInt e' ∧ NumBad (2 ^ 32 - 1) b e' := by
  unfold parseU32 at h
  split at h
  · cases h
  · rename_i e' he; cases h; exact ⟨e', rfl, (C120_number _ _ _).mp he⟩

theorem parseU32_val (b : Bytes) (i : UInt32) (h : parseU32 b = .ok i) : ∃ ds, Plus b ds ∧ ds ≠ [] ∧ digitsVal 10 0 ds = some i.toNat := by
  unfold parseU32 at h
  split at h
  · rename_i n hn; cases h
    obtain ⟨ds, h1, h2, h3, h4⟩ := (parseUInt_ok_iff (by decide) b n).mp hn
    have : (UInt32.ofNat n).toNat = n := Nat.mod_eq_of_lt (by omega)
    refine ⟨ds, ?_, h2, by rw [this]; exact h3⟩
    rcases h1 with rfl | h1
    · refine .inr ⟨rfl, fun hh => ?_⟩
      cases b with
      | nil => cases hh
      | cons x t => simp at hh; subst hh; simp [digitsVal, digitVal] at h3
    · exact .inl h1
  · cases h

theorem child_body (s : Bytes) : ∃ b, Body s b ∧ ∃ f : UInt32 → Except IndexOutOfRange ChildNumber,
    (f = ChildNumber.fromHardenedIdx ∨ f = ChildNumber.fromNormalIdx) ∧
    ChildNumber.parse s = (match parseU32 b with | .error e => .error e | .ok i => (f i).mapError .indexOutOfRange) := by
  unfold ChildNumber.parse
  by_cases hl : s.getLast?.any (fun l => l == 39 || l == 104) = true
  · rw [if_pos hl]
    have hne : s ≠ [] := by rintro rfl; simp at hl
    have e := List.dropLast_concat_getLast hne
    rw [List.getLast?_eq_some_getLast hne] at hl
    simp only [Option.any_some, Bool.or_eq_true, beq_iff_eq] at hl
    refine ⟨s.dropLast, ?_, _, .inl rfl, rfl⟩
    rcases hl with h | h
    · rw [h] at e; exact .inl e.symm
    · rw [h] at e; exact .inr (.inl e.symm)
  · rw [if_neg hl]
    refine ⟨s, .inr (.inr ⟨rfl, ?_, ?_⟩), _, .inr rfl, rfl⟩
    · intro h; rw [h] at hl; simp at hl
    · intro h; rw [h] at hl; simp at hl

theorem idx_err {f : UInt32 → Except IndexOutOfRange ChildNumber} (hf : f = ChildNumber.fromHardenedIdx ∨ f = ChildNumber.fromNormalIdx) (i : UInt32)
    (e : ParseChildErr) : (f i).mapError ParseChildErr.indexOutOfRange = .error e ↔ 2 ^ 31 ≤ i.toNat ∧ e = .indexOutOfRange ⟨i⟩ := by
  have h : f i = if i ≤ MAX_CHILD_INDEX then f i else .error ⟨i⟩ := by
    split
    · rfl
    · rename_i h; rcases hf with rfl | rfl
      · unfold ChildNumber.fromHardenedIdx; rw [if_neg h]
      · unfold ChildNumber.fromNormalIdx; rw [if_neg h]
  by_cases hi : i.toNat < 2 ^ 31
  · have hle := (le_max i).mpr hi
    constructor
    · intro he
      rcases hf with rfl | rfl
      · unfold ChildNumber.fromHardenedIdx at he; rw [if_pos hle] at he; cases he
      · unfold ChildNumber.fromNormalIdx at he; rw [if_pos hle] at he; cases he
    · intro he; omega
  · rw [h, if_neg (mt (le_max i).mp hi)]
    constructor
    · intro he; cases he; exact ⟨by omega, rfl⟩
    · rintro ⟨_, rfl⟩; rfl

/-- The errors of reading a child number say exactly what is wrong with the text. -/
theorem C120_child (s : Bytes) (e : ParseChildErr) : ChildNumber.parse s = .error e ↔ ChildBad s e := by
  obtain ⟨b, hb, f, hf, hp⟩ := child_body s
  rw [hp]
  cases hc : parseU32 b with
  | error e' =>
    obtain ⟨e2, rfl, h2⟩ := parseU32_err b e' hc
    constructor
    · intro h; cases h; exact .number b e2 hb h2
    · intro h
      cases h with
      | number b' e3 h3 h4 => rw [body_unique h3 hb] at h4; rw [numBad_unique h4 h2]
      | range b' ds i h3 h4 h5 h6 _ =>
        rw [body_unique h3 hb] at h4
        rw [number_value h4 h5 i h6] at hc; cases hc
  | ok i =>
    obtain ⟨ds, h1, h2, h3⟩ := parseU32_val b i hc
    simp only
    rw [idx_err hf]
    constructor
    · rintro ⟨h4, rfl⟩; exact .range b ds i hb h1 h2 h3 h4
    · intro h
      cases h with
      | number b' e3 h4 h5 =>
        rw [body_unique h4 hb, ← C120_number] at h5
        unfold parseU32 at hc; rw [h5] at hc; cases hc
      | range b' ds' j h4 h5 h6 h7 h8 =>
        rw [body_unique h4 hb] at h5
        rw [number_value h5 h6 j h7] at hc; cases hc
        exact ⟨h8, rfl⟩

/-- `2147483648h`. -/
example : ChildBad [50, 49, 52, 55, 52, 56, 51, 54, 52, 56, 104] (.indexOutOfRange ⟨2147483648⟩) :=
  .range _ [50, 49, 52, 55, 52, 56, 51, 54, 52, 56] _ (.inr (.inl rfl)) (.inr ⟨rfl, by decide⟩) (by decide) (by decide +kernel) (by decide)

/-! ## Paths -/

/-- What can be wrong with child numbers that have slashes between them: after good ones there is an empty one or a bad one. -/
def PartsBad (s : Bytes) (e : PathErr) : Prop :=
  ∃ (a : List Bytes) (cs : RelPath) (p r : Bytes), s = (a.map (· ++ [47])).flatten ++ (p ++ r) ∧ Texts a cs ∧ 47 ∉ p ∧ (r = [] ∨ r.head? = some 47) ∧
    ((p = [] ∧ e = .emptyChild) ∨ ∃ e', p ≠ [] ∧ ChildBad p e' ∧ e = .child e')

/-- What can be wrong with the text of a relative path. -/
inductive RelBad (s : Bytes) : PathErr → Prop
  | master (t : Bytes) : s = 109 :: t → t = [] ∨ t.head? = some 47 → RelBad s .unexpectedMasterPrefix
  | part (e : PathErr) : s ≠ [] → s ≠ [109] → ¬ [109, 47] <+: s → PartsBad s e → RelBad s e

/-- What can be wrong with the text of an absolute path. -/
inductive AbsBad (s : Bytes) : PathErr → Prop
  | master : s ≠ [109] → ¬ [109, 47] <+: s → AbsBad s .missingMasterPrefix
  | part (t : Bytes) (e : PathErr) : s = 109 :: 47 :: t → PartsBad t e → AbsBad s e

theorem parts_list : ∀ (ps : List Bytes) (acc : RelPath) (e : PathErr), parseParts ps acc = .error e ↔
    ∃ a cs p r, ps = a ++ p :: r ∧ Texts a cs ∧ ((p = [] ∧ e = .emptyChild) ∨ ∃ e', p ≠ [] ∧ ChildBad p e' ∧ e = .child e')
  | [], acc, e => by
    simp only [parseParts, reduceCtorEq, false_iff]
    rintro ⟨a, cs, p, r, h, _⟩
    simp at h
  | q :: ps, acc, e => by
    simp only [parseParts]
    by_cases hq : q = []
    · rw [if_pos hq]
      constructor
      · intro h; cases h; exact ⟨[], [], q, ps, rfl, .nil, .inl ⟨hq, rfl⟩⟩
      · rintro ⟨a, cs, p, r, h1, h2, h3⟩
        cases h2 with
        | nil =>
          simp only [List.nil_append, List.cons.injEq] at h1
          rcases h3 with ⟨_, rfl⟩ | ⟨e', h4, _, _⟩
          · rfl
          · exact absurd (h1.1.symm.trans hq) h4
        | cons h4 _ =>
          simp only [List.cons_append, List.cons.injEq] at h1
          exact absurd (h1.1.symm.trans hq) (childText_mem h4).1
    · rw [if_neg hq]
      cases hc : ChildNumber.parse q with
      | error e2 =>
        simp only
        constructor
        · intro h; cases h; exact ⟨[], [], q, ps, rfl, .nil, .inr ⟨e2, hq, (C120_child q e2).mp hc, rfl⟩⟩
        · rintro ⟨a, cs, p, r, h1, h2, h3⟩
          cases h2 with
          | nil =>
            simp only [List.nil_append, List.cons.injEq] at h1
            rcases h3 with ⟨h3, _⟩ | ⟨e', _, h5, rfl⟩
            · exact absurd (h1.1.trans h3) hq
            · rw [← h1.1, ← C120_child, hc] at h5; cases h5; rfl
          | cons h4 _ =>
            simp only [List.cons_append, List.cons.injEq] at h1
            rw [← h1.1, ← C54_child_parse, hc] at h4; cases h4
      | ok c =>
        simp only
        rw [parts_list ps (acc ++ [c]) e]
        have ht := (C54_child_parse _ _).mp hc
        constructor
        · rintro ⟨a, cs, p, r, h1, h2, h3⟩
          exact ⟨q :: a, c :: cs, p, r, by rw [h1]; rfl, .cons ht h2, h3⟩
        · rintro ⟨a, cs, p, r, h1, h2, h3⟩
          cases h2 with
          | nil =>
            simp only [List.nil_append, List.cons.injEq] at h1
            rcases h3 with ⟨h3, _⟩ | ⟨e', _, h5, _⟩
            · exact absurd (h1.1.trans h3) hq
            · rw [← h1.1, ← C120_child, hc] at h5; cases h5
          | cons h4 h5 =>
            simp only [List.cons_append, List.cons.injEq] at h1
            exact ⟨_, _, p, r, h1.2, h5, h3⟩

theorem split_mem : ∀ (s : Bytes), ∀ p ∈ splitSlash s, 47 ∉ p
  | [], p, hp => by simp [splitSlash] at hp; simp [hp]
  | b :: bs, p, hp => by
    have ih := split_mem bs
    simp only [splitSlash] at hp
    by_cases hb : b = 47
    · rw [if_pos hb] at hp
      rcases List.mem_cons.mp hp with rfl | hp
      · simp
      · exact ih p hp
    · rw [if_neg hb] at hp
      cases hs : splitSlash bs with
      | nil => exact absurd hs (splitSlash_ne bs)
      | cons q qs =>
        rw [hs] at hp ih
        rcases List.mem_cons.mp hp with rfl | hp
        · have := ih q (by simp)
          simp only [List.mem_cons, not_or]
          exact ⟨fun h => hb h.symm, this⟩
        · exact ih p (List.mem_cons_of_mem _ hp)

theorem slashed_at : ∀ (a : List Bytes) (p : Bytes) (r : List Bytes),
    ∃ q, slashed (a ++ p :: r) = (a.map (· ++ [47])).flatten ++ (p ++ q) ∧ (q = [] ∨ q.head? = some 47)
  | [], p, [] => ⟨[], by simp [slashed], .inl rfl⟩
  | [], p, x :: r => ⟨47 :: slashed (x :: r), by simp [slashed], .inr rfl⟩
  | x :: a, p, r => by
    obtain ⟨q, h1, h2⟩ := slashed_at a p r
    refine ⟨q, ?_, h2⟩
    cases hl : a ++ p :: r with
    | nil => simp at hl
    | cons y l =>
      rw [List.cons_append, hl, slashed, ← hl, h1]
      · simp
      · simp

theorem split_at : ∀ (a : List Bytes) (p q : Bytes), (∀ x ∈ a, 47 ∉ x) → 47 ∉ p → (q = [] ∨ q.head? = some 47) →
    ∃ r, splitSlash ((a.map (· ++ [47])).flatten ++ (p ++ q)) = a ++ p :: r
  | [], p, q, _, hp, hq => by
    rcases hq with rfl | hq
    · exact ⟨[], by simpa using split_noslash p hp⟩
    · cases q with
      | nil => cases hq
      | cons x q => simp at hq; subst hq; exact ⟨splitSlash q, by simpa using split_append p q hp⟩
  | x :: a, p, q, ha, hp, hq => by
    obtain ⟨r, hr⟩ := split_at a p q (fun y hy => ha y (List.mem_cons_of_mem _ hy)) hp hq
    refine ⟨r, ?_⟩
    have := split_append x ((a.map (· ++ [47])).flatten ++ (p ++ q)) (ha x (by simp))
    rw [hr] at this
    simpa using this

theorem parts_bad (s : Bytes) (e : PathErr) : parseParts (splitSlash s) [] = .error e ↔ PartsBad s e := by
  rw [parts_list]
  constructor
  · rintro ⟨a, cs, p, r, h1, h2, h3⟩
    obtain ⟨q, h4, h5⟩ := slashed_at a p r
    rw [← h1, slashed_split] at h4
    exact ⟨a, cs, p, q, h4, h2, split_mem s p (by rw [h1]; simp), h5, h3⟩
  · rintro ⟨a, cs, p, q, h1, h2, h3, h4, h5⟩
    obtain ⟨r, hr⟩ := split_at a p q (texts_mem h2) h3 h4
    exact ⟨a, cs, p, r, by rw [h1, hr], h2, h5⟩

theorem abs_map (x : Except PathErr RelPath) : x.map AbsPath.mk = (match x with | .error e => .error e | .ok r => .ok ⟨r⟩ : Except PathErr AbsPath) := by
  cases x <;> rfl

/-- The errors of reading a path say exactly what is wrong with the text. -/
theorem C120_path (s : Bytes) (e : PathErr) : (RelPath.parse s = .error e ↔ RelBad s e) ∧ (AbsPath.parse s = .error e ↔ AbsBad s e) := by
  have hpre : ([109, 47] <+: s) ↔ ∃ t, s = 109 :: 47 :: t := ⟨fun ⟨t, h⟩ => ⟨t, h.symm⟩, fun ⟨t, h⟩ => ⟨t, h.symm⟩⟩
  constructor
  · unfold RelPath.parse
    by_cases h0 : s = []
    · rw [if_pos h0]
      simp only [reduceCtorEq, false_iff]
      intro h
      cases h with
      | master t h1 _ => rw [h0] at h1; cases h1
      | part _ h1 _ _ _ => exact h1 h0
    · rw [if_neg h0]
      by_cases hm : s = [109] ∨ [109, 47] <+: s
      · rw [if_pos hm]
        constructor
        · intro h; cases h
          rcases hm with hm | hm
          · exact .master [] hm (.inl rfl)
          · obtain ⟨t, ht⟩ := hpre.mp hm
            exact .master _ ht (.inr rfl)
        · intro h
          cases h with
          | master => rfl
          | part _ _ h2 h3 _ => rcases hm with hm | hm <;> contradiction
      · rw [if_neg hm, parts_bad]
        constructor
        · intro h; exact .part e h0 (fun h => hm (.inl h)) (fun h => hm (.inr h)) h
        · intro h
          cases h with
          | master t h1 h2 =>
            exfalso; apply hm
            rcases h2 with rfl | h2
            · exact .inl h1
            · cases t with
              | nil => cases h2
              | cons x t => simp at h2; subst h2; exact .inr (hpre.mpr ⟨t, h1⟩)
          | part _ _ _ _ h4 => exact h4
  · unfold AbsPath.parse
    by_cases hm : s = [109]
    · rw [if_pos hm]
      simp only [reduceCtorEq, false_iff]
      intro h
      cases h with
      | master h1 _ => exact h1 hm
      | part t _ h1 _ => rw [hm] at h1; cases h1
    · rw [if_neg hm]
      by_cases hp : [109, 47] <+: s
      · rw [if_pos hp]
        obtain ⟨t, rfl⟩ := hpre.mp hp
        have key : (if (109 :: 47 :: t).drop 2 = [] then (.error .emptyChild : Except PathErr AbsPath) else
            (parseParts (splitSlash t) []).map AbsPath.mk) = .error e ↔ parseParts (splitSlash t) [] = .error e := by
          by_cases ht : t = []
          · subst ht
            rw [if_pos (show (109 :: 47 :: ([] : Bytes)).drop 2 = [] from rfl)]
            show _ ↔ (.error .emptyChild : Except PathErr RelPath) = _
            constructor
            · intro h; cases h; rfl
            · intro h; cases h; rfl
          · rw [if_neg (by simpa using ht)]
            cases parseParts (splitSlash t) [] with
            | ok r => simp [Except.map]
            | error e' => simp [Except.map]
        refine Iff.trans (b := (if (109 :: 47 :: t).drop 2 = [] then (.error .emptyChild : Except PathErr AbsPath) else
            (parseParts (splitSlash t) []).map AbsPath.mk) = .error e) (by rw [abs_map]; exact Iff.rfl) ?_
        rw [key, parts_bad]
        constructor
        · intro h; exact .part t e rfl h
        · intro h
          cases h with
          | master _ h2 => exact absurd hp h2
          | part u _ h1 h2 => cases h1; exact h2
      · rw [if_neg hp]
        constructor
        · intro h; cases h; exact .master hm hp
        · intro h
          cases h with
          | master => rfl
          | part t _ h1 _ => exact absurd (hpre.mpr ⟨t, h1⟩) hp

/-- `m/0//x`. -/
example : AbsBad [109, 47, 48, 47, 47, 120] .emptyChild :=
  .part [48, 47, 47, 120] _ rfl ⟨[[48]], [⟨0⟩], [], [47, 120], rfl, .cons (.inl ⟨0, ⟨by decide, [48], .inl rfl, by decide, by decide⟩, rfl⟩) .nil, by decide,
    .inr rfl, .inl ⟨rfl, rfl⟩⟩

/-- What the messages about one child number say. -/
inductive ChildSays (s : Bytes) : String → Prop
  | empty : Body s [] → ChildSays s "cannot parse integer from empty string"
  | digit (b p : Bytes) (c : UInt8) (t : Bytes) : Body s b → b = p ++ c :: t → digitVal 10 c = none → (p = [] → t ≠ [] → c ≠ 43) →
      ChildSays s "invalid digit found in string"
  | over (b p t : Bytes) (n : Nat) : Body s b → b = p ++ t ∨ b = 43 :: p ++ t → digitsVal 10 0 p = some n → 2 ^ 32 ≤ n →
      ChildSays s "number too large to fit in target type"
  | range (b ds : Bytes) (n : Nat) : Body s b → Plus b ds → digitsVal 10 0 ds = some n → 2 ^ 31 ≤ n → n < 2 ^ 32 →
      ChildSays s ("index " ++ toString n ++ " out of range [0, 2^31 - 1] (do you have a hardened child number, rather than an index?)")

theorem child_says {s : Bytes} {e : ParseChildErr} (h : ChildBad s e) : ChildSays s (Bip32.Msg.child e) := by
  cases h with
  | number b e h1 h2 =>
    cases h2 with
    | empty h => subst h; exact .empty h1
    | sign h => exact .digit b [] 43 [] h1 h (by decide) (fun _ h => absurd rfl h)
    | digit ds p c t n h3 h4 h5 h6 h7 =>
      rcases h3 with rfl | ⟨rfl, h3⟩
      · exact .digit _ (43 :: p) c t h1 (by rw [h4]; rfl) h7 (fun h => by cases h)
      · exact .digit _ p c t h1 h4 h7 (fun h _ hc => h3 (by rw [h4, h, hc]; rfl))
    | over ds p t n h3 h4 h5 h6 =>
      refine .over b p t n h1 ?_ h5 (by omega)
      rcases h3 with rfl | ⟨rfl, _⟩
      · exact .inr (by rw [h4]; rfl)
      · exact .inl h4
  | range b ds i h1 h2 h3 h4 h5 => exact .range b ds _ h1 h2 h4 h5 i.toNat_lt

/-- What the messages about paths say: one part, between slashes, is empty or bad, or the path starts with `m`, or not. -/
inductive PathSays (s : Bytes) : String → Prop
  | child (p m : _) : p ∈ splitSlash s → ChildSays p m → PathSays s m
  | empty : s ≠ [] → [] ∈ splitSlash s → PathSays s "derivation path contains an empty child number"
  | unexpected : (splitSlash s).head? = some [109] → PathSays s "relative derivation path contains unexpected master prefix `m`"
  | missing : (splitSlash s).head? ≠ some [109] → PathSays s "absolute derivation path is missing master prefix `m`"

theorem partsBad_says {s : Bytes} {e : PathErr} (h : PartsBad s e) :
    (e = .emptyChild ∧ [] ∈ splitSlash s) ∨ ∃ p e', e = .child e' ∧ p ∈ splitSlash s ∧ ChildBad p e' := by
  obtain ⟨a, cs, p, r, h1, h2, h3, h4, h5⟩ := h
  obtain ⟨q, hq⟩ := split_at a p r (texts_mem h2) h3 h4
  rw [← h1] at hq
  rcases h5 with ⟨rfl, rfl⟩ | ⟨e', _, h6, rfl⟩
  · exact .inl ⟨rfl, by rw [hq]; simp⟩
  · exact .inr ⟨p, e', rfl, by rw [hq]; simp, h6⟩

/-- The messages about child numbers and paths are true. -/
theorem C120_path_messages (s : Bytes) :
    (∀ e, ChildNumber.parse s = .error e → ChildSays s (Bip32.Msg.child e)) ∧
    (∀ e, RelPath.parse s = .error e → PathSays s (Bip32.Msg.path e)) ∧
    (∀ e, AbsPath.parse s = .error e → PathSays s (Bip32.Msg.path e)) := by
  refine ⟨fun e h => child_says ((C120_child s e).mp h), fun e h => ?_, fun e h => ?_⟩
  · cases (C120_path s e).1.mp h with
    | master t h1 h2 =>
      refine .unexpected ?_
      subst h1
      rcases h2 with rfl | h2
      · rfl
      · cases t with
        | nil => cases h2
        | cons x t => simp at h2; subst h2; exact congrArg List.head? (split_append [109] t (by decide))
    | part _ h1 _ _ h4 =>
      rcases partsBad_says h4 with ⟨rfl, h7⟩ | ⟨p, e', rfl, h5, h6⟩
      · exact .empty h1 h7
      · exact .child p _ h5 (child_says h6)
  · cases (C120_path s e).2.mp h with
    | master h1 h2 =>
      refine .missing fun hh => ?_
      have hs := slashed_split s
      cases hsp : splitSlash s with
      | nil => rw [hsp] at hh; cases hh
      | cons p ps =>
        rw [hsp] at hh hs; simp at hh; subst hh
        cases ps with
        | nil => exact h1 hs.symm
        | cons q qs => exact h2 ⟨slashed (q :: qs), by rw [← hs]; simp [slashed]⟩
    | part t _ h1 h2 =>
      have hs : splitSlash s = [109] :: splitSlash t := by rw [h1]; exact split_append [109] t (by decide)
      rcases partsBad_says h2 with ⟨rfl, h7⟩ | ⟨p, e', rfl, h5, h6⟩
      · exact .empty (by rw [h1]; simp) (by rw [hs]; exact List.mem_cons_of_mem _ h7)
      · exact .child p _ (by rw [hs]; exact List.mem_cons_of_mem _ h5) (child_says h6)

/-- `m/2147483648`. -/
example : AbsPath.parse [109, 47, 50, 49, 52, 55, 52, 56, 51, 54, 52, 56] = .error (.child (.indexOutOfRange ⟨2147483648⟩)) ∧
    Bip32.Msg.path (.child (.indexOutOfRange ⟨2147483648⟩)) =
      "index 2147483648 out of range [0, 2^31 - 1] (do you have a hardened child number, rather than an index?)" :=
  ⟨by with_unfolding_all rfl, by decide +kernel⟩

/-! ## Seeds and derivation -/

/-- A seed is refused exactly if it has not between 16 and 64 bytes, and the message says how many there are. -/
theorem C120_seed (b : Bytes) (n : Nat) : Seed.tryFrom b = .error n ↔ (n = b.length ∧ ¬ (16 ≤ n ∧ n ≤ 64)) := by
  unfold Seed.tryFrom
  by_cases h : b.length < 16 ∨ b.length > 64
  · rw [dif_pos h]
    constructor
    · intro h1; cases h1; exact ⟨rfl, by omega⟩
    · rintro ⟨rfl, _⟩; rfl
  · rw [dif_neg h]
    constructor
    · intro h1; cases h1
    · rintro ⟨rfl, h1⟩; omega

example : Seed.tryFrom [1, 2, 3] = .error 3 ∧ ∃ s, Seed.tryFrom (List.replicate 16 1) = .ok s := ⟨rfl, _, rfl⟩

/-- The message about a seed. -/
theorem C120_seed_message (b : Bytes) (n : Nat) (h : Seed.tryFrom b = .error n) :
    ∃ l, b.length = l ∧ (l < 16 ∨ 64 < l) ∧ Bip32.Msg.seed n = "invalid BIP-0032 master seed length: " ++ toString l ++ " (expected 16 to 64 inclusive)" := by
  obtain ⟨rfl, h1⟩ := (C120_seed b n).mp h
  exact ⟨_, rfl, by omega, rfl⟩

example : Bip32.Msg.seed 3 = "invalid BIP-0032 master seed length: 3 (expected 16 to 64 inclusive)" := by decide +kernel

/-- What the messages about derivation say: some child would have depth 256, or a child of a public key is hardened. -/
inductive DeriveSays (pub : Bool) (depth : Nat) (p : List ChildNumber) : String → Prop
  | depth : 256 ≤ depth + p.length → DeriveSays pub depth p "cannot derive child of depth 256 or higher"
  | hardened (i : ChildNumber) : pub = true → i ∈ p → 2 ^ 31 ≤ i.toRaw.toNat → DeriveSays pub depth p "cannot derive hardened child of public key"

theorem priv_child_err {S : Secp} {k : Xpriv} {i : ChildNumber} {e : DeriveErr} (h : k.deriveChild S i = some (.error e)) :
    e = .maximumDepthExceeded ∧ k.depth.toNat = 255 := by
  have hc := C73_ckd_priv S k i
  simp only at hc
  generalize il (privI S k i) = I at hc
  by_cases h0 : I = 0 ∨ ORDER ≤ I ∨ (I + k.privateKey.val) % ORDER = 0
  · rw [hc.1 h0] at h; cases h
  · have h1 := hc.2 (by omega) (by omega) (by omega)
    by_cases hd : k.depth.toNat = 255
    · rw [h1.1 hd] at h; cases h; exact ⟨rfl, hd⟩
    · have := k.depth.toNat_lt
      obtain ⟨c, h2, _⟩ := h1.2 (by omega)
      rw [h2] at h; cases h

theorem pub_child_err {S : Secp} {k : Xpub S} {i : ChildNumber} {e : DeriveErr} (h : k.deriveChild i = some (.error e)) :
    (e = .maximumDepthExceeded ∧ k.depth.toNat = 255 ∧ i.toRaw.toNat < 2 ^ 31) ∨ (e = .cannotDeriveHardenedChild ∧ 2 ^ 31 ≤ i.toRaw.toNat) := by
  by_cases hi : 2 ^ 31 ≤ i.toRaw.toNat
  · rw [(C73_ckd_pub k i).1 hi] at h; cases h; exact .inr ⟨rfl, hi⟩
  · left
    have hc := (C73_ckd_pub k i).2 (by omega)
    simp only at hc
    generalize il (pubI k i) = I at hc
    by_cases h0 : I = 0 ∨ ORDER ≤ I
    · rw [hc.1 h0] at h; cases h
    · have h1 := hc.2 (by omega) (by omega)
      cases ha : S.addExp k.publicKey I with
      | none => rw [h1.1 ha] at h; cases h
      | some p =>
        by_cases hd : k.depth.toNat = 255
        · rw [(h1.2 p ha).1 hd] at h; cases h; exact ⟨rfl, hd, by omega⟩
        · have := k.depth.toNat_lt
          obtain ⟨c, h2, _⟩ := (h1.2 p ha).2 (by omega)
          rw [h2] at h; cases h

/-- Derivation of a private key fails only at depth 255, whatever follows; of a public key there too, or at the first hardened child. -/
theorem C120_derive (S : Secp) (p : List ChildNumber) (e : DeriveErr) :
    (∀ k : Xpriv, k.deriveFromPath S p = some (.error e) → e = .maximumDepthExceeded ∧ 256 ≤ k.depth.toNat + p.length) ∧
    (∀ k : Xpub S, k.deriveFromPath p = some (.error e) →
      (e = .maximumDepthExceeded ∧ 256 ≤ k.depth.toNat + p.length ∧ ∀ i ∈ p.take (256 - k.depth.toNat), i.toRaw.toNat < 2 ^ 31) ∨
      (e = .cannotDeriveHardenedChild ∧ ∃ a i b, p = a ++ i :: b ∧ (∀ j ∈ a, j.toRaw.toNat < 2 ^ 31) ∧ 2 ^ 31 ≤ i.toRaw.toNat ∧ k.depth.toNat + a.length ≤ 255)) := by
  induction p with
  | nil =>
    constructor
    · intro k h; cases h
    · intro k h; cases h
  | cons x p ih =>
    constructor
    · intro k h
      simp only [Xpriv.deriveFromPath] at h
      cases hc : k.deriveChild S x with
      | none => rw [hc] at h; cases h
      | some r =>
        rw [hc] at h
        cases r with
        | error e' =>
          cases h
          obtain ⟨h1, h2⟩ := priv_child_err hc
          exact ⟨h1, by simp; omega⟩
        | ok c =>
          obtain ⟨h1, h2⟩ := ih.1 c h
          have := ((C73_depth (S := S) [x]).1 k c (by rw [(C73_path (S := S) k (Xpub.fromXpriv S k) x [] []).2.1]; exact hc)).1
          simp at this
          exact ⟨h1, by simp; omega⟩
    · intro k h
      simp only [Xpub.deriveFromPath] at h
      cases hc : k.deriveChild x with
      | none => rw [hc] at h; cases h
      | some r =>
        rw [hc] at h
        cases r with
        | error e' =>
          cases h
          rcases pub_child_err hc with ⟨h1, h2, h3⟩ | ⟨h1, h2⟩
          · refine .inl ⟨h1, by simp; omega, ?_⟩
            rw [h2]
            intro i hi
            simp at hi; rw [hi]; exact h3
          · exact .inr ⟨h1, [], x, p, rfl, by simp, h2, by have := k.depth.toNat_lt; simp; omega⟩
        | ok c =>
          have hx := (C73_depth (S := S) [x]).2 k c (by simp only [Xpub.deriveFromPath]; rw [hc])
          obtain ⟨hd, _, hn⟩ := hx
          have hxn := hn x (by simp)
          simp at hd
          rcases ih.2 c h with ⟨h1, h2, h3⟩ | ⟨h1, a, i, b, h4, h5, h6, h7⟩
          · refine .inl ⟨h1, by simp; omega, ?_⟩
            have : 256 - k.depth.toNat = (256 - c.depth.toNat) + 1 := by have := c.depth.toNat_lt; omega
            rw [this, List.take_succ_cons]
            intro i hi
            rcases List.mem_cons.mp hi with rfl | hi
            · exact hxn
            · exact h3 i hi
          · refine .inr ⟨h1, x :: a, i, b, by rw [h4]; rfl, ?_, h6, by simp; omega⟩
            intro j hj
            rcases List.mem_cons.mp hj with rfl | hj
            · exact hxn
            · exact h5 j hj

example (k : Xpub Secp.toy) : k.deriveFromPath [⟨0x80000000⟩, ⟨7⟩] = some (.error .cannotDeriveHardenedChild) := by
  simp only [Xpub.deriveFromPath]
  rw [(C73_ckd_pub k ⟨0x80000000⟩).1 (by decide)]

/-- The messages about derivation are true. -/
theorem C120_derive_messages (S : Secp) (p : List ChildNumber) (e : DeriveErr) :
    (∀ k : Xpriv, k.deriveFromPath S p = some (.error e) → DeriveSays false k.depth.toNat p (Bip32.Msg.derive e)) ∧
    (∀ k : Xpub S, k.deriveFromPath p = some (.error e) → DeriveSays true k.depth.toNat p (Bip32.Msg.derive e)) := by
  constructor
  · intro k h
    obtain ⟨rfl, h1⟩ := (C120_derive S p e).1 k h
    exact .depth h1
  · intro k h
    rcases (C120_derive S p e).2 k h with ⟨rfl, h1, _⟩ | ⟨rfl, a, i, b, rfl, _, h2, _⟩
    · exact .depth h1
    · exact .hardened i rfl (by simp) h2

example : Bip32.Msg.derive .maximumDepthExceeded = "cannot derive child of depth 256 or higher" := rfl

end KeyErr
end Btc
