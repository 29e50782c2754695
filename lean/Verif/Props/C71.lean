import Verif.Crypto.Keys
import Verif.Props.C29_C30
/-!
# C71: keys and their encodings
-/
namespace Btc
namespace Crypto

open B58 (Text58)

/-! ## Public keys -/

variable {S : Secp}

theorem checkPrefix_ok (c : Bool) (data : Bytes) (k : LegacyPublicKey S) :
    LegacyPublicKey.checkPrefix c data = .ok k ↔
      (if c then data.headD 0 = 2 ∨ data.headD 0 = 3 else data.headD 0 = 4) ∧ S.fromSlice data = some k.inner ∧ k.compressed = c := by
  have hf : LegacyPublicKey.finishSlice c data = .ok k ↔ S.fromSlice data = some k.inner ∧ k.compressed = c := by
    unfold LegacyPublicKey.finishSlice
    cases h : S.fromSlice data with
    | none => simp
    | some p =>
      simp only [Option.some.injEq]
      cases k with
      | mk kc ki =>
        cases c
        · simp only [Bool.false_eq_true, if_false, LegacyPublicKey.fromSecpUncompressed, Except.ok.injEq, LegacyPublicKey.mk.injEq]
          exact ⟨fun ⟨a, b⟩ => ⟨b, a.symm⟩, fun ⟨a, b⟩ => ⟨b.symm, a⟩⟩
        · simp only [if_true, LegacyPublicKey.fromSecp, Except.ok.injEq, LegacyPublicKey.mk.injEq]
          exact ⟨fun ⟨a, b⟩ => ⟨b, a.symm⟩, fun ⟨a, b⟩ => ⟨b.symm, a⟩⟩
  unfold LegacyPublicKey.checkPrefix
  generalize data.headD 0 = b
  cases c
  · by_cases h : b = 4
    · subst h; simpa using hf
    · split
      · simp_all
      · simp_all
      · simp_all
      · simp [h]
  · by_cases h2 : b = 2
    · subst h2; simpa using hf
    · by_cases h3 : b = 3
      · subst h3; simpa using hf
      · split
        · simp_all
        · simp_all
        · simp_all
        · simp [h2, h3]

/-- Exactly the serializations parse: each key has one, of 33 or 65 bytes as the key is compressed or not. -/
theorem C71_public (b : Bytes) (k : LegacyPublicKey S) : LegacyPublicKey.fromSlice b = .ok k ↔ b = k.serialize := by
  have hd : ∀ (l : Bytes) (x : UInt8), l.head? = some x → l.headD 0 = x := by intro l x h; cases l <;> simp_all
  have hd' : ∀ (l : Bytes) (x : UInt8), l ≠ [] → l.headD 0 = x → l.head? = some x := by intro l x h; cases l <;> simp_all
  unfold LegacyPublicKey.fromSlice LegacyPublicKey.serialize
  by_cases h33 : b.length = 33
  · rw [if_pos h33, checkPrefix_ok]
    constructor
    · rintro ⟨-, h2, h3⟩
      rw [h3, if_pos rfl]
      exact S.ser_unique b _ h33 h2
    · intro h
      cases hc : k.compressed
      · rw [hc] at h
        simp only [Bool.false_eq_true, if_false] at h
        have := (S.serU k.inner).2
        rw [← h] at this
        omega
      · rw [hc, if_pos rfl] at h
        rw [h]
        refine ⟨?_, S.from_ser _, rfl⟩
        rw [if_pos rfl]
        exact (S.ser_head k.inner).imp (hd _ _) (hd _ _)
  · rw [if_neg h33]
    by_cases h65 : b.length = 65
    · rw [if_pos h65, checkPrefix_ok]
      constructor
      · rintro ⟨h1, h2, h3⟩
        rw [h3]
        simp only [Bool.false_eq_true, if_false] at h1 ⊢
        exact S.serU_unique b _ h65 (hd' _ _ (by rintro rfl; cases h65) h1) h2
      · intro h
        cases hc : k.compressed
        · rw [hc] at h
          simp only [Bool.false_eq_true, if_false] at h ⊢
          rw [h]
          exact ⟨hd _ _ (S.serU_head _), S.from_serU _, trivial⟩
        · rw [hc, if_pos rfl] at h
          have := (S.ser k.inner).2
          rw [← h] at this
          omega
    · rw [if_neg h65]
      simp only [reduceCtorEq, false_iff]
      intro h
      split at h
      · exact h33 (h ▸ (S.ser k.inner).2)
      · exact h65 (h ▸ (S.serU k.inner).2)

/-- Hybrid keys (65 bytes with prefix 6 or 7), which the library would take, are refused with their prefix. -/
theorem C71_prefix (b : Bytes) (x : UInt8) : (LegacyPublicKey.fromSlice b : Except _ (LegacyPublicKey S)) = .error (.invalidKeyPrefix x) ↔
    b.head? = some x ∧ ((b.length = 33 ∧ x ≠ 2 ∧ x ≠ 3) ∨ (b.length = 65 ∧ x ≠ 4)) := by
  have hfin : ∀ c, (LegacyPublicKey.finishSlice c b : Except _ (LegacyPublicKey S)) ≠ .error (.invalidKeyPrefix x) := by
    intro c h
    unfold LegacyPublicKey.finishSlice at h
    split at h
    · cases h
    · split at h <;> cases h
  unfold LegacyPublicKey.fromSlice
  cases b with
  | nil => simp
  | cons y r =>
    have hy : (y :: r).headD 0 = y := rfl
    by_cases h33 : (y :: r).length = 33
    · rw [if_pos h33]
      unfold LegacyPublicKey.checkPrefix
      rw [hy]
      have h65 : ¬ (y :: r).length = 65 := by omega
      by_cases h2 : y = 2
      · subst h2
        simp only [List.head?_cons, Option.some.injEq]
        constructor
        · intro h; exact absurd h (hfin _)
        · rintro ⟨rfl, ⟨-, h, -⟩ | ⟨h, -⟩⟩
          · exact absurd rfl h
          · exact absurd h h65
      · by_cases h3 : y = 3
        · subst h3
          simp only [List.head?_cons, Option.some.injEq]
          constructor
          · intro h; exact absurd h (hfin _)
          · rintro ⟨rfl, ⟨-, -, h⟩ | ⟨h, -⟩⟩
            · exact absurd rfl h
            · exact absurd h h65
        · split
          · exact absurd rfl h2
          · exact absurd rfl h3
          · contradiction
          · simp only [List.head?_cons, Option.some.injEq, Except.error.injEq, FromSliceErr.invalidKeyPrefix.injEq]
            constructor
            · rintro rfl; exact ⟨rfl, .inl ⟨h33, h2, h3⟩⟩
            · exact fun h => h.1
    · rw [if_neg h33]
      by_cases h65 : (y :: r).length = 65
      · rw [if_pos h65]
        unfold LegacyPublicKey.checkPrefix
        rw [hy]
        by_cases h4 : y = 4
        · subst h4
          simp only [List.head?_cons, Option.some.injEq]
          constructor
          · intro h; exact absurd h (hfin _)
          · rintro ⟨rfl, ⟨h, -⟩ | ⟨-, h⟩⟩
            · exact absurd h h33
            · exact absurd rfl h
        · split
          · contradiction
          · contradiction
          · exact absurd rfl h4
          · simp only [List.head?_cons, Option.some.injEq, Except.error.injEq, FromSliceErr.invalidKeyPrefix.injEq]
            constructor
            · rintro rfl; exact ⟨rfl, .inr ⟨h65, h4⟩⟩
            · exact fun h => h.1
      · rw [if_neg h65]
        simp [h33, h65] at *
        intro _
        exact ⟨fun h => absurd h h33, fun h => absurd h h65⟩

/-- Text: a printed key parses back, and every text that parses is a hex form of the serialization. -/
theorem C71_public_text (s : Bytes) (k : LegacyPublicKey S) :
    LegacyPublicKey.parse k.display = .ok k ∧ (LegacyPublicKey.parse s = .ok k ↔ unhex s = some k.serialize) := by
  have key : ∀ s, LegacyPublicKey.parse s = .ok k ↔ unhex s = some k.serialize := by
    intro s
    unfold LegacyPublicKey.parse
    have hlen : k.serialize.length = 33 ∨ k.serialize.length = 65 := by
      unfold LegacyPublicKey.serialize
      split
      · exact .inl (S.ser _).2
      · exact .inr (S.serU _).2
    by_cases hl : s.length = 66 ∨ s.length = 130
    · rw [if_pos hl]
      cases hu : unhex s with
      | none => simp
      | some b =>
        simp only [Option.some.injEq]
        rw [← C71_public]
        cases h : (LegacyPublicKey.fromSlice b : Except _ (LegacyPublicKey S)) <;> simp [Except.mapError]
    · rw [if_neg hl]
      simp only [reduceCtorEq, false_iff]
      intro h
      have := unhex_length _ _ h
      omega
  exact ⟨(key _).mpr (unhex_hexBytes _), key s⟩

/-- Full public keys: bytes, text, and the conversions with compressed legacy keys, in both directions. -/
theorem C71_full (b : Arr 33) (s : Bytes) (k : FullPublicKey S) (l : LegacyPublicKey S) :
    (FullPublicKey.fromBytes b = some k ↔ b.1 = k.toBytes) ∧ (FullPublicKey.parse s = some k ↔ unhex s = some k.toBytes) ∧
    FullPublicKey.parse k.display = some k ∧ (FullPublicKey.tryFrom l = some k ↔ l = k.toLegacy) ∧ k.toLegacy.serialize = k.toBytes := by
  have h1 : ∀ b : Arr 33, FullPublicKey.fromBytes b = some k ↔ b.1 = k.toBytes := by
    intro b
    unfold FullPublicKey.fromBytes FullPublicKey.toBytes
    constructor
    · intro h
      cases hp : S.fromSlice b.1 with
      | none => rw [hp] at h; cases h
      | some p =>
        rw [hp] at h
        cases h
        exact S.ser_unique _ _ b.2 hp
    · intro h
      rw [h, S.from_ser]
      rfl
  have h2 : ∀ s, FullPublicKey.parse s = some k ↔ unhex s = some k.toBytes := by
    intro s
    unfold FullPublicKey.parse
    cases hu : unhex s with
    | none => simp
    | some c =>
      simp only [Option.some.injEq]
      by_cases hl : c.length = 33
      · rw [dif_pos hl, h1]
      · rw [dif_neg hl]
        simp only [reduceCtorEq, false_iff]
        rintro rfl
        exact hl (S.ser _).2
  refine ⟨h1 b, h2 s, (h2 _).mpr (unhex_hexBytes _), ?_, rfl⟩
  unfold FullPublicKey.tryFrom FullPublicKey.toLegacy LegacyPublicKey.fromSecp
  cases l with
  | mk c p =>
    cases k with
    | mk q =>
      cases c <;> simp

/-! ## Private keys -/

/-- Secret bytes are valid exactly for 1 to the order minus 1; negation gives the key that adds up to the order, and twice is nothing; the
public key is compressed as the private key is. -/
theorem C71_private (b : Arr 32) (k : PrivateKey) :
    (PrivateKey.fromSecretBytes b = some k ↔ k.toSecretBytes = b ∧ k.compressed = true) ∧
    ((PrivateKey.fromSecretBytes b).isSome = true ↔ 1 ≤ beNat b.1 ∧ beNat b.1 < ORDER) ∧
    (k.inner.val + k.negate.inner.val = ORDER ∧ k.negate.compressed = k.compressed ∧ k.negate.negate = k) ∧
    ((k.toLegacyPublicKey S).compressed = k.compressed ∧ (k.toLegacyPublicKey S).inner = S.pub k.inner) := by
  have hneg : ∀ x : SecretKey, x.val + x.negate.val = ORDER := by
    intro x
    have : x.negate.val = ORDER - x.val := by
      unfold SecretKey.negate SecretKey.val
      exact beNat_beBytes 32 _ (by have : ORDER < 256 ^ 32 := by decide
                                   omega)
    have h2 : x.val < ORDER := x.lt
    omega
  have hnn : ∀ x : SecretKey, x.negate.negate = x := by
    intro x
    apply SecretKey.ext_val
    have h1 := hneg x
    have h2 := hneg x.negate
    omega
  refine ⟨?_, ?_, ?_, ?_⟩
  · unfold PrivateKey.fromSecretBytes SecretKey.fromSecretBytes PrivateKey.toSecretBytes
    cases k with
    | mk c x =>
      by_cases h : 0 < beNat b.1 ∧ beNat b.1 < ORDER
      · rw [dif_pos h]
        simp only [Option.map_some, PrivateKey.fromSecp, Option.some.injEq, PrivateKey.mk.injEq]
        constructor
        · rintro ⟨rfl, rfl⟩; exact ⟨rfl, rfl⟩
        · rintro ⟨h1, h2⟩
          exact ⟨h2.symm, SecretKey.ext h1.symm⟩
      · rw [dif_neg h]
        simp only [Option.map_none, reduceCtorEq, false_iff]
        rintro ⟨rfl, -⟩
        exact h ⟨x.pos, x.lt⟩
  · unfold PrivateKey.fromSecretBytes SecretKey.fromSecretBytes
    by_cases h : 0 < beNat b.1 ∧ beNat b.1 < ORDER
    · rw [dif_pos h]; simp only [Option.map_some, Option.isSome_some, true_iff]; exact h
    · rw [dif_neg h]; simp only [Option.map_none, Option.isSome_none, Bool.false_eq_true, false_iff]; exact h
  · cases k with
    | mk c x =>
      cases c
      · exact ⟨hneg x, rfl, congrArg (PrivateKey.mk false) (hnn x)⟩
      · exact ⟨hneg x, rfl, congrArg (PrivateKey.mk true) (hnn x)⟩
  · cases k with
    | mk c x => cases c <;> exact ⟨rfl, rfl⟩

/-! ## WIF -/

/-- The version byte of a network. -/
def wifVersion : NetworkKind → UInt8
  | .main => 0x80
  | .test => 0xef

/-- The payload of a WIF string: a byte for the network, the key, and 1 for a compressed key. -/
def wifBytes (w : WifKey) : Bytes :=
  [wifVersion w.networkKind] ++ w.privateKey.inner.bytes.1 ++ (if w.privateKey.compressed then [1] else [])

theorem payload_eq (w : WifKey) : w.payload = wifBytes w := by
  unfold WifKey.payload wifBytes
  have hl := w.privateKey.inner.bytes.2
  have hb : (if w.networkKind.isMainnet then (128 : UInt8) else 239) = wifVersion w.networkKind := by
    cases w.networkKind <;> rfl
  simp only [hb]
  generalize w.privateKey.inner.bytes.1 = k at hl
  cases w.privateKey.compressed
  · simp only [Bool.false_eq_true, if_false, List.take_succ_cons, List.append_nil, List.cons_append, List.nil_append]
    rw [List.take_append_of_le_length (by omega), List.take_of_length_le (by omega)]
  · simp only [if_true, List.set_cons_succ, List.cons_append, List.nil_append]
    rw [List.set_append_right _ _ (by omega), hl]
    rfl

theorem wifBytes_length (w : WifKey) : (wifBytes w).length = if w.privateKey.compressed then 34 else 33 := by
  unfold wifBytes
  have hl := w.privateKey.inner.bytes.2
  split <;> simp [hl]

theorem finishWif_ok (c : Bool) (data : Bytes) (w : WifKey) : WifKey.finishWif c data = .ok w ↔
    w.privateKey.compressed = c ∧ data = [wifVersion w.networkKind] ++ w.privateKey.inner.bytes.1 := by
  unfold WifKey.finishWif
  cases data with
  | nil => simp
  | cons n key =>
    simp only [List.cons_append, List.nil_append, List.cons.injEq]
    by_cases hn : n = 128 ∨ n = 239
    · rw [if_pos hn]
      by_cases hk : key.length = 32
      · rw [dif_pos hk]
        unfold SecretKey.fromSecretBytes
        by_cases hv : 0 < beNat key ∧ beNat key < ORDER
        · rw [dif_pos hv]
          simp only [Except.ok.injEq]
          constructor
          · rintro rfl
            refine ⟨by cases c <;> rfl, ?_, by cases c <;> rfl⟩
            rcases hn with rfl | rfl <;> rfl
          · rintro ⟨h1, h2, h3⟩
            cases w with
            | mk pk nk =>
              cases pk with
              | mk pc px =>
                simp only at h1 h2 h3
                subst h1
                have : px = ⟨⟨key, hk⟩, hv.1, hv.2⟩ := SecretKey.ext (Subtype.ext h3.symm)
                subst this
                cases nk
                · subst h2
                  cases pc <;> rfl
                · subst h2
                  cases pc <;> rfl
        · rw [dif_neg hv]
          simp only [reduceCtorEq, false_iff]
          rintro ⟨-, -, rfl⟩
          exact hv ⟨w.privateKey.inner.pos, w.privateKey.inner.lt⟩
      · rw [dif_neg hk]
        simp only [reduceCtorEq, false_iff]
        rintro ⟨-, -, rfl⟩
        exact hk w.privateKey.inner.bytes.2
    · rw [if_neg hn]
      simp only [reduceCtorEq, false_iff]
      rintro ⟨-, h, -⟩
      apply hn
      rw [h]
      cases w.networkKind
      · exact .inl rfl
      · exact .inr rfl

/-- Exactly the base58check texts of WIF payloads parse, each to its key. -/
theorem C71_wif_parse (H : Bytes → Arr 32) (t : Bytes) (w : WifKey) :
    WifKey.fromWif H t = .ok w ↔ Text58 (wifBytes w ++ (H (wifBytes w)).val.take 4) t := by
  rw [← B58.C30_decode_check]
  unfold WifKey.fromWif
  cases hd : B58.decodeCheck H t with
  | error e => simp
  | ok data =>
    simp only [Except.ok.injEq]
    have hwl := wifBytes_length w
    by_cases h33 : data.length = 33
    · rw [if_pos h33, finishWif_ok]
      unfold wifBytes
      constructor
      · rintro ⟨h1, h2⟩
        rw [h1, h2]; simp
      · intro h
        have hc : w.privateKey.compressed = false := by
          cases hc : w.privateKey.compressed
          · rfl
          · rw [hc, if_pos rfl] at hwl
            unfold wifBytes at hwl
            rw [← h] at hwl
            omega
        rw [hc] at h
        exact ⟨hc, by simpa using h⟩
    · rw [if_neg h33]
      by_cases h34 : data.length = 34
      · rw [if_pos h34]
        have hne : data ≠ [] := by rintro rfl; cases h34
        have hdl := List.dropLast_concat_getLast hne
        have hgl : data.getLastD 0 = data.getLast hne := by
          rw [List.getLastD_eq_getLast?, List.getLast?_eq_some_getLast hne]; rfl
        by_cases hone : data.getLastD 0 ≠ 1
        · rw [if_pos hone]
          simp only [reduceCtorEq, false_iff]
          intro h
          have hc : w.privateKey.compressed = true := by
            cases hc : w.privateKey.compressed
            · rw [hc] at hwl; simp only [Bool.false_eq_true, if_false] at hwl; rw [← h] at hwl; omega
            · rfl
          apply hone
          rw [h]
          unfold wifBytes
          rw [hc, if_pos rfl, List.getLastD_eq_getLast?, List.getLast?_append]
          rfl
        · rw [if_neg hone]
          have hone' : data.getLast hne = 1 := by rw [← hgl]; exact Decidable.not_not.mp hone
          rw [hone'] at hdl
          rw [finishWif_ok]
          unfold wifBytes
          constructor
          · rintro ⟨h1, h2⟩
            rw [h1, if_pos rfl, ← h2, hdl]
          · intro h
            have hc : w.privateKey.compressed = true := by
              cases hc : w.privateKey.compressed
              · rw [hc] at hwl; simp only [Bool.false_eq_true, if_false] at hwl
                unfold wifBytes at hwl; rw [← h] at hwl; omega
              · rfl
            refine ⟨hc, ?_⟩
            rw [hc, if_pos rfl, ← hdl] at h
            exact (List.append_inj' h rfl).1
      · rw [if_neg h34]
        simp only [reduceCtorEq, false_iff]
        rintro rfl
        rw [hwl] at h33 h34
        split at h33 <;> simp_all

/-- The WIF string of a key always exists and parses back. -/
theorem C71_wif_roundtrip (H : Bytes → Arr 32) (w : WifKey) : ∃ t, w.toWif H = some t ∧ WifKey.fromWif H t = .ok w := by
  obtain ⟨t, h1, -, h3, -⟩ := B58.C30_encode H (wifBytes w)
  refine ⟨t, ?_, (C71_wif_parse H t w).mpr h1⟩
  unfold WifKey.toWif
  rw [payload_eq, h3, if_neg]
  rw [wifBytes_length]
  split <;> omega

/-- It is the only string that does. -/
theorem C71_wif_unique (H : Bytes → Arr 32) (w : WifKey) (t : Bytes) (h : WifKey.fromWif H t = .ok w) : w.toWif H = some t := by
  obtain ⟨t', h1, h2⟩ := C71_wif_roundtrip H w
  rw [C71_wif_parse] at h h2
  rw [h1, (B58.C29_unique _ _ _ _ h h2).mp rfl]

/-! ## Examples -/

def secret1 : SecretKey := ⟨⟨List.replicate 31 0 ++ [7], by decide⟩, by decide, by decide⟩
example : LegacyPublicKey.fromSlice (S := Secp.toy) (2 :: List.replicate 31 0 ++ [7]) = .ok ⟨true, secret1⟩ := by
  rw [C71_public]; rfl
example : (LegacyPublicKey.fromSlice (S := Secp.toy) (7 :: List.replicate 64 1)) = .error (.invalidKeyPrefix 7) := by
  rw [C71_prefix]; decide
example : SecretKey.fromSecretBytes ⟨beBytes 32 ORDER, by simp⟩ = none ∧ (SecretKey.fromSecretBytes ⟨beBytes 32 (ORDER - 1), by simp⟩).isSome = true := by
  decide +kernel
example : (WifKey.mk ⟨true, secret1⟩ .test).payload = 239 :: List.replicate 31 0 ++ [7, 1] := by decide

end Crypto
end Btc
