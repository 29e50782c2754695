import Verif.Bitcoin.SignMessage
import Verif.Props.C62
import Verif.Props.C67
import Verif.Props.C75
import Verif.Props.C49
/-!
# C76: signed messages
-/
namespace Btc.B64

/-! ## The text, digit by digit -/

theorem beCons (a : UInt8) (l : Bytes) : beNat (a :: l) = a.toNat * 256 ^ l.length + beNat l := by
  unfold beNat
  rw [List.reverse_cons, leNat_append, List.length_reverse, leNat, leNat]
  rw [Nat.mul_zero, Nat.add_zero, Nat.mul_comm]; omega
theorem beNil : beNat [] = 0 := rfl

theorem top (n R m e : Nat) (hR : R < 64 ^ m) : (n * 64 ^ m + R) / 64 ^ (m + e) = n / 64 ^ e := by
  rw [Nat.pow_add, ← Nat.div_div_eq_div_mul, Nat.mul_comm, Nat.mul_add_div (Nat.pos_of_ne_zero (by simp)), Nat.div_eq_of_lt hR, Nat.add_zero]
theorem low (n R m e : Nat) (he : e < m) : (n * 64 ^ m + R) / 64 ^ e % 64 = R / 64 ^ e % 64 := by
  obtain ⟨d, rfl⟩ : ∃ d, m = e + (d + 1) := ⟨m - e - 1, by omega⟩
  have : n * 64 ^ (e + (d + 1)) = 64 ^ e * (64 * (n * 64 ^ d)) := by
    rw [Nat.pow_add, Nat.pow_succ]; ac_rfl
  rw [this, Nat.mul_add_div (Nat.pos_of_ne_zero (by simp)), Nat.mul_add_mod]

/-- The text of a byte string as RFC 4648 section 4 describes it: the string, filled up with zero bytes to a multiple of three, is a number
written in base 64 with the digits A-Z, a-z, 0-9, `+`, `/`; digits that hold no bit of the string are `=`. -/
theorem C76_rfc4648 (b : Bytes) (k : Nat) (hk : k < 4 * ((b.length + 2) / 3)) :
    (encode b)[k]? = some (if 6 * k ≥ 8 * b.length then 61
      else ((Net.str "ABCDEFGHIJKLMNOPQRSTUVWXYZabcdefghijklmnopqrstuvwxyz0123456789+/").getD
        (beNat (b ++ List.replicate ((b.length + 2) / 3 * 3 - b.length) 0) / 64 ^ (4 * ((b.length + 2) / 3) - 1 - k) % 64) 0)) := by
  have hal : ∀ v, v < 64 → (Net.str "ABCDEFGHIJKLMNOPQRSTUVWXYZabcdefghijklmnopqrstuvwxyz0123456789+/").getD v 0 = chr v := by decide +kernel
  rw [hal _ (Nat.mod_lt _ (by omega))]
  induction b using encode.induct generalizing k with
  | case1 a b c r ih =>
    simp only [List.length_cons] at hk ⊢
    generalize hz : List.replicate ((r.length + 1 + 1 + 1 + 2) / 3 * 3 - (r.length + 1 + 1 + 1)) (0 : UInt8) = z
    have hz' : List.replicate ((r.length + 2) / 3 * 3 - r.length) (0 : UInt8) = z := by rw [← hz]; congr 1; omega
    rw [hz'] at ih
    have hq : (r.length + 1 + 1 + 1 + 2) / 3 = (r.length + 2) / 3 + 1 := by omega
    have hlz : (r ++ z).length = 3 * ((r.length + 2) / 3) := by rw [List.length_append, ← hz', List.length_replicate]; omega
    generalize hm : (r.length + 2) / 3 = m at *
    have h256 : 256 ^ (3 * m) = 64 ^ (4 * m) := by
      rw [Nat.pow_mul, Nat.pow_mul]
    have hR : beNat (r ++ z) < 64 ^ (4 * m) := by rw [← h256, ← hlz]; exact beNat_lt _
    have hN : beNat (a :: b :: c :: r ++ z) = (a.toNat * 65536 + b.toNat * 256 + c.toNat) * 64 ^ (4 * m) + beNat (r ++ z) := by
      rw [List.cons_append, List.cons_append, List.cons_append, beCons, beCons, beCons, List.length_cons, List.length_cons, hlz, Nat.pow_succ, Nat.pow_succ, h256]
      rw [Nat.add_mul, Nat.add_mul]; generalize 64 ^ (4 * m) = P; generalize beNat (r ++ z) = Q
      rw [Nat.mul_assoc P, show 256 * 256 = 65536 from rfl, Nat.mul_comm P, Nat.mul_comm P, ← Nat.mul_assoc, ← Nat.mul_assoc]; omega
    rw [hN, hq]
    have ha := a.toNat_lt
    have hb := b.toNat_lt
    have hc := c.toNat_lt
    unfold encode
    match k, hk with
    | 0, _ =>
      rw [if_neg (by omega), show 4 * (m + 1) - 1 - 0 = 4 * m + 3 by omega, top _ _ _ _ hR]
      simp only [List.getElem?_cons_zero]
      rw [Nat.mod_eq_of_lt (by omega)]
    | 1, _ =>
      rw [if_neg (by omega), show 4 * (m + 1) - 1 - 1 = 4 * m + 2 by omega, top _ _ _ _ hR]
      rfl
    | 2, _ =>
      rw [if_neg (by omega), show 4 * (m + 1) - 1 - 2 = 4 * m + 1 by omega, top _ _ _ _ hR]
      rfl
    | 3, _ =>
      rw [if_neg (by omega), show 4 * (m + 1) - 1 - 3 = 4 * m + 0 by omega, top _ _ _ _ hR]
      simp only [List.getElem?_cons_succ, List.getElem?_cons_zero, Nat.pow_zero, Nat.div_one]
    | k + 4, hk =>
      simp only [List.getElem?_cons_succ]
      rw [ih k (by omega), show 4 * (m + 1) - 1 - (k + 4) = 4 * m - 1 - k by omega]
      congr 1
      by_cases hge : 6 * k ≥ 8 * r.length
      · rw [if_pos hge, if_pos (by omega)]
      · rw [if_neg hge, if_neg (by omega), low _ _ _ _ (by omega)]
  | case2 a b =>
    have ha := a.toNat_lt
    have hb := b.toNat_lt
    have hN : beNat ([a, b] ++ List.replicate (([a, b].length + 2) / 3 * 3 - [a, b].length) 0) = a.toNat * 65536 + b.toNat * 256 := by
      simp [beCons, beNil]
    rw [hN]
    simp only [List.length_cons, List.length_nil] at hk ⊢
    unfold encode
    match k, hk with
    | 0, _ =>
      rw [if_neg (by omega)]; simp only [List.getElem?_cons_zero]; refine congrArg some (congrArg chr ?_); omega
    | 1, _ => rw [if_neg (by omega)]; simp only [List.getElem?_cons_succ, List.getElem?_cons_zero]; refine congrArg some (congrArg chr ?_); omega
    | 2, _ => rw [if_neg (by omega)]; simp only [List.getElem?_cons_succ, List.getElem?_cons_zero]; refine congrArg some (congrArg chr ?_); omega
    | 3, _ => rw [if_pos (by omega)]; rfl
    | k + 4, hk => exfalso; omega
  | case3 a =>
    have ha := a.toNat_lt
    have hN : beNat ([a] ++ List.replicate (([a].length + 2) / 3 * 3 - [a].length) 0) = a.toNat * 65536 := by
      simp [beCons, beNil]
    rw [hN]
    simp only [List.length_cons, List.length_nil] at hk ⊢
    unfold encode
    match k, hk with
    | 0, _ => rw [if_neg (by omega)]; simp only [List.getElem?_cons_zero]; refine congrArg some (congrArg chr ?_); omega
    | 1, _ => rw [if_neg (by omega)]; simp only [List.getElem?_cons_succ, List.getElem?_cons_zero]; refine congrArg some (congrArg chr ?_); omega
    | 2, _ => rw [if_pos (by omega)]; rfl
    | 3, _ => rw [if_pos (by omega)]; rfl
    | k + 4, hk => exfalso; omega
  | case4 => simp at hk

/-- Both of the last two digits of the alphabet, and a padded text. -/
example : encode [0xfb, 0xff] = Net.str "+/8=" := by decide +kernel
example : (encode [0xfb, 0xff])[1]? = some 47 := by
  rw [C76_rfc4648 [0xfb, 0xff] 1 (by decide)]; decide +kernel

end Btc.B64

namespace Btc
open Btc.Crypto Btc.Addr
variable {S : Secp} {R : RecSecp S}

/-! ## Bytes -/

/-- The first byte is 27 plus the recovery id, and four more for a compressed key. -/
theorem header_val (r : Fin 4) (c : Bool) : (UInt8.ofNat r.val + if c then 31 else 27).toNat = 27 + r.val + (if c then 4 else 0) := by
  revert r c; decide

theorem header_back (r : Fin 4) (c : Bool) :
    ¬ (UInt8.ofNat r.val + if c then 31 else 27) < (27 : UInt8) ∧
    Fin.ofNat 4 (((UInt8.ofNat r.val + if c then 31 else 27) - 27) &&& 3).toNat = r ∧
    decide (((UInt8.ofNat r.val + if c then 31 else 27) - 27 : UInt8) &&& 4 ≠ 0) = c := by
  revert r c; decide

/-- Serializing and parsing gives the signature back. -/
theorem C76_round_trip (s : MessageSignature R) : MessageSignature.fromByteArray s.serialize = .ok s := by
  obtain ⟨h1, h2, h3⟩ := header_back (R.compact s.signature).1 s.compressed
  unfold MessageSignature.fromByteArray MessageSignature.serialize
  simp only [if_neg h1, h2, h3]
  have : R.fromCompact ⟨(R.compact s.signature).2.1, (R.compact s.signature).2.2⟩ (R.compact s.signature).1 = some s.signature :=
    R.from_compact s.signature
  rw [this]

/-- The bytes of a signature, spelled out. -/
theorem C76_bytes (s : MessageSignature R) :
    (∃ h rest, s.serialize.1 = h :: rest ∧ rest = (R.compact s.signature).2.1 ∧
      h.toNat = 27 + (R.compact s.signature).1.val + if s.compressed then 4 else 0) ∧
    (∀ a b : MessageSignature R, a.serialize = b.serialize → a = b) := by
  refine ⟨⟨_, _, rfl, rfl, header_val _ _⟩, fun a b h => ?_⟩
  have h1 := C76_round_trip a
  rw [h, C76_round_trip b] at h1
  injection h1 with h1
  exact h1.symm

theorem header_read (b : UInt8) : (¬ b < 27 ↔ 27 ≤ b.toNat) ∧
    (27 ≤ b.toNat → Fin.ofNat 4 ((b - 27) &&& 3).toNat = ⟨(b.toNat - 27) % 4, Nat.mod_lt _ (by decide)⟩ ∧
      decide (((b - 27) &&& 4) ≠ 0) = decide ((b.toNat - 27) / 4 % 2 = 1)) := by
  have : ∀ i : Fin 256, (¬ UInt8.ofNat i.val < 27 ↔ 27 ≤ i.val) ∧
      (27 ≤ i.val → Fin.ofNat 4 ((UInt8.ofNat i.val - 27) &&& 3).toNat = ⟨(i.val - 27) % 4, Nat.mod_lt _ (by decide)⟩ ∧
        decide (((UInt8.ofNat i.val - 27) &&& 4) ≠ 0) = decide ((i.val - 27) / 4 % 2 = 1)) := by decide +kernel
  have := this ⟨b.toNat, b.toNat_lt⟩
  simpa only [UInt8.ofNat_toNat] using this

/-- Exactly which bytes are accepted, and as what: only the three low bits above 27 of the first byte count. -/
theorem C76_accept (b0 : UInt8) (rest : Arr 64) (s : MessageSignature R) :
    MessageSignature.fromByteArray ⟨b0 :: rest.1, by rw [List.length_cons, rest.2]⟩ = .ok s ↔
      27 ≤ b0.toNat ∧ R.fromCompact rest ⟨(b0.toNat - 27) % 4, Nat.mod_lt _ (by omega)⟩ = some s.signature ∧
      s.compressed = decide ((b0.toNat - 27) / 4 % 2 = 1) := by
  obtain ⟨k1, k2⟩ := header_read b0
  obtain ⟨sig, c⟩ := s
  unfold MessageSignature.fromByteArray
  simp only []
  by_cases hb : b0 < 27
  · rw [if_pos hb]
    constructor
    · intro h; cases h
    · intro h; exact absurd hb (k1.2 h.1)
  · rw [if_neg hb]
    have h27 := k1.1 hb
    obtain ⟨e1, e2⟩ := k2 h27
    rw [e1]
    have er : (⟨rest.1, rest.2⟩ : Arr 64) = rest := rfl
    rw [er]
    cases hf : R.fromCompact rest ⟨(b0.toNat - 27) % 4, Nat.mod_lt _ (by omega)⟩ with
    | none => simp
    | some sig' =>
      simp only [Except.ok.injEq, MessageSignature.mk.injEq, h27, true_and, Option.some.injEq, e2]
      exact ⟨fun ⟨a, b⟩ => ⟨a, b.symm⟩, fun ⟨a, b⟩ => ⟨a, b.symm⟩⟩

/-- So a first byte from 27 to 34 is read and written unchanged, and any larger one is taken for one of those eight: the same
signature has up to 28 other encodings. -/
theorem C76_header (b0 : UInt8) (rest : Arr 64) (s : MessageSignature R)
    (h : MessageSignature.fromByteArray ⟨b0 :: rest.1, by rw [List.length_cons, rest.2]⟩ = .ok s) :
    s.serialize.1 = UInt8.ofNat (27 + (b0.toNat - 27) % 8) :: rest.1 ∧
    (s.serialize.1 = b0 :: rest.1 ↔ b0.toNat < 35) := by
  obtain ⟨h1, h2, h3⟩ := (C76_accept b0 rest s).1 h
  have hc := R.compact_from _ _ _ h2
  have e : s.serialize.1 = UInt8.ofNat (27 + (b0.toNat - 27) % 8) :: rest.1 := by
    unfold MessageSignature.serialize
    simp only [hc, h3]
    congr 1
    apply UInt8.toNat_inj.1
    rw [header_val ⟨(b0.toNat - 27) % 4, Nat.mod_lt _ (by omega)⟩ (decide ((b0.toNat - 27) / 4 % 2 = 1))]
    rw [UInt8.toNat_ofNat']
    simp only [decide_eq_true_eq]
    split <;> omega
  refine ⟨e, ?_⟩
  rw [e]
  simp only [List.cons.injEq, and_true]
  have hlt := b0.toNat_lt
  constructor
  · intro h4
    have := congrArg UInt8.toNat h4
    rw [UInt8.toNat_ofNat'] at this
    omega
  · intro h4
    apply UInt8.toNat_inj.1
    rw [UInt8.toNat_ofNat']
    omega

/-- Slices: 65 bytes, and then as above. -/
theorem C76_slice (b : Bytes) (s : MessageSignature R) :
    (MessageSignature.fromSlice b = .ok s ↔ ∃ h : b.length = 65, MessageSignature.fromByteArray ⟨b, h⟩ = .ok s) ∧
    (b.length ≠ 65 ↔ MessageSignature.fromSlice (R := R) b = .error .invalidLength) := by
  unfold MessageSignature.fromSlice
  by_cases h : b.length = 65
  · rw [dif_pos h]
    refine ⟨⟨fun h1 => ⟨h, h1⟩, fun ⟨_, h1⟩ => h1⟩, ⟨fun h1 => absurd h h1, fun h1 => ?_⟩⟩
    unfold MessageSignature.fromByteArray at h1
    split at h1
    · cases h1
    · split at h1
      · cases h1
      · simp only [] at h1
        split at h1 <;> cases h1
  · rw [dif_neg h]
    exact ⟨⟨fun h1 => (by cases h1), fun h1 => absurd h1.1 h⟩, ⟨fun _ => rfl, fun _ => h⟩⟩

/-! ## Base64 -/

/-- The text form is 88 characters, and is read back. -/
theorem C76_base64 (s : MessageSignature R) : s.toBase64.length = 88 ∧ MessageSignature.fromBase64 s.toBase64 = .ok s := by
  have hl : s.toBase64.length = 88 := by
    unfold MessageSignature.toBase64
    rw [B64.encode_length, s.serialize.2]
  refine ⟨hl, ?_⟩
  unfold MessageSignature.fromBase64
  rw [if_neg (by rw [hl]; simp)]
  unfold MessageSignature.toBase64
  rw [B64.decode_encode]
  simp only [s.serialize.2, dif_pos]
  exact C76_round_trip s

/-- A text is accepted exactly if it is the base64 of 65 bytes that are accepted (so there is one text for each byte string). -/
theorem C76_base64_accept (t : Bytes) (s : MessageSignature R) :
    MessageSignature.fromBase64 t = .ok s ↔ ∃ b : Arr 65, t = B64.encode b.1 ∧ MessageSignature.fromByteArray b = .ok s := by
  unfold MessageSignature.fromBase64
  constructor
  · intro h
    split at h
    · cases h
    · split at h
      · cases h
      · rename_i bs hd
        split at h
        · rename_i hl
          exact ⟨⟨bs, hl⟩, (B64.encode_decode t bs hd).symm, h⟩
        · cases h
  · rintro ⟨b, rfl, h⟩
    rw [if_neg (by rw [B64.encode_length, b.2]; simp), B64.decode_encode]
    simp only [b.2, dif_pos]
    exact h

/-! ## The hash -/

/-- The bytes that are hashed: a length-prefixed magic string, then the length-prefixed message. -/
def magicBytes (msg : Bytes) : Bytes := Net.str "\x18Bitcoin Signed Message:\n" ++ csEncode msg.length ++ msg

theorem csEncode_len_le (n : Nat) : (csEncode n).length ≤ 9 := by
  unfold csEncode
  repeat (split; · simp [leBytes_length])
  simp [leBytes_length]

/-- The message hash is SHA-256 twice over the magic bytes. -/
theorem C76_hash (msg : Bytes) (h : msg.length < 2 ^ 60) : (signedMsgHash msg).1 = Fips.sha256 (Fips.sha256 (magicBytes msg)) := by
  have e : SIGNED_MSG_PREFIX = Net.str "\x18Bitcoin Signed Message:\n" := by decide +kernel
  have h1 := csEncode_len_le msg.length
  have h2 : SIGNED_MSG_PREFIX.length = 25 := rfl
  have := Sha2.C62_sha256 [SIGNED_MSG_PREFIX, csEncode msg.length, msg] (by
    simp only [List.flatten_cons, List.flatten_nil, List.append_nil, List.length_append]; omega)
  simp only [List.foldl_cons, List.foldl_nil, List.flatten_cons, List.flatten_nil, List.append_nil] at this
  unfold signedMsgHash Sha2.finish256d
  simp only [this]
  rw [Sha2.sha256_eq _ (by rw [Hashes.fips_sha256_length]; decide)]
  unfold magicBytes
  rw [← e, List.append_assoc]

/-- Two messages with the same hash are the same message, or SHA-256 collides on the strings hashed for them: the
magic bytes, or their hashes. -/
theorem C76_commits (a b : Bytes) (ha : a.length < 2 ^ 60) (hb : b.length < 2 ^ 60) (h : signedMsgHash a = signedMsgHash b) :
    a = b ∨ (magicBytes a ≠ magicBytes b ∧ Fips.sha256 (magicBytes a) = Fips.sha256 (magicBytes b)) ∨
      (Fips.sha256 (magicBytes a) ≠ Fips.sha256 (magicBytes b) ∧
        Fips.sha256 (Fips.sha256 (magicBytes a)) = Fips.sha256 (Fips.sha256 (magicBytes b))) := by
  have h1 : Fips.sha256 (Fips.sha256 (magicBytes a)) = Fips.sha256 (Fips.sha256 (magicBytes b)) := by
    rw [← C76_hash a ha, ← C76_hash b hb, h]
  by_cases h2 : Fips.sha256 (magicBytes a) = Fips.sha256 (magicBytes b)
  · by_cases h3 : magicBytes a = magicBytes b
    · unfold magicBytes at h3
      rw [List.append_assoc, List.append_assoc] at h3
      have h4 := List.append_cancel_left h3
      exact .inl (Sighash.pf_script a b [] [] (by omega) (by omega) (by simpa using h4)).1
    · exact .inr (.inl ⟨h3, h2⟩)
  · exact .inr (.inr ⟨h2, h1⟩)

/-! ## Signing and verifying -/

/-- Signing never panics, the signature survives base64, gives back the signer's public key with its compression, and verifies against
the signer's P2PKH address on either kind of network. -/
theorem C76_sign_verify (H160 : Bytes → Arr 20) (msg : Bytes) (k : PrivateKey) (n : NetworkKind) :
    ∃ s, signMessage R msg k = some s ∧ MessageSignature.fromBase64 s.toBase64 = .ok s ∧
      s.recoverPubkey (signedMsgHash msg) = .ok (k.toLegacyPublicKey S) ∧
      s.isSignedByAddress H160 (.p2pkh (Address.pubkeyHash H160 (k.toLegacyPublicKey S)) n) (signedMsgHash msg) = .ok true := by
  have e : SecretKey.fromSecretBytes k.toSecretBytes = some k.inner := by
    unfold SecretKey.fromSecretBytes PrivateKey.toSecretBytes
    rw [dif_pos ⟨k.inner.pos, k.inner.lt⟩]
  have hr : (⟨R.sign (signedMsgHash msg) k.inner, k.compressed⟩ : MessageSignature R).recoverPubkey (signedMsgHash msg) = .ok (k.toLegacyPublicKey S) := by
    unfold MessageSignature.recoverPubkey
    rw [R.recover_sign]
    unfold PrivateKey.toLegacyPublicKey LegacyPublicKey.fromSecp LegacyPublicKey.fromSecpUncompressed
    cases k.compressed <;> rfl
  refine ⟨⟨R.sign (signedMsgHash msg) k.inner, k.compressed⟩, ?_, (C76_base64 _).2, hr, ?_⟩
  · unfold signMessage; rw [e]
  · unfold MessageSignature.isSignedByAddress
    simp only [Address.addressType, hr, Address.pubkeyHashOf, decide_true]

/-- When the answer is yes: a P2PKH address whose hash is that of the recovered key, in the form the signature names. -/
theorem C76_verify_true (H160 : Bytes → Arr 20) (s : MessageSignature R) (a : Address) (m : Arr 32) :
    s.isSignedByAddress H160 a m = .ok true ↔ ∃ h n p, a = .p2pkh h n ∧ R.recover s.signature m = some p ∧
      h = H160 (if s.compressed then (S.ser p).1 else (S.serU p).1) := by
  unfold MessageSignature.isSignedByAddress
  cases a with
  | p2pkh h n =>
    simp only [Address.addressType, MessageSignature.recoverPubkey]
    cases hr : R.recover s.signature m with
    | none => simp
    | some p =>
      simp only [Address.pubkeyHashOf, Except.ok.injEq, decide_eq_true_eq, Option.some.injEq, Address.pubkeyHash, LegacyPublicKey.serialize]
      constructor
      · rintro e
        refine ⟨h, n, p, rfl, rfl, ?_⟩
        rw [e]
        cases s.compressed <;> rfl
      · rintro ⟨h', n', p', e1, rfl, e3⟩
        cases e1
        rw [e3]
        cases s.compressed <;> rfl
  | p2sh h n => simp [Address.addressType]
  | segwit p hrp =>
    have : Address.addressType (.segwit p hrp) ≠ some .p2pkh := by
      unfold Address.addressType
      simp only [ne_eq]
      split; · simp
      split; · simp
      split; · simp
      split <;> simp
    cases ht : Address.addressType (.segwit p hrp) with
    | none => simp
    | some t => cases t <;> simp_all

/-- The other answers: an unsupported kind of address is an error naming that kind, an address of no kind is a plain no, and for P2PKH the
only error is that no key can be recovered. -/
theorem C76_verify_other (H160 : Bytes → Arr 20) (s : MessageSignature R) (a : Address) (m : Arr 32) :
    (∀ t, a.addressType = some t → t ≠ .p2pkh → s.isSignedByAddress H160 a m = .error (.unsupportedAddressType t)) ∧
    (a.addressType = none → s.isSignedByAddress H160 a m = .ok false) ∧
    (a.addressType = some .p2pkh → (s.isSignedByAddress H160 a m = .error .invalidEncoding ↔ R.recover s.signature m = none) ∧
      (∀ e, s.isSignedByAddress H160 a m = .error e → e = .invalidEncoding)) := by
  unfold MessageSignature.isSignedByAddress
  refine ⟨fun t ht hne => ?_, fun h => by rw [h], fun h => ?_⟩
  · rw [ht]; cases t <;> simp_all
  · rw [h]
    unfold MessageSignature.recoverPubkey
    cases R.recover s.signature m <;> simp

/-! ## Examples -/

example : B64.encode (Net.str "foobar") = Net.str "Zm9vYmFy" ∧ B64.encode (Net.str "fooba") = Net.str "Zm9vYmE=" ∧
    B64.encode (Net.str "foob") = Net.str "Zm9vYg==" := by decide +kernel
/-- Unused bits, padding in the middle, missing padding. -/
example : B64.decode (Net.str "Zm9vYh==") = none ∧ B64.decode (Net.str "Zm==Zm9v") = none ∧ B64.decode (Net.str "Zm9vYg") = none := by decide +kernel

/-- The vector of the test in the file (displayed backwards). -/
example : (signedMsgHash (Net.str "test")).1.reverse = (unhex (Net.str "a6f87fe6d58a032c320ff8d1541656f0282c2c7bfcc69d61af4c8e8ed528e49c")).getD [] := by
  decide +kernel

/-- A signature of the toy scheme with header 32 (compressed, recovery id 1), and the same read from header 40. -/
def toyKey : SecretKey := ⟨⟨List.replicate 31 0 ++ [7], rfl⟩, by decide, by decide⟩
def toySig : MessageSignature RecSecp.toy := ⟨RecSecp.toy.sign ⟨List.replicate 32 9, rfl⟩ toyKey, true⟩
example : toySig.serialize.1 = 32 :: (List.replicate 31 0 ++ [7] ++ List.replicate 32 9) := by decide
example : MessageSignature.fromByteArray (R := RecSecp.toy) ⟨40 :: (List.replicate 31 0 ++ [7] ++ List.replicate 32 9), rfl⟩ = .ok toySig :=
  (C76_accept 40 ⟨List.replicate 31 0 ++ [7] ++ List.replicate 32 9, rfl⟩ toySig).2 ⟨by decide, by with_unfolding_all rfl, by decide⟩
example : toySig.isSignedByAddress (fun b => ⟨(b ++ List.replicate 20 0).take 20, by simp⟩) (.p2sh ⟨List.replicate 20 0, rfl⟩ .main) ⟨List.replicate 32 9, rfl⟩
    = .error (.unsupportedAddressType .p2sh) := by rfl

end Btc
