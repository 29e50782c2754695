import Verif.Props.C68
/-!
# C69: ChaCha20-Poly1305 is the AEAD of RFC 8439
-/
namespace Btc
namespace ChaCha

/-! ## RFC 8439, 2.6 and 2.8 -/
namespace Rfc

/-- `pad16`: zeroes up to a multiple of 16. -/
def pad16 (x : Bytes) : Bytes := if x.length % 16 = 0 then [] else List.replicate (16 - x.length % 16) 0

/-- 2.6: the one-time key, half of block 0. -/
def oneTimeKey (key : Arr 32) (nonce : Arr 12) : Arr 32 := ⟨(block key 0 nonce).take 32, by rw [List.length_take, block_length]; rfl⟩

/-- 2.8: what is authenticated. -/
def macData (aad ciphertext : Bytes) : Bytes :=
  aad ++ pad16 aad ++ ciphertext ++ pad16 ciphertext ++ leBytes 8 aad.length ++ leBytes 8 ciphertext.length

/-- 2.8: the tag. -/
def aeadTag (key : Arr 32) (nonce : Arr 12) (aad ciphertext : Bytes) : Bytes := poly1305 (oneTimeKey key nonce) (macData aad ciphertext)

/-- 2.8: encryption, from block 1 on. -/
def aeadEncrypt (key : Arr 32) (nonce : Arr 12) (aad plaintext : Bytes) : Bytes × Bytes :=
  (crypt key nonce 64 plaintext, aeadTag key nonce aad (crypt key nonce 64 plaintext))

end Rfc

/-! ## The tag -/

theorem pad_holds {r : L5} (hr : Rb r) {s : Nat × Nat × Nat × Nat} {p : Poly} {m : Bytes} (h : Holds r s p m) (x : Bytes) :
    ∃ q, p.pad x.length = some q ∧ Holds r s q (m ++ Rfc.pad16 x) := by
  unfold Poly.pad Rfc.pad16
  by_cases hz : x.length % 16 = 0
  · rw [if_neg (by omega), if_pos hz, List.append_nil]
    exact ⟨p, rfl, h⟩
  · rw [if_pos (by omega), if_neg hz]
    exact input_holds hr h _

theorem macOf_eq (k : Arr 32) (aad content : Bytes) : macOf k aad content = some (Rfc.poly1305 k (Rfc.macData aad content)) := by
  obtain ⟨hr, -, -, h0⟩ := new_holds k
  obtain ⟨p1, e1, h1⟩ := input_holds hr h0 aad
  obtain ⟨p2, e2, h2⟩ := pad_holds hr h1 aad
  obtain ⟨p3, e3, h3⟩ := input_holds hr h2 content
  obtain ⟨p4, e4, h4⟩ := pad_holds hr h3 content
  obtain ⟨p5, e5, h5⟩ := input_holds hr h4 (encodeLengths aad.length content.length)
  have ht := tag_holds h5
  unfold macOf
  rw [e1]
  simp only [Option.bind_eq_bind, Option.bind_some]
  rw [e2]
  simp only [Option.bind_some]
  rw [e3]
  simp only [Option.bind_some]
  rw [e4]
  simp only [Option.bind_some]
  rw [e5]
  simp only [Option.bind_some]
  rw [ht]
  unfold Rfc.macData encodeLengths
  simp only [List.nil_append, List.append_assoc]

theorem polyKey_eq (key : Arr 32) (nonce : Arr 12) (c : ChaCha20) (hk : c.key = key) (hn : c.nonce = nonce) :
    polyKey (c.getKeystream 0) = some (Rfc.oneTimeKey key nonce) := by
  have e : c.getKeystream 0 = Rfc.block key 0 nonce := by rw [C59_block, hk, hn]; rfl
  unfold polyKey Rfc.oneTimeKey
  rw [e, dif_pos (by rw [List.length_take, block_length]; rfl)]

theorem foldl_or (l : List (UInt8 × UInt8)) : ∀ r : UInt8, (l.foldl (fun res xy => res ||| (xy.1 ^^^ xy.2)) r = 0 ↔ r = 0 ∧ ∀ p ∈ l, p.1 = p.2) := by
  have orz : ∀ a b : UInt8, a ||| b = 0 ↔ a = 0 ∧ b = 0 := by
    intro a b
    constructor
    · intro h
      have h1 := congrArg UInt8.toBitVec h
      simp only [UInt8.toBitVec_or, UInt8.toBitVec_ofNat] at h1
      have hb : ∀ i, (a.toBitVec.getLsbD i || b.toBitVec.getLsbD i) = false := by
        intro i
        rw [← BitVec.getLsbD_or, h1]
        simp
      constructor <;> apply UInt8.toBitVec_inj.mp <;> apply BitVec.eq_of_getLsbD_eq <;> intro i hi <;> have := hb i <;> simp_all
    · rintro ⟨rfl, rfl⟩; rfl
  have xorz : ∀ a b : UInt8, a ^^^ b = 0 ↔ a = b := fun a b => UInt8.xor_eq_zero_iff
  induction l with
  | nil => intro r; simp
  | cons p l ih =>
    intro r
    simp only [List.foldl_cons]
    rw [ih, orz, xorz]
    simp only [List.mem_cons, forall_eq_or_imp, and_assoc]

theorem zip_eq : ∀ (a b : Bytes), a.length = b.length → ((∀ p ∈ a.zip b, p.1 = p.2) ↔ a = b)
  | [], [], _ => by simp
  | x :: a, y :: b, h => by
    simp only [List.length_cons, Nat.add_right_cancel_iff] at h
    simp only [List.zip_cons_cons, List.mem_cons, forall_eq_or_imp, List.cons.injEq, zip_eq a b h]

theorem constantTimeEq_eq (a b : Bytes) (h : a.length = b.length) : constantTimeEq a b = decide (a = b) := by
  unfold constantTimeEq
  congr 1
  rw [foldl_or, zip_eq a b h]
  simp

/-! ## Theorems -/

/-- Encryption is the RFC's; it panics exactly when the content reaches the end of the key stream. -/
theorem C69_encrypt (key : Arr 32) (nonce : Arr 12) (content : Bytes) (aad : Option Bytes) :
    encrypt key nonce content aad = if content.length < 2 ^ 38 - 64 then some (Rfc.aeadEncrypt key nonce (aad.getD []) content) else none := by
  unfold encrypt
  rw [C59_apply _ _ (by simp [ChaCha20.newFromBlock])]
  have hp : (ChaCha20.newFromBlock key nonce 1).pos = 64 := rfl
  rw [hp]
  by_cases h : content.length < 2 ^ 38 - 64
  · rw [if_pos (by omega), if_pos h]
    simp only
    rw [polyKey_eq key nonce _ rfl rfl]
    simp only [Option.bind_some]
    rw [macOf_eq]
    rfl
  · rw [if_neg (by omega), if_neg h]

/-- Decryption succeeds exactly for the RFC's tag, and then gives the RFC's plaintext. -/
theorem C69_decrypt (key : Arr 32) (nonce : Arr 12) (content : Bytes) (tag : Arr 16) (aad : Option Bytes) (h : content.length < 2 ^ 38 - 64) :
    decrypt key nonce content tag aad =
      some (if Rfc.aeadTag key nonce (aad.getD []) content = tag.1 then .ok (Rfc.crypt key nonce 64 content) else .error ()) := by
  unfold decrypt
  rw [polyKey_eq key nonce _ rfl rfl]
  simp only [Option.bind_some]
  rw [macOf_eq]
  simp only [Option.bind_some]
  rw [constantTimeEq_eq _ _ (by rw [poly1305_length, tag.2])]
  by_cases ht : Rfc.aeadTag key nonce (aad.getD []) content = tag.1
  · rw [if_pos ht]
    unfold Rfc.aeadTag at ht
    rw [if_pos (decide_eq_true ht), C59_apply _ _ (by simp [ChaCha20.newFromBlock])]
    have hp : (ChaCha20.newFromBlock key nonce 1).pos = 64 := rfl
    rw [hp, if_pos (by omega)]
    rfl
  · rw [if_neg ht]
    unfold Rfc.aeadTag at ht
    rw [if_neg (by simpa using ht)]

/-- Decryption undoes encryption. -/
theorem C69_round_trip (key : Arr 32) (nonce : Arr 12) (content ciphertext : Bytes) (tag : Arr 16) (aad : Option Bytes)
    (h : encrypt key nonce content aad = some (ciphertext, tag.1)) : decrypt key nonce ciphertext tag aad = some (.ok content) := by
  rw [C69_encrypt] at h
  by_cases hl : content.length < 2 ^ 38 - 64
  · rw [if_pos hl] at h
    simp only [Rfc.aeadEncrypt, Option.some.injEq, Prod.mk.injEq] at h
    obtain ⟨h1, h2⟩ := h
    subst h1
    rw [C69_decrypt _ _ _ _ _ (by rw [crypt_length]; exact hl), if_pos h2, crypt_crypt]
  · rw [if_neg hl] at h
    cases h

theorem pad16_mod (x : Bytes) : (x ++ Rfc.pad16 x).length % 16 = 0 := by
  unfold Rfc.pad16
  split
  · simpa
  · simp; omega

/-- What is authenticated determines the additional data and the ciphertext. -/
theorem macData_inj (a a' c c' : Bytes) (ha : a.length < 2 ^ 64) (ha' : a'.length < 2 ^ 64) (hc : c.length < 2 ^ 64) (hc' : c'.length < 2 ^ 64)
    (h : Rfc.macData a c = Rfc.macData a' c') : a = a' ∧ c = c' := by
  unfold Rfc.macData at h
  obtain ⟨h, e1⟩ := List.append_inj' h (by simp)
  obtain ⟨h, e2⟩ := List.append_inj' h (by simp)
  have l1 : c.length = c'.length := by
    have := congrArg leNat e1
    rwa [leNat_leBytes 8 _ hc, leNat_leBytes 8 _ hc'] at this
  have l2 : a.length = a'.length := by
    have := congrArg leNat e2
    rwa [leNat_leBytes 8 _ ha, leNat_leBytes 8 _ ha'] at this
  have p1 : (Rfc.pad16 c).length = (Rfc.pad16 c').length := by unfold Rfc.pad16; rw [l1]
  have p2 : (Rfc.pad16 a).length = (Rfc.pad16 a').length := by unfold Rfc.pad16; rw [l2]
  obtain ⟨h, -⟩ := List.append_inj' h p1
  obtain ⟨h, e3⟩ := List.append_inj' h l1
  obtain ⟨h, -⟩ := List.append_inj' h p2
  exact ⟨h, e3⟩

/-- A tag given by encryption is accepted for other data only if Poly1305, under the key of this nonce, gives one tag to
the two different strings authenticated. -/
theorem C69_tamper (key : Arr 32) (nonce : Arr 12) (content ciphertext other out : Bytes) (tag : Arr 16) (aad aad' : Option Bytes)
    (ha : (aad.getD []).length < 2 ^ 64) (ha' : (aad'.getD []).length < 2 ^ 64) (hl : other.length < 2 ^ 38 - 64)
    (h : encrypt key nonce content aad = some (ciphertext, tag.1)) (h' : decrypt key nonce other tag aad' = some (.ok out)) :
    (aad.getD [] = aad'.getD [] ∧ ciphertext = other ∧ content = out) ∨
    (Rfc.macData (aad.getD []) ciphertext ≠ Rfc.macData (aad'.getD []) other ∧
      Rfc.poly1305 (Rfc.oneTimeKey key nonce) (Rfc.macData (aad.getD []) ciphertext) =
        Rfc.poly1305 (Rfc.oneTimeKey key nonce) (Rfc.macData (aad'.getD []) other)) := by
  have hrt := C69_round_trip key nonce content ciphertext tag aad h
  rw [C69_encrypt] at h
  by_cases hlc : content.length < 2 ^ 38 - 64
  · rw [if_pos hlc] at h
    simp only [Rfc.aeadEncrypt, Option.some.injEq, Prod.mk.injEq] at h
    obtain ⟨h1, h2⟩ := h
    rw [h1] at h2
    have hcl : ciphertext.length = content.length := by rw [← h1, crypt_length]
    rw [C69_decrypt _ _ _ _ _ hl] at h'
    by_cases ht : Rfc.aeadTag key nonce (aad'.getD []) other = tag.1
    · by_cases hm : Rfc.macData (aad.getD []) ciphertext = Rfc.macData (aad'.getD []) other
      · obtain ⟨e1, e2⟩ := macData_inj _ _ _ _ ha ha' (by omega) (by omega) hm
        refine .inl ⟨e1, e2, ?_⟩
        rw [C69_decrypt _ _ _ _ _ (by omega), if_pos h2] at hrt
        rw [if_pos ht] at h'
        simp only [Option.some.injEq, Except.ok.injEq] at h' hrt
        rw [← h', ← hrt, e2]
      · exact .inr ⟨hm, h2.trans ht.symm⟩
    · rw [if_neg ht] at h'
      cases h'
  · rw [if_neg hlc] at h
    cases h

/-! ## Examples -/

/-- RFC 8439, A.5-like: a short text with additional data, there and back, and a tag with one bit flipped. -/
def nonce1 : Arr 12 := ⟨[7, 0, 0, 0, 0x40, 0x41, 0x42, 0x43, 0x44, 0x45, 0x46, 0x47], by decide⟩
def key2 : Arr 32 := ⟨(List.range 32).map fun i => UInt8.ofNat (0x80 + i), by decide⟩
/-- RFC 8439, 2.8.2. -/
def sunscreen : Bytes := "Ladies and Gentlemen of the class of '99: If I could offer you only one tip for the future, sunscreen would be it.".toUTF8.toList
def aad1 : Bytes := [0x50, 0x51, 0x52, 0x53, 0xc0, 0xc1, 0xc2, 0xc3, 0xc4, 0xc5, 0xc6, 0xc7]
def tag1 : Arr 16 := ⟨[0x1a, 0xe1, 0x0b, 0x59, 0x4f, 0x09, 0xe2, 0x6a, 0x7e, 0x90, 0x2e, 0xcb, 0xd0, 0x60, 0x06, 0x91], by decide⟩
example : (encrypt key2 nonce1 sunscreen (some aad1)).map (fun r => (r.1.take 8, r.2)) = some ([0xd3, 0x1a, 0x8d, 0x34, 0x64, 0x8e, 0x60, 0xdb], tag1.1) := by
  decide +kernel
example : ∃ c, encrypt key2 nonce1 sunscreen (some aad1) = some (c, tag1.1) ∧ decrypt key2 nonce1 c tag1 (some aad1) = some (.ok sunscreen) := by
  have h : (encrypt key2 nonce1 sunscreen (some aad1)).map Prod.snd = some tag1.1 := by decide +kernel
  cases he : encrypt key2 nonce1 sunscreen (some aad1) with
  | none => rw [he] at h; cases h
  | some r =>
    rw [he] at h
    simp only [Option.map_some, Option.some.injEq] at h
    refine ⟨r.1, by rw [← h], C69_round_trip _ _ _ _ _ _ (by rw [he, ← h])⟩
/-- Without the additional data the tag is refused. -/
example : ((encrypt key2 nonce1 sunscreen (some aad1)).bind fun r => decrypt key2 nonce1 r.1 tag1 none).map Except.toOption = some none := by
  decide +kernel

end ChaCha
end Btc
