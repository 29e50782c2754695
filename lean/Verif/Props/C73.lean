import Verif.Props.C72
import Verif.Props.C49
import Verif.Props.C65
/-!
# C73: BIP-32 derivation
-/
namespace Btc
namespace Bip32

open Crypto Hashes

/-! ## The BIP -/

/-- HMAC-SHA512 with the chain code as key; the data are the public key and the index, or for hardened children a zero byte, the private key and the index. -/
def privI (S : Secp) (k : Xpriv) (i : ChildNumber) : Bytes :=
  hmac Fips.sha512 128 k.chainCode.1
    (if i.toRaw.toNat < 2 ^ 31 then (S.ser (S.pub k.privateKey)).1 ++ beBytes 4 i.toRaw.toNat
     else 0 :: beBytes 32 k.privateKey.val ++ beBytes 4 i.toRaw.toNat)
def pubI {S : Secp} (k : Xpub S) (i : ChildNumber) : Bytes :=
  hmac Fips.sha512 128 k.chainCode.1 ((S.ser k.publicKey).1 ++ beBytes 4 i.toRaw.toNat)

/-- The left half, as a number, and the right half. -/
def il (I : Bytes) : Nat := beNat (I.take 32)
def ir (I : Bytes) : Bytes := I.drop 32

/-- The first four bytes of the RIPEMD-160 of the SHA-256 of the public key. -/
def fingerprintSpec {S : Secp} (p : S.Point) : Bytes := (RipemdSpec.ripemd160 (Fips.sha256 (S.ser p).1)).take 4

/-! ## The engines -/

theorem hmac_length (key msg : Bytes) : (hmac Fips.sha512 128 key msg).length = 64 := by unfold hmac; exact fips_sha512_length _

theorem ripemd160_length (b : Bytes) : (RipemdSpec.ripemd160 b).length = 20 := by
  unfold RipemdSpec.ripemd160 Sha1.S5.toList; simp

theorem fingerprint_eq {S : Secp} (k : Xpub S) : k.fingerprintBytes = fingerprintSpec k.publicKey := by
  unfold Xpub.fingerprintBytes hash160 hash160Of fingerprintSpec
  rw [Sha2.sha256_eq _ (by rw [(S.ser k.publicKey).2]; decide)]
  have := Ripemd.C65_ripemd160 [Fips.sha256 (S.ser k.publicKey).1] (by simp [fips_sha256_length])
  simp only [List.foldl_cons, List.foldl_nil, List.flatten_cons, List.flatten_nil, List.append_nil] at this
  rw [this]

theorem fingerprint_length {S : Secp} (p : S.Point) : (fingerprintSpec p).length = 4 := by
  unfold fingerprintSpec; rw [List.length_take, ripemd160_length]; rfl

attribute [local irreducible] hmac Fips.sha512 HmacEng.finish HmacEng.new HmacEng.input RipemdSpec.ripemd160 Fips.sha256 hash160 hash160Of

theorem splitHmac_eq (b : Bytes) (h : b.length = 64) :
    ∃ l r, splitHmac b = some (l, r) ∧ beNat l.1 = il b ∧ r.1 = ir b := by
  unfold splitHmac
  rw [dif_pos h]
  exact ⟨_, _, rfl, rfl, rfl⟩

theorem fromSecret_eq (l : Arr 32) : (0 < beNat l.1 ∧ beNat l.1 < ORDER → ∃ k, SecretKey.fromSecretBytes l = some k ∧ k.val = beNat l.1) ∧
    (¬ (0 < beNat l.1 ∧ beNat l.1 < ORDER) → SecretKey.fromSecretBytes l = none) := by
  unfold SecretKey.fromSecretBytes
  constructor
  · intro h; rw [dif_pos h]; exact ⟨_, rfl, rfl⟩
  · intro h; rw [dif_neg h]

theorem addTweak_eq (k : SecretKey) (t : Nat) : ((k.val + t) % ORDER = 0 → k.addTweak t = none) ∧
    ((k.val + t) % ORDER ≠ 0 → ∃ k', k.addTweak t = some k' ∧ k'.val = (k.val + t) % ORDER) := by
  unfold SecretKey.addTweak
  have hlt : (k.val + t) % ORDER < ORDER := Nat.mod_lt _ (by decide)
  have h2 : ORDER < 2 ^ 256 := by decide
  have hb : (k.val + t) % ORDER < 2 ^ 256 := by omega
  constructor
  · intro h
    cases ho : SecretKey.ofVal ((k.val + t) % ORDER) with
    | none => rfl
    | some k' => have := ((SecretKey.ofVal_eq _ hb k').mp ho).1; omega
  · intro h
    cases ho : SecretKey.ofVal ((k.val + t) % ORDER) with
    | some k' => exact ⟨k', rfl, ((SecretKey.ofVal_eq _ hb k').mp ho).2.2⟩
    | none =>
      exfalso
      unfold SecretKey.ofVal SecretKey.fromSecretBytes at ho
      have e : beNat (beBytes 32 ((k.val + t) % ORDER)) = (k.val + t) % ORDER := beNat_beBytes 32 _ (by
        have : (256 : Nat) ^ 32 = 2 ^ 256 := by decide
        omega)
      simp only [e] at ho
      rw [dif_pos ⟨by omega, hlt⟩] at ho
      cases ho

theorem addTweak_comm (a b : SecretKey) : a.addTweak b.val = b.addTweak a.val := by
  unfold SecretKey.addTweak; rw [Nat.add_comm]

attribute [local irreducible] ORDER

def pubAfter {S : Secp} (k : Xpub S) (i : ChildNumber) (I : Bytes) : Option (Except DeriveErr (Xpub S)) :=
  match splitHmac I with
  | none => none
  | some (l, r) =>
    match SecretKey.fromSecretBytes l with
    | none => none
    | some sk =>
      match S.addExp k.publicKey sk.val with
      | none => none
      | some tweaked =>
        if k.depth.toNat + 1 < 256 then
          match arr4 k.fingerprintBytes with
          | none => none
          | some fp => some (.ok ⟨k.network, k.depth + 1, fp, i, tweaked, r⟩)
        else some (.error .maximumDepthExceeded)

theorem isNormal_iff (i : ChildNumber) : i.isNormal = true ↔ i.toRaw.toNat < 2 ^ 31 := by
  unfold ChildNumber.isNormal
  have := isHardened_iff i
  cases h : i.isHardened <;> simp only [h] at this <;> simp only [Bool.not_false, Bool.not_true, Bool.false_eq_true, false_iff, true_iff] at *
  · show i.raw.toNat < _; omega
  · show ¬ i.raw.toNat < _; omega

theorem deriveChild_eq (S : Secp) (k : Xpriv) (i : ChildNumber) : k.deriveChild S i = k.childFrom S i (privI S k i) := by
  unfold Xpriv.deriveChild privI
  have hk : k.chainCode.1.length < 2 ^ 61 := by rw [k.chainCode.2]; decide
  by_cases hn : i.isNormal = true
  · obtain ⟨e, h1, h2⟩ := C49_hmac_sha512 k.chainCode.1 hk [(S.ser (S.pub k.privateKey)).1, beBytes 4 i.toRaw.toNat] (by
      simp only [List.flatten_cons, List.flatten_nil, List.append_nil, List.length_append, beBytes_length, (S.ser (S.pub k.privateKey)).2]; decide)
    simp only [h1]
    rw [if_pos ((isNormal_iff i).mp hn), if_pos hn]
    simp only [List.foldl_cons, List.foldl_nil, List.flatten_cons, List.flatten_nil, List.append_nil] at h2
    rw [h2]
  · obtain ⟨e, h1, h2⟩ := C49_hmac_sha512 k.chainCode.1 hk [[0], k.privateKey.bytes.1, beBytes 4 i.toRaw.toNat] (by
      simp only [List.flatten_cons, List.flatten_nil, List.append_nil, List.length_append, beBytes_length, k.privateKey.bytes.2, List.length_cons, List.length_nil]; decide)
    simp only [h1]
    rw [if_neg (fun h => hn ((isNormal_iff i).mpr h)), if_neg hn]
    simp only [List.foldl_cons, List.foldl_nil, List.flatten_cons, List.flatten_nil, List.append_nil] at h2
    rw [h2]
    have : beBytes 32 k.privateKey.val = k.privateKey.bytes.1 := beBytes_beNat 32 _ k.privateKey.bytes.2
    rw [this]
    rfl

theorem pubDeriveChild_eq {S : Secp} (k : Xpub S) (i : ChildNumber) (hi : i.toRaw.toNat < 2 ^ 31) : k.deriveChild i = pubAfter k i (pubI k i) := by
  unfold Xpub.deriveChild Xpub.deriveChildTweak pubI pubAfter
  have hk : k.chainCode.1.length < 2 ^ 61 := by rw [k.chainCode.2]; decide
  have hnh : i.isHardened = false := by
    cases h : i.isHardened
    · rfl
    · have := (isHardened_iff i).mp h
      have h2 : i.toRaw.toNat = i.raw.toNat := rfl
      omega
  obtain ⟨e, h1, h2⟩ := C49_hmac_sha512 k.chainCode.1 hk [(S.ser k.publicKey).1, beBytes 4 i.toRaw.toNat] (by
      simp only [List.flatten_cons, List.flatten_nil, List.append_nil, List.length_append, beBytes_length, (S.ser k.publicKey).2]; decide)
  have hidx : i.index.toNat = i.toRaw.toNat := by
    rw [index_toNat]; exact Nat.mod_eq_of_lt hi
  simp only [hnh, Bool.false_eq_true, if_false, h1, hidx]
  simp only [List.foldl_cons, List.foldl_nil, List.flatten_cons, List.flatten_nil, List.append_nil] at h2
  rw [h2]
  obtain ⟨l, r, hs, -, -⟩ := splitHmac_eq (hmac Fips.sha512 128 k.chainCode.1 ((S.ser k.publicKey).1 ++ beBytes 4 i.toRaw.toNat)) (hmac_length _ _)
  simp only [hs]
  cases SecretKey.fromSecretBytes l <;> rfl

theorem arr4_eq (b : Bytes) (h : b.length = 4) : ∃ fp : Arr 4, arr4 b = some fp ∧ fp.1 = b := by
  unfold arr4; rw [dif_pos h]; exact ⟨_, rfl, rfl⟩

/-! ## Derivation of one child -/

theorem childFrom_eq (S : Secp) (k : Xpriv) (i : ChildNumber) (I : Bytes) (h64 : I.length = 64) :
    (il I = 0 ∨ ORDER ≤ il I ∨ (il I + k.privateKey.val) % ORDER = 0 → k.childFrom S i I = none) ∧
    (0 < il I → il I < ORDER → (il I + k.privateKey.val) % ORDER ≠ 0 →
      (k.depth.toNat = 255 → k.childFrom S i I = some (.error .maximumDepthExceeded)) ∧
      (k.depth.toNat < 255 → ∃ c, k.childFrom S i I = some (.ok c) ∧ c.privateKey.val = (il I + k.privateKey.val) % ORDER ∧ c.chainCode.1 = ir I ∧
        c.depth.toNat = k.depth.toNat + 1 ∧ c.childNumber = i ∧ c.network = k.network ∧ c.parentFingerprint.1 = fingerprintSpec (S.pub k.privateKey))) := by
  obtain ⟨l, r, hs, hl, hr⟩ := splitHmac_eq I h64
  have hf := fromSecret_eq l
  unfold Xpriv.childFrom
  simp only [hs]
  constructor
  · intro h
    by_cases hv : 0 < beNat l.1 ∧ beNat l.1 < ORDER
    · obtain ⟨sk, h1, h2⟩ := hf.1 hv
      have h3 := (addTweak_eq sk k.privateKey.val).1 (by
        rw [h2, hl]
        rw [hl] at hv
        rcases h with h | h | h
        · omega
        · omega
        · exact h)
      simp only [h1, h3]
    · simp only [hf.2 hv]
  · intro h1 h2 h3
    obtain ⟨sk, h4, h5⟩ := hf.1 (by rw [hl]; exact ⟨h1, h2⟩)
    obtain ⟨t, h6, h7⟩ := (addTweak_eq sk k.privateKey.val).2 (by rw [h5, hl]; exact h3)
    simp only [h4, h6]
    constructor
    · intro hd; rw [if_neg (by omega)]
    · intro hd
      rw [if_pos (by omega)]
      obtain ⟨fp, h8, h9⟩ := arr4_eq (Xpub.fromXpriv S k).fingerprintBytes (by rw [fingerprint_eq (Xpub.fromXpriv S k)]; exact fingerprint_length _)
      simp only [h8]
      refine ⟨_, rfl, by rw [h7, h5, hl], hr, ?_, rfl, rfl, ?_⟩
      · show (k.depth + 1).toNat = _
        rw [UInt8.toNat_add]; exact Nat.mod_eq_of_lt (by show k.depth.toNat + 1 < 256; omega)
      · show fp.1 = _
        rw [h9, fingerprint_eq]; rfl

/-- CKDpriv.  A left half that is zero or not below the order, or a sum of zero, panics; otherwise the child is that of the BIP, unless
the key is already 255 levels deep. -/
theorem C73_ckd_priv (S : Secp) (k : Xpriv) (i : ChildNumber) :
    let I := privI S k i
    let child := (il I + k.privateKey.val) % ORDER
    (il I = 0 ∨ ORDER ≤ il I ∨ child = 0 → k.deriveChild S i = none) ∧
    (0 < il I → il I < ORDER → child ≠ 0 →
      (k.depth.toNat = 255 → k.deriveChild S i = some (.error .maximumDepthExceeded)) ∧
      (k.depth.toNat < 255 → ∃ c, k.deriveChild S i = some (.ok c) ∧ c.privateKey.val = child ∧ c.chainCode.1 = ir I ∧
        c.depth.toNat = k.depth.toNat + 1 ∧ c.childNumber = i ∧ c.network = k.network ∧ c.parentFingerprint.1 = fingerprintSpec (S.pub k.privateKey))) := by
  rw [deriveChild_eq]
  exact childFrom_eq S k i (privI S k i) (hmac_length _ _)

/-- CKDpub. -/
theorem C73_ckd_pub {S : Secp} (k : Xpub S) (i : ChildNumber) :
    (2 ^ 31 ≤ i.toRaw.toNat → k.deriveChild i = some (.error .cannotDeriveHardenedChild)) ∧
    (i.toRaw.toNat < 2 ^ 31 →
      let I := pubI k i
      (il I = 0 ∨ ORDER ≤ il I → k.deriveChild i = none) ∧
      (0 < il I → il I < ORDER → 
        (S.addExp k.publicKey (il I) = none → k.deriveChild i = none) ∧
        (∀ p, S.addExp k.publicKey (il I) = some p →
          (k.depth.toNat = 255 → k.deriveChild i = some (.error .maximumDepthExceeded)) ∧
          (k.depth.toNat < 255 → ∃ c, k.deriveChild i = some (.ok c) ∧ c.publicKey = p ∧ c.chainCode.1 = ir I ∧
            c.depth.toNat = k.depth.toNat + 1 ∧ c.childNumber = i ∧ c.network = k.network ∧ c.parentFingerprint.1 = fingerprintSpec k.publicKey)))) := by
  constructor
  · intro h
    unfold Xpub.deriveChild Xpub.deriveChildTweak
    rw [if_pos ((isHardened_iff i).mpr h)]
  · intro hi
    rw [pubDeriveChild_eq k i hi]
    have h64 : (pubI k i).length = 64 := hmac_length _ _
    generalize pubI k i = I at h64
    obtain ⟨l, r, hs, hl, hr⟩ := splitHmac_eq I h64
    have hf := fromSecret_eq l
    unfold pubAfter
    simp only [hs]
    constructor
    · intro h
      rw [hf.2 (by rw [hl]; omega)]
    · intro h1 h2
      obtain ⟨sk, h4, h5⟩ := hf.1 (by rw [hl]; exact ⟨h1, h2⟩)
      simp only [h4, h5, hl]
      constructor
      · intro hn; simp only [hn]
      · intro p hp
        simp only [hp]
        constructor
        · intro hd; rw [if_neg (by omega)]
        · intro hd
          rw [if_pos (by omega)]
          obtain ⟨fp, h8, h9⟩ := arr4_eq k.fingerprintBytes (by rw [fingerprint_eq k]; exact fingerprint_length _)
          simp only [h8]
          refine ⟨_, rfl, rfl, hr, ?_, rfl, rfl, ?_⟩
          · show (k.depth + 1).toNat = _
            rw [UInt8.toNat_add]; exact Nat.mod_eq_of_lt (by show k.depth.toNat + 1 < 256; omega)
          · show fp.1 = _
            rw [h9, fingerprint_eq]

/-- Deriving and neutering commute for children that are not hardened: the public key of the private child is the public child of the
public key, with the same chain code, fingerprint, depth, number, network and the same failures. -/
theorem C73_commutes (S : Secp) (k : Xpriv) (i : ChildNumber) (hi : i.toRaw.toNat < 2 ^ 31) :
    (Xpub.fromXpriv S k).deriveChild i = (k.deriveChild S i).map (·.map (Xpub.fromXpriv S)) := by
  rw [pubDeriveChild_eq _ i hi, deriveChild_eq]
  have hI : pubI (Xpub.fromXpriv S k) i = privI S k i := by
    unfold pubI privI
    rw [if_pos hi]
    rfl
  rw [hI]
  unfold pubAfter Xpriv.childFrom
  cases splitHmac (privI S k i) with
  | none => rfl
  | some lr =>
    obtain ⟨l, r⟩ := lr
    simp only
    cases hsk : SecretKey.fromSecretBytes l with
    | none => rfl
    | some sk =>
      simp only
      have hp : S.addExp (Xpub.fromXpriv S k).publicKey sk.val = (sk.addTweak k.privateKey.val).map S.pub := by
        rw [addTweak_comm]
        exact S.pub_add k.privateKey sk.val sk.lt
      rw [hp]
      cases sk.addTweak k.privateKey.val with
      | none => rfl
      | some t =>
        simp only [Option.map_some]
        have hd : (Xpub.fromXpriv S k).depth = k.depth := rfl
        rw [hd]
        by_cases hlt : k.depth.toNat + 1 < 256
        · rw [if_pos hlt, if_pos hlt]
          cases arr4 (Xpub.fromXpriv S k).fingerprintBytes <;> rfl
        · rw [if_neg hlt, if_neg hlt]; rfl

/-! ## Paths -/

/-- One step after another, with panics and errors passed on. -/
def andThen {α : Type} (x : Option (Except DeriveErr α)) (f : α → Option (Except DeriveErr α)) : Option (Except DeriveErr α) :=
  match x with
  | none => none
  | some (.error e) => some (.error e)
  | some (.ok a) => f a

/-- A path is its steps: the empty path is the key itself, a path of one step its child, and a concatenation the second path from the key the first leads to. -/
theorem C73_path {S : Secp} (k : Xpriv) (K : Xpub S) (i : ChildNumber) (p q : List ChildNumber) :
    k.deriveFromPath S [] = some (.ok k) ∧ k.deriveFromPath S [i] = k.deriveChild S i ∧
    k.deriveFromPath S (p ++ q) = andThen (k.deriveFromPath S p) (fun c => c.deriveFromPath S q) ∧
    K.deriveFromPath [] = some (.ok K) ∧ K.deriveFromPath [i] = K.deriveChild i ∧
    K.deriveFromPath (p ++ q) = andThen (K.deriveFromPath p) (fun c => c.deriveFromPath q) := by
  refine ⟨rfl, ?_, ?_, rfl, ?_, ?_⟩
  · simp only [Xpriv.deriveFromPath]
    rcases k.deriveChild S i with - | (- | -) <;> rfl
  · induction p generalizing k with
    | nil => rfl
    | cons a p ih =>
      simp only [List.cons_append, Xpriv.deriveFromPath]
      rcases k.deriveChild S a with - | (e | c)
      · rfl
      · rfl
      · exact ih c
  · simp only [Xpub.deriveFromPath]
    rcases K.deriveChild i with - | (- | -) <;> rfl
  · induction p generalizing K with
    | nil => rfl
    | cons a p ih =>
      simp only [List.cons_append, Xpub.deriveFromPath]
      rcases K.deriveChild a with - | (e | c)
      · rfl
      · rfl
      · exact ih c

/-- The commutation along every path without hardened children. -/
theorem C73_commutes_path (S : Secp) (k : Xpriv) (p : List ChildNumber) (hp : ∀ i ∈ p, i.toRaw.toNat < 2 ^ 31) :
    (Xpub.fromXpriv S k).deriveFromPath p = (k.deriveFromPath S p).map (·.map (Xpub.fromXpriv S)) := by
  induction p generalizing k with
  | nil => rfl
  | cons a p ih =>
    simp only [Xpub.deriveFromPath, Xpriv.deriveFromPath]
    rw [C73_commutes S k a (hp a (List.mem_cons_self ..))]
    rcases k.deriveChild S a with - | (e | c)
    · rfl
    · rfl
    · exact ih c (fun i hi => hp i (List.mem_cons_of_mem _ hi))

theorem priv_child_ok {S : Secp} {k c : Xpriv} {i : ChildNumber} (h : k.deriveChild S i = some (.ok c)) :
    c.depth.toNat = k.depth.toNat + 1 ∧ c.network = k.network ∧ c.childNumber = i ∧ c.parentFingerprint.1 = fingerprintSpec (S.pub k.privateKey) := by
  have hc := C73_ckd_priv S k i
  simp only at hc
  obtain ⟨h1, h2⟩ := hc
  by_cases hb : il (privI S k i) = 0 ∨ ORDER ≤ il (privI S k i) ∨ (il (privI S k i) + k.privateKey.val) % ORDER = 0
  · rw [h1 hb] at h; cases h
  · obtain ⟨h3, h4⟩ := h2 (by omega) (by omega) (by omega)
    have hd := k.depth.toNat_lt
    by_cases hd2 : k.depth.toNat = 255
    · rw [h3 hd2] at h; cases h
    · obtain ⟨c', g1, -, -, g2, g3, g4, g5⟩ := h4 (by omega)
      rw [g1] at h; cases h
      exact ⟨g2, g4, g3, g5⟩

theorem pub_child_ok {S : Secp} {k c : Xpub S} {i : ChildNumber} (h : k.deriveChild i = some (.ok c)) :
    i.toRaw.toNat < 2 ^ 31 ∧ c.depth.toNat = k.depth.toNat + 1 ∧ c.network = k.network ∧ c.childNumber = i ∧ c.parentFingerprint.1 = fingerprintSpec k.publicKey := by
  obtain ⟨h0, h1⟩ := C73_ckd_pub k i
  by_cases hi : i.toRaw.toNat < 2 ^ 31
  · obtain ⟨h2, h3⟩ := h1 hi
    by_cases hb : il (pubI k i) = 0 ∨ ORDER ≤ il (pubI k i)
    · rw [h2 hb] at h; cases h
    · obtain ⟨h4, h5⟩ := h3 (by omega) (by omega)
      cases ha : S.addExp k.publicKey (il (pubI k i)) with
      | none => rw [h4 ha] at h; cases h
      | some p =>
        obtain ⟨h6, h7⟩ := h5 p ha
        have hd := k.depth.toNat_lt
        by_cases hd2 : k.depth.toNat = 255
        · rw [h6 hd2] at h; cases h
        · obtain ⟨c', g1, -, -, g2, g3, g4, g5⟩ := h7 (by omega)
          rw [g1] at h; cases h
          exact ⟨hi, g2, g4, g3, g5⟩
  · rw [h0 (by omega)] at h; cases h

/-- Along a path the depth grows by its length (so no more than 255 in all) and the network stays. -/
theorem C73_depth {S : Secp} (p : List ChildNumber) :
    (∀ k c : Xpriv, k.deriveFromPath S p = some (.ok c) → c.depth.toNat = k.depth.toNat + p.length ∧ c.network = k.network) ∧
    (∀ k c : Xpub S, k.deriveFromPath p = some (.ok c) →
      c.depth.toNat = k.depth.toNat + p.length ∧ c.network = k.network ∧ ∀ i ∈ p, i.toRaw.toNat < 2 ^ 31) := by
  induction p with
  | nil =>
    constructor
    · intro k c h; cases h; exact ⟨rfl, rfl⟩
    · intro k c h; cases h; exact ⟨rfl, rfl, fun i hi => absurd hi List.not_mem_nil⟩
  | cons a p ih =>
    constructor
    · intro k c h
      simp only [Xpriv.deriveFromPath] at h
      cases hd : k.deriveChild S a with
      | none => rw [hd] at h; cases h
      | some r =>
        rw [hd] at h
        cases r with
        | error e => cases h
        | ok k' =>
          obtain ⟨g1, g2⟩ := ih.1 k' c h
          obtain ⟨g3, g4, -, -⟩ := priv_child_ok hd
          rw [List.length_cons]
          exact ⟨by omega, g2.trans g4⟩
    · intro k c h
      simp only [Xpub.deriveFromPath] at h
      cases hd : k.deriveChild a with
      | none => rw [hd] at h; cases h
      | some r =>
        rw [hd] at h
        cases r with
        | error e => cases h
        | ok k' =>
          obtain ⟨g1, g2, g5⟩ := ih.2 k' c h
          obtain ⟨g6, g3, g4, -, -⟩ := pub_child_ok hd
          rw [List.length_cons]
          refine ⟨by omega, g2.trans g4, fun i hi => ?_⟩
          rcases List.mem_cons.mp hi with rfl | hi
          · exact g6
          · exact g5 i hi

/-! ## Master keys -/

theorem seedKey_eq : seedKey = "Bitcoin seed".toUTF8.toList := by decide +kernel

theorem newMaster_eq (n : NetworkKind) (seed : Seed) :
    Xpriv.newMaster n seed = Xpriv.masterFrom n (hmac Fips.sha512 128 "Bitcoin seed".toUTF8.toList seed.1) := by
  unfold Xpriv.newMaster
  obtain ⟨e, h1, h2⟩ := C49_hmac_sha512 seedKey (by decide) [seed.1] (by
    have := seed.2; simp only [List.flatten_cons, List.flatten_nil, List.append_nil]; omega)
  simp only [List.foldl_cons, List.foldl_nil, List.flatten_cons, List.flatten_nil, List.append_nil] at h2
  simp only [h1]
  rw [h2, seedKey_eq]

theorem masterFrom_eq (n : NetworkKind) (I : Bytes) (h64 : I.length = 64) :
    (il I = 0 ∨ ORDER ≤ il I → Xpriv.masterFrom n I = none) ∧
    (0 < il I → il I < ORDER → ∃ m, Xpriv.masterFrom n I = some m ∧ m.privateKey.val = il I ∧ m.chainCode.1 = ir I ∧ m.network = n ∧
      m.depth = 0 ∧ m.parentFingerprint.1 = [0, 0, 0, 0] ∧ m.childNumber = ⟨0⟩) := by
  obtain ⟨l, r, hs, hl, hr⟩ := splitHmac_eq I h64
  have hf := fromSecret_eq l
  unfold Xpriv.masterFrom
  simp only [hs]
  constructor
  · intro h
    rw [hf.2 (by rw [hl]; omega)]
  · intro h3 h4
    obtain ⟨sk, h5, h6⟩ := hf.1 (by rw [hl]; exact ⟨h3, h4⟩)
    simp only [h5]
    exact ⟨_, rfl, by rw [h6, hl], hr, rfl, rfl, rfl, rfl⟩

/-- `Xpriv::new_master`: HMAC-SHA512 of the seed with the key "Bitcoin seed". -/
theorem C73_master (n : NetworkKind) (seed : Seed) :
    let I := hmac Fips.sha512 128 "Bitcoin seed".toUTF8.toList seed.1
    (il I = 0 ∨ ORDER ≤ il I → Xpriv.newMaster n seed = none) ∧
    (0 < il I → il I < ORDER → ∃ m, Xpriv.newMaster n seed = some m ∧ m.privateKey.val = il I ∧ m.chainCode.1 = ir I ∧ m.network = n ∧
      m.depth = 0 ∧ m.parentFingerprint.1 = [0, 0, 0, 0] ∧ m.childNumber = ⟨0⟩) := by
  rw [newMaster_eq]
  exact masterFrom_eq n _ (hmac_length _ _)

/-- Everything derived from a master key survives encoding: its private and public keys decode to themselves, as bytes and as strings. -/
theorem C73_derived_roundtrip {S : Secp} (H : Bytes → Arr 32) (n : NetworkKind) (seed : Seed) (m k : Xpriv) (p : List ChildNumber)
    (hm : Xpriv.newMaster n seed = some m) (hk : m.deriveFromPath S p = some (.ok k)) :
    Xpriv.decode k.encode = .ok k ∧ Xpub.decode (Xpub.fromXpriv S k).encode = .ok (Xpub.fromXpriv S k) ∧
    (∃ t, k.display H = some t ∧ Xpriv.parse H t = .ok k) ∧
    (∃ t, (Xpub.fromXpriv S k).display H = some t ∧ Xpub.parse H t = .ok (Xpub.fromXpriv S k)) := by
  have hok : MasterOk k.depth k.parentFingerprint k.childNumber := by
    intro h0
    have hd := (C73_depth (S := S) p).1 m k hk
    rw [h0] at hd
    have hl : p = [] := by
      apply List.eq_nil_of_length_eq_zero
      have := hd.1
      have h00 : (0 : UInt8).toNat = 0 := rfl
      omega
    subst hl
    cases hk
    obtain ⟨g1, g2⟩ := C73_master n seed
    by_cases hb : il (hmac Fips.sha512 128 "Bitcoin seed".toUTF8.toList seed.1) = 0 ∨ ORDER ≤ il (hmac Fips.sha512 128 "Bitcoin seed".toUTF8.toList seed.1)
    · rw [g1 hb] at hm; cases hm
    · obtain ⟨m', e1, -, -, -, -, e2, e3⟩ := g2 (by omega) (by omega)
      rw [e1] at hm; cases hm
      exact ⟨e2, e3⟩
  have h := C72_roundtrip H k (Xpub.fromXpriv S k)
  exact ⟨(h.1 hok).1, (h.2 hok).1, (h.1 hok).2, (h.2 hok).2⟩

/-! ## Examples -/

/-- The seed of the first test vector of BIP-32. -/
def seed1 : Seed := ⟨[0x00, 0x01, 0x02, 0x03, 0x04, 0x05, 0x06, 0x07, 0x08, 0x09, 0x0a, 0x0b, 0x0c, 0x0d, 0x0e, 0x0f], by decide⟩
/-- Its master key, and the hardened child m/0'. -/
example : (Xpriv.newMaster .main seed1).map (fun m => (m.privateKey.val, beNat m.chainCode.1)) =
    some (0xe8f32e723decf4051aefac8e2c93c9c5b214313817cdb01a1494b917c8436b35, 0x873dff81c02f525623fd1fe5167eac3a55a049de3d314bb42ee227ffed37d508) := by decide +kernel
example : (Xpriv.newMaster .main seed1).bind (fun m => (m.deriveChild Secp.toy ⟨0x80000000⟩).map (·.toOption.map fun c => (c.privateKey.val, beNat c.chainCode.1, c.depth))) =
    some (some (0xedb2e14f9ee77d26dd93b4ecede8d16ed408ce149b6cd80b0715a2d911a0afea, 0x47fdacbd0f1097043b78c63c20c34ef4ed9a111d980047ad16282c7ae6236141, 1)) := by decide +kernel
/-- The premise of the commutation is met by `m/0/7`. -/
example : ∀ i ∈ [(⟨0⟩ : ChildNumber), ⟨7⟩], i.toRaw.toNat < 2 ^ 31 := by decide
/-- At depth 255 there are no children. -/
example : (Xpriv.deriveChild Secp.toy { xpriv1 with depth := 255 } ⟨1⟩) = some (.error .maximumDepthExceeded) := by decide +kernel

end Bip32
end Btc
