import Verif.Bip32.Xkey
import Verif.Props.C54
import Verif.Props.C71
/-!
# C72: extended keys and their encodings
-/
namespace Btc
namespace Bip32

open Crypto
open B58 (Text58)
open Hashes (splice)

/-! ## BIP-32, serialization format -/

/-- Version bytes: xprv, tprv, xpub, tpub. -/
def privVersion : NetworkKind → Bytes
  | .main => [0x04, 0x88, 0xAD, 0xE4]
  | .test => [0x04, 0x35, 0x83, 0x94]
def pubVersion : NetworkKind → Bytes
  | .main => [0x04, 0x88, 0xB2, 0x1E]
  | .test => [0x04, 0x35, 0x87, 0xCF]

/-- Version, depth, fingerprint of the parent, child number (most significant byte first), chain code, and 33 bytes of key. -/
def layout (v : Bytes) (d : UInt8) (f c ch k : Bytes) : Bytes := v ++ ([d] ++ (f ++ (c ++ (ch ++ k))))

def privBytes (k : Xpriv) : Bytes :=
  layout (privVersion k.network) k.depth k.parentFingerprint.1 (beBytes 4 k.childNumber.toRaw.toNat) k.chainCode.1 (0 :: k.privateKey.bytes.1)
def pubBytes {S : Secp} (k : Xpub S) : Bytes :=
  layout (pubVersion k.network) k.depth k.parentFingerprint.1 (beBytes 4 k.childNumber.toRaw.toNat) k.chainCode.1 (S.ser k.publicKey).1

/-- A key of depth zero has no parent. -/
def MasterOk (depth : UInt8) (f : Arr 4) (c : ChildNumber) : Prop := depth = 0 → f.1 = [0, 0, 0, 0] ∧ c = ⟨0⟩

/-! ## Encoding -/

theorem splice_app (a l : Bytes) (n m i : Nat) (ha : a.length = i) (hl : l.length = m) :
    splice (a ++ List.replicate (m + n) 0) i l = (a ++ l) ++ List.replicate n 0 := by
  unfold splice
  subst ha hl
  rw [List.take_left, ← List.drop_drop, List.drop_left, List.drop_replicate, show l.length + n - l.length = n by omega]

theorem set_app (a : Bytes) (x : UInt8) (n i : Nat) (ha : a.length = i) :
    (a ++ List.replicate (n + 1) 0).set i x = (a ++ [x]) ++ List.replicate n 0 := by
  subst ha
  rw [List.set_append_right _ _ (Nat.le_refl _), Nat.sub_self, List.replicate_succ, List.set_cons_zero]
  simp

theorem layout_length (v : Bytes) (d : UInt8) (f c ch k : Bytes) (hv : v.length = 4) (hf : f.length = 4) (hc : c.length = 4)
    (hch : ch.length = 32) (hk : k.length = 33) : (layout v d f c ch k).length = 78 := by
  unfold layout; simp [hv, hf, hc, hch, hk]

theorem privVersion_length (n : NetworkKind) : (privVersion n).length = 4 := by cases n <;> rfl
theorem pubVersion_length (n : NetworkKind) : (pubVersion n).length = 4 := by cases n <;> rfl

theorem enc_priv (v : Bytes) (d : UInt8) (f c ch s : Bytes) (hv : v.length = 4) (hf : f.length = 4) (hc : c.length = 4)
    (hch : ch.length = 32) (hs : s.length = 32) :
    splice ((splice (splice (splice ((splice (List.replicate 78 0) 0 v).set 4 d) 5 f) 9 c) 13 ch).set 45 0) 46 s = layout v d f c ch (0 :: s) := by
  have e1 := splice_app [] v 74 4 0 rfl hv
  simp only [List.nil_append] at e1
  rw [e1, set_app v d 73 4 hv, splice_app (v ++ [d]) f 69 4 5 (by simp [hv]) hf,
    splice_app (v ++ [d] ++ f) c 65 4 9 (by simp [hv, hf]) hc, splice_app (v ++ [d] ++ f ++ c) ch 33 32 13 (by simp [hv, hf, hc]) hch,
    set_app (v ++ [d] ++ f ++ c ++ ch) 0 32 45 (by simp [hv, hf, hc, hch]),
    splice_app (v ++ [d] ++ f ++ c ++ ch ++ [0]) s 0 32 46 (by simp [hv, hf, hc, hch]) hs]
  simp [layout]

theorem enc_pub (v : Bytes) (d : UInt8) (f c ch s : Bytes) (hv : v.length = 4) (hf : f.length = 4) (hc : c.length = 4)
    (hch : ch.length = 32) (hs : s.length = 33) :
    splice (splice (splice (splice ((splice (List.replicate 78 0) 0 v).set 4 d) 5 f) 9 c) 13 ch) 45 s = layout v d f c ch s := by
  have e1 := splice_app [] v 74 4 0 rfl hv
  simp only [List.nil_append] at e1
  rw [e1, set_app v d 73 4 hv, splice_app (v ++ [d]) f 69 4 5 (by simp [hv]) hf,
    splice_app (v ++ [d] ++ f) c 65 4 9 (by simp [hv, hf]) hc, splice_app (v ++ [d] ++ f ++ c) ch 33 32 13 (by simp [hv, hf, hc]) hch,
    splice_app (v ++ [d] ++ f ++ c ++ ch) s 0 33 45 (by simp [hv, hf, hc, hch]) hs]
  simp [layout]

/-- The encoders write the layout of BIP-32. -/
theorem C72_encode {S : Secp} (k : Xpriv) (p : Xpub S) : k.encode = privBytes k ∧ p.encode = pubBytes p := by
  constructor
  · cases k with
    | mk n d f c s ch =>
      cases n <;> exact enc_priv _ d f.1 _ ch.1 s.bytes.1 rfl f.2 (beBytes_length _ _) ch.2 s.bytes.2
  · cases p with
    | mk n d f c s ch =>
      cases n <;> exact enc_pub _ d f.1 _ ch.1 (S.ser s).1 rfl f.2 (beBytes_length _ _) ch.2 (S.ser s).2

/-! ## Decoding -/

theorem layout_split (b : Bytes) (h : b.length = 78) :
    b = layout (b.take 4) (b[4]'(by omega)) ((b.drop 5).take 4) ((b.drop 9).take 4) ((b.drop 13).take 32) (b.drop 45) := by
  unfold layout
  have h1 : b.drop 13 = (b.drop 13).take 32 ++ b.drop 45 := by
    have := (List.take_append_drop 32 (b.drop 13)).symm
    rwa [List.drop_drop] at this
  have h2 : b.drop 9 = (b.drop 9).take 4 ++ b.drop 13 := by
    have := (List.take_append_drop 4 (b.drop 9)).symm
    rwa [List.drop_drop] at this
  have h3 : b.drop 5 = (b.drop 5).take 4 ++ b.drop 9 := by
    have := (List.take_append_drop 4 (b.drop 5)).symm
    rwa [List.drop_drop] at this
  have h4 : b.drop 4 = [b[4]'(by omega)] ++ b.drop 5 := by
    rw [List.drop_eq_getElem_cons (by omega)]; rfl
  rw [← h1, ← h2, ← h3, ← h4, List.take_append_drop]

theorem layout_inj {v v' : Bytes} {d d' : UInt8} {f f' c c' ch ch' k k' : Bytes} (hv : v.length = v'.length) (hf : f.length = f'.length)
    (hc : c.length = c'.length) (hch : ch.length = ch'.length) (h : layout v d f c ch k = layout v' d' f' c' ch' k') :
    v = v' ∧ d = d' ∧ f = f' ∧ c = c' ∧ ch = ch' ∧ k = k' := by
  unfold layout at h
  obtain ⟨h1, h⟩ := List.append_inj h hv
  obtain ⟨h2, h⟩ := List.append_inj h rfl
  obtain ⟨h3, h⟩ := List.append_inj h hf
  obtain ⟨h4, h⟩ := List.append_inj h hc
  obtain ⟨h5, h⟩ := List.append_inj h hch
  exact ⟨h1, by simpa using h2, h3, h4, h5, h⟩

theorem zero4 (b : Bytes) (hl : b.length = 4) : b = [0, 0, 0, 0] ↔ beNat b = 0 := by
  constructor
  · rintro rfl; rfl
  · intro h
    have := beBytes_beNat 4 b hl
    rw [h] at this
    rw [← this]; rfl

theorem common_ok (b : Bytes) (c : Common) : Common.decode b = .ok c ↔
    c.version.length = 4 ∧ b = layout c.version c.depth c.parentFingerprint.1 (beBytes 4 c.childNumber.toRaw.toNat) c.chainCode.1 c.key.1 ∧
      MasterOk c.depth c.parentFingerprint c.childNumber := by
  unfold Common.decode
  by_cases h : b.length = 78
  · rw [dif_pos h]
    have hs := layout_split b h
    have hcl : ((b.drop 9).take 4).length = 4 := by simp; omega
    have hlt : beNat ((b.drop 9).take 4) < 2 ^ 32 := by
      have := beNat_lt ((b.drop 9).take 4); rw [hcl] at this; exact this
    have hcn : (UInt32.ofNat (beNat ((b.drop 9).take 4))).toNat = beNat ((b.drop 9).take 4) := Nat.mod_eq_of_lt hlt
    have hz := zero4 _ hcl
    have hcz : (ChildNumber.fromRaw (UInt32.ofNat (beNat ((b.drop 9).take 4))) = ⟨0⟩) ↔ (b.drop 9).take 4 = [0, 0, 0, 0] := by
      rw [hz]
      constructor
      · intro e
        have := congrArg (fun x => x.raw.toNat) e
        simp only [ChildNumber.fromRaw] at this
        rw [hcn] at this
        exact this
      · intro e; rw [e]; rfl
    -- the record that is returned
    obtain ⟨c0, hc0⟩ : ∃ c0 : Common, c0 = { version := b.take 4, depth := b[4], parentFingerprint := ⟨(b.drop 5).take 4, by simp; omega⟩
                                             childNumber := .fromRaw (UInt32.ofNat (beNat ((b.drop 9).take 4)))
                                             chainCode := ⟨(b.drop 13).take 32, by simp; omega⟩
                                             key := ⟨b.drop 45, by simp; omega⟩ } := ⟨_, rfl⟩
    simp only [← hc0]
    have key : c0 = c ↔ c.version.length = 4 ∧
        b = layout c.version c.depth c.parentFingerprint.1 (beBytes 4 c.childNumber.toRaw.toNat) c.chainCode.1 c.key.1 := by
      constructor
      · rintro rfl
        subst hc0
        refine ⟨by simp; omega, ?_⟩
        show b = layout _ _ _ (beBytes 4 (UInt32.ofNat (beNat ((b.drop 9).take 4))).toNat) _ _
        rw [hcn, beBytes_beNat 4 _ hcl]
        exact hs
      · rintro ⟨hv, e⟩
        have e2 := hs.symm.trans e
        obtain ⟨g1, g2, g3, g4, g5, g6⟩ := layout_inj (by simp; omega) (by rw [c.parentFingerprint.2]; simp; omega) (by rw [beBytes_length]; exact hcl)
          (by rw [c.chainCode.2]; simp; omega) e2
        subst hc0
        cases c with
        | mk v d f cn ch k =>
          simp only [Common.mk.injEq]
          refine ⟨g1, g2, Subtype.ext g3, ?_, Subtype.ext g5, Subtype.ext g6⟩
          apply ext_raw
          show (UInt32.ofNat (beNat ((b.drop 9).take 4))).toNat = cn.raw.toNat
          rw [hcn, g4]
          exact beNat_beBytes 4 _ cn.raw.toNat_lt
    have hdep : c0.depth = b[4] := by rw [hc0]
    have hpf : c0.parentFingerprint.1 = (b.drop 5).take 4 := by rw [hc0]
    have hm : MasterOk c0.depth c0.parentFingerprint c0.childNumber ↔ (b[4] = 0 → (b.drop 5).take 4 = [0, 0, 0, 0] ∧ (b.drop 9).take 4 = [0, 0, 0, 0]) := by
      unfold MasterOk
      have : c0.childNumber = .fromRaw (UInt32.ofNat (beNat ((b.drop 9).take 4))) := by rw [hc0]
      rw [this, hcz, hdep, hpf]
    rw [show (c.version.length = 4 ∧ b = layout c.version c.depth c.parentFingerprint.1 (beBytes 4 c.childNumber.toRaw.toNat) c.chainCode.1 c.key.1 ∧
        MasterOk c.depth c.parentFingerprint c.childNumber) ↔ (c0 = c ∧ MasterOk c0.depth c0.parentFingerprint c0.childNumber) from
      ⟨fun ⟨a, b, d⟩ => have e := key.mpr ⟨a, b⟩; ⟨e, e ▸ d⟩, fun ⟨a, d⟩ => ⟨(key.mp a).1, (key.mp a).2, a ▸ d⟩⟩, hm]
    by_cases hd : b[4] = 0
    · rw [if_pos hd]
      by_cases hp : (b.drop 5).take 4 ≠ [0, 0, 0, 0]
      · rw [if_pos hp]
        simp [hd, hp]
      · rw [if_neg hp]
        by_cases hn : (b.drop 9).take 4 ≠ [0, 0, 0, 0]
        · rw [if_pos hn]
          simp [hd, hn]
        · rw [if_neg hn]
          simp only [Except.ok.injEq]
          exact ⟨fun e => ⟨e, fun _ => ⟨Decidable.not_not.mp hp, Decidable.not_not.mp hn⟩⟩, fun e => e.1⟩
    · rw [if_neg hd]
      simp only [Except.ok.injEq]
      exact ⟨fun e => ⟨e, fun e2 => absurd e2 hd⟩, fun e => e.1⟩
  · rw [dif_neg h]
    simp only [reduceCtorEq, false_iff]
    rintro ⟨hv, e, -⟩
    apply h
    rw [e]
    exact layout_length _ _ _ _ _ _ hv c.parentFingerprint.2 (beBytes_length _ _) c.chainCode.2 c.key.2

theorem xpriv_finish_ok (n : NetworkKind) (c : Common) (k : Xpriv) : Xpriv.finish n c = .ok k ↔
    k.network = n ∧ k.depth = c.depth ∧ k.parentFingerprint = c.parentFingerprint ∧ k.childNumber = c.childNumber ∧ k.chainCode = c.chainCode ∧
      c.key.1 = 0 :: k.privateKey.bytes.1 := by
  unfold Xpriv.finish
  obtain ⟨cv, cd, cf, cc, cch, ⟨ck, hck⟩⟩ := c
  cases k with
  | mk kn kd kf kc kk kch =>
    simp only
    cases ck with
    | nil => cases hck
    | cons z r =>
      have hd : (z :: r).headD 0 = z := rfl
      by_cases hz : z = 0
      · subst hz
        rw [if_neg (by rw [hd]; exact fun h => h rfl)]
        have hr : r.length = 32 := by simpa using hck
        have hs : ∀ p, SecretKey.fromSecretBytes ⟨(0 :: r).drop 1, p⟩ = SecretKey.fromSecretBytes ⟨r, hr⟩ := fun p => rfl
        rw [hs]
        unfold SecretKey.fromSecretBytes
        by_cases hv : 0 < beNat r ∧ beNat r < ORDER
        · rw [dif_pos hv]
          simp only [Except.ok.injEq, Xpriv.mk.injEq, List.cons.injEq, true_and]
          constructor
          · rintro ⟨rfl, rfl, rfl, rfl, rfl, rfl⟩; exact ⟨rfl, rfl, rfl, rfl, rfl, rfl⟩
          · rintro ⟨rfl, rfl, rfl, rfl, rfl, h⟩
            exact ⟨rfl, rfl, rfl, rfl, SecretKey.ext (Subtype.ext h), rfl⟩
        · rw [dif_neg hv]
          simp only [reduceCtorEq, List.cons.injEq, true_and, false_iff]
          rintro ⟨-, -, -, -, -, h⟩
          apply hv
          rw [h]
          exact ⟨kk.pos, kk.lt⟩
      · rw [if_pos (by rw [hd]; exact hz)]
        simp only [reduceCtorEq, List.cons.injEq, false_iff]
        rintro ⟨-, -, -, -, -, h, -⟩
        exact hz h

theorem xpub_finish_ok {S : Secp} (n : NetworkKind) (c : Common) (k : Xpub S) : Xpub.finish n c = .ok k ↔
    k.network = n ∧ k.depth = c.depth ∧ k.parentFingerprint = c.parentFingerprint ∧ k.childNumber = c.childNumber ∧ k.chainCode = c.chainCode ∧
      c.key.1 = (S.ser k.publicKey).1 := by
  unfold Xpub.finish
  cases k with
  | mk kn kd kf kc kk kch =>
    simp only
    cases hp : S.fromSlice c.key.1 with
    | none =>
      simp only [reduceCtorEq, false_iff]
      rintro ⟨-, -, -, -, -, h⟩
      rw [h, S.from_ser] at hp
      cases hp
    | some p =>
      simp only [Except.ok.injEq, Xpub.mk.injEq]
      constructor
      · rintro ⟨rfl, rfl, rfl, rfl, rfl, rfl⟩; exact ⟨rfl, rfl, rfl, rfl, rfl, S.ser_unique _ _ c.key.2 hp⟩
      · rintro ⟨rfl, rfl, rfl, rfl, rfl, h⟩
        rw [h, S.from_ser] at hp
        cases hp
        exact ⟨rfl, rfl, rfl, rfl, rfl, rfl⟩

/-- The decoder of private keys accepts exactly the encodings of keys that have no parent if their depth is zero. -/
theorem C72_xpriv_decode (b : Bytes) (k : Xpriv) : Xpriv.decode b = .ok k ↔
    b = privBytes k ∧ MasterOk k.depth k.parentFingerprint k.childNumber := by
  unfold Xpriv.decode
  constructor
  · intro h
    cases hc : Common.decode b with
    | error e => rw [hc] at h; cases h
    | ok c =>
      rw [hc] at h
      obtain ⟨hv, hb, hm⟩ := (common_ok b c).mp hc
      simp only at h
      have fin : ∀ n, c.version = privVersion n → Xpriv.finish n c = .ok k → b = privBytes k ∧ MasterOk k.depth k.parentFingerprint k.childNumber := by
        intro n hn hf
        obtain ⟨h1, h2, h3, h4, h5, h6⟩ := (xpriv_finish_ok n c k).mp hf
        unfold privBytes
        rw [h1, h2, h3, h4, h5, ← h6, ← hn]
        exact ⟨hb, hm⟩
      split at h
      · rename_i hver; exact fin .main hver h
      · split at h
        · rename_i hver; exact fin .test hver h
        · cases h
  · rintro ⟨hb, hm⟩
    have hc := (common_ok b ⟨privVersion k.network, k.depth, k.parentFingerprint, k.childNumber, k.chainCode, ⟨0 :: k.privateKey.bytes.1, by rw [List.length_cons, k.privateKey.bytes.2]⟩⟩).mpr
      ⟨privVersion_length _, hb, hm⟩
    rw [hc]
    simp only
    have hf : ∀ n, n = k.network → Xpriv.finish n ⟨privVersion k.network, k.depth, k.parentFingerprint, k.childNumber, k.chainCode, ⟨0 :: k.privateKey.bytes.1, by rw [List.length_cons, k.privateKey.bytes.2]⟩⟩ = .ok k :=
      fun n hn => (xpriv_finish_ok _ _ k).mpr ⟨hn.symm, rfl, rfl, rfl, rfl, rfl⟩
    cases hn : k.network
    · rw [if_pos (by decide), ← hn]
      exact hf _ rfl
    · rw [if_neg (by decide), if_pos (by decide), ← hn]
      exact hf _ rfl

/-- The same for public keys. -/
theorem C72_xpub_decode {S : Secp} (b : Bytes) (k : Xpub S) : Xpub.decode b = .ok k ↔
    b = pubBytes k ∧ MasterOk k.depth k.parentFingerprint k.childNumber := by
  unfold Xpub.decode
  constructor
  · intro h
    cases hc : Common.decode b with
    | error e => rw [hc] at h; cases h
    | ok c =>
      rw [hc] at h
      obtain ⟨hv, hb, hm⟩ := (common_ok b c).mp hc
      simp only at h
      have fin : ∀ n, c.version = pubVersion n → Xpub.finish n c = .ok k → b = pubBytes k ∧ MasterOk k.depth k.parentFingerprint k.childNumber := by
        intro n hn hf
        obtain ⟨h1, h2, h3, h4, h5, h6⟩ := (xpub_finish_ok n c k).mp hf
        unfold pubBytes
        rw [h1, h2, h3, h4, h5, ← h6, ← hn]
        exact ⟨hb, hm⟩
      split at h
      · rename_i hver; exact fin .main hver h
      · split at h
        · rename_i hver; exact fin .test hver h
        · cases h
  · rintro ⟨hb, hm⟩
    have hc := (common_ok b ⟨pubVersion k.network, k.depth, k.parentFingerprint, k.childNumber, k.chainCode, S.ser k.publicKey⟩).mpr
      ⟨pubVersion_length _, hb, hm⟩
    rw [hc]
    simp only
    have hf : ∀ n, n = k.network → Xpub.finish n ⟨pubVersion k.network, k.depth, k.parentFingerprint, k.childNumber, k.chainCode, S.ser k.publicKey⟩ = .ok k :=
      fun n hn => (xpub_finish_ok _ _ k).mpr ⟨hn.symm, rfl, rfl, rfl, rfl, rfl⟩
    cases hn : k.network
    · rw [if_pos (by decide), ← hn]
      exact hf _ rfl
    · rw [if_neg (by decide), if_pos (by decide), ← hn]
      exact hf _ rfl

theorem privBytes_length (k : Xpriv) : (privBytes k).length = 78 :=
  layout_length _ _ _ _ _ _ (privVersion_length _) k.parentFingerprint.2 (beBytes_length _ _) k.chainCode.2 (by rw [List.length_cons, k.privateKey.bytes.2])
theorem pubBytes_length {S : Secp} (k : Xpub S) : (pubBytes k).length = 78 :=
  layout_length _ _ _ _ _ _ (pubVersion_length _) k.parentFingerprint.2 (beBytes_length _ _) k.chainCode.2 (S.ser k.publicKey).2

/-- Strings: exactly the base58check texts of the encodings parse. -/
theorem C72_parse {S : Secp} (H : Bytes → Arr 32) (t : Bytes) (k : Xpriv) (p : Xpub S) :
    (Xpriv.parse H t = .ok k ↔ Text58 (privBytes k ++ (H (privBytes k)).val.take 4) t ∧ MasterOk k.depth k.parentFingerprint k.childNumber) ∧
    (Xpub.parse H t = .ok p ↔ Text58 (pubBytes p ++ (H (pubBytes p)).val.take 4) t ∧ MasterOk p.depth p.parentFingerprint p.childNumber) := by
  rw [← B58.C30_decode_check, ← B58.C30_decode_check]
  unfold Xpriv.parse Xpub.parse
  cases hd : B58.decodeCheck H t with
  | error e => simp
  | ok data =>
    simp only [Except.ok.injEq]
    have h1 := C72_xpriv_decode data k
    have h2 := C72_xpub_decode data p
    by_cases hl : data.length ≠ 78
    · rw [if_pos hl, if_pos hl]
      simp only [reduceCtorEq, false_iff]
      exact ⟨fun h => hl (h.1 ▸ privBytes_length k), fun h => hl (h.1 ▸ pubBytes_length p)⟩
    · rw [if_neg hl, if_neg hl, ← h1, ← h2]
      constructor
      · cases Xpriv.decode data <;> simp [Except.mapError]
      · cases (Xpub.decode data : Except _ (Xpub S)) <;> simp [Except.mapError]

/-- Printing never panics, and parses back to the key. -/
theorem C72_roundtrip {S : Secp} (H : Bytes → Arr 32) (k : Xpriv) (p : Xpub S) :
    (MasterOk k.depth k.parentFingerprint k.childNumber → Xpriv.decode k.encode = .ok k ∧ ∃ t, k.display H = some t ∧ Xpriv.parse H t = .ok k) ∧
    (MasterOk p.depth p.parentFingerprint p.childNumber → Xpub.decode p.encode = .ok p ∧ ∃ t, p.display H = some t ∧ Xpub.parse H t = .ok p) := by
  have he := C72_encode k p
  constructor
  · intro hm
    refine ⟨(C72_xpriv_decode _ _).mpr ⟨he.1, hm⟩, ?_⟩
    obtain ⟨t, h1, -, h3, -⟩ := B58.C30_encode H (privBytes k)
    refine ⟨t, ?_, (C72_parse (S := S) H t k p).1.mpr ⟨h1, hm⟩⟩
    unfold Xpriv.display
    rw [he.1, h3, if_neg (by rw [privBytes_length]; omega)]
  · intro hm
    refine ⟨(C72_xpub_decode _ _).mpr ⟨he.2, hm⟩, ?_⟩
    obtain ⟨t, h1, -, h3, -⟩ := B58.C30_encode H (pubBytes p)
    refine ⟨t, ?_, (C72_parse H t k p).2.mpr ⟨h1, hm⟩⟩
    unfold Xpub.display
    rw [he.2, h3, if_neg (by rw [pubBytes_length]; omega)]

/-- No bytes are both a private and a public extended key. -/
theorem C72_disjoint {S : Secp} (b : Bytes) (k : Xpriv) (p : Xpub S) : ¬ (Xpriv.decode b = .ok k ∧ Xpub.decode b = .ok p) := by
  rintro ⟨h1, h2⟩
  rw [C72_xpriv_decode] at h1
  rw [C72_xpub_decode] at h2
  have e := h1.1.symm.trans h2.1
  unfold privBytes pubBytes layout at e
  have := (List.append_inj e (by rw [privVersion_length, pubVersion_length])).1
  revert this
  cases k.network <;> cases p.network <;> decide

/-- A key whose public fields say depth zero but name a parent encodes, and its encoding is refused. -/
theorem C72_master_with_parent (k : Xpriv) (h0 : k.depth = 0) (h : k.parentFingerprint.1 ≠ [0, 0, 0, 0] ∨ k.childNumber ≠ ⟨0⟩) (k' : Xpriv) :
    Xpriv.decode k.encode ≠ .ok k' := by
  intro hd
  rw [C72_xpriv_decode, (C72_encode (S := Secp.toy) k ⟨k.network, k.depth, k.parentFingerprint, k.childNumber, k.privateKey, k.chainCode⟩).1] at hd
  obtain ⟨e, hm⟩ := hd
  unfold privBytes at e
  obtain ⟨-, e2, e3, e4, -, -⟩ := layout_inj (by rw [privVersion_length, privVersion_length]) (by rw [k.parentFingerprint.2, k'.parentFingerprint.2])
    (by rw [beBytes_length, beBytes_length]) (by rw [k.chainCode.2, k'.chainCode.2]) e
  obtain ⟨m1, m2⟩ := hm (e2 ▸ h0)
  rcases h with h | h
  · exact h (e3.trans m1)
  · apply h
    have e5 := congrArg beNat e4
    rw [beNat_beBytes 4 _ k.childNumber.toRaw.toNat_lt, beNat_beBytes 4 _ k'.childNumber.toRaw.toNat_lt] at e5
    exact (ext_raw e5).trans m2

/-! ## Examples -/

def xpriv1 : Xpriv := ⟨.main, 3, ⟨[1, 2, 3, 4], rfl⟩, ⟨0x80000001⟩, secret1, ⟨List.replicate 32 9, by decide⟩⟩
example : xpriv1.encode = [4, 0x88, 0xad, 0xe4, 3, 1, 2, 3, 4, 0x80, 0, 0, 1] ++ List.replicate 32 9 ++ List.replicate 32 0 ++ [7] := by decide +kernel
example : MasterOk xpriv1.depth xpriv1.parentFingerprint xpriv1.childNumber := by intro h; cases h
example : (Xpriv.decode xpriv1.encode).toOption = some xpriv1 := by decide +kernel
example : Xpriv.decode (xpriv1.encode.set 45 1) = .error .invalidPrivateKeyPrefix := by decide +kernel
/-- A "master" key with a parent. -/
example : Xpriv.decode { xpriv1 with depth := 0 }.encode = .error .nonZeroParentFingerprint := by decide +kernel

end Bip32
end Btc
