import Verif.Crypto.Keypair
import Verif.Props.C50Bip341
import Verif.Props.C60
import Verif.Props.C73
/-!
# C95: a tweaked key pair signs for the tweaked public key

The laws of the curve are those of `Secp` and `Curve`; that they can be met is shown at the end.
-/
namespace Btc.Crypto
variable {S : Secp} {D : Der}

/-! ### Secret keys -/

theorem negate_val (k : SecretKey) : k.negate.val + k.val = ORDER := by
  have : k.negate.val = ORDER - k.val := by
    unfold SecretKey.negate SecretKey.val
    exact beNat_beBytes 32 _ (by have : ORDER < 256 ^ 32 := by decide
                                 omega)
  have h2 : k.val < ORDER := k.lt
  omega

theorem negate_negate (k : SecretKey) : k.negate.negate = k := by
  apply SecretKey.ext_val
  have h1 := negate_val k
  have h2 := negate_val k.negate
  omega

theorem addTweak_iff (k k' : SecretKey) (t : Nat) : k.addTweak t = some k' ↔ k'.val = (k.val + t) % ORDER := by
  obtain ⟨h1, h2⟩ := Bip32.addTweak_eq k t
  by_cases h : (k.val + t) % ORDER = 0
  · rw [h1 h, h]
    simp only [reduceCtorEq, false_iff]
    have := k'.pos; unfold SecretKey.val; omega
  · obtain ⟨c, e1, e2⟩ := h2 h
    rw [e1, ← e2, Option.some.injEq]
    exact ⟨fun e => e ▸ rfl, fun e => SecretKey.ext_val e.symm⟩

/-! ### The ways from one kind of key to another -/

/-- A private key, its key pair and its public keys: every way leads to the same key.  The full public key comes back from the x-only key with
its parity; a key pair forgets only whether a private key was marked as compressed. -/
theorem C95_conversions (C : Curve S D) (k : PrivateKey) (p : FullPublicKey S) :
    (Keypair.fromPrivateKey k).toPublicKey S = k.toPublicKey S ∧
    (Keypair.fromPrivateKey k).toLegacyPublicKey S = (LegacyPublicKey.fromPrivateKey S k).withCompressedness true ∧
    (LegacyPublicKey.fromPrivateKey S k).forceCompressed = k.toPublicKey S ∧
    XOnlyKey.fromKeypair C (.fromPrivateKey k) = XOnlyKey.ofFull C (k.toPublicKey S) ∧
    XOnlyKey.ofLegacy C (LegacyPublicKey.fromPrivateKey S k) = XOnlyKey.ofFull C (k.toPublicKey S) ∧
    (XOnlyKey.ofFull C p).toPublicKey = p ∧
    (Keypair.fromPrivateKey k).toSecretBytes = k.toSecretBytes ∧
    ((Keypair.fromPrivateKey k).toPrivateKey = k ↔ k.compressed = true) := by
  obtain ⟨c, x⟩ := k
  have hp : (XOnlyKey.ofFull C p).toPublicKey = p := by
    show (⟨C.point (C.xonly p.inner).1 (C.xonly p.inner).2⟩ : FullPublicKey S) = p
    rw [C.point_xonly]
  refine ⟨rfl, ?_, ?_, rfl, ?_, hp, rfl, ?_⟩ <;> cases c <;>
    simp [LegacyPublicKey.fromPrivateKey, PrivateKey.toLegacyPublicKey, LegacyPublicKey.fromSecp, LegacyPublicKey.fromSecpUncompressed,
      LegacyPublicKey.withCompressedness, LegacyPublicKey.forceCompressed, PrivateKey.toPublicKey, XOnlyKey.ofLegacy, XOnlyKey.ofFull,
      Keypair.toLegacyPublicKey, Keypair.toPublicKey, FullPublicKey.toLegacy, Keypair.fromPrivateKey, Keypair.toPrivateKey, PrivateKey.fromSecp]

/-- An x-only key and a parity are a public key: all of them, each once. -/
theorem C95_x_only (C : Curve S D) (k : XOnlyKey C) (odd : Bool) (b : Arr 32) :
    XOnlyKey.ofFull C k.toPublicKey = k ∧
    XOnlyKey.ofLegacy C k.toLegacyPublicKey = k ∧
    XOnlyKey.ofFull C (k.withParity odd).toPublicKey = k.withParity odd ∧
    ((k.withParity true).toPublicKey = (k.withParity false).toPublicKey → False) ∧
    (XOnlyKey.fromByteArray C b = some k ↔ k.serialize = (b, false)) := by
  have hb : ∀ k : XOnlyKey C, XOnlyKey.ofFull C k.toPublicKey = k := by
    intro k
    show (⟨(C.xonly (C.point k.inner k.parity)).1, (C.xonly (C.point k.inner k.parity)).2⟩ : XOnlyKey C) = k
    rw [C.xonly_point]
  refine ⟨hb k, hb k, hb _, fun h => ?_, ?_⟩
  · have h1 := hb (k.withParity true)
    rw [h, hb (k.withParity false)] at h1
    exact absurd (congrArg Taproot.XOnly.parity h1) (by simp [XOnlyKey.withParity])
  · unfold XOnlyKey.fromByteArray XOnlyKey.serialize
    obtain ⟨x, o⟩ := k
    constructor
    · intro h
      cases hx : C.parseX b with
      | none => rw [hx] at h; cases h
      | some y =>
        rw [hx] at h
        simp only [Option.map_some, Option.some.injEq, Taproot.XOnly.mk.injEq] at h
        obtain ⟨rfl, rfl⟩ := h
        simp only [C.serX_parse b y hx]
    · intro h
      simp only [Prod.mk.injEq] at h
      obtain ⟨rfl, rfl⟩ := h
      have := C.parse_serX x
      simp only [this, Option.map_some]

/-- Negating a private key flips the parity and keeps everything else; twice is nothing. -/
theorem C95_negate (C : Curve S D) (k : PrivateKey) :
    XOnlyKey.ofFull C (k.negate.toPublicKey S) =
      (XOnlyKey.ofFull C (k.toPublicKey S)).withParity (!(XOnlyKey.ofFull C (k.toPublicKey S)).parity) ∧
    k.negate.negate = k ∧ k.negate.compressed = k.compressed := by
  obtain ⟨c, x⟩ := k
  have e : ∀ c, (PrivateKey.mk c x).negate = ⟨c, x.negate⟩ := by intro c; cases c <;> rfl
  have e2 : ∀ c, (PrivateKey.mk c x.negate).negate = ⟨c, x⟩ := by
    intro c
    have := negate_negate x
    cases c <;> simp [PrivateKey.negate, PrivateKey.fromSecp, PrivateKey.fromSecpUncompressed, this]
  refine ⟨?_, by rw [e, e2], by rw [e]⟩
  rw [e]
  show (⟨(C.xonly (S.pub x.negate)).1, (C.xonly (S.pub x.negate)).2⟩ : XOnlyKey C) = ⟨(C.xonly (S.pub x)).1, !(C.xonly (S.pub x)).2⟩
  rw [C.xonly_negate]

/-! ### Tweaking -/

/-- The secret key whose point has the x coordinate of the key and even y. -/
theorem even_key (C : Curve S D) (k : SecretKey) :
    S.pub (if (C.xonly (S.pub k)).2 then k.negate else k) = C.point (C.xonly (S.pub k)).1 false := by
  cases h : (C.xonly (S.pub k)).2 with
  | false =>
    rw [if_neg (by simp)]
    conv => lhs; rw [← C.point_xonly (S.pub k), h]
  | true =>
    rw [if_pos rfl, ← C.point_xonly (S.pub k.negate), C.xonly_negate, h]
    rfl

/-- Tweaking the pair is tweaking the public key. -/
theorem C95_add_tweak (C : Curve S D) (kp : Keypair) (t : Nat) (ht : t < ORDER) :
    (XOnlyKey.fromKeypair C kp).addTweak t = (C.addXonlyTweak kp.inner t).map fun k => XOnlyKey.fromKeypair C ⟨k⟩ := by
  show ((S.addExp (C.point (C.xonly (S.pub kp.inner)).1 false) t).map C.xonly).map _ = _
  rw [← even_key C kp.inner, S.pub_add _ _ ht]
  unfold Curve.addXonlyTweak
  simp only [Option.map_map]
  rfl

/-- `tweak_add_check` accepts exactly the result of `add_tweak`, parity included. -/
theorem C95_check (C : Curve S D) (k q : XOnlyKey C) (t : Nat) : k.tweakAddCheck q t = true ↔ k.addTweak t = some q := by
  unfold XOnlyKey.tweakAddCheck Curve.tweakAddCheck XOnlyKey.addTweak
  obtain ⟨x, o⟩ := q
  cases C.addTweak k.inner t with
  | none => simp
  | some r => cases r; simp

/-- The taproot tweak of a key pair has the public key that tweaking the public key gives, with the same parity; one panics exactly if the
other does. -/
theorem C95_tap_tweak (H : Bytes → Taproot.Hash) (C : Curve S D) (kp : Keypair) (root : Option Taproot.Hash) :
    Taproot.tapTweak H (XOnlyKey.fromKeypair C kp) root = (kp.tapTweak H C root).map (XOnlyKey.fromKeypair C) := by
  unfold Taproot.tapTweak Keypair.tapTweak Taproot.toScalar
  generalize Taproot.tweakHash H (XOnlyKey.fromKeypair C kp) root = h
  by_cases hs : C.taproot.isScalar h = true
  · rw [if_pos hs]
    simp only []
    have ht : beNat h.1 < ORDER := of_decide_eq_true hs
    have key := C95_add_tweak C kp (beNat h.1) ht
    unfold XOnlyKey.addTweak at key
    rw [Option.map_map]
    rw [show (XOnlyKey.fromKeypair C ∘ Keypair.mk) = fun k => XOnlyKey.fromKeypair C ⟨k⟩ from rfl, ← key]
    cases C.addTweak (XOnlyKey.fromKeypair C kp).inner (beNat h.1) with
    | none => rfl
    | some r => cases r; rfl
  · rw [if_neg hs]
    rfl

/-- `taproot_tweak_seckey` of BIP-341, for a secret key `d` and the bytes `h` of the commitment: `none` if it fails or the result is 0. -/
def bip341SecKey (H : Bytes → Taproot.Hash) (C : Curve S D) (d : SecretKey) (h : Bytes) : Option Nat :=
  let seckey := if (C.xonly (S.pub d)).2 then ORDER - d.val else d.val
  let tag := (H (Taproot.Bip341.ascii "TapTweak")).1
  let t := beNat (H (tag ++ tag ++ ((C.serX (C.xonly (S.pub d)).1).1 ++ h))).1
  if t ≥ ORDER then none else if (seckey + t) % ORDER = 0 then none else some ((seckey + t) % ORDER)

/-- The tweaked secret key is the one of BIP-341. -/
theorem C95_bip341 (H : Bytes → Taproot.Hash) (C : Curve S D) (kp : Keypair) (root : Option Taproot.Hash) :
    (kp.tapTweak H C root).map (·.inner.val) = bip341SecKey H C kp.inner (match root with | some r => r.1 | none => []) := by
  have htag : Taproot.tweakTag = Taproot.Bip341.ascii "TapTweak" := by decide
  have hh : ∀ b : Bytes, (match root with | some h => h.1 | none => []) = b → (Taproot.tweakHash H (XOnlyKey.fromKeypair C kp) root) =
      H ((H Taproot.tweakTag).1 ++ (H Taproot.tweakTag).1 ++ ((C.serX (C.xonly (S.pub kp.inner)).1).1 ++ b)) := by
    intro b e; subst e; rfl
  unfold Keypair.tapTweak bip341SecKey Taproot.toScalar
  rw [← htag, hh _ rfl]
  simp only []
  generalize H ((H Taproot.tweakTag).1 ++ (H Taproot.tweakTag).1 ++ ((C.serX (C.xonly (S.pub kp.inner)).1).1 ++ _)) = h
  have hn : (if (C.xonly (S.pub kp.inner)).2 = true then kp.inner.negate else kp.inner).val =
      if (C.xonly (S.pub kp.inner)).2 = true then ORDER - kp.inner.val else kp.inner.val := by
    have := negate_val kp.inner
    split <;> omega
  by_cases hs : beNat h.1 < ORDER
  · rw [if_pos (show C.taproot.isScalar h = true from decide_eq_true hs), if_neg (show ¬ beNat h.1 ≥ ORDER by omega)]
    simp only [Option.map_map]
    unfold Curve.addXonlyTweak
    rw [← hn]
    obtain ⟨h1, h2⟩ := Bip32.addTweak_eq (if (C.xonly (S.pub kp.inner)).2 = true then kp.inner.negate else kp.inner) (beNat h.1)
    by_cases hz : ((if (C.xonly (S.pub kp.inner)).2 = true then kp.inner.negate else kp.inner).val + beNat h.1) % ORDER = 0
    · rw [h1 hz, if_pos hz]; rfl
    · obtain ⟨k', e1, e2⟩ := h2 hz
      rw [e1, if_neg hz, ← e2]; rfl
  · rw [if_neg (show ¬ C.taproot.isScalar h = true by intro h'; exact hs (of_decide_eq_true h')), if_pos (show beNat h.1 ≥ ORDER by omega)]
    rfl

/-- The parity flag of an internal key, and the sign of an internal secret key, do not matter. -/
theorem C95_sign_free (H : Bytes → Taproot.Hash) (C : Curve S D) (kp : Keypair) (k : XOnlyKey C) (odd : Bool) (root : Option Taproot.Hash) :
    Taproot.tapTweak H (k.withParity odd) root = Taproot.tapTweak H k root ∧
    (Keypair.mk kp.inner.negate).tapTweak H C root = kp.tapTweak H C root := by
  refine ⟨rfl, ?_⟩
  have e1 : ∀ (x y : XOnlyKey C), x.inner = y.inner → Taproot.tweakHash H x root = Taproot.tweakHash H y root := by
    intro x y h; unfold Taproot.tweakHash; rw [h]
  unfold Keypair.tapTweak
  rw [e1 (XOnlyKey.fromKeypair C ⟨kp.inner.negate⟩) (XOnlyKey.fromKeypair C kp) (by
    show (C.xonly (S.pub kp.inner.negate)).1 = _
    rw [C.xonly_negate]; rfl)]
  have e2 : ∀ t, C.addXonlyTweak kp.inner.negate t = C.addXonlyTweak kp.inner t := by
    intro t
    unfold Curve.addXonlyTweak
    rw [C.xonly_negate, negate_negate]
    cases (C.xonly (S.pub kp.inner)).2 <;> rfl
  simp only [e2]

/-! ### Signing -/

/-- Key path: whoever tweaks the key pair with the merkle root of the tree signs for the output key of the tree. -/
theorem C95_key_spend (H : Bytes → Taproot.Hash) (C : Curve S D) (kp : Keypair) (t : Taproot.Tree) (ht : t.height ≤ 128) (h : Arr 32) (ty : Tap) :
    ∃ st, Taproot.runCalls H [] (t.dfs 0) = .ok st ∧
      (kp.tapTweak H C (some (t.root H)) = none → Taproot.finalize H st (XOnlyKey.fromKeypair C kp) = none) ∧
      ∀ kp', kp.tapTweak H C (some (t.root H)) = some kp' →
        ∃ info, Taproot.finalize H st (XOnlyKey.fromKeypair C kp) = some (.ok info) ∧ info.outputKey = XOnlyKey.fromKeypair C kp' ∧
          (signKeySpend C h kp' ty).ty = ty ∧
          XOnlyKey.verify (C := C) info.outputKey h.1 (signKeySpend C h kp' ty) = true ∧
          TapSig.fromSlice (signKeySpend C h kp' ty).toVec = .ok (signKeySpend C h kp' ty) := by
  obtain ⟨st, hst, hm⟩ := Taproot.C50_control_block H C.taproot (XOnlyKey.fromKeypair C kp) t ht
  rw [C95_tap_tweak] at hm
  refine ⟨st, hst, fun hn => ?_, fun kp' hk => ?_⟩
  · rw [hn] at hm; exact hm
  · rw [hk] at hm
    obtain ⟨info, h1, -, h2, -⟩ := hm
    refine ⟨info, h1, h2, rfl, ?_, ?_⟩
    · rw [h2]; exact C.schnorr_ok _ _ _
    · obtain ⟨_, _, _, _, h4⟩ := C60_tap_round_trip (signKeySpend C h kp' ty)
      exact h4

/-- The same without scripts. -/
theorem C95_key_spend_only (H : Bytes → Taproot.Hash) (C : Curve S D) (kp : Keypair) (h : Arr 32) (ty : Tap) :
    (kp.tapTweak H C none = none → Taproot.finalize H [] (XOnlyKey.fromKeypair C kp) = none) ∧
    ∀ kp', kp.tapTweak H C none = some kp' →
      ∃ info, Taproot.finalize H [] (XOnlyKey.fromKeypair C kp) = some (.ok info) ∧ info.outputKey = XOnlyKey.fromKeypair C kp' ∧
        XOnlyKey.verify (C := C) info.outputKey h.1 (signKeySpend C h kp' ty) = true := by
  have he := C95_tap_tweak H C kp none
  have hf : Taproot.finalize H [] (XOnlyKey.fromKeypair C kp) = (Taproot.newKeySpend H (XOnlyKey.fromKeypair C kp) none).map .ok := rfl
  rw [hf]
  unfold Taproot.newKeySpend
  rw [he]
  refine ⟨fun hn => by rw [hn]; rfl, fun kp' hk => ?_⟩
  rw [hk]
  exact ⟨_, rfl, rfl, C.schnorr_ok _ _ _⟩

/-- Script path and ECDSA: the signer's own key verifies, whatever the form of the key. -/
theorem C95_sign_verify (C : Curve S D) (h : Arr 32) (kp : Keypair) (k : PrivateKey) (ty : Tap) (te : Ecdsa) :
    XOnlyKey.verify (XOnlyKey.fromKeypair C kp) h.1 (signScriptSpend C h kp ty) = true ∧ (signScriptSpend C h kp ty).ty = ty ∧
    (k.toLegacyPublicKey S).verify C h (signSighash C h k te) = true ∧ (k.toPublicKey S).verify C h (signSighash C h k te) = true ∧
    (signSighash C h k te).ty = te := by
  refine ⟨C.schnorr_ok _ _ _, rfl, ?_, C.ecdsa_ok _ _, rfl⟩
  obtain ⟨c, x⟩ := k
  cases c <;> exact C.ecdsa_ok _ _

/-! ### The laws can be met -/

/-- Keys below half of the order are the even ones. -/
def ToyX := { k : SecretKey // 2 * k.val < ORDER }
instance : DecidableEq ToyX := inferInstanceAs (DecidableEq { k : SecretKey // 2 * k.val < ORDER })

theorem half (k : SecretKey) (h : ¬ 2 * k.val < ORDER) : 2 * k.negate.val < ORDER := by
  have h1 := negate_val k
  have h2 : ORDER % 2 = 1 := by decide
  omega

theorem not_half (k : SecretKey) (h : 2 * k.val < ORDER) : ¬ 2 * k.negate.val < ORDER := by
  have h1 := negate_val k
  omega

def toyXonly (k : SecretKey) : ToyX × Bool := if h : 2 * k.val < ORDER then (⟨k, h⟩, false) else (⟨k.negate, half k h⟩, true)

def toyDer : Der where
  Sig := Bool
  serialize b := [if b then 1 else 0]
  parse
    | [1] => some true
    | [0] => some false
    | _ => none
  parse_serialize s := by cases s <;> rfl
  serialize_length s := by simp

def toyCurve : Curve Secp.toy toyDer where
  X := ToyX
  dec := inferInstance
  serX x := x.1.bytes
  parseX b := (SecretKey.fromSecretBytes b).bind fun k => if h : 2 * k.val < ORDER then some ⟨k, h⟩ else none
  xonly := toyXonly
  point x odd := if odd then x.1.negate else x.1
  signSchnorr m aux k := ⟨(toyXonly k).1.1.bytes.1 ++ (aux.getD ⟨List.replicate 32 0, rfl⟩).1, by
    rw [List.length_append, (toyXonly k).1.1.bytes.2, (aux.getD _).2]⟩
  verifySchnorr s _ x := s.1.take 32 == x.1.bytes.1
  signEcdsa _ _ := true
  verifyEcdsa s _ _ := s
  parse_serX x := by
    have : SecretKey.fromSecretBytes x.1.bytes = some x.1 := by
      unfold SecretKey.fromSecretBytes
      rw [dif_pos ⟨x.1.pos, x.1.lt⟩]
    rw [this]
    simp only [Option.bind_some, dif_pos x.2]
    rfl
  serX_parse b x h := by
    unfold SecretKey.fromSecretBytes at h
    by_cases hb : 0 < beNat b.1 ∧ beNat b.1 < ORDER
    · rw [dif_pos hb] at h
      simp only [Option.bind_some] at h
      split at h
      · cases h; rfl
      · cases h
    · rw [dif_neg hb] at h; cases h
  point_xonly p := by
    show (if (toyXonly p).2 then (toyXonly p).1.1.negate else (toyXonly p).1.1) = p
    unfold toyXonly
    by_cases h : 2 * p.val < ORDER
    · rw [dif_pos h]; rfl
    · rw [dif_neg h]; exact negate_negate p
  xonly_point x odd := by
    show toyXonly (if odd then x.1.negate else x.1) = (x, odd)
    unfold toyXonly
    cases odd with
    | false => exact dif_pos x.2
    | true =>
      refine (dif_neg (not_half _ x.2)).trans ?_
      exact Prod.ext (Subtype.ext (negate_negate x.1)) rfl
  xonly_negate k := by
    show toyXonly k.negate = ((toyXonly k).1, !(toyXonly k).2)
    unfold toyXonly
    by_cases h : 2 * k.val < ORDER
    · rw [dif_pos h, dif_neg (not_half k h)]
      exact Prod.ext (Subtype.ext (negate_negate k)) rfl
    · rw [dif_neg h, dif_pos (half k h)]
      rfl
  schnorr_ok m aux k := by
    have : ((toyXonly k).1.1.bytes.1 ++ (aux.getD ⟨List.replicate 32 0, rfl⟩ : Arr 32).1).take 32 = (toyXonly k).1.1.bytes.1 := by
      rw [List.take_append_of_le_length (by rw [(toyXonly k).1.1.bytes.2]; omega), List.take_of_length_le (by rw [(toyXonly k).1.1.bytes.2]; omega)]
    simp only [this]
    exact beq_self_eq_true _
  ecdsa_ok _ _ := rfl

/-- The key 2 has even y here, the key of the order minus 2 odd; both are tweaked to the same key, the first plus the hash 5. -/
def five : Arr 32 := ⟨List.replicate 31 0 ++ [5], rfl⟩
def two : SecretKey := ⟨⟨List.replicate 31 0 ++ [2], rfl⟩, by decide, by decide⟩
example : (Keypair.mk two).tapTweak (fun _ => five) toyCurve none = (Keypair.mk two.negate).tapTweak (fun _ => five) toyCurve none ∧
    ((Keypair.mk two).tapTweak (fun _ => five) toyCurve none).map (·.inner.val) = some 7 := by decide +kernel
example : (toyXonly two).2 = false ∧ (toyXonly two.negate).2 = true := by decide +kernel
example : (Taproot.Tree.leaf (.script [0x51] .tapScript)).height ≤ 128 ∧
    (Keypair.mk two.negate).tapTweak (fun _ => five) toyCurve (some ((Taproot.Tree.leaf (.script [0x51] .tapScript)).root fun _ => five)) ≠ none := by
  decide +kernel

end Btc.Crypto
