import Verif.Serde.Text
import Verif.Props.C93
import Verif.Props.C54
import Verif.Props.C55
import Verif.Props.C71
import Verif.Props.C72
import Verif.Props.C75
/-!
# C94: networks, addresses, keys, paths and signatures in serde's data formats

`F` ranges over all data formats that keep serde's contract, text and binary.
-/
namespace Btc.Serde
open Crypto Bip32
open Pow (Network)
open B58 (Text58)

theorem deText_str {α : Type} (parse : Bytes → Option α) (F : Fmt) (s : Bytes) (x : α) :
    deText parse F (.str s) = .ok x ↔ parse s = some x := by
  unfold deText
  rw [visit_fit rfl]
  simp only [canon]
  cases parse s <;> simp [ofOpt]

theorem deTextOrBytes_str {α : Type} (parse : Bytes → Option α) (F : Fmt) (s : Bytes) (x : α) :
    deTextOrBytes parse F (.str s) = .ok x ↔ parse s = some x := by
  unfold deTextOrBytes
  rw [visit_fit rfl]
  simp only [canon]
  cases parse s <;> simp [ofOpt]

theorem toOpt_some {ε α : Type} (r : Except ε α) (x : α) : toOpt r = some x ↔ r = .ok x := by
  cases r <;> simp [toOpt]

/-! ### By text -/

/-- Networks: exactly the five names are read, in either vocabulary. -/
theorem C94_network (F : Fmt) (n : Network) :
    deNetwork F (serNetwork n) = .ok n ∧ deCoreArg F (serCoreArg n) = .ok n ∧
    (∀ s, deNetwork F (.str s) = .ok n ↔ s = Net.display n) ∧ (∀ s, deCoreArg F (.str s) = .ok n ↔ s = Net.toCoreArg n) := by
  have h1 : ∀ s, deNetwork F (.str s) = .ok n ↔ s = Net.display n := fun s => (deText_str _ F s n).trans (Addr.C75_network_text s n).1
  have h2 : ∀ s, deCoreArg F (.str s) = .ok n ↔ s = Net.toCoreArg n := fun s => (deText_str _ F s n).trans (Addr.C75_network_text s n).2.1
  exact ⟨(h1 _).2 rfl, (h2 _).2 rfl, h1, h2⟩

theorem C94_kind (F : Fmt) (k : NetworkKind) : deKind F (serKind k) = .ok k := by
  unfold deKind
  cases k with
  | main => rw [serKind, visit_fit (by rfl)]; rfl
  | test => rw [serKind, visit_fit (by rfl)]; rfl

/-- Addresses: an address is read back, and a text is read as an address exactly if it is a text of it. -/
theorem C94_address (D : Bytes → Arr 32) (F : Fmt) (a : Addr.Address) :
    (a.Valid → ∃ v, serAddress D a = some v ∧ deAddress D F v = .ok a) ∧
    (∀ s, deAddress D F (.str s) = .ok a ↔ a.Valid ∧ ∃ u, Addr.IsText D u a s) := by
  have h : ∀ s, deAddress D F (.str s) = .ok a ↔ a.Valid ∧ ∃ u, Addr.IsText D u a s := fun s =>
    (deText_str _ F s a).trans ((toOpt_some _ a).trans (Addr.C75_parse D s a))
  refine ⟨fun hv => ?_, h⟩
  obtain ⟨t, h1, h2⟩ := Addr.C75_round_trip D false a hv
  exact ⟨.str t, by unfold serAddress; rw [h1]; rfl, (deText_str _ F t a).2 ((toOpt_some _ a).2 h2)⟩

/-- Extended keys.  `MasterOk` is what BIP-32 asks of keys of depth zero. -/
theorem C94_xkeys {S : Crypto.Secp} (H : Bytes → Arr 32) (F : Fmt) (k : Xpriv) (p : Xpub S) :
    (MasterOk k.depth k.parentFingerprint k.childNumber → ∃ v, serXpriv H k = some v ∧ deXpriv H F v = .ok k) ∧
    (MasterOk p.depth p.parentFingerprint p.childNumber → ∃ v, serXpub H p = some v ∧ deXpub H F v = .ok p) ∧
    (∀ s, deXpriv H F (.str s) = .ok k ↔ Text58 (privBytes k ++ (H (privBytes k)).val.take 4) s ∧ MasterOk k.depth k.parentFingerprint k.childNumber) ∧
    (∀ s, deXpub H F (.str s) = .ok p ↔ Text58 (pubBytes p ++ (H (pubBytes p)).val.take 4) s ∧ MasterOk p.depth p.parentFingerprint p.childNumber) := by
  have h1 : ∀ s, deXpriv H F (.str s) = .ok k ↔ Xpriv.parse H s = .ok k := fun s => (deText_str _ F s k).trans (toOpt_some _ k)
  have h2 : ∀ s, deXpub H F (.str s) = .ok p ↔ Xpub.parse H s = .ok p := fun s => (deText_str _ F s p).trans (toOpt_some _ p)
  refine ⟨fun hm => ?_, fun hm => ?_, fun s => (h1 s).trans (C72_parse H s k p).1, fun s => (h2 s).trans (C72_parse H s k p).2⟩
  · obtain ⟨_, t, e1, e2⟩ := (C72_roundtrip H k p).1 hm
    exact ⟨.str t, by unfold serXpriv; rw [e1]; rfl, (h1 t).2 e2⟩
  · obtain ⟨_, t, e1, e2⟩ := (C72_roundtrip H k p).2 hm
    exact ⟨.str t, by unfold serXpub; rw [e1]; rfl, (h2 t).2 e2⟩

theorem C94_paths (F : Fmt) (p : RelPath) (q : AbsPath) :
    deRelPath F (serRelPath p) = .ok p ∧ deAbsPath F (serAbsPath q) = .ok q ∧
    (∀ s, deRelPath F (.str s) = .ok p ↔ ∃ ps, Texts ps p ∧ s = slashed ps) ∧
    (∀ s, deAbsPath F (.str s) = .ok q ↔ ∃ ps, Texts ps q.rel ∧ s = 109 :: (ps.map (47 :: ·)).flatten) := by
  have h1 : ∀ s, deRelPath F (.str s) = .ok p ↔ RelPath.parse s = .ok p := fun s => (deText_str _ F s p).trans (toOpt_some _ p)
  have h2 : ∀ s, deAbsPath F (.str s) = .ok q ↔ AbsPath.parse s = .ok q := fun s => (deText_str _ F s q).trans (toOpt_some _ q)
  exact ⟨(h1 _).2 (C54_path_roundtrip false p q).1, (h2 _).2 (C54_path_roundtrip false p q).2,
    fun s => (h1 s).trans (C54_relative_parse s p), fun s => (h2 s).trans (C54_absolute_parse s q)⟩

theorem ofUtf8_utf8 (s : String) : ofUtf8 (utf8 s) = some s := by
  unfold ofUtf8 utf8
  show String.fromUTF8? s.toByteArray = some s
  unfold String.fromUTF8?
  rw [dif_pos (by simp [String.isValidUTF8])]
  rfl

/-- Sighash types: exactly the printed names are read. -/
theorem C94_sighash (F : Fmt) (t : Ecdsa) (u : Tap) :
    deEcdsaType F (serEcdsaType t) = .ok t ∧ deTapType F (serTapType u) = .ok u ∧
    (∀ s : String, deEcdsaType F (.str (utf8 s)) = .ok t ↔ s = t.display) ∧
    (∀ s : String, deTapType F (.str (utf8 s)) = .ok u ↔ s = u.display) := by
  have h1 : ∀ s : String, deEcdsaType F (.str (utf8 s)) = .ok t ↔ s = t.display := fun s => by
    refine (deText_str _ F _ t).trans ?_
    rw [ofUtf8_utf8, Option.bind_some, toOpt_some, C55_ecdsa_text]
  have h2 : ∀ s : String, deTapType F (.str (utf8 s)) = .ok u ↔ s = u.display := fun s => by
    refine (deText_str _ F _ u).trans ?_
    rw [ofUtf8_utf8, Option.bind_some, toOpt_some, C55_tap_text]
  exact ⟨(h1 _).2 rfl, (h2 _).2 rfl, h1, h2⟩

/-! ### Keys -/

theorem C94_wif (H : Bytes → Arr 32) (F : Fmt) (w : WifKey) :
    (∃ v, serWif H w = some v ∧ deWif H F v = .ok w) ∧
    (∀ s, deWif H F (.str s) = .ok w ↔ Text58 (wifBytes w ++ (H (wifBytes w)).val.take 4) s) := by
  have h : ∀ s, deWif H F (.str s) = .ok w ↔ WifKey.fromWif H s = .ok w := fun s => (deTextOrBytes_str _ F s w).trans (toOpt_some _ w)
  refine ⟨?_, fun s => (h s).trans (C71_wif_parse H s w)⟩
  obtain ⟨t, h1, h2⟩ := C71_wif_roundtrip H w
  exact ⟨.str t, by unfold serWif; rw [h1]; rfl, (h t).2 h2⟩

/-- Public keys: a key is read back, compressed or not as it was; text formats read exactly the hex forms of its serialization, binary formats
exactly the serialization. -/
theorem C94_public_keys {S : Crypto.Secp} (F : Fmt) (k : LegacyPublicKey S) (l : FullPublicKey S) :
    deLegacy F (serLegacy F k) = .ok k ∧ deFull F (serFull F l) = .ok l ∧
    (F.human = true → ∀ s, (deLegacy F (.str s) = .ok k ↔ unhex s = some k.serialize) ∧ (deFull F (.str s) = .ok l ↔ unhex s = some l.toBytes)) ∧
    (F.human = false → ∀ b, (deLegacy F (.bytes b) = .ok k ↔ b = k.serialize) ∧ (deFull F (.bytes b) = .ok l ↔ b = l.toBytes)) := by
  have h1 : F.human = true → ∀ s, (deLegacy F (.str s) = .ok k ↔ unhex s = some k.serialize) ∧ (deFull F (.str s) = .ok l ↔ unhex s = some l.toBytes) := by
    intro hh s
    unfold deLegacy deFull
    rw [if_pos hh, if_pos hh]
    exact ⟨(deTextOrBytes_str _ F s k).trans ((toOpt_some _ k).trans (C71_public_text s k).2),
      (deTextOrBytes_str _ F s l).trans (C71_full (l.toLegacy.inner |> S.ser) s l k).2.1⟩
  have h2 : F.human = false → ∀ b, (deLegacy F (.bytes b) = .ok k ↔ b = k.serialize) ∧ (deFull F (.bytes b) = .ok l ↔ b = l.toBytes) := by
    intro hh b
    unfold deLegacy deFull
    rw [if_neg (by simp [hh]), if_neg (by simp [hh]), visit_fit (by simp [fits, hh])]
    simp only [canon]
    constructor
    · rw [← C71_public b k]
      cases (LegacyPublicKey.fromSlice b : Except _ (LegacyPublicKey S)) <;> simp [ofExcept]
    · by_cases hl : b.length = 33
      · rw [dif_pos hl, ← (C71_full ⟨b, hl⟩ [] l k).1]
        cases (FullPublicKey.fromBytes ⟨b, hl⟩ : Option (FullPublicKey S)) <;> simp [ofOpt]
      · rw [dif_neg hl]
        simp only [reduceCtorEq, false_iff]
        rintro rfl
        exact hl (S.ser _).2
  refine ⟨?_, ?_, h1, h2⟩
  · unfold serLegacy
    cases hh : F.human with
    | true => rw [if_pos rfl]; exact (h1 hh _).1.2 (unhex_hexBytes _)
    | false => rw [if_neg (by simp)]; exact (h2 hh _).1.2 rfl
  · unfold serFull
    cases hh : F.human with
    | true => rw [if_pos rfl]; exact (h1 hh _).2.2 (unhex_hexBytes _)
    | false => rw [if_neg (by simp)]; exact (h2 hh _).2.2 rfl

theorem C94_keypair {α : Type} (K : Codec α) (F : Fmt) (k : α) : deKeypair K F (serKeypair K F k) = .ok k := by
  unfold deKeypair serKeypair
  rw [deNewtype_ser, K.law]

/-! ### Signatures -/

theorem C94_signatures {D : Der} (K : Codec (Arr 64)) (L : Codec D.Sig) (F : Fmt) (s : TapSig) (t : EcdsaSig D) :
    deTapSig K F (serTapSig K F s) = .ok s ∧ deEcdsaSig L F (serEcdsaSig L F t) = .ok t := by
  constructor
  · unfold deTapSig serTapSig
    rw [show sigNames = ([(Net.str "signature", K.ser F s.sig), (Net.str "sighash_type", serTapType s.ty)] : List (Bytes × SVal)).map (·.1) from rfl]
    rw [deStruct_ser F _ (by show sigNames.Nodup; decide)]
    simp only [List.map_cons, List.map_nil, K.law, (C94_sighash F .all s.ty).2.1]
  · unfold deEcdsaSig serEcdsaSig
    rw [show sigNames = ([(Net.str "signature", L.ser F t.sig), (Net.str "sighash_type", serEcdsaType t.ty)] : List (Bytes × SVal)).map (·.1) from rfl]
    rw [deStruct_ser F _ (by show sigNames.Nodup; decide)]
    simp only [List.map_cons, List.map_nil, L.law, (C94_sighash F t.ty .all).1]

/-! ### Examples -/

example : deNetwork jsonLike (.str (Net.str "testnet4")) = .ok .testnet4 ∧ deNetwork jsonLike (.str (Net.str "test")) = .error .refused ∧
    deCoreArg jsonLike (.str (Net.str "test")) = .ok .testnet3 := by
  refine ⟨((C94_network jsonLike .testnet4).2.2.1 _).2 rfl, rfl, ((C94_network jsonLike .testnet3).2.2.2 _).2 rfl⟩
example : deKind (strict false false) (.unitVariant 1 (Net.str "Test")) = .ok .test ∧
    deKind (strict false false) (.unitVariant 0 (Net.str "Test")) = .error .refused := ⟨rfl, rfl⟩
example : deRelPath jsonLike (.str (Net.str "0h/1")) = .ok [⟨0x80000000⟩, ⟨1⟩] := by
  exact (deText_str _ _ _ _).2 (by decide +kernel)
example : ∃ k : Xpriv, MasterOk k.depth k.parentFingerprint k.childNumber ∧ k.depth = 1 :=
  ⟨⟨.main, 1, ⟨[1, 2, 3, 4], rfl⟩, ⟨7⟩, ⟨⟨List.replicate 31 0 ++ [1], by simp⟩, by decide, by decide⟩, ⟨List.replicate 32 0, by simp⟩⟩, fun h => absurd h (by decide), rfl⟩
example : ∃ a : Addr.Address, a.Valid := ⟨.p2pkh ⟨List.replicate 20 0, by simp⟩ .main, trivial⟩
/-- Stand-in for `secp256k1::schnorr::Signature`. -/
def toySig : Codec (Arr 64) := ⟨fun F s => serHash false F s, fun F v => deHash false 64 F v, fun F x => C91_hash false F x⟩
example : ∃ s : TapSig, s.ty = .singleAcp ∧ deTapSig toySig jsonLike (serTapSig toySig jsonLike s) = .ok s :=
  ⟨⟨⟨List.replicate 64 1, by simp⟩, .singleAcp⟩, rfl, by
    have := (C94_signatures (D := ⟨Unit, fun _ => [], fun _ => some (), fun _ => rfl, fun _ => by simp⟩) toySig
      ⟨fun _ _ => .none, fun _ _ => .ok (), fun _ _ => rfl⟩ jsonLike ⟨⟨List.replicate 64 1, by simp⟩, .singleAcp⟩ ⟨(), .all⟩).1
    exact this⟩

end Btc.Serde
