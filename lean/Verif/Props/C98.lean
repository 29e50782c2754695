import Verif.Bitcoin.SignTx
import Verif.Props.C50Bip341
import Verif.Props.C56
import Verif.Props.C74
import Verif.Props.C81
import Verif.Props.C95
/-!
# C98: what the library signs, a node accepts

The specification is about bytes: the script of the spent output, the script signature and the witness elements of the input, and the
messages of the original algorithm, BIP-143 and BIP-341 for the SIGNED transaction.  The consensus rules for the scripts used here are
written as the conditions under which they succeed (script evaluation in general is not modelled).
-/
namespace Btc
namespace SignTx
open Crypto
open Taproot (Hash)
open Sighash (Cache SameSigned Good good_new)

variable {S : Secp} {D : Der}

/-! ## Acceptance -/

/-- A push of 1 to 75 bytes. -/
def pushed (d : Bytes) : Bytes := UInt8.ofNat d.length :: d

/-- OP_CHECKSIG on an ECDSA signature: the last byte is the hash type. -/
def EcdsaOk (C : Curve S D) (digest : UInt32 → Hash) (pk sig : Bytes) : Prop :=
  ∃ (der : Bytes) (ty : UInt8) (p : S.Point) (s : D.Sig), sig = der ++ [ty] ∧ ty ∈ ([0x01, 0x02, 0x03, 0x81, 0x82, 0x83] : Bytes) ∧
    S.fromSlice pk = some p ∧ D.parse der = some s ∧ C.verifyEcdsa s (digest ty.toUInt32) p = true

/-- BIP-341's signature check: 64 bytes for the default type, 65 with any other; no digest if SINGLE lacks its output. -/
def SchnorrOk (C : Curve S D) (digest : UInt8 → Option Hash) (x : Arr 32) (sig : Bytes) : Prop :=
  ∃ (X : C.X) (s : Arr 64) (ty : UInt8) (m : Hash), C.parseX x = some X ∧
    ((sig = s.1 ∧ ty = 0) ∨ (sig = s.1 ++ [ty] ∧ ty ∈ ([0x01, 0x02, 0x03, 0x81, 0x82, 0x83] : Bytes))) ∧
    digest ty = some m ∧ C.verifySchnorr s m.1 X = true

/-- OP_CHECKMULTISIG: each signature is for a later key than the one before. -/
inductive Matches (ok : Bytes → Bytes → Prop) : List Bytes → List Bytes → Prop
  | nil (ks) : Matches ok ks []
  | hit (k ks s ss) : ok k s → Matches ok ks ss → Matches ok (k :: ks) (s :: ss)
  | skip (k ks ss) : Matches ok ks ss → Matches ok (k :: ks) ss

/-- The digest of the original algorithm. -/
def legacyDigest (H : Bytes → Hash) (tx : Tx) (i : Nat) (code : Bytes) (ty : UInt32) : Hash :=
  if ty &&& 0x1f = 3 ∧ i ≥ tx.outputs.length then ⟨1 :: List.replicate 31 0, by simp⟩ else H (H (Sighash.legacyMsg tx i code ty)).1

/-- The digest of BIP-143. -/
def v0Digest (H : Bytes → Hash) (tx : Tx) (i : Nat) (txin : TxIn) (own : TxOut) (code : Bytes) (ty : UInt32) : Hash :=
  H (H (Sighash.bip143 H tx i txin code own.amount ty)).1

/-- The digest of BIP-341, without annex. -/
def tapDigest (H : Bytes → Hash) (tx : Tx) (i : Nat) (txin : TxIn) (spent : List TxOut) (own : TxOut) (ext : Option (Hash × UInt32)) (ty : UInt8) :
    Option Hash :=
  let tag := (H "TapSighash".toUTF8.data.toList).1
  if ty &&& 3 = 3 ∧ i ≥ tx.outputs.length then none else some (H (tag ++ tag ++ Sighash.bip341 H tx i txin spent own none ext ty))

/-- A witness `stack` spends the witness program `program` of a version. -/
inductive ProgramOk (H : Bytes → Hash) (H160 : Bytes → Arr 20) (C : Curve S D) (tx : Tx) (i : Nat) (txin : TxIn) (spent : List TxOut) (own : TxOut) :
    Nat → Bytes → List Bytes → Prop
  /-- BIP-141, P2WPKH. -/
  | wpkh (sig pk : Bytes) : pk.length = 33 → sig.length ≤ 520 →
      EcdsaOk C (v0Digest H tx i txin own ([0x76, 0xa9, 0x14] ++ (H160 pk).1 ++ [0x88, 0xac])) pk sig →
      ProgramOk H H160 C tx i txin spent own 0 (H160 pk).1 [sig, pk]
  /-- BIP-141, P2WSH, for a script `m key .. key n OP_CHECKMULTISIG`. -/
  | wsh (m : Nat) (keys sigs : List Bytes) (script : Bytes) : 1 ≤ m → m ≤ keys.length → keys.length ≤ 16 → (∀ k ∈ keys, k.length = 33) →
      script = [UInt8.ofNat (0x50 + m)] ++ keys.flatMap pushed ++ [UInt8.ofNat (0x50 + keys.length), 0xae] →
      sigs.length = m → (∀ s ∈ sigs, s.length ≤ 520) → Matches (EcdsaOk C (v0Digest H tx i txin own script)) keys sigs →
      ProgramOk H H160 C tx i txin spent own 0 (H script).1 ([] :: sigs ++ [script])
  /-- BIP-341, key path. -/
  | trKey (q : Arr 32) (sig : Bytes) : SchnorrOk C (tapDigest H tx i txin spent own none) q sig →
      ProgramOk H H160 C tx i txin spent own 1 q.1 [sig]
  /-- BIP-341, script path, for a script `key OP_CHECKSIG` of leaf version `0xc0` (BIP-342). -/
  | trScript (q key : Arr 32) (Q : C.X) (sig script : Bytes) (c0 : UInt8) (c : Bytes) (leaf : Hash) : C.parseX q = some Q → c0 &&& 0xfe = 0xc0 →
      Taproot.Bip341.valid H C.taproot Q (c0 :: c) script = true → script = pushed key.1 ++ [0xac] →
      leaf.1 = Taproot.Bip341.leaf H 0xc0 script →
      SchnorrOk C (tapDigest H tx i txin spent own (some (leaf, 0xFFFFFFFF))) key sig →
      ProgramOk H H160 C tx i txin spent own 1 q.1 [sig, script, c0 :: c]

/-- Input `i` of `tx` spends the output `spent[i]`. -/
inductive Spends (H : Bytes → Hash) (H160 : Bytes → Arr 20) (C : Curve S D) (tx : Tx) (spent : List TxOut) (i : Nat) : Prop
  | p2pkh (txin : TxIn) (own : TxOut) (sig pk : Bytes) : tx.inputs[i]? = some txin → spent[i]? = some own →
      own.spk = [0x76, 0xa9, 0x14] ++ (H160 pk).1 ++ [0x88, 0xac] → txin.scriptSig = pushed sig ++ pushed pk →
      1 ≤ sig.length → sig.length ≤ 75 → 1 ≤ pk.length → pk.length ≤ 75 → txin.witness.toVec = some [] →
      EcdsaOk C (legacyDigest H tx i own.spk) pk sig → Spends H H160 C tx spent i
  | native (txin : TxIn) (own : TxOut) (version : Nat) (program : Bytes) (stack : List Bytes) : tx.inputs[i]? = some txin → spent[i]? = some own →
      own.spk = [if version = 0 then 0 else UInt8.ofNat (0x50 + version)] ++ pushed program → txin.scriptSig = [] →
      txin.witness.toVec = some stack → ProgramOk H H160 C tx i txin spent own version program stack → Spends H H160 C tx spent i
  | nested (txin : TxIn) (own : TxOut) (version : Nat) (program redeem : Bytes) (stack : List Bytes) : tx.inputs[i]? = some txin →
      spent[i]? = some own → own.spk = [0xa9, 0x14] ++ (H160 redeem).1 ++ [0x87] →
      redeem = [if version = 0 then 0 else UInt8.ofNat (0x50 + version)] ++ pushed program → txin.scriptSig = pushed redeem →
      txin.witness.toVec = some stack → version = 0 → ProgramOk H H160 C tx i txin spent own version program stack → Spends H H160 C tx spent i

/-! ## The program -/

/-- What the program needs to know to be able to sign: enough signers in the order of the keys; a leaf of the tree; for SINGLE in taproot,
the output. -/
def Lock.Usable {C : Curve S D} (tx : Tx) (i : Nat) : Lock C → Prop
  | .p2wshMultisig keys signers _ => 1 ≤ signers.length ∧ keys.length ≤ 16 ∧ (signers.map (·.toPublicKey S)).Sublist keys
  | .p2trKey _ tree ty => (∀ t, tree = some t → t.height ≤ 128) ∧ (ty = .single ∨ ty = .singleAcp → i < tx.outputs.length)
  | .p2trScript _ tree k ty => tree.height ≤ 128 ∧ (leafScript (XOnlyKey.fromKeypair C k), .tapScript) ∈ tree.scripts ∧
      (ty = .single ∨ ty = .singleAcp → i < tx.outputs.length)
  | _ => True

/-- The input with what is stored into it. -/
def fillIn (f : Fill) (x : TxIn) : TxIn := { x with scriptSig := f.1.getD x.scriptSig, witness := f.2.getD x.witness }

section
variable (H : Bytes → Hash) (H160 : Bytes → Arr 20) {C : Curve S D} (P : List TxOut)

theorem legacy_same {c : Cache} {tx tx0 : Tx} (hg : Good H tx P c) (hs : SameSigned tx tx0) (i : Nat) (spk : Bytes) (n : UInt32) :
    Sighash.legacyHash H c i spk n = Sighash.legacyHash H (Cache.new tx0) i spk n := by
  have hk : SameSigned c.tx (Cache.new tx0).tx := by rw [hg.same]; exact hs
  simp only [Sighash.legacyHash, hk.legacyEncode]

theorem p2wsh_same {c : Cache} {tx tx0 : Tx} (hg : Good H tx P c) (hs : SameSigned tx tx0) (i : Nat) (ws : Bytes) (a : Amount) (ty : Ecdsa) :
    Good H tx P (Sighash.p2wshHash H c i ws a ty).1 ∧ (Sighash.p2wshHash H c i ws a ty).2 = (Sighash.p2wshHash H (Cache.new tx0) i ws a ty).2 := by
  refine ⟨(Sighash.segwitEncode_denotes (H := H) (sink := Sighash.vecSink) i ws a ty ⟨c, []⟩ hg).1, ?_⟩
  have := (Sighash.call_good H P tx tx0 c hg hs (.p2wsh i ws a ty) trivial).2
  exact Sighash.Res.p2wsh.inj this

theorem p2wpkh_same {c : Cache} {tx tx0 : Tx} (hg : Good H tx P c) (hs : SameSigned tx tx0) (i : Nat) (spk : Bytes) (a : Amount) (ty : Ecdsa) :
    Good H tx P (Sighash.p2wpkhHash H c i spk a ty).1 ∧ (Sighash.p2wpkhHash H c i spk a ty).2 = (Sighash.p2wpkhHash H (Cache.new tx0) i spk a ty).2 := by
  constructor
  · unfold Sighash.p2wpkhHash
    cases Scr.p2wpkhScriptCode spk with
    | none => exact hg
    | some o => cases o with
      | none => exact hg
      | some code => exact (Sighash.segwitEncode_denotes (H := H) (sink := Sighash.vecSink) i code a ty ⟨c, []⟩ hg).1
  · have := (Sighash.call_good H P tx tx0 c hg hs (.p2wpkh i spk a ty) trivial).2
    exact Sighash.Res.p2wpkh.inj this

theorem tap_same {c : Cache} {tx tx0 : Tx} (hg : Good H tx P c) (hs : SameSigned tx tx0) (i : Nat) (leaf : Hash) (ty : Tap) :
    (Good H tx P (Sighash.tapKeyHash H c i (.all P) ty).1 ∧
      (Sighash.tapKeyHash H c i (.all P) ty).2 = (Sighash.tapKeyHash H (Cache.new tx0) i (.all P) ty).2) ∧
    Good H tx P (Sighash.tapScriptHash H c i (.all P) leaf ty).1 ∧
      (Sighash.tapScriptHash H c i (.all P) leaf ty).2 = (Sighash.tapScriptHash H (Cache.new tx0) i (.all P) leaf ty).2 := by
  have hP : ty.splitAcp.2 = false → ∀ l, Sighash.Prevouts.all P = .all l → l.length = tx.inputs.length → l = P := by
    intro _ l e _; exact (Sighash.Prevouts.all.inj e).symm
  have hP' : ty.toU8 < 0x80 → ∀ l, Sighash.Prevouts.all P = .all l → l.length = tx0.inputs.length → l = P := by
    intro _ l e _; exact (Sighash.Prevouts.all.inj e).symm
  refine ⟨⟨(Sighash.tapEncode_denotes (H := H) (sink := Sighash.vecSink) i _ none none ty hP ⟨c, []⟩ hg).1, ?_⟩,
    (Sighash.tapEncode_denotes (H := H) (sink := Sighash.vecSink) i _ none _ ty hP ⟨c, []⟩ hg).1, ?_⟩
  · exact Sighash.Res.tap.inj (Sighash.call_good H P tx tx0 c hg hs (.tapKey i (.all P) ty) hP').2
  · exact Sighash.Res.tap.inj (Sighash.call_good H P tx tx0 c hg hs (.tapScript i (.all P) leaf ty) hP').2

/-- What is prepared depends on the signed parts only, and preparing leaves the transaction as it is. -/
theorem prepare_same {c : Cache} {tx tx0 : Tx} (hg : Good H tx P c) (hs : SameSigned tx tx0) (own : TxOut) (i : Nat) (l : Lock C) :
    Good H tx P (prepare H H160 P own i c l).1 ∧ (prepare H H160 P own i c l).2 = (prepare H H160 P own i (Cache.new tx0) l).2 := by
  cases l with
  | p2pkh k ty =>
    simp only [prepare]
    rw [legacy_same H P hg hs]
    cases Sighash.legacyHash H (Cache.new tx0) i own.spk ty.toU32 with
    | none => exact ⟨hg, rfl⟩
    | some r => cases r with
      | error e => exact ⟨hg, rfl⟩
      | ok h =>
        simp only []
        cases (signSighash C h k ty).serialize.bind EcdsaSer.bytes <;> exact ⟨hg, rfl⟩
  | p2wpkh k ty =>
    obtain ⟨h1, h2⟩ := p2wpkh_same H P hg hs i own.spk own.amount ty
    simp only [prepare]
    generalize Sighash.p2wpkhHash H c i own.spk own.amount ty = x at h1 h2
    generalize Sighash.p2wpkhHash H (Cache.new tx0) i own.spk own.amount ty = y at h2
    obtain ⟨x1, x2⟩ := x
    obtain ⟨y1, y2⟩ := y
    simp only at h1 h2
    subst h2
    cases x2 with
    | none => exact ⟨h1, rfl⟩
    | some r => cases r <;> exact ⟨h1, rfl⟩
  | p2shP2wpkh k ty =>
    obtain ⟨h1, h2⟩ := p2wpkh_same H P hg hs i (Scr.newP2wpkh (H160 (k.toPublicKey S).toBytes)) own.amount ty
    simp only [prepare]
    generalize Sighash.p2wpkhHash H c i (Scr.newP2wpkh (H160 (k.toPublicKey S).toBytes)) own.amount ty = x at h1 h2
    generalize Sighash.p2wpkhHash H (Cache.new tx0) i (Scr.newP2wpkh (H160 (k.toPublicKey S).toBytes)) own.amount ty = y at h2
    obtain ⟨x1, x2⟩ := x
    obtain ⟨y1, y2⟩ := y
    simp only at h1 h2
    subst h2
    cases x2 with
    | none => exact ⟨h1, rfl⟩
    | some r => cases r <;> exact ⟨h1, rfl⟩
  | p2wshMultisig keys signers ty =>
    simp only [prepare]
    cases multisigScript signers.length keys with
    | none => exact ⟨hg, rfl⟩
    | some script =>
      obtain ⟨h1, h2⟩ := p2wsh_same H P hg hs i script own.amount ty
      simp only []
      generalize Sighash.p2wshHash H c i script own.amount ty = x at h1 h2
      generalize Sighash.p2wshHash H (Cache.new tx0) i script own.amount ty = y at h2
      obtain ⟨x1, x2⟩ := x
      obtain ⟨y1, y2⟩ := y
      simp only at h1 h2
      subst h2
      cases x2 with
      | none => exact ⟨h1, rfl⟩
      | some r => cases r <;> exact ⟨h1, rfl⟩
  | p2trKey kp tree ty =>
    simp only [prepare]
    cases spendInfo H (XOnlyKey.fromKeypair C kp) tree with
    | none => exact ⟨hg, rfl⟩
    | some info =>
      obtain ⟨⟨h1, h2⟩, -⟩ := tap_same H P hg hs i ⟨List.replicate 32 0, by simp⟩ ty
      simp only []
      generalize Sighash.tapKeyHash H c i (.all P) ty = x at h1 h2
      generalize Sighash.tapKeyHash H (Cache.new tx0) i (.all P) ty = y at h2
      obtain ⟨x1, x2⟩ := x
      obtain ⟨y1, y2⟩ := y
      simp only at h1 h2
      subst h2
      cases x2 with
      | none => exact ⟨h1, rfl⟩
      | some r => cases r with
        | error e => exact ⟨h1, rfl⟩
        | ok h =>
          simp only []
          cases kp.tapTweak H C info.merkleRoot <;> exact ⟨h1, rfl⟩
  | p2trScript internal tree k ty =>
    simp only [prepare]
    cases spendInfo H internal (some tree) with
    | none => exact ⟨hg, rfl⟩
    | some info =>
      simp only []
      cases Taproot.controlBlock info (leafScript (XOnlyKey.fromKeypair C k), .tapScript) with
      | none => exact ⟨hg, rfl⟩
      | some o => cases o with
        | none => exact ⟨hg, rfl⟩
        | some cb =>
          obtain ⟨-, h1, h2⟩ := tap_same H P hg hs i (Taproot.leafHash H (leafScript (XOnlyKey.fromKeypair C k)) .tapScript) ty
          simp only []
          generalize Sighash.tapScriptHash H c i (.all P) (Taproot.leafHash H (leafScript (XOnlyKey.fromKeypair C k)) .tapScript) ty = x at h1 h2
          generalize Sighash.tapScriptHash H (Cache.new tx0) i (.all P) (Taproot.leafHash H (leafScript (XOnlyKey.fromKeypair C k)) .tapScript) ty = y at h2
          obtain ⟨x1, x2⟩ := x
          obtain ⟨y1, y2⟩ := y
          simp only at h1 h2
          subst h2
          cases x2 with
          | none => exact ⟨h1, rfl⟩
          | some r => cases r <;> exact ⟨h1, rfl⟩

/-- Storing into input `i`. -/
def filled (tx : Tx) (i : Nat) (f : Fill) : Tx := { tx with inputs := tx.inputs.modify i (fillIn f) }

theorem sameSigned_modify (tx : Tx) (i : Nat) (g : TxIn → TxIn) (hg : ∀ x, (g x).prev = x.prev ∧ (g x).sequence = x.sequence) :
    SameSigned tx { tx with inputs := tx.inputs.modify i g } := by
  refine ⟨rfl, rfl, ?_, rfl⟩
  simp only
  generalize tx.inputs = l
  induction l generalizing i with
  | nil => simp
  | cons x l ih =>
    cases i with
    | zero => simp [hg x]
    | succ i => simp only [List.modify_succ_cons, List.map_cons]; rw [← ih i]

theorem good_witness {c : Cache} {tx : Tx} (hg : Good H tx P c) (i : Nat) (w : Wit) :
    Good H { tx with inputs := tx.inputs.modify i fun x => { x with witness := w } } P (Sighash.witnessMut c i w) := by
  have hk := Sighash.sameSigned_witness tx i w
  refine ⟨?_, ?_, ?_, ?_⟩
  · simp only [Sighash.witnessMut, hg.same]
  · rw [← hk.common H]; exact hg.common
  · rw [← hk.common H]; exact hg.segwit
  · exact hg.taproot

theorem store_good {c : Cache} {tx : Tx} (hg : Good H tx P c) (i : Nat) (f : Fill) : Good H (filled tx i f) P (store c i f) := by
  have e1 : ∀ (i : Nat) (g h k : TxIn → TxIn), (∀ x, h (g x) = k x) → ∀ l : List TxIn, (l.modify i g).modify i h = l.modify i k := by
    intro i g h k hk l
    induction l generalizing i with
    | nil => simp
    | cons x l ih => cases i with
      | zero => simp [hk]
      | succ i => simp only [List.modify_succ_cons, ih]
  have e0 : ∀ (i : Nat) (k : TxIn → TxIn), (∀ x, k x = x) → ∀ l : List TxIn, l.modify i k = l := by
    intro i k hk l
    induction l generalizing i with
    | nil => simp
    | cons x l ih => cases i with
      | zero => simp [hk]
      | succ i => simp only [List.modify_succ_cons, ih]
  obtain ⟨a, b⟩ := f
  unfold store filled
  cases b with
  | none =>
    cases a with
    | none =>
      simp only []
      rw [e0 i (fillIn (none, none)) (fun x => rfl)]
      exact hg
    | some s =>
      simp only [hg.same]
      exact good_new H _ P
  | some w =>
    cases a with
    | none => exact good_witness H P hg i w
    | some s =>
      simp only [Sighash.witnessMut, hg.same]
      rw [e1 i (fun x => { x with witness := w }) (fun x => { x with scriptSig := s }) (fillIn (some s, some w)) (fun x => rfl)]
      exact good_new H _ P

/-- The loop stores what each input would get if it were the first one signed. -/
theorem signFrom_spec (tx0 : Tx) (f : Nat → Fill) : ∀ (ls : List (Lock C)) (i : Nat) (c : Cache) (tx : Tx), Good H tx P c → SameSigned tx tx0 →
    (∀ k l, ls[k]? = some l → ∃ own, P[i + k]? = some own ∧ (prepare H H160 P own (i + k) (Cache.new tx0) l).2 = some (f (i + k))) →
    ∃ c', signFrom H H160 P i c ls = some c' ∧ SameSigned c'.tx tx0 ∧
      ∀ k, c'.tx.inputs[k]? = if i ≤ k ∧ k < i + ls.length then tx.inputs[k]?.map (fillIn (f k)) else tx.inputs[k]?
  | [], i, c, tx, hg, hs, _ => by
    refine ⟨c, rfl, by rw [hg.same]; exact hs, fun k => ?_⟩
    rw [hg.same, if_neg (by simp)]
  | l :: ls, i, c, tx, hg, hs, hf => by
    obtain ⟨own, h1, h2⟩ := hf 0 l rfl
    rw [Nat.add_zero] at h1 h2
    obtain ⟨h3, h4⟩ := prepare_same H H160 P hg hs own i l
    rw [h2] at h4
    have hsame : SameSigned tx (filled tx i (f i)) := sameSigned_modify tx i _ (fun x => ⟨rfl, rfl⟩)
    obtain ⟨c', e1, e2, e3⟩ := signFrom_spec tx0 f ls (i + 1) (store (prepare H H160 P own i c l).1 i (f i)) (filled tx i (f i))
      (store_good H P h3 i (f i)) (hsame.symm.trans hs) (fun k l' hl => by
        obtain ⟨own', a1, a2⟩ := hf (k + 1) l' hl
        rw [show i + (k + 1) = i + 1 + k by omega] at a1 a2
        exact ⟨own', a1, a2⟩)
    refine ⟨c', ?_, e2, fun k => ?_⟩
    · unfold signFrom
      rw [h1]
      simp only []
      generalize prepare H H160 P own i c l = r at h4 e1
      obtain ⟨r1, r2⟩ := r
      simp only at h4 e1
      subst h4
      exact e1
    · rw [e3 k]
      have hk : (filled tx i (f i)).inputs[k]? = if i = k then tx.inputs[k]?.map (fillIn (f k)) else tx.inputs[k]? := by
        unfold filled
        simp only
        rw [List.getElem?_modify]
        by_cases hik : i = k
        · subst hik; simp
        · simp [hik]
      rw [hk]
      simp only [List.length_cons]
      by_cases c1 : i = k
      · rw [if_pos c1, if_neg (by omega), if_pos (by omega)]
      · rw [if_neg c1]
        by_cases c2 : i + 1 ≤ k ∧ k < i + 1 + ls.length
        · rw [if_pos c2, if_pos (by omega)]
        · rw [if_neg c2, if_neg (by omega)]

end

/-! ## Pieces -/

theorem ecdsaOk_sign (C : Curve S D) (digest : UInt32 → Hash) (k : PrivateKey) (pk : Bytes) (hpk : S.fromSlice pk = some (S.pub k.inner)) (ty : Ecdsa)
    (h : Hash) (hd : digest ty.toU32 = h) : EcdsaOk C digest pk (signSighash C h k ty).toVec := by
  refine ⟨_, ty.toU32.toUInt8, S.pub k.inner, C.signEcdsa h k.inner, rfl, by cases ty <;> decide, hpk, D.parse_serialize _, ?_⟩
  have : ty.toU32.toUInt8.toUInt32 = ty.toU32 := by cases ty <;> decide
  rw [this, hd]
  exact C.ecdsa_ok _ _

theorem signSighash_short (C : Curve S D) (h : Hash) (k : PrivateKey) (ty : Ecdsa) : (signSighash C h k ty).toVec.length ≤ 520 := by
  have := D.serialize_length (C.signEcdsa h k.inner)
  show (D.serialize (C.signEcdsa h k.inner) ++ [_]).length ≤ 520
  rw [List.length_append, List.length_singleton]
  omega

theorem schnorrOk_sign (C : Curve S D) (digest : UInt8 → Option Hash) (k : SecretKey) (x : Arr 32) (hx : x = C.serX (C.xonly (S.pub k)).1) (ty : Tap)
    (h : Hash) (hd : digest ty.toU8 = some h) : SchnorrOk C digest x (TapSig.mk (C.signSchnorr h.1 none k) ty).toVec := by
  refine ⟨(C.xonly (S.pub k)).1, C.signSchnorr h.1 none k, ty.toU8, h, by rw [hx]; exact C.parse_serX _, ?_, hd, C.schnorr_ok _ _ _⟩
  unfold TapSig.toVec
  by_cases ht : ty = .default
  · left; subst ht; exact ⟨rfl, rfl⟩
  · right
    rw [if_pos ht]
    exact ⟨rfl, by cases ty <;> first | exact absurd rfl ht | decide⟩

theorem tap_digest (H : Bytes → Hash) (tx : Tx) (i : Nat) (txin : TxIn) (P : List TxOut) (own : TxOut) (leaf : Option (Hash × UInt32)) (ty : Tap)
    (hi : tx.inputs[i]? = some txin) (h32 : tx.inputs.length ≤ 2 ^ 32) (hl : P.length = tx.inputs.length) (hown : P[i]? = some own)
    (hs : ty = .single ∨ ty = .singleAcp → i < tx.outputs.length) :
    ∃ h, (Sighash.tapHash H (Cache.new tx) i (.all P) none leaf ty).2 = some (.ok h) ∧ tapDigest H tx i txin P own leaf ty.toU8 = some h := by
  have hlt : i < tx.inputs.length := by
    rcases Nat.lt_or_ge i tx.inputs.length with h | h
    · exact h
    · rw [List.getElem?_eq_none h] at hi; cases hi
  have hn : ¬ (ty.toU8 &&& 3 = 3 ∧ i ≥ tx.outputs.length) := by
    rintro ⟨h1, h2⟩
    have : ty = .single ∨ ty = .singleAcp := by
      revert h1; cases ty <;> decide
    have := hs this
    omega
  have he : Sighash.tapError tx i (.all P) ty.toU8 = none := by
    unfold Sighash.tapError
    simp only
    rw [if_neg (by omega), if_neg (by omega), if_neg hn]
  refine ⟨_, Sighash.C56_taproot H tx i txin (.all P) P own none leaf ty hi (by omega) ⟨rfl, hown⟩ he, ?_⟩
  unfold tapDigest
  simp only
  rw [if_neg hn]
  rfl

theorem fits_of_sum : ∀ l : List Bytes, (l.map fun x => x.length + 9).sum < 2 ^ 32 → (∀ x ∈ l, x.length ≤ 4000000) → P2tr.Fits l := by
  intro l h hx
  refine ⟨?_, hx⟩
  intro a x b hab
  have key : ∀ a : List Bytes, (elemsEnc a).length ≤ (a.map fun x => x.length + 9).sum := by
    intro a
    induction a with
    | nil => simp
    | cons y a ih =>
      have hcs : csSize y.length ≤ 9 := by unfold csSize; split <;> (try split) <;> (try split) <;> omega
      simp only [elemsEnc_cons, List.length_append, elemEnc_length, List.map_cons, List.sum_cons]
      omega
  have := key a
  rw [hab] at h
  simp only [List.map_append, List.sum_append, List.map_cons, List.sum_cons] at h
  omega

theorem ecdsa_length (s : EcdsaSig D) : s.toVec.length ≤ 73 ∧ 1 ≤ s.toVec.length := by
  have := D.serialize_length s.sig
  unfold EcdsaSig.toVec
  rw [List.length_append, List.length_singleton]; omega

theorem tap_length (s : TapSig) : s.toVec.length ≤ 65 := by
  obtain ⟨r, -, -, h3, h4⟩ := tap_serialize s
  omega

theorem wit_p2wpkh (sig : EcdsaSig D) (pk : FullPublicKey S) :
    P2tr.p2wpkh sig pk = some (Wit.ofList [sig.toVec, pk.toBytes]) ∧ P2tr.Fits [sig.toVec, pk.toBytes] := by
  obtain ⟨r, h1, h2⟩ := ecdsa_serialize sig
  have hk : pk.toBytes.length = 33 := (S.ser pk.inner).2
  have hs := ecdsa_length sig
  have hf : P2tr.Fits [sig.toVec, pk.toBytes] := fits_of_sum _ (by simp; omega) (by
    intro x hx
    simp only [List.mem_cons, List.not_mem_nil, or_false] at hx
    rcases hx with rfl | rfl <;> omega)
  refine ⟨?_, hf⟩
  unfold P2tr.p2wpkh
  rw [h1]
  simp only [Option.bind_some, h2]
  rw [show Wit.empty = Wit.ofList [] from rfl, Wit.pushSlice_eq [] _ (by exact OffsetsFit.left (b := [pk.toBytes]) hf.1)]
  simp only [Option.bind_some]
  exact Wit.pushSlice_eq [sig.toVec] _ hf.1

theorem wit_p2wsh (sat : List Bytes) (script : Bytes) (h : P2tr.Fits (sat ++ [script])) :
    P2tr.p2wsh sat script = some (Wit.ofList (sat ++ [script])) := by
  unfold P2tr.p2wsh
  rw [Wit.fromSlice_eq sat h.1.left]
  simp only [Option.bind_some]
  exact Wit.pushSlice_eq sat script h.1

theorem wit_key (sig : TapSig) : P2tr.p2trKeySpend sig = some (Wit.ofList [sig.toVec]) ∧ P2tr.Fits [sig.toVec] := by
  obtain ⟨r, h1, h2, h3, h4⟩ := tap_serialize sig
  have hf : P2tr.Fits [sig.toVec] := P2tr.fits_small _ (by simp) (by intro x hx; simp at hx; subst hx; omega)
  refine ⟨?_, hf⟩
  unfold P2tr.p2trKeySpend
  rw [h1]
  simp only [h2]
  exact Wit.pushSlice_eq [] _ hf.1

theorem wit_script {T : Taproot.Secp} (sig script : Bytes) (cb : Taproot.ControlBlock T) (h : P2tr.Fits [sig, script, cb.serialize]) :
    ((Wit.fromSlice [sig]).bind fun w => P2tr.pushP2trScriptSpend w script cb none) = some (Wit.ofList [sig, script, cb.serialize]) := by
  have h1 : P2tr.Fits [sig, script] := P2tr.fits_left (b := [cb.serialize]) h
  have h0 : P2tr.Fits [sig] := P2tr.fits_left (b := [script]) h1
  rw [Wit.fromSlice_eq _ h0.1]
  simp only [Option.bind_some]
  unfold P2tr.pushP2trScriptSpend
  rw [Wit.pushSlice_eq [sig] script h1.1]
  simp only [Option.bind_some]
  rw [Wit.pushSlice_eq ([sig] ++ [script]) _ h.1]
  rfl

theorem pushSlice_pushed (s d : Bytes) (h1 : 2 ≤ d.length) (h2 : d.length ≤ 75) : Scr.pushSlice s d = s ++ pushed d :=
  Scr.pushSlice_long s d h1 h2

theorem pushInt_small (s : Bytes) (n : Nat) (h1 : 1 ≤ n) (h2 : n ≤ 16) : Scr.pushInt s n = some (.ok (s ++ [UInt8.ofNat (0x50 + n)])) := by
  unfold Scr.pushInt Scr.pushIntUnchecked
  rw [if_neg (by omega), if_neg (by omega), if_neg (by omega), if_pos (by omega)]
  have : UInt8.ofNat (n : Int).toNat + (Scr.OP_1 - 1) = UInt8.ofNat (0x50 + n) := by
    rw [Int.toNat_natCast, show Scr.OP_1 - 1 = UInt8.ofNat 0x50 from by decide, ← UInt8.ofNat_add, Nat.add_comm]
  rw [this]
  rfl

theorem multisigScript_eq (m : Nat) (keys : List (FullPublicKey S)) (h1 : 1 ≤ m) (h2 : m ≤ keys.length) (h3 : keys.length ≤ 16) :
    multisigScript m keys = some ([UInt8.ofNat (0x50 + m)] ++ (keys.map (·.toBytes)).flatMap pushed ++ [UInt8.ofNat (0x50 + keys.length), 0xae]) := by
  have hfold : ∀ (l : List (FullPublicKey S)) (s : Bytes), l.foldl (fun s k => Scr.pushSlice s k.toLegacy.serialize) s =
      s ++ (l.map (·.toBytes)).flatMap pushed := by
    intro l
    induction l with
    | nil => intro s; simp
    | cons k l ih =>
      intro s
      have hk : k.toLegacy.serialize = k.toBytes := rfl
      have hl : k.toBytes.length = 33 := (S.ser k.inner).2
      rw [List.foldl_cons, ih, hk, pushSlice_pushed _ _ (by omega) (by omega)]
      simp
  unfold multisigScript
  rw [pushInt_small [] m h1 (by omega)]
  simp only
  rw [hfold, pushInt_small _ _ (by omega) h3]
  simp [Scr.pushOpcode, Scr.OP_CHECKMULTISIG]

theorem matches_sublist (C : Curve S D) (digest : UInt32 → Hash) (ty : Ecdsa) (h : Hash) (hd : digest ty.toU32 = h) :
    ∀ (keys : List (FullPublicKey S)) (signers : List PrivateKey), (signers.map (·.toPublicKey S)).Sublist keys →
      Matches (EcdsaOk C digest) (keys.map (·.toBytes)) (signers.map fun k => (signSighash C h k ty).toVec)
  | [], signers, hs => by
    have : signers = [] := by
      have := List.sublist_nil.mp hs
      exact List.map_eq_nil_iff.mp this
    subst this; exact .nil _
  | key :: keys, [], _ => .nil _
  | key :: keys, k :: ks, hs => by
    rw [List.map_cons] at hs
    cases hs with
    | cons _ hs =>
      exact .skip _ _ _ (matches_sublist C digest ty h hd keys (k :: ks) (by rw [List.map_cons]; exact hs))
    | cons_cons _ hs =>
      refine .hit _ _ _ _ (ecdsaOk_sign C digest k _ (S.from_ser _) ty h hd) (matches_sublist C digest ty h hd keys ks hs)

/-- What is stored can be encoded. -/
def Small (f : Fill) : Prop := (∀ s, f.1 = some s → s.length ≤ 200) ∧ ∀ w, f.2 = some w → BuiltWitness w

theorem built (l : List Bytes) (h : P2tr.Fits l) (hc : l.length ≤ 4000000) : BuiltWitness (Wit.ofList l) :=
  ⟨l, ⟨hc, h.2, h.1⟩, Wit.fromSlice_eq l h.1⟩

/-- The number of ECDSA signatures an input gets. -/
def Lock.sigs {C : Curve S D} : Lock C → Nat
  | .p2pkh _ _ | .p2wpkh _ _ | .p2shP2wpkh _ _ => 1
  | .p2wshMultisig _ signers _ => signers.length
  | _ => 0

/-- The size of the control block that reveals the leaf (zero where there is none). -/
def Lock.controlSize (H : Bytes → Hash) {C : Curve S D} : Lock C → Nat
  | .p2trScript internal tree k _ =>
    match (spendInfo H internal (some tree)).bind fun info => Taproot.controlBlock info (leafScript (XOnlyKey.fromKeypair C k), .tapScript) with
    | some (some cb) => cb.size
    | _ => 0
  | _ => 0

/-- The length of the script signature and of the witness elements, if the ECDSA signatures have the lengths `d`. -/
def Lock.lens (H : Bytes → Hash) {C : Curve S D} (l : Lock C) (d : List Nat) : Nat × List Nat :=
  match l with
  | .p2pkh k _ => (2 + d.sum + (if k.compressed then 33 else 65), [])
  | .p2wpkh _ _ => (0, d ++ [33])
  | .p2shP2wpkh _ _ => (23, d ++ [33])
  | .p2wshMultisig keys _ _ => (0, 0 :: d ++ [3 + 34 * keys.length])
  | .p2trKey _ _ ty => (0, [if ty = .default then 64 else 65])
  | .p2trScript _ _ _ ty => (0, [if ty = .default then 64 else 65, 34, l.controlSize H])

/-- What is stored has these lengths. -/
def Sized (H : Bytes → Hash) {C : Curve S D} (l : Lock C) (f : Fill) : Prop :=
  ∃ (d : List Nat) (st : List Bytes), d.length = l.sigs ∧ (∀ x ∈ d, ∃ h k, x = (D.serialize (C.signEcdsa h k)).length + 1) ∧
    (f.1.getD []).length = (l.lens H d).1 ∧ f.2.getD Wit.empty = Wit.ofList st ∧ WitFits st ∧ st.map List.length = (l.lens H d).2

theorem tap_exact (s : TapSig) : s.toVec.length = if s.ty = .default then 64 else 65 := by
  unfold TapSig.toVec
  by_cases h : s.ty = .default
  · rw [if_neg (by simpa using h), if_pos h]; exact s.sig.2
  · rw [if_pos h, if_neg h, List.length_append, s.sig.2]; rfl

theorem witFits_of_sum (l : List Bytes) (h : (l.map fun x => x.length + 9).sum < 2 ^ 32) (hx : ∀ x ∈ l, x.length ≤ 4000000) : WitFits l := by
  refine ⟨hx, ?_⟩
  have key : ∀ a : List Bytes, elemsSize a ≤ (a.map fun x => x.length + 9).sum := by
    intro a
    induction a with
    | nil => simp [elemsSize]
    | cons y a ih =>
      have hcs : csSize y.length ≤ 9 := by unfold csSize; split <;> (try split) <;> (try split) <;> omega
      simp only [elemsSize, List.map_cons, List.sum_cons] at ih ⊢
      omega
  have := key l
  omega

/-- One input: something is stored, and a transaction whose input holds it spends the output. -/
def Works (H : Bytes → Hash) (H160 : Bytes → Arr 20) (C : Curve S D) (tx : Tx) (P : List TxOut) (i : Nat) (txin : TxIn) (own : TxOut) (l : Lock C) : Prop :=
  ∃ f, (prepare H H160 P own i (Cache.new tx) l).2 = some f ∧ Small f ∧ Sized H l f ∧
    (txin.scriptSig = f.1.getD [] → txin.witness = f.2.getD Wit.empty → Spends H H160 C tx P i)

section
variable (H : Bytes → Hash) (H160 : Bytes → Arr 20) (C : Curve S D) (kind : NetworkKind) (hrp : Addr.KnownHrp)
variable (tx : Tx) (P : List TxOut) (i : Nat) (txin : TxIn) (own : TxOut)

theorem legacy_key (k : PrivateKey) : S.fromSlice (k.toLegacyPublicKey S).serialize = some (S.pub k.inner) ∧
    2 ≤ (k.toLegacyPublicKey S).serialize.length ∧ (k.toLegacyPublicKey S).serialize.length ≤ 65 := by
  obtain ⟨c, x⟩ := k
  cases c with
  | true => exact ⟨S.from_ser _, by show 2 ≤ (S.ser _).1.length; rw [(S.ser _).2]; omega, by show (S.ser _).1.length ≤ 65; rw [(S.ser _).2]; omega⟩
  | false => exact ⟨S.from_serU _, by show 2 ≤ (S.serU _).1.length; rw [(S.serU _).2]; omega, by show (S.serU _).1.length ≤ 65; rw [(S.serU _).2]; omega⟩

theorem works_p2pkh (hD : ∀ s, D.serialize s ≠ []) (k : PrivateKey) (ty : Ecdsa) (hi : tx.inputs[i]? = some txin) (ho : P[i]? = some own)
    (ha : ((Lock.p2pkh (C := C) k ty).address H H160 kind hrp).map (·.scriptPubkey) = some own.spk) : Works H H160 C tx P i txin own (.p2pkh k ty) := by
  have hlt : i < tx.inputs.length := (List.getElem?_eq_some_iff.mp hi).1
  have hh : Sighash.legacyHash H (Cache.new tx) i own.spk ty.toU32 = some (.ok (legacyDigest H tx i own.spk ty.toU32)) := by
    rw [Sighash.C56_legacy, if_neg (by omega)]
    unfold legacyDigest
    split <;> rfl
  obtain ⟨hk1, hk2, hk3⟩ := legacy_key (S := S) k
  generalize hpk : (k.toLegacyPublicKey S).serialize = pk at hk1 hk2 hk3
  generalize hh0 : legacyDigest H tx i own.spk ty.toU32 = h at hh
  obtain ⟨r, h1, h2⟩ := ecdsa_serialize (signSighash C h k ty)
  have hl := ecdsa_length (signSighash C h k ty)
  have hl2 : 2 ≤ (signSighash C h k ty).toVec.length := by
    have := hD (signSighash C h k ty).sig
    have : 0 < (D.serialize (signSighash C h k ty).sig).length := List.length_pos_iff.mpr this
    unfold EcdsaSig.toVec
    rw [List.length_append, List.length_singleton]; omega
  have hs : Scr.pushSlice (Scr.pushSlice [] (signSighash C h k ty).toVec) pk = pushed (signSighash C h k ty).toVec ++ pushed pk := by
    rw [pushSlice_pushed _ _ hl2 (by omega), pushSlice_pushed _ _ hk2 (by omega)]; rfl
  refine ⟨(some (pushed (signSighash C h k ty).toVec ++ pushed pk), none), ?_, ⟨?_, ?_⟩, ?_, ?_⟩
  · simp only [prepare, hh, h1, Option.bind_some, h2, hpk, hs]
  · intro s e
    cases e
    simp [pushed]; omega
  · intro w e; cases e
  · refine ⟨[(D.serialize (C.signEcdsa h k.inner)).length + 1], [], rfl, by intro x hx; simp at hx; subst hx; exact ⟨_, _, rfl⟩, ?_, rfl,
      witFits_of_sum _ (by simp) (by simp), rfl⟩
    have hv : (signSighash C h k ty).toVec.length = (D.serialize (C.signEcdsa h k.inner)).length + 1 := by
      show (D.serialize _ ++ [_]).length = _
      rw [List.length_append]; rfl
    have hkl : pk.length = if k.compressed then 33 else 65 := by
      rw [← hpk]
      obtain ⟨c, x⟩ := k
      cases c with
      | true => exact (S.ser _).2
      | false => exact (S.serU _).2
    simp only [Option.getD_some, Lock.lens, List.length_append, pushed, List.length_cons, List.sum_cons, List.sum_nil, hv, hkl]
    omega
  · intro e1 e2
    have hspk : own.spk = [0x76, 0xa9, 0x14] ++ (H160 pk).1 ++ [0x88, 0xac] := by
      have hv : (Addr.Address.p2pkh (H160 pk) kind).Valid := trivial
      have := Addr.C74_script_pubkey _ hv
      simp only [Lock.address, Option.map_some, Option.some.injEq, hpk] at ha
      rw [← ha, this]; rfl
    refine .p2pkh txin own _ pk hi ho hspk e1 hl.2 (by omega) (by omega) (by omega) ?_ (ecdsaOk_sign C _ k pk hk1 ty h hh0)
    rw [e2]
    exact Wit.toVec_ofList [] (by intro a x b h; cases a <;> cases h) (by simp)

theorem works_p2wpkh (k : PrivateKey) (ty : Ecdsa) (hi : tx.inputs[i]? = some txin) (ho : P[i]? = some own)
    (ha : ((Lock.p2wpkh (C := C) k ty).address H H160 kind hrp).map (·.scriptPubkey) = some own.spk) : Works H H160 C tx P i txin own (.p2wpkh k ty) := by
  generalize hh0 : v0Digest H tx i txin own ([0x76, 0xa9, 0x14] ++ (H160 (k.toPublicKey S).toBytes).1 ++ [0x88, 0xac]) ty.toU32 = h
  have hspk : own.spk = [0x00, 0x14] ++ (H160 (k.toPublicKey S).toBytes).1 := by
    obtain ⟨hv, hs⟩ := (Addr.C74_constructors H160 H kind hrp).2.1 (H160 (k.toPublicKey S).toBytes)
    simp only [Lock.address, Option.map_some, Option.some.injEq] at ha
    rw [← ha, Addr.C74_script_pubkey _ hv, hs]
  have hh : (Sighash.p2wpkhHash H (Cache.new tx) i own.spk own.amount ty).2 = some (.ok h) := by
    have := (Sighash.C56_p2wpkh H tx i own.spk own.amount ty).1 (H160 (k.toPublicKey S).toBytes) hspk
    rw [hi] at this
    rw [this, ← hh0]; rfl
  obtain ⟨hw, hf⟩ := wit_p2wpkh (signSighash C h k ty) (k.toPublicKey S)
  refine ⟨(none, some (Wit.ofList [(signSighash C h k ty).toVec, (k.toPublicKey S).toBytes])), ?_, ⟨?_, ?_⟩, ?_, ?_⟩
  · simp only [prepare]
    generalize Sighash.p2wpkhHash H (Cache.new tx) i own.spk own.amount ty = r at hh
    obtain ⟨r1, r2⟩ := r
    simp only at hh
    subst hh
    simp only [hw, Option.map_some]
  · intro s e; cases e
  · intro w e; cases e; exact built _ hf (by simp)
  · refine ⟨[(D.serialize (C.signEcdsa h k.inner)).length + 1], [(signSighash C h k ty).toVec, (k.toPublicKey S).toBytes], rfl,
      by intro x hx; simp at hx; subst hx; exact ⟨_, _, rfl⟩, rfl, rfl, ?_, ?_⟩
    · have := ecdsa_length (signSighash C h k ty)
      have hk : (k.toPublicKey S).toBytes.length = 33 := (S.ser _).2
      exact witFits_of_sum _ (by simp; omega) hf.2
    · have hv : (signSighash C h k ty).toVec.length = (D.serialize (C.signEcdsa h k.inner)).length + 1 := by
        show (D.serialize _ ++ [_]).length = _
        rw [List.length_append]; rfl
      have hk : (k.toPublicKey S).toBytes.length = 33 := (S.ser _).2
      simp only [List.map_cons, List.map_nil, hv, hk, Lock.lens]; rfl
  · intro e1 e2
    refine .native txin own 0 (H160 (k.toPublicKey S).toBytes).1 [(signSighash C h k ty).toVec, (k.toPublicKey S).toBytes] hi ho ?_ e1 ?_
      (.wpkh _ _ (S.ser _).2 (signSighash_short C h k ty) (ecdsaOk_sign C _ k _ (S.from_ser _) ty h hh0))
    · rw [hspk]; unfold pushed; rw [(H160 _).2]; rfl
    · rw [e2]; exact Wit.toVec_ofList _ hf.1 hf.2

theorem works_nested (k : PrivateKey) (ty : Ecdsa) (hi : tx.inputs[i]? = some txin) (ho : P[i]? = some own)
    (ha : ((Lock.p2shP2wpkh (C := C) k ty).address H H160 kind hrp).map (·.scriptPubkey) = some own.spk) :
    Works H H160 C tx P i txin own (.p2shP2wpkh k ty) := by
  generalize hh0 : v0Digest H tx i txin own ([0x76, 0xa9, 0x14] ++ (H160 (k.toPublicKey S).toBytes).1 ++ [0x88, 0xac]) ty.toU32 = h
  have h20 := (H160 (k.toPublicKey S).toBytes).2
  have hred : Scr.newP2wpkh (H160 (k.toPublicKey S).toBytes) = [0x00, 0x14] ++ (H160 (k.toPublicKey S).toBytes).1 := by
    show Scr.pushSlice (Scr.pushOpcode [] (Scr.opOfWitnessVersion 0)) _ = _
    rw [pushSlice_pushed _ _ (by omega) (by omega)]
    unfold pushed
    rw [h20]; rfl
  have hspk : own.spk = [0xa9, 0x14] ++ (H160 ([0x00, 0x14] ++ (H160 (k.toPublicKey S).toBytes).1)).1 ++ [0x87] := by
    have hs := (Addr.C74_constructors H160 H kind hrp).2.2.1 (H160 (k.toPublicKey S).toBytes)
    simp only [Lock.address, hs, Option.map_some, Option.some.injEq] at ha
    rw [← ha, Addr.C74_script_pubkey _ (by trivial)]; rfl
  have hh : (Sighash.p2wpkhHash H (Cache.new tx) i (Scr.newP2wpkh (H160 (k.toPublicKey S).toBytes)) own.amount ty).2 = some (.ok h) := by
    have := (Sighash.C56_p2wpkh H tx i (Scr.newP2wpkh (H160 (k.toPublicKey S).toBytes)) own.amount ty).1 (H160 (k.toPublicKey S).toBytes) hred
    rw [hi] at this
    rw [this, ← hh0]; rfl
  have hsig : Scr.p2shP2wpkh (H160 (k.toPublicKey S).toBytes) = pushed ([0x00, 0x14] ++ (H160 (k.toPublicKey S).toBytes).1) := by
    show Scr.pushSlice [] (Scr.newP2wpkh (H160 (k.toPublicKey S).toBytes)) = _
    rw [hred, pushSlice_pushed _ _ (by simp) (by simp [h20])]; rfl
  obtain ⟨hw, hf⟩ := wit_p2wpkh (signSighash C h k ty) (k.toPublicKey S)
  refine ⟨(some (pushed ([0x00, 0x14] ++ (H160 (k.toPublicKey S).toBytes).1)), some (Wit.ofList [(signSighash C h k ty).toVec, (k.toPublicKey S).toBytes])), ?_, ⟨?_, ?_⟩, ?_, ?_⟩
  · simp only [prepare, hsig]
    generalize Sighash.p2wpkhHash H (Cache.new tx) i (Scr.newP2wpkh (H160 (k.toPublicKey S).toBytes)) own.amount ty = r at hh
    obtain ⟨r1, r2⟩ := r
    simp only at hh
    subst hh
    simp only [hw, Option.map_some]
  · intro s e; cases e
    simp [pushed, h20]
  · intro w e; cases e; exact built _ hf (by simp)
  · refine ⟨[(D.serialize (C.signEcdsa h k.inner)).length + 1], [(signSighash C h k ty).toVec, (k.toPublicKey S).toBytes], rfl,
      by intro x hx; simp at hx; subst hx; exact ⟨_, _, rfl⟩, (by simp [pushed, h20, Lock.lens]), rfl, ?_, ?_⟩
    · have := ecdsa_length (signSighash C h k ty)
      have hk : (k.toPublicKey S).toBytes.length = 33 := (S.ser _).2
      exact witFits_of_sum _ (by simp; omega) hf.2
    · have hv : (signSighash C h k ty).toVec.length = (D.serialize (C.signEcdsa h k.inner)).length + 1 := by
        show (D.serialize _ ++ [_]).length = _
        rw [List.length_append]; rfl
      have hk : (k.toPublicKey S).toBytes.length = 33 := (S.ser _).2
      simp only [List.map_cons, List.map_nil, hv, hk, Lock.lens]; rfl
  · intro e1 e2
    refine .nested txin own 0 (H160 (k.toPublicKey S).toBytes).1 _ [(signSighash C h k ty).toVec, (k.toPublicKey S).toBytes] hi ho hspk ?_ e1 ?_ rfl
      (.wpkh _ _ (S.ser _).2 (signSighash_short C h k ty) (ecdsaOk_sign C _ k _ (S.from_ser _) ty h hh0))
    · unfold pushed; rw [h20]; rfl
    · rw [e2]; exact Wit.toVec_ofList _ hf.1 hf.2

theorem works_multisig (keys : List (FullPublicKey S)) (signers : List PrivateKey) (ty : Ecdsa) (hi : tx.inputs[i]? = some txin) (ho : P[i]? = some own)
    (hu : (Lock.p2wshMultisig (C := C) keys signers ty).Usable tx i)
    (ha : ((Lock.p2wshMultisig (C := C) keys signers ty).address H H160 kind hrp).map (·.scriptPubkey) = some own.spk) :
    Works H H160 C tx P i txin own (.p2wshMultisig keys signers ty) := by
  obtain ⟨u1, u2, u3⟩ := hu
  have hmn : signers.length ≤ keys.length := by
    have := u3.length_le
    rwa [List.length_map] at this
  have hscript := multisigScript_eq signers.length keys u1 hmn u2
  generalize hsc : [UInt8.ofNat (0x50 + signers.length)] ++ (keys.map (·.toBytes)).flatMap pushed ++ [UInt8.ofNat (0x50 + keys.length), 0xae] = script at hscript
  have hlen : script.length = 3 + 34 * keys.length := by
    have : ∀ l : List (FullPublicKey S), ((l.map (·.toBytes)).flatMap pushed).length = 34 * l.length := by
      intro l
      induction l with
      | nil => rfl
      | cons k l ih =>
        have hk : k.toBytes.length = 33 := (S.ser k.inner).2
        simp only [List.map_cons, List.flatMap_cons, List.length_append, ih, List.length_cons, pushed, hk]; omega
    rw [← hsc]
    simp only [List.length_append, this, List.length_cons, List.length_nil]; omega
  generalize hh0 : v0Digest H tx i txin own script ty.toU32 = h
  have hspk : own.spk = [0x00, 0x20] ++ (H script).1 := by
    have hs := (Addr.C74_constructors H160 H kind hrp).2.2.2.1 script
    obtain ⟨hv, hs'⟩ := (Addr.C74_constructors H160 H kind hrp).2.2.2.2.1 (H script)
    rw [if_pos (by omega)] at hs
    simp only [Lock.address, hscript, Option.bind_some, hs, Option.map_some, Option.some.injEq] at ha
    rw [← ha, Addr.C74_script_pubkey _ hv, hs']
  have hh : (Sighash.p2wshHash H (Cache.new tx) i script own.amount ty).2 = some (.ok h) := by
    rw [Sighash.C56_p2wsh, hi, ← hh0]; rfl
  have hsz : ∀ x ∈ (([] : Bytes) :: signers.map fun k => (signSighash C h k ty).toVec) ++ [script], x.length ≤ 547 := by
    intro x hx
    simp only [List.cons_append, List.mem_cons, List.mem_append, List.mem_map, List.not_mem_nil, or_false] at hx
    rcases hx with rfl | ⟨k, -, rfl⟩ | rfl
    · simp
    · have := (ecdsa_length (signSighash C h k ty)).1; omega
    · omega
  have hsum : ∀ l : List Bytes, (∀ x ∈ l, x.length ≤ 547) → (l.map fun x => x.length + 9).sum ≤ 556 * l.length := by
    intro l
    induction l with
    | nil => simp
    | cons x l ih =>
      intro hx
      have h1 := hx x List.mem_cons_self
      have h2 := ih (fun y hy => hx y (List.mem_cons_of_mem _ hy))
      simp only [List.map_cons, List.sum_cons, List.length_cons]; omega
  have hf : P2tr.Fits ((([] : Bytes) :: signers.map fun k => (signSighash C h k ty).toVec) ++ [script]) := by
    refine fits_of_sum _ ?_ (fun x hx => by have := hsz x hx; omega)
    have := hsum _ hsz
    simp only [List.length_append, List.length_cons, List.length_map, List.length_nil] at this
    omega
  have hw := wit_p2wsh _ _ hf
  refine ⟨(none, some (Wit.ofList ((([] : Bytes) :: signers.map fun k => (signSighash C h k ty).toVec) ++ [script]))), ?_, ⟨?_, ?_⟩, ?_, ?_⟩
  · simp only [prepare, hscript]
    generalize Sighash.p2wshHash H (Cache.new tx) i script own.amount ty = r at hh
    obtain ⟨r1, r2⟩ := r
    simp only at hh
    subst hh
    simp only [hw, Option.map_some]
  · intro s e; cases e
  · intro w e; cases e; exact built _ hf (by simp; omega)
  · refine ⟨signers.map fun k => (D.serialize (C.signEcdsa h k.inner)).length + 1, (([] : Bytes) :: signers.map fun k => (signSighash C h k ty).toVec) ++ [script],
      by simp [Lock.sigs], ?_, rfl, rfl, ?_, ?_⟩
    · intro x hx
      obtain ⟨k, -, rfl⟩ := List.mem_map.mp hx
      exact ⟨_, _, rfl⟩
    · refine witFits_of_sum _ ?_ (fun x hx => by have := hsz x hx; omega)
      have := hsum _ hsz
      simp only [List.length_append, List.length_cons, List.length_map, List.length_nil] at this
      omega
    · have hv : ∀ k : PrivateKey, (signSighash C h k ty).toVec.length = (D.serialize (C.signEcdsa h k.inner)).length + 1 := by
        intro k
        show (D.serialize _ ++ [_]).length = _
        rw [List.length_append]; rfl
      simp only [List.map_append, List.map_cons, List.map_map, List.map_nil, Lock.lens, hlen, List.length_nil, Function.comp_def, hv]
  · intro e1 e2
    refine .native txin own 0 (H script).1 _ hi ho ?_ e1 (by rw [e2]; exact Wit.toVec_ofList _ hf.1 hf.2)
      (.wsh signers.length (keys.map (·.toBytes)) _ script u1 (by simpa using hmn) (by simpa using u2) ?_ (by rw [List.length_map]; exact hsc.symm) (by simp) ?_
        (matches_sublist C _ ty h hh0 keys signers u3))
    · rw [hspk]; unfold pushed; rw [(H script).2]; rfl
    · intro k hk
      obtain ⟨k', -, rfl⟩ := List.mem_map.mp hk
      exact (S.ser _).2
    · intro s hs
      obtain ⟨k', -, rfl⟩ := List.mem_map.mp hs
      have := (ecdsa_length (signSighash C h k' ty)).1; omega

include H H160 kind in
theorem p2tr_spk (q : Arr 32) (h : (Addr.Address.p2trTweaked q hrp).scriptPubkey = own.spk) : own.spk = [0x51] ++ pushed q.1 := by
  obtain ⟨hv, hs⟩ := (Addr.C74_constructors H160 H kind hrp).2.2.2.2.2.2.1 q
  rw [← h, Addr.C74_script_pubkey _ hv, hs]
  unfold pushed; rw [q.2]; rfl

theorem works_key (kp : Keypair) (tree : Option Taproot.Tree) (ty : Tap) (hi : tx.inputs[i]? = some txin) (ho : P[i]? = some own)
    (h32 : tx.inputs.length ≤ 2 ^ 32) (hl : P.length = tx.inputs.length)
    (hu : (Lock.p2trKey (C := C) kp tree ty).Usable tx i)
    (ha : ((Lock.p2trKey (C := C) kp tree ty).address H H160 kind hrp).map (·.scriptPubkey) = some own.spk) :
    Works H H160 C tx P i txin own (.p2trKey kp tree ty) := by
  obtain ⟨h, hh, hd⟩ := tap_digest H tx i txin P own none ty hi h32 hl ho hu.2
  rw [← (Sighash.C56_taproot_paths H (Cache.new tx) i (.all P) h ty).1] at hh
  cases hinfo : spendInfo H (XOnlyKey.fromKeypair C kp) tree with
  | none => simp [Lock.address, hinfo] at ha
  | some info =>
    -- the tweaked key pair is the one of the output key
    have hkey : ∃ kp', kp.tapTweak H C info.merkleRoot = some kp' ∧ info.outputKey = XOnlyKey.fromKeypair C kp' := by
      cases tree with
      | none =>
        obtain ⟨a1, a2⟩ := C95_key_spend_only H C kp h ty
        unfold spendInfo at hinfo
        cases hk : kp.tapTweak H C none with
        | none => rw [a1 hk] at hinfo; cases hinfo
        | some kp' =>
          obtain ⟨info', b1, b2, -⟩ := a2 kp' hk
          rw [b1] at hinfo
          simp only [Option.some.injEq] at hinfo
          subst hinfo
          refine ⟨kp', ?_, b2⟩
          have : info'.merkleRoot = none := by
            have hf : Taproot.finalize H [] (XOnlyKey.fromKeypair C kp) = (Taproot.newKeySpend H (XOnlyKey.fromKeypair C kp) none).map .ok := rfl
            rw [hf] at b1
            unfold Taproot.newKeySpend at b1
            cases ht : Taproot.tapTweak H (XOnlyKey.fromKeypair C kp) none with
            | none => rw [ht] at b1; cases b1
            | some q => rw [ht] at b1; cases b1; rfl
          rw [this]; exact hk
      | some t =>
        obtain ⟨st, a0, a3⟩ := Taproot.C50_control_block H C.taproot (XOnlyKey.fromKeypair C kp) t (hu.1 t rfl)
        unfold spendInfo at hinfo
        simp only [a0] at hinfo
        rw [C95_tap_tweak] at a3
        cases hk : kp.tapTweak H C (some (t.root H)) with
        | none => rw [hk] at a3; simp only [Option.map_none] at a3; rw [a3] at hinfo; cases hinfo
        | some kp' =>
          rw [hk] at a3
          obtain ⟨info', b1, b2, b3, -⟩ := a3
          rw [b1] at hinfo
          simp only [Option.some.injEq] at hinfo
          subst hinfo
          exact ⟨kp', by rw [b2]; exact hk, b3⟩
    obtain ⟨kp', k1, k2⟩ := hkey
    have hspk : own.spk = [0x51] ++ pushed (C.serX info.outputKey.inner).1 := by
      simp only [Lock.address, hinfo, Option.map_some, Option.some.injEq] at ha
      exact p2tr_spk H H160 kind hrp own _ ha
    obtain ⟨hw, hf⟩ := wit_key (signKeySpend C h kp' ty)
    refine ⟨(none, some (Wit.ofList [(signKeySpend C h kp' ty).toVec])), ?_, ⟨?_, ?_⟩, ?_, ?_⟩
    · simp only [prepare, hinfo]
      generalize Sighash.tapKeyHash H (Cache.new tx) i (.all P) ty = r at hh
      obtain ⟨r1, r2⟩ := r
      simp only at hh
      subst hh
      simp only [k1, hw, Option.map_some]
    · intro s e; cases e
    · intro w e; cases e; exact built _ hf (by simp)
    · have ht := tap_exact (signKeySpend C h kp' ty)
      have htl := tap_length (signKeySpend C h kp' ty)
      exact ⟨[], [(signKeySpend C h kp' ty).toVec], rfl, by simp, rfl, rfl, witFits_of_sum _ (by simp; omega) hf.2, by
        simp only [List.map_cons, List.map_nil, ht, Lock.lens]; rfl⟩
    · intro e1 e2
      refine .native txin own 1 (C.serX info.outputKey.inner).1 _ hi ho hspk e1 (by rw [e2]; exact Wit.toVec_ofList _ hf.1 hf.2)
        (.trKey _ _ (schnorrOk_sign C _ kp'.inner _ (by rw [k2]; rfl) ty h hd))

theorem works_script (internal : XOnlyKey C) (tree : Taproot.Tree) (k : Keypair) (ty : Tap) (hi : tx.inputs[i]? = some txin) (ho : P[i]? = some own)
    (h32 : tx.inputs.length ≤ 2 ^ 32) (hl : P.length = tx.inputs.length)
    (hu : (Lock.p2trScript (C := C) internal tree k ty).Usable tx i)
    (ha : ((Lock.p2trScript (C := C) internal tree k ty).address H H160 kind hrp).map (·.scriptPubkey) = some own.spk) :
    Works H H160 C tx P i txin own (.p2trScript internal tree k ty) := by
  obtain ⟨u1, u2, u3⟩ := hu
  generalize hsc : leafScript (XOnlyKey.fromKeypair C k) = script at u2
  have hkl := (C.serX (XOnlyKey.fromKeypair C k).inner).2
  have hscript : script = pushed (C.serX (XOnlyKey.fromKeypair C k).inner).1 ++ [0xac] := by
    rw [← hsc]
    show Scr.pushOpcode (Scr.pushSlice [] (C.serX (XOnlyKey.fromKeypair C k).inner).1) _ = _
    rw [pushSlice_pushed _ _ (by omega) (by omega)]; rfl
  have hslen : script.length = 34 := by rw [hscript]; simp [pushed, hkl]
  obtain ⟨h, hh, hd⟩ := tap_digest H tx i txin P own (some (Taproot.leafHash H script .tapScript, 0xFFFFFFFF)) ty hi h32 hl ho u3
  rw [← (Sighash.C56_taproot_paths H (Cache.new tx) i (.all P) _ ty).2] at hh
  obtain ⟨st, a0, a3⟩ := Taproot.C50_control_block H C.taproot internal tree u1
  cases hq : Taproot.tapTweak H internal (some (tree.root H)) with
  | none =>
    rw [hq] at a3
    simp only at a3
    simp [Lock.address, spendInfo, a0, a3] at ha
  | some q =>
    rw [hq] at a3
    obtain ⟨info, b1, b2, b3, b4, -⟩ := a3
    obtain ⟨cb, c1, c2, c3, -, -, -, -, c8⟩ := b4 script .tapScript u2
    have hinfo : spendInfo H internal (some tree) = some info := by
      unfold spendInfo
      simp only [a0, b1]
    have hspk : own.spk = [0x51] ++ pushed (C.serX q.inner).1 := by
      simp only [Lock.address, hinfo, Option.map_some, Option.some.injEq, b3] at ha
      exact p2tr_spk H H160 kind hrp own _ ha
    have hvalid := (Taproot.valid_serialize H cb c8 q script).mpr c2
    have hsz : cb.serialize.length = 33 + 32 * cb.branch.length := Taproot.C51_size cb
    have hcons : cb.serialize = ((if cb.parity then 1 else 0) ||| cb.leafVersion.toConsensus) :: ((C.serX cb.internalKey.inner).1 ++ (cb.branch.map (·.1)).flatten) := rfl
    have htl := tap_length (signScriptSpend C h k ty)
    have hf : P2tr.Fits [(signScriptSpend C h k ty).toVec, script, cb.serialize] := by
      refine fits_of_sum _ ?_ ?_
      · simp only [List.map_cons, List.map_nil, List.sum_cons, List.sum_nil]; omega
      · intro x hx
        simp only [List.mem_cons, List.not_mem_nil, or_false] at hx
        rcases hx with rfl | rfl | rfl <;> omega
    have hw := wit_script (signScriptSpend C h k ty).toVec script cb hf
    refine ⟨(none, some (Wit.ofList [(signScriptSpend C h k ty).toVec, script, cb.serialize])), ?_, ⟨?_, ?_⟩, ?_, ?_⟩
    · simp only [prepare, hinfo, hsc, c1]
      generalize Sighash.tapScriptHash H (Cache.new tx) i (.all P) (Taproot.leafHash H script .tapScript) ty = r at hh
      obtain ⟨r1, r2⟩ := r
      simp only at hh
      subst hh
      simp only [hw, Option.map_some]
    · intro s e; cases e
    · intro w e; cases e; exact built _ hf (by simp)
    · have ht := tap_exact (signScriptSpend C h k ty)
      have hcs : (Lock.p2trScript internal tree k ty).controlSize H = cb.size := by
        simp only [Lock.controlSize, hinfo, Option.bind_some, hsc, c1]
      refine ⟨[], [(signScriptSpend C h k ty).toVec, script, cb.serialize], rfl, by simp, rfl, rfl, witFits_of_sum _ ?_ hf.2, ?_⟩
      · simp only [List.map_cons, List.map_nil, List.sum_cons, List.sum_nil]; omega
      · simp only [List.map_cons, List.map_nil, ht, Lock.lens, hslen, hcs, Taproot.C51_size]; rfl
    · intro e1 e2
      refine .native txin own 1 (C.serX q.inner).1 [(signScriptSpend C h k ty).toVec, script, cb.serialize] hi ho hspk e1
        (by rw [e2]; exact Wit.toVec_ofList _ hf.1 hf.2) ?_
      rw [hcons] at hvalid ⊢
      exact .trScript _ (C.serX (XOnlyKey.fromKeypair C k).inner) q.inner _ script _ _ _ (C.parse_serX _)
        (by rw [c3]; cases cb.parity <;> decide) hvalid hscript (Taproot.leafHash_eq_bip H script .tapScript)
        (schnorrOk_sign C _ k.inner _ rfl ty h hd)

end

/-- Outputs that are spent by witnesses alone. -/
def Lock.Native {C : Curve S D} : Lock C → Prop
  | .p2pkh _ _ => False
  | .p2shP2wpkh _ _ => False
  | _ => True

theorem prepare_native (H : Bytes → Hash) (H160 : Bytes → Arr 20) {C : Curve S D} (P : List TxOut) (own : TxOut) (i : Nat) (c : Cache) (l : Lock C)
    (hn : l.Native) (f : Fill) (h : (prepare H H160 P own i c l).2 = some f) : f.1 = none := by
  have hm : ∀ (o : Option Wit), (o.map fun w => ((none, some w) : Fill)) = some f → f.1 = none := by
    intro o e
    cases o with
    | none => cases e
    | some w => cases e; rfl
  cases l with
  | p2pkh k ty => exact hn.elim
  | p2shP2wpkh k ty => exact hn.elim
  | p2wpkh k ty => simp only [prepare] at h; (repeat' split at h) <;> first | exact hm _ h | cases h
  | p2wshMultisig keys signers ty => simp only [prepare] at h; (repeat' split at h) <;> first | exact hm _ h | cases h
  | p2trKey kp tree ty => simp only [prepare] at h; (repeat' split at h) <;> first | exact hm _ h | cases h
  | p2trScript internal tree k ty => simp only [prepare] at h; (repeat' split at h) <;> first | exact hm _ h | cases h

/-- An unsigned transaction: no script signatures and no witnesses. -/
def Unsigned (tx : Tx) : Prop := ∀ x ∈ tx.inputs, x.scriptSig = [] ∧ x.witness = Wit.empty

/-- The locks are those of the outputs spent: the script of the address of each lock is the script of the output. -/
def Owns (H : Bytes → Hash) (H160 : Bytes → Arr 20) {C : Curve S D} (kind : NetworkKind) (hrp : Addr.KnownHrp) (P : List TxOut) (locks : List (Lock C)) : Prop :=
  locks.map (fun l => (l.address H H160 kind hrp).map (·.scriptPubkey)) = P.map fun o => some o.spk

theorem works (H : Bytes → Hash) (H160 : Bytes → Arr 20) (C : Curve S D) (kind : NetworkKind) (hrp : Addr.KnownHrp) (hD : ∀ s, D.serialize s ≠ [])
    (tx : Tx) (P : List TxOut) (i : Nat) (txin : TxIn) (own : TxOut) (l : Lock C) (hi : tx.inputs[i]? = some txin) (ho : P[i]? = some own)
    (h32 : tx.inputs.length ≤ 2 ^ 32) (hl : P.length = tx.inputs.length) (hu : l.Usable tx i)
    (ha : (l.address H H160 kind hrp).map (·.scriptPubkey) = some own.spk) : Works H H160 C tx P i txin own l := by
  cases l with
  | p2pkh k ty => exact works_p2pkh H H160 C kind hrp tx P i txin own hD k ty hi ho ha
  | p2wpkh k ty => exact works_p2wpkh H H160 C kind hrp tx P i txin own k ty hi ho ha
  | p2shP2wpkh k ty => exact works_nested H H160 C kind hrp tx P i txin own k ty hi ho ha
  | p2wshMultisig keys signers ty => exact works_multisig H H160 C kind hrp tx P i txin own keys signers ty hi ho hu ha
  | p2trKey kp tree ty => exact works_key H H160 C kind hrp tx P i txin own kp tree ty hi ho h32 hl hu ha
  | p2trScript internal tree k ty => exact works_script H H160 C kind hrp tx P i txin own internal tree k ty hi ho h32 hl hu ha

/-- `C98_signed`, with what each input gets. -/
theorem signed_core (H : Bytes → Hash) (H160 : Bytes → Arr 20) (C : Curve S D) (kind : NetworkKind) (hrp : Addr.KnownHrp)
    (hD : ∀ s, D.serialize s ≠ []) (tx : Tx) (P : List TxOut) (locks : List (Lock C)) (hu : Unsigned tx) (h32 : tx.inputs.length ≤ 2 ^ 32)
    (hl : P.length = tx.inputs.length) (hown : Owns H H160 kind hrp P locks) (husable : ∀ (i : Nat) (l : Lock C), locks[i]? = some l → l.Usable tx i) :
    ∃ tx', signTx H H160 tx P locks = some tx' ∧ SameSigned tx' tx ∧ (∀ i, i < tx.inputs.length → Spends H H160 C tx' P i) ∧
      (Decodable tx → ∃ bs, Drains txEnc tx'.encoder bs ∧ txDec.decodeSlice bs = .ok tx') ∧
      ((∀ l ∈ locks, l.Native) → ∀ H' : Bytes → Arr 32, tx'.txid H' = tx.txid H') ∧
      ∃ f : Nat → Fill, ∀ k (hk : k < tx.inputs.length), tx'.inputs[k]? = some (fillIn (f k) tx.inputs[k]) ∧
        ∀ l, locks[k]? = some l → Sized H l (f k) := by
  have hll : locks.length = P.length := by simpa using congrArg List.length hown
  have hspk : ∀ (i : Nat) (l : Lock C) (own : TxOut), locks[i]? = some l → P[i]? = some own → (l.address H H160 kind hrp).map (·.scriptPubkey) = some own.spk := by
    intro i l own h1 h2
    have := congrArg (fun x => x[i]?) hown
    simpa [List.getElem?_map, h1, h2] using this
  -- what each input gets
  have hget : ∀ i : Nat, ∃ f : Fill, ∀ l : Lock C, locks[i]? = some l → ∃ own txin, P[i]? = some own ∧ tx.inputs[i]? = some txin ∧
      (prepare H H160 P own i (Cache.new tx) l).2 = some f ∧ Small f ∧ Sized H l f := by
    intro i
    cases hli : locks[i]? with
    | none => exact ⟨(none, none), fun l h => by cases h⟩
    | some l =>
      have hlt : i < locks.length := (List.getElem?_eq_some_iff.mp hli).1
      have h1 : P[i]? = some P[i] := List.getElem?_eq_getElem (by omega)
      have h2 : tx.inputs[i]? = some tx.inputs[i] := List.getElem?_eq_getElem (by omega)
      obtain ⟨f, f1, f2, f3, -⟩ := works H H160 C kind hrp hD tx P i _ _ l h2 h1 h32 hl (husable i l hli) (hspk i l _ hli h1)
      refine ⟨f, fun l' e => ?_⟩
      cases e
      exact ⟨_, _, h1, h2, f1, f2, f3⟩
  obtain ⟨f, hf⟩ := Classical.axiomOfChoice hget
  obtain ⟨c', e1, e2, e3⟩ := signFrom_spec H H160 P tx f locks 0 (Cache.new tx) tx (good_new H tx P) (.refl tx) (fun k l hk => by
    obtain ⟨own, _, a1, _, a2, _⟩ := hf k l hk
    rw [Nat.zero_add]
    exact ⟨own, a1, a2⟩)
  have hin : ∀ k (hk : k < tx.inputs.length), c'.tx.inputs[k]? = some (fillIn (f k) tx.inputs[k]) := by
    intro k hk
    rw [e3 k, if_pos (by omega), List.getElem?_eq_getElem hk]; rfl
  have hlen : c'.tx.inputs.length = tx.inputs.length := e2.length
  have hsmall : ∀ k, k < tx.inputs.length → Small (f k) := by
    intro k hk
    obtain ⟨_, _, _, _, _, a, _⟩ := hf k locks[k] (List.getElem?_eq_getElem (by omega))
    exact a
  refine ⟨c'.tx, by unfold signTx; rw [e1]; rfl, e2, ?_, ?_, ?_, f, fun k hk => ⟨hin k hk, fun l hli => ?_⟩⟩
  · intro i hi
    have hli : locks[i]? = some locks[i] := List.getElem?_eq_getElem (by omega)
    obtain ⟨own, txin, a1, a2, a3, -⟩ := hf i _ hli
    have hus : (locks[i]).Usable c'.tx i := by
      have := husable i _ hli
      unfold Lock.Usable at this ⊢
      rw [e2.2.2.2]
      exact this
    obtain ⟨g, g1, -, -, g3⟩ := works H H160 C kind hrp hD c'.tx P i _ own _ (hin i hi) a1 (by omega) (by omega) hus (hspk i _ own hli a1)
    have hg : g = f i := by
      have := (prepare_same H H160 P (good_new H c'.tx P) e2 own i locks[i]).2
      rw [g1, a3] at this
      exact Option.some.inj this
    subst hg
    obtain ⟨u1, u2⟩ := hu tx.inputs[i] (List.getElem_mem hi)
    refine g3 ?_ ?_
    · show (f i).1.getD _ = _; rw [u1]
    · show (f i).2.getD _ = _; rw [u2]
  · intro hdec
    have hd' : Decodable c'.tx := by
      have hmem : ∀ x ∈ c'.tx.inputs, ∃ k, ∃ hk : k < tx.inputs.length, x = fillIn (f k) tx.inputs[k] := by
        intro x hx
        obtain ⟨k, hk, rfl⟩ := List.mem_iff_getElem.mp hx
        have := hin k (by omega)
        rw [List.getElem?_eq_getElem hk] at this
        exact ⟨k, by omega, Option.some.inj this⟩
      have hprev : c'.tx.inputs.map (·.prev) = tx.inputs.map (·.prev) := by
        have := congrArg (List.map Prod.fst) e2.2.2.1
        simpa [List.map_map, Function.comp_def] using this
      refine ⟨?_, by rw [hprev]; exact hdec.distinct, ?_, ?_, ?_, ?_, ?_⟩
      · rw [e2.2.2.2]; exact hdec.outputs
      · intro x hx hn
        exfalso
        obtain ⟨k, hk, rfl⟩ := hmem x hx
        have := (hdec.nonNull tx.inputs[k] (List.getElem_mem hk) hn).2.1
        rw [(hu _ (List.getElem_mem hk)).1] at this
        simp at this
      · rw [e2.2.2.2]; exact hdec.value
      · rw [e2.2.2.2, hlen]; exact hdec.counts
      · rw [e2.2.2.2]
        refine ⟨fun x hx => ?_, hdec.scripts.2⟩
        obtain ⟨k, hk, rfl⟩ := hmem x hx
        have hs := (hsmall k hk).1
        show ((f k).1.getD _).length ≤ _
        cases hfk : (f k).1 with
        | none => exact hdec.scripts.1 _ (List.getElem_mem hk)
        | some s => have := hs s hfk; simp only [Option.getD_some]; omega
      · intro x hx
        obtain ⟨k, hk, rfl⟩ := hmem x hx
        have hs := (hsmall k hk).2
        show BuiltWitness ((f k).2.getD _)
        cases hfk : (f k).2 with
        | none => exact hdec.witnesses _ (List.getElem_mem hk)
        | some w => exact hs w hfk
    obtain ⟨bs, b1, b2, -⟩ := C08_roundtrip c'.tx hd'
    exact ⟨bs, b1, b2⟩

  · intro hn H'
    refine C11_txid_ignores_witness H' _ _ ⟨e2.1, e2.2.1, e2.2.2.2, ?_⟩
    refine List.ext_getElem? fun k => ?_
    rw [List.getElem?_map, List.getElem?_map]
    by_cases hk : k < tx.inputs.length
    · have hli : locks[k]? = some locks[k] := List.getElem?_eq_getElem (by omega)
      obtain ⟨_, _, _, _, a3, -⟩ := hf k _ hli
      have h1 := prepare_native H H160 P _ k _ _ (hn _ (List.getElem_mem (by omega))) _ a3
      rw [hin k hk, List.getElem?_eq_getElem hk]
      show some (_, (f k).1.getD _, _) = _
      rw [h1]; rfl
    · rw [List.getElem?_eq_none (by omega), List.getElem?_eq_none (by omega)]
  · obtain ⟨_, _, _, _, _, _, a⟩ := hf k l hli
    exact a

/-- Signing every input of an unsigned transaction, each for an output of any of the kinds, succeeds; nothing but script signatures and
witnesses changes; and every input of the signed transaction spends its output.  If the unsigned transaction can be encoded and decoded, so
can the signed one: what a node decodes is the same transaction, every input of which spends its output.  If all outputs are spent by
witnesses alone, the transaction id is known before signing. -/
theorem C98_signed (H : Bytes → Hash) (H160 : Bytes → Arr 20) (C : Curve S D) (kind : NetworkKind) (hrp : Addr.KnownHrp)
    (hD : ∀ s, D.serialize s ≠ []) (tx : Tx) (P : List TxOut) (locks : List (Lock C)) (hu : Unsigned tx) (h32 : tx.inputs.length ≤ 2 ^ 32)
    (hl : P.length = tx.inputs.length) (hown : Owns H H160 kind hrp P locks) (husable : ∀ (i : Nat) (l : Lock C), locks[i]? = some l → l.Usable tx i) :
    ∃ tx', signTx H H160 tx P locks = some tx' ∧ SameSigned tx' tx ∧ (∀ i, i < tx.inputs.length → Spends H H160 C tx' P i) ∧
      (Decodable tx → ∃ bs, Drains txEnc tx'.encoder bs ∧ txDec.decodeSlice bs = .ok tx') ∧
      ((∀ l ∈ locks, l.Native) → ∀ H' : Bytes → Arr 32, tx'.txid H' = tx.txid H') := by
  obtain ⟨tx', a1, a2, a3, a4, a5, -⟩ := signed_core H H160 C kind hrp hD tx P locks hu h32 hl hown husable
  exact ⟨tx', a1, a2, a3, a4, a5⟩

/-! ### An example: one input of each kind -/

def toyKey : PrivateKey := ⟨true, two⟩
def toyKey' : PrivateKey := ⟨false, two.negate⟩
def toyTree : Taproot.Tree := .node (.leaf (.script [0x51] .tapScript)) (.leaf (.script (leafScript (XOnlyKey.fromKeypair toyCurve ⟨two⟩)) .tapScript))
def toyLocks : List (Lock toyCurve) :=
  [.p2pkh toyKey' .single, .p2wpkh toyKey .all, .p2shP2wpkh toyKey .noneAcp,
    .p2wshMultisig [toyKey.toPublicKey _, toyKey'.toPublicKey _, toyKey.toPublicKey _] [toyKey', toyKey] .all,
    .p2trKey ⟨two.negate⟩ none .default, .p2trScript (XOnlyKey.fromKeypair toyCurve ⟨two.negate⟩) toyTree ⟨two⟩ .singleAcp]
def toyH : Bytes → Hash := fun _ => five
def toyH160 : Bytes → Arr 20 := fun b => ⟨List.replicate 20 (UInt8.ofNat b.length), by simp⟩
def toySpent : List TxOut := toyLocks.map fun l => ⟨⟨1000, by decide⟩, ((l.address toyH toyH160 .test .testnets).map (·.scriptPubkey)).getD []⟩
def toyTx : Tx where
  version := 2
  lockTime := 0
  inputs := (List.range 6).map fun n => ⟨⟨five, UInt32.ofNat n⟩, [], 0xFFFFFFFD, Wit.empty⟩
  outputs := (List.range 6).map fun n => ⟨⟨700, by decide⟩, [0x51, UInt8.ofNat n]⟩

instance (tx : Tx) : Decidable (Unsigned tx) := inferInstanceAs (Decidable (∀ x ∈ tx.inputs, _))
instance (kind : NetworkKind) (hrp : Addr.KnownHrp) (P : List TxOut) (locks : List (Lock toyCurve)) : Decidable (Owns toyH toyH160 kind hrp P locks) :=
  inferInstanceAs (Decidable (_ = _))

/-- All the hypotheses are met by a transaction with one input of each kind (and the addresses are real ones, 22 to 35 bytes of script). -/
example : (∀ s, toyDer.serialize s ≠ []) ∧ Unsigned toyTx ∧ toyTx.inputs.length ≤ 2 ^ 32 ∧ toySpent.length = toyTx.inputs.length ∧
    Owns toyH toyH160 .test .testnets toySpent toyLocks ∧ (∀ (i : Nat) (l : Lock toyCurve), toyLocks[i]? = some l → l.Usable toyTx i) ∧
    toySpent.map (·.spk.length) = [25, 22, 23, 34, 34, 34] ∧ Decodable toyTx := by
  refine ⟨fun s => by simp [toyDer], by decide +kernel, by decide +kernel, by decide +kernel, by decide +kernel, ?_, by decide +kernel, ?_⟩
  · intro i l h
    match i, h with
    | 0, h => cases h; trivial
    | 1, h => cases h; trivial
    | 2, h => cases h; trivial
    | 3, h =>
      cases h
      exact ⟨by decide, by decide, .cons _ (.cons₂ _ (.cons₂ _ .slnil))⟩
    | 4, h =>
      cases h
      exact ⟨fun t e => (by cases e), fun _ => by decide⟩
    | 5, h =>
      cases h
      exact ⟨by decide, by simp [toyTree, Taproot.Tree.scripts], fun _ => by decide⟩
    | n + 6, h => cases h
  · refine ⟨by decide, by decide +kernel, ?_, by decide +kernel, by decide, ?_, ?_⟩
    · decide +kernel
    · decide +kernel
    · intro x hx
      have : x.witness = Wit.empty := by
        obtain ⟨n, -, rfl⟩ := List.mem_map.mp hx
        rfl
      rw [this]
      exact built [] ⟨(by intro a x b h; cases a <;> cases h), by simp⟩ (by simp)

/-- Signing it in the model: every input has its signatures. -/
example : (signTx toyH toyH160 toyTx toySpent toyLocks).map (fun tx => tx.inputs.map fun x => (x.scriptSig.length, x.witness.toVec.map fun v => v.map (·.length))) =
    some [(69, some []), (0, some [2, 33]), (23, some [2, 33]), (0, some [0, 2, 2, 105]), (0, some [64]), (0, some [65, 34, 65])] := by
  decide +kernel

end SignTx
end Btc
