import Verif.Bitcoin.Examples
import Verif.Props.C58
import Verif.Props.C98
import Verif.Props.C103
/-!
# C113: the example programs that read transactions and scripts
-/
namespace Btc
namespace Examples
open Crypto
open Taproot (Hash)
open Sighash (Cache Good good_new SameSigned)
open SignTx (EcdsaOk v0Digest legacyDigest Spends ProgramOk pushed Lock signTx Unsigned Owns)

variable {S : Secp} {D : Der}

/-! ## Words of the statements -/

/-- The hash types of the standard. -/
def standardTypes : Bytes := [0x01, 0x02, 0x03, 0x81, 0x82, 0x83]

/-- A DER signature and a hash type. -/
def IsSig (D : Der) (b : Bytes) : Prop := ∃ (der : Bytes) (ty : UInt8) (s : D.Sig), b = der ++ [ty] ∧ ty ∈ standardTypes ∧ D.parse der = some s

/-- The hash type at the end of a signature. -/
def typeOf (b : Bytes) : UInt32 := (b.getLast?.getD 0).toUInt32

/-! ## Lemmas -/

theorem load_iff (raw : Bytes) (i : Nat) (tx : Tx) (inp : TxIn) :
    load raw i = some (tx, inp) ↔ txDec.decodeSlice raw = .ok tx ∧ tx.inputs[i]? = some inp := by
  unfold load
  cases h : txDec.decodeSlice raw with
  | error e => simp
  | ok t =>
    simp only [Option.map_eq_some_iff, Prod.mk.injEq, Except.ok.injEq]
    constructor
    · rintro ⟨x, h1, rfl, rfl⟩; exact ⟨rfl, h1⟩
    · rintro ⟨rfl, h1⟩; exact ⟨_, h1, rfl, rfl⟩

theorem agrees (raw : Bytes) (tx : Tx) (h : txDec.decodeSlice raw = .ok tx) (i : Nat) (inp : TxIn) (hi : tx.inputs[i]? = some inp) :
    ∃ l, AgreesWith inp.witness l := by
  obtain ⟨hok, -⟩ := (txDec_ok_iff _ _).mp h
  obtain ⟨l, hl, e⟩ := hok.witnesses inp (List.mem_of_getElem? hi)
  rw [e]
  exact ⟨l, agrees_ofList l hl.fits hl.sizes⟩

theorem element_eq {w : Wit} {l : List Bytes} (h : AgreesWith w l) (n : Nat) : element w n = l[n]? := by
  unfold element; rw [h.get]; rfl

theorem std_iff (ty : UInt8) : ty ∈ standardTypes ↔ ∃ e : Ecdsa, ty = e.toU32.toUInt8 := by
  constructor
  · intro h
    simp only [standardTypes, List.mem_cons, List.not_mem_nil, or_false] at h
    rcases h with rfl | rfl | rfl | rfl | rfl | rfl
    · exact ⟨.all, rfl⟩
    · exact ⟨.none, rfl⟩
    · exact ⟨.single, rfl⟩
    · exact ⟨.allAcp, rfl⟩
    · exact ⟨.noneAcp, rfl⟩
    · exact ⟨.singleAcp, rfl⟩
  · rintro ⟨e, rfl⟩; cases e <;> decide

theorem toU32_back (e : Ecdsa) : e.toU32.toUInt8.toUInt32 = e.toU32 := by cases e <;> rfl

theorem signature_iff (b : Bytes) (s : EcdsaSig D) : signature D b = some s ↔ ∃ d, b = d ++ [s.ty.toU32.toUInt8] ∧ D.parse d = some s.sig := by
  rw [← C60_ecdsa_from_slice]
  unfold signature
  cases EcdsaSig.fromSlice D b <;> simp

theorem signature_typeOf {b : Bytes} {s : EcdsaSig D} (h : signature D b = some s) : IsSig D b ∧ typeOf b = s.ty.toU32 := by
  obtain ⟨d, rfl, h2⟩ := (signature_iff b s).mp h
  refine ⟨⟨d, _, s.sig, rfl, (std_iff _).mpr ⟨_, rfl⟩, h2⟩, ?_⟩
  unfold typeOf
  rw [List.getLast?_append, List.getLast?_singleton, Option.some_or, Option.getD_some, toU32_back]

theorem signature_of_isSig {b : Bytes} (h : IsSig D b) : ∃ s : EcdsaSig D, signature D b = some s ∧ typeOf b = s.ty.toU32 := by
  obtain ⟨der, ty, s, rfl, h1, h2⟩ := h
  obtain ⟨e, rfl⟩ := (std_iff ty).mp h1
  have : signature D (der ++ [e.toU32.toUInt8]) = some ⟨s, e⟩ := (signature_iff _ _).mpr ⟨der, rfl, h2⟩
  exact ⟨⟨s, e⟩, this, (signature_typeOf this).2⟩

theorem signature_none {b : Bytes} (h : ¬ IsSig D b) : signature D b = none := by
  cases hs : signature D b with
  | none => rfl
  | some s => exact absurd (signature_typeOf hs).1 h

theorem fullKey_iff (b : Bytes) (k : FullPublicKey S) : fullKey S b = some k ↔ b.length = 33 ∧ S.fromSlice b = some k.inner := by
  unfold fullKey
  split
  · next h =>
    simp only [FullPublicKey.fromBytes, Option.map_eq_some_iff, h, true_and]
    constructor
    · rintro ⟨p, h1, rfl⟩; exact h1
    · intro h1; exact ⟨_, h1, rfl⟩
  · next h => simp [h]

theorem fullKey_bytes {b : Bytes} {k : FullPublicKey S} (h : fullKey S b = some k) : k.toBytes = b := by
  obtain ⟨h1, h2⟩ := (fullKey_iff b k).mp h
  exact (S.ser_unique b k.inner h1 h2).symm

theorem two_of_length {l : List Bytes} (h : l.length = 2) : ∃ a b, l = [a, b] := by
  match l, h with
  | [a, b], _ => exact ⟨a, b, rfl⟩

/-! ## P2WPKH -/

/-- The program for P2WPKH returns exactly if the bytes are a transaction whose input has a witness of a signature and a key of 33 bytes that
parse, and the signature is valid for the key and the message of BIP-143 for that key's hash; the hash is the one printed. -/
theorem C113_p2wpkh (H : Bytes → Hash) (H160 : Bytes → Arr 20) (C : Curve S D) (raw : Bytes) (i : Nat) (amount : Amount) (h : Hash) :
    computeP2wpkh H H160 C raw i amount = some h ↔ ∃ (tx : Tx) (inp : TxIn) (der : Bytes) (ty : UInt8) (pk : Bytes) (p : S.Point) (s : D.Sig),
      txDec.decodeSlice raw = .ok tx ∧ tx.inputs[i]? = some inp ∧ inp.witness.toVec = some [der ++ [ty], pk] ∧ ty ∈ standardTypes ∧
      D.parse der = some s ∧ pk.length = 33 ∧ S.fromSlice pk = some p ∧
      h = H (H (Sighash.bip143 H tx i inp ([0x76, 0xa9, 0x14] ++ (H160 pk).1 ++ [0x88, 0xac]) amount ty.toUInt32)).1 ∧ C.verifyEcdsa s h p = true := by
  have key : ∀ (tx : Tx) (inp : TxIn) (sig : EcdsaSig D) (pk : FullPublicKey S), tx.inputs[i]? = some inp →
      (Sighash.p2wpkhHash H (Cache.new tx) i (Scr.newP2wpkh (H160 pk.toBytes)) amount sig.ty).2 =
        some (.ok (H (H (Sighash.bip143 H tx i inp ([0x76, 0xa9, 0x14] ++ (H160 pk.toBytes).1 ++ [0x88, 0xac]) amount sig.ty.toU32)).1)) := by
    intro tx inp sig pk hi
    rw [(Sighash.C56_p2wpkh H tx i _ amount sig.ty).1 _ (Scr.C35_constructors.2.2.2.1 _).2, hi]
  constructor
  · intro hc
    simp only [computeP2wpkh, Option.bind_eq_some_iff] at hc
    obtain ⟨⟨tx, inp⟩, h1, h2⟩ := hc
    obtain ⟨hd, hi⟩ := (load_iff _ _ _ _).mp h1
    obtain ⟨l, hl⟩ := agrees raw tx hd i inp hi
    simp only at h2
    split at h2
    · next h2e =>
      rw [hl.len] at h2e
      obtain ⟨a, b, rfl⟩ := two_of_length h2e
      simp only [Option.bind_eq_some_iff] at h2
      obtain ⟨sb, e1, pb, e2, sig, e3, pk, e4, e5⟩ := h2
      rw [element_eq hl] at e1 e2
      cases e1; cases e2
      obtain ⟨der, hs1, hs2⟩ := (signature_iff a sig).mp e3
      obtain ⟨hk1, hk2⟩ := (fullKey_iff b pk).mp e4
      unfold verifyP2wpkh at e5
      rw [key tx inp sig pk hi, fullKey_bytes e4] at e5
      simp only at e5
      split at e5
      · next hv =>
        cases e5
        refine ⟨tx, inp, der, sig.ty.toU32.toUInt8, b, pk.inner, sig.sig, hd, hi, by rw [hl.toVec, hs1], (std_iff _).mpr ⟨_, rfl⟩, hs2, hk1, hk2, ?_, hv⟩
        rw [toU32_back]
      · cases e5
    · cases h2
  · rintro ⟨tx, inp, der, ty, pk, p, s, hd, hi, hw, ht, hs, hk1, hk2, rfl, hv⟩
    obtain ⟨l, hl⟩ := agrees raw tx hd i inp hi
    rw [hl.toVec] at hw
    cases hw
    obtain ⟨e, rfl⟩ := (std_iff ty).mp ht
    have e3 : signature D (der ++ [e.toU32.toUInt8]) = some ⟨s, e⟩ := (signature_iff _ _).mpr ⟨der, rfl, hs⟩
    have e4 : fullKey S pk = some ⟨p⟩ := (fullKey_iff _ _).mpr ⟨hk1, hk2⟩
    unfold computeP2wpkh
    rw [(load_iff _ _ _ _).mpr ⟨hd, hi⟩]
    simp only [Option.bind_some]
    rw [if_pos (by rw [hl.len]; rfl), element_eq hl, element_eq hl]
    simp only [List.getElem?_cons_zero, List.getElem?_cons_succ, Option.bind_some, e3, e4]
    unfold verifyP2wpkh
    rw [key tx inp ⟨s, e⟩ ⟨p⟩ hi, fullKey_bytes e4]
    simp only
    rw [toU32_back] at hv ⊢
    rw [if_pos (show FullPublicKey.verify C ⟨p⟩ _ ⟨s, e⟩ = true from hv)]

/-- For an output of P2WPKH: the input is accepted exactly if its script signature is empty, the signature has at most 520 bytes, the key is the
one of the output, and the program returns. The program itself does not look at the script of the output. -/
theorem C113_p2wpkh_spends (H : Bytes → Hash) (H160 : Bytes → Arr 20) (C : Curve S D) (raw : Bytes) (tx : Tx) (hd : txDec.decodeSlice raw = .ok tx)
    (i : Nat) (inp : TxIn) (hi : tx.inputs[i]? = some inp) (P : List TxOut) (own : TxOut) (ho : P[i]? = some own) (program : Arr 20)
    (hspk : own.spk = [0x00, 0x14] ++ program.1) :
    Spends H H160 C tx P i ↔ inp.scriptSig = [] ∧ (∃ sig pk, inp.witness.toVec = some [sig, pk] ∧ sig.length ≤ 520 ∧ H160 pk = program) ∧
      ∃ h, computeP2wpkh H H160 C raw i own.amount = some h := by
  constructor
  · intro hs
    cases hs with
    | p2pkh txin own' sig pk e1 e2 e3 =>
      rw [ho] at e2; cases e2
      rw [hspk] at e3; cases e3
    | nested txin own' version prog redeem stack e1 e2 e3 =>
      rw [ho] at e2; cases e2
      rw [hspk] at e3; cases e3
    | native txin own' version prog stack e1 e2 e3 e4 e5 e6 =>
      rw [ho] at e2; cases e2
      rw [hi] at e1; cases e1
      rw [hspk] at e3
      cases e6 with
      | wpkh sig pk k1 k0 k2 =>
        obtain ⟨der, ty, p, s, rfl, g2, g3, g4, g5⟩ := k2
        have hp : H160 pk = program := by
          simp only [pushed, List.cons_append, List.nil_append, List.cons.injEq] at e3
          exact Subtype.ext e3.2.2.symm
        exact ⟨e4, ⟨_, _, e5, k0, hp⟩, _, (C113_p2wpkh H H160 C raw i own.amount _).mpr
          ⟨tx, inp, der, ty, pk, p, s, hd, hi, e5, g2, g4, k1, g3, rfl, g5⟩⟩
      | wsh m keys sigs script =>
        have := congrArg List.length e3
        simp only [pushed, List.length_append, List.length_cons, List.length_nil, program.2, (H script).2] at this
        omega
      | trKey q sig => cases e3
      | trScript q key Q sig script c0 c leaf => cases e3
  · rintro ⟨h1, ⟨sig, pk, hw, h0, hp⟩, h, hc⟩
    obtain ⟨tx', inp', der, ty, pk', p, s, a1, a2, a3, a4, a5, a6, a7, rfl, a9⟩ := (C113_p2wpkh H H160 C raw i own.amount h).mp hc
    rw [hd] at a1; cases a1
    rw [hi] at a2; cases a2
    rw [hw] at a3; cases a3
    refine .native inp own 0 program.1 [der ++ [ty], pk] hi ho ?_ h1 hw ?_
    · rw [hspk]; unfold pushed; rw [program.2]; rfl
    · rw [← hp]
      exact .wpkh _ _ a6 h0 ⟨der, ty, p, s, rfl, a4, a7, a5, a9⟩

/-- Signed, encoded, decoded and checked: what sign-tx-segwit-v0.rs makes, sighash.rs accepts, for every key, transaction and hash type. -/
theorem C113_sign_then_check (H : Bytes → Hash) (H160 : Bytes → Arr 20) (C : Curve S D) (kind : NetworkKind) (hrp : Addr.KnownHrp)
    (hD : ∀ s, D.serialize s ≠ []) (tx : Tx) (P : List TxOut) (locks : List (Lock C)) (hu : Unsigned tx) (h32 : tx.inputs.length ≤ 2 ^ 32)
    (hl : P.length = tx.inputs.length) (hown : Owns H H160 kind hrp P locks) (husable : ∀ (i : Nat) (l : Lock C), locks[i]? = some l → l.Usable tx i)
    (hdec : Decodable tx) :
    ∃ tx' bs, signTx H H160 tx P locks = some tx' ∧ Drains txEnc tx'.encoder bs ∧ txDec.decodeSlice bs = .ok tx' ∧
      (∀ i, i < tx.inputs.length → Spends H H160 C tx' P i) ∧
      ∀ (i : Nat) (k : PrivateKey) (ty : Ecdsa) (own : TxOut), locks[i]? = some (.p2wpkh k ty) → P[i]? = some own →
        ∃ h, computeP2wpkh H H160 C bs i own.amount = some h := by
  obtain ⟨tx', a1, a2, a3, a4, -⟩ := SignTx.C98_signed H H160 C kind hrp hD tx P locks hu h32 hl hown husable
  obtain ⟨bs, b1, b2⟩ := a4 hdec
  refine ⟨tx', bs, a1, b1, b2, a3, fun i k ty own hk ho => ?_⟩
  have hlt : i < tx.inputs.length := by
    rw [← hl]; exact (List.getElem?_eq_some_iff.mp ho).1
  have hs := a3 i hlt
  have hspk : own.spk = [0x00, 0x14] ++ (H160 (k.toPublicKey S).toBytes).1 := by
    have := congrArg (·[i]?) hown
    simp only [List.getElem?_map, hk, ho, Option.map_some, Option.some.injEq] at this
    obtain ⟨hv, hs⟩ := (Addr.C74_constructors H160 H kind hrp).2.1 (H160 (k.toPublicKey S).toBytes)
    simp only [Lock.address, Option.map_some, Option.some.injEq] at this
    rw [← this, Addr.C74_script_pubkey _ hv, hs]
  obtain ⟨inp, hi⟩ : ∃ inp, tx'.inputs[i]? = some inp := by
    cases hs with
    | p2pkh txin _ _ _ e => exact ⟨_, e⟩
    | native txin _ _ _ _ e => exact ⟨_, e⟩
    | nested txin _ _ _ _ _ e => exact ⟨_, e⟩
  exact ((C113_p2wpkh_spends H H160 C bs tx' b2 i inp hi P own ho _ hspk).mp hs).2.2

/-! ## P2WSH -/

theorem wshLoop_iff (H : Bytes → Hash) (tx : Tx) (i : Nat) (inp : TxIn) (hi : tx.inputs[i]? = some inp) (l : List Bytes)
    (hl : AgreesWith inp.witness l) (script : Bytes) (amount : Amount) : ∀ (k n : Nat) (c : Cache) (hs : List Hash), Good H tx [] c → n + k ≤ l.length →
    (wshLoop H D inp.witness i script amount k n c = some hs ↔
      (∀ b ∈ (l.drop n).take k, IsSig D b ∧ 71 ≤ b.length ∧ b.length ≤ 73) ∧
      hs = ((l.drop n).take k).map fun b => H (H (Sighash.bip143 H tx i inp script amount (typeOf b))).1)
  | 0, n, c, hs, hg, hle => by simp [wshLoop, eq_comm]
  | k + 1, n, c, hs, hg, hle => by
    have hn : n < l.length := by omega
    rw [List.drop_eq_getElem_cons hn, List.take_succ_cons]
    simp only [wshLoop, element_eq hl, List.getElem?_eq_getElem hn, Option.bind_some, List.forall_mem_cons, List.map_cons]
    generalize l[n] = b
    by_cases hb : IsSig D b
    · obtain ⟨s, e1, e2⟩ := signature_of_isSig hb
      have hpos : 1 ≤ b.length := by
        obtain ⟨der, ty, _, rfl, _⟩ := hb
        simp
      simp only [e1, Option.bind_some]
      by_cases hlen : 70 ≤ b.length - 1 ∧ b.length - 1 ≤ 72
      · rw [if_pos hlen]
        obtain ⟨g1, g2⟩ := SignTx.p2wsh_same H [] hg ⟨rfl, rfl, rfl, rfl⟩ i script amount s.ty (tx0 := tx)
        rw [Sighash.C56_p2wsh, hi] at g2
        generalize Sighash.p2wshHash H c i script amount s.ty = r at g1 g2
        obtain ⟨c', r2⟩ := r
        simp only at g1 g2
        subst g2
        simp only [Option.map_eq_some_iff]
        rw [e2]
        constructor
        · rintro ⟨t, h1, rfl⟩
          obtain ⟨h2, rfl⟩ := (wshLoop_iff H tx i inp hi l hl script amount k (n + 1) c' t g1 (by omega)).mp h1
          exact ⟨⟨⟨hb, by omega, by omega⟩, h2⟩, rfl⟩
        · rintro ⟨⟨-, h2⟩, rfl⟩
          exact ⟨_, (wshLoop_iff H tx i inp hi l hl script amount k (n + 1) c' _ g1 (by omega)).mpr ⟨h2, rfl⟩, rfl⟩
      · rw [if_neg hlen]
        constructor
        · intro h; cases h
        · rintro ⟨⟨⟨-, h1, h2⟩, -⟩, -⟩; omega
    · rw [signature_none hb]
      constructor
      · intro h; cases h
      · rintro ⟨⟨⟨h, -⟩, -⟩, -⟩; exact absurd h hb

/-- The program for P2WSH returns exactly if the bytes are a transaction whose input has a witness of at least two elements, and all but the first
and the last are a DER signature of 70 to 72 bytes with a standard hash type.  It prints the hash of BIP-143 for each, for the last element as the
script. -/
theorem C113_p2wsh (H : Bytes → Hash) (D : Der) (raw : Bytes) (i : Nat) (amount : Amount) (hs : List Hash) :
    computeP2wsh H D raw i amount = some hs ↔ ∃ (tx : Tx) (inp : TxIn) (first : Bytes) (sigs : List Bytes) (script : Bytes),
      txDec.decodeSlice raw = .ok tx ∧ tx.inputs[i]? = some inp ∧ inp.witness.toVec = some (first :: sigs ++ [script]) ∧
      (∀ b ∈ sigs, IsSig D b ∧ 71 ≤ b.length ∧ b.length ≤ 73) ∧
      hs = sigs.map fun b => H (H (Sighash.bip143 H tx i inp script amount (typeOf b))).1 := by
  have hmid : ∀ (first : Bytes) (sigs : List Bytes) (script : Bytes), ((first :: sigs ++ [script]).drop 1).take ((first :: sigs ++ [script]).length - 2) = sigs := by
    intro first sigs script
    simp
  constructor
  · intro hc
    simp only [computeP2wsh, Option.bind_eq_some_iff] at hc
    obtain ⟨⟨tx, inp⟩, h1, script, h2, h3⟩ := hc
    obtain ⟨hd, hi⟩ := (load_iff _ _ _ _).mp h1
    obtain ⟨l, hl⟩ := agrees raw tx hd i inp hi
    simp only at h2 h3
    split at h3
    · next hge =>
      rw [hl.len] at hge h3
      obtain ⟨first, sigs, last, rfl⟩ : ∃ first sigs last, l = first :: sigs ++ [last] := by
        match l, hge with
        | a :: b :: t, _ =>
          exact ⟨a, (b :: t).dropLast, (b :: t).getLast (by simp), by rw [List.cons_append, List.dropLast_concat_getLast]⟩
      rw [hl.getBack] at h2
      have : last = script := by simpa using h2
      subst this
      obtain ⟨k1, k2⟩ := (wshLoop_iff H tx i inp hi _ hl last amount _ 1 _ hs (good_new H tx []) (by simp only [List.length_append, List.length_cons, List.length_nil]; omega)).mp h3
      rw [hmid] at k1 k2
      exact ⟨tx, inp, first, sigs, last, hd, hi, hl.toVec, k1, k2⟩
    · cases h3
  · rintro ⟨tx, inp, first, sigs, script, hd, hi, hw, h1, h2⟩
    obtain ⟨l, hl⟩ := agrees raw tx hd i inp hi
    rw [hl.toVec] at hw
    cases hw
    unfold computeP2wsh
    rw [(load_iff _ _ _ _).mpr ⟨hd, hi⟩]
    simp only [Option.bind_some]
    rw [hl.getBack, hl.len]
    have : (first :: sigs ++ [script]).reverse[0]? = some script := by simp
    rw [this]
    simp only [Option.join_some, Option.bind_some]
    rw [if_pos (by simp)]
    refine (wshLoop_iff H tx i inp hi _ hl script amount _ 1 _ hs (good_new H tx []) (by simp only [List.length_append, List.length_cons, List.length_nil]; omega)).mpr ?_
    rw [hmid]
    exact ⟨h1, h2⟩

theorem matches_mem {ok : Bytes → Bytes → Prop} {ks ss : List Bytes} (h : SignTx.Matches ok ks ss) : ∀ s ∈ ss, ∃ k ∈ ks, ok k s := by
  induction h with
  | nil => intro s hs; cases hs
  | hit k ks s ss h1 _ ih =>
    intro x hx
    rcases List.mem_cons.mp hx with rfl | hx
    · exact ⟨k, by simp, h1⟩
    · obtain ⟨k', h2, h3⟩ := ih x hx
      exact ⟨k', by simp [h2], h3⟩
  | skip k ks ss _ ih =>
    intro x hx
    obtain ⟨k', h2, h3⟩ := ih x hx
    exact ⟨k', by simp [h2], h3⟩

/-- Full claim (false, see `C113_p2wsh_fails`): for an accepted input of a P2WSH multisignature output the program prints the hashes that were
signed.  It does so if all the DER signatures have 70 to 72 bytes, and panics otherwise. -/
theorem C113_p2wsh_spends_partial (H : Bytes → Hash) (H160 : Bytes → Arr 20) (C : Curve S D) (raw : Bytes) (tx : Tx)
    (hd : txDec.decodeSlice raw = .ok tx) (i : Nat) (P : List TxOut) (own : TxOut) (ho : P[i]? = some own) (program : Arr 32)
    (hspk : own.spk = [0x00, 0x20] ++ program.1) (hs : Spends H H160 C tx P i) :
    ∃ (inp : TxIn) (sigs : List Bytes) (script : Bytes), tx.inputs[i]? = some inp ∧ inp.witness.toVec = some ([] :: sigs ++ [script]) ∧
      ((∀ b ∈ sigs, 71 ≤ b.length ∧ b.length ≤ 73) →
        computeP2wsh H D raw i own.amount = some (sigs.map fun b => v0Digest H tx i inp own script (typeOf b)) ∧
        ∀ b ∈ sigs, ∃ (pk : Bytes) (p : S.Point) (s : D.Sig), S.fromSlice pk = some p ∧ D.parse b.dropLast = some s ∧
          C.verifyEcdsa s (v0Digest H tx i inp own script (typeOf b)) p = true) ∧
      ((∃ b ∈ sigs, b.length < 71 ∨ 73 < b.length) → computeP2wsh H D raw i own.amount = none) := by
  cases hs with
  | p2pkh txin own' sig pk e1 e2 e3 =>
    rw [ho] at e2; cases e2
    rw [hspk] at e3; cases e3
  | nested txin own' version prog redeem stack e1 e2 e3 =>
    rw [ho] at e2; cases e2
    rw [hspk] at e3; cases e3
  | native inp own' version prog stack e1 e2 e3 e4 e5 e6 =>
    rw [ho] at e2; cases e2
    rw [hspk] at e3
    cases e6 with
    | wpkh sig pk k1 k0 k2 =>
      have := congrArg List.length e3
      simp only [pushed, List.length_append, List.length_cons, List.length_nil, program.2, (H160 pk).2] at this
      omega
    | trKey q sig => cases e3
    | trScript q key Q sig script c0 c leaf => cases e3
    | wsh m keys sigs script k1 k2 k3 k4 k5 k6 k7 k8 =>
      have hsig : ∀ b ∈ sigs, IsSig D b ∧ ∃ (pk : Bytes) (p : S.Point) (s : D.Sig), S.fromSlice pk = some p ∧ D.parse b.dropLast = some s ∧
          C.verifyEcdsa s (v0Digest H tx i inp own script (typeOf b)) p = true := by
        intro b hb
        obtain ⟨pk, -, der, ty, p, s, rfl, g2, g3, g4, g5⟩ := matches_mem k8 b hb
        refine ⟨⟨der, ty, s, rfl, g2, g4⟩, pk, p, s, g3, by rw [List.dropLast_concat]; exact g4, ?_⟩
        unfold typeOf
        rw [List.getLast?_append, List.getLast?_singleton, Option.some_or, Option.getD_some]
        exact g5
      refine ⟨inp, sigs, script, e1, e5, fun hlen => ⟨?_, fun b hb => (hsig b hb).2⟩, fun hbad => ?_⟩
      · exact (C113_p2wsh H D raw i own.amount _).mpr ⟨tx, inp, [], sigs, script, hd, e1, e5, fun b hb => ⟨(hsig b hb).1, hlen b hb⟩, rfl⟩
      · cases hc : computeP2wsh H D raw i own.amount with
        | none => rfl
        | some hs =>
          obtain ⟨tx', inp', first, sigs', script', a1, a2, a3, a4, -⟩ := (C113_p2wsh H D raw i own.amount hs).mp hc
          rw [hd] at a1; cases a1
          rw [e1] at a2; cases a2
          rw [e5] at a3
          simp only [Option.some.injEq, List.cons_append, List.cons.injEq] at a3
          obtain ⟨-, a3⟩ := a3
          obtain ⟨rfl, -⟩ := List.append_inj' a3 rfl
          obtain ⟨b, hb, hbl⟩ := hbad
          have := (a4 b hb).2
          omega

/-! ## Legacy -/

theorem legacyLoop_iff (H : Bytes → Hash) (tx : Tx) (i : Nat) (hi : i < tx.inputs.length) (code : Bytes) :
    ∀ (xs : List (Except Scr.ScrErr Scr.Instr)) (hs : List Hash), legacyLoop H D tx i code xs = some hs ↔
      ∃ sigs : List Bytes, xs = sigs.map (fun b => .ok (.push b)) ∧ (∀ b ∈ sigs, IsSig D b) ∧ hs = sigs.map fun b => legacyDigest H tx i code (typeOf b)
  | [], hs => by
    constructor
    · intro h; cases h; exact ⟨[], rfl, by simp, rfl⟩
    · rintro ⟨sigs, h1, -, rfl⟩
      obtain rfl : sigs = [] := List.map_eq_nil_iff.mp h1.symm
      rfl
  | x :: xs, hs => by
    have hdig : ∀ t : UInt32, Sighash.legacyHash H (Cache.new tx) i code t = some (.ok (legacyDigest H tx i code t)) := by
      intro t
      rw [Sighash.C56_legacy, if_neg (by omega)]
      unfold legacyDigest
      split <;> rfl
    constructor
    · intro h
      simp only [legacyLoop, Option.bind_eq_some_iff, hdig, Option.map_eq_some_iff] at h
      obtain ⟨b, h1, s, h2, t, h3, rfl⟩ := h
      obtain rfl : x = .ok (.push b) := by
        unfold pushOf at h1
        split at h1 <;> cases h1
        rfl
      obtain ⟨sigs, rfl, h4, rfl⟩ := (legacyLoop_iff H tx i hi code xs t).mp h3
      have hb : IsSig D b := by
        by_cases hb : IsSig D b
        · exact hb
        · rw [signature_none hb] at h2; cases h2
      obtain ⟨s', h5, h6⟩ := signature_of_isSig hb
      rw [h2] at h5; cases h5
      exact ⟨b :: sigs, rfl, List.forall_mem_cons.mpr ⟨hb, h4⟩, by rw [List.map_cons, h6]⟩
    · rintro ⟨sigs, h1, h2, rfl⟩
      match sigs, h1 with
      | b :: sigs, h1 =>
        obtain ⟨rfl, rfl⟩ := List.cons.inj h1
        obtain ⟨hb, h2⟩ := List.forall_mem_cons.mp h2
        obtain ⟨s, e1, e2⟩ := signature_of_isSig hb
        simp only [legacyLoop, pushOf, Option.bind_some, e1, hdig]
        rw [(legacyLoop_iff H tx i hi code _ _).mpr ⟨sigs, rfl, h2, rfl⟩, List.map_cons, e2]
        rfl

/-- The program for legacy multisignatures returns exactly if the bytes are a transaction and the script signature of the input is, as instructions,
the empty push, signatures, and (without a script given) the redeem script.  It prints the legacy hash for each signature, with the hash type that
signature names, and with the script that was given or pushed last. -/
theorem C113_legacy (H : Bytes → Hash) (D : Der) (raw : Bytes) (i : Nat) (spk : Option Bytes) (hs : List Hash) :
    computeLegacy H D raw i spk = some hs ↔ ∃ (tx : Tx) (inp : TxIn) (code : Bytes) (sigs : List Bytes),
      txDec.decodeSlice raw = .ok tx ∧ tx.inputs[i]? = some inp ∧
      (spk = some code ∧ Scr.instructions inp.scriptSig = ([] :: sigs).map (fun b => .ok (.push b)) ∨
        spk = none ∧ Scr.instructions inp.scriptSig = ([] :: sigs ++ [code]).map (fun b => .ok (.push b))) ∧
      (∀ b ∈ sigs, IsSig D b) ∧ hs = sigs.map fun b => legacyDigest H tx i code (typeOf b) := by
  have hrest : ∀ (tx : Tx), i < tx.inputs.length → ∀ (code : Bytes) (is : List (Except Scr.ScrErr Scr.Instr)),
      (match is with
        | [] => none
        | x :: xs => (pushOf x).bind fun b => if b.isEmpty then legacyLoop H D tx i code xs else none) = some hs ↔
      ∃ sigs : List Bytes, is = ([] :: sigs).map (fun b => .ok (.push b)) ∧ (∀ b ∈ sigs, IsSig D b) ∧
        hs = sigs.map fun b => legacyDigest H tx i code (typeOf b) := by
    intro tx hlt code is
    match is with
    | [] => simp
    | x :: xs =>
      simp only [Option.bind_eq_some_iff, Option.ite_none_right_eq_some, legacyLoop_iff H tx i hlt, List.map_cons, List.cons.injEq]
      constructor
      · rintro ⟨b, h1, h2, sigs, rfl, h3, rfl⟩
        have hx : x = .ok (.push b) := by
          unfold pushOf at h1
          split at h1 <;> cases h1
          rfl
        have : b = [] := by cases b <;> simp_all
        subst this
        exact ⟨sigs, ⟨hx, rfl⟩, h3, rfl⟩
      · rintro ⟨sigs, ⟨rfl, rfl⟩, h3, rfl⟩
        exact ⟨[], rfl, rfl, sigs, rfl, h3, rfl⟩
  constructor
  · intro hc
    simp only [computeLegacy, Option.bind_eq_some_iff] at hc
    obtain ⟨⟨tx, inp⟩, h1, ⟨code, is⟩, h2, h3⟩ := hc
    obtain ⟨hd, hi⟩ := (load_iff _ _ _ _).mp h1
    have hlt := (List.getElem?_eq_some_iff.mp hi).1
    obtain ⟨sigs, rfl, h4, h5⟩ := (hrest tx hlt code is).mp h3
    refine ⟨tx, inp, code, sigs, hd, hi, ?_, h4, h5⟩
    cases spk with
    | some c =>
      simp only [Option.some.injEq, Prod.mk.injEq] at h2
      exact .inl ⟨by rw [h2.1], h2.2⟩
    | none =>
      refine .inr ⟨rfl, ?_⟩
      simp only [popPush, Option.bind_eq_some_iff, Option.map_eq_some_iff, Prod.mk.injEq] at h2
      obtain ⟨x, k1, b, k2, rfl, k3⟩ := h2
      have hx : x = .ok (.push b) := by
        unfold pushOf at k2
        split at k2 <;> cases k2
        rfl
      subst hx
      obtain ⟨ys, hys⟩ := List.getLast?_eq_some_iff.mp k1
      rw [hys, List.dropLast_concat] at k3
      rw [hys, k3, List.map_append]
      rfl
  · rintro ⟨tx, inp, code, sigs, hd, hi, hcase, h1, h2⟩
    have hlt := (List.getElem?_eq_some_iff.mp hi).1
    unfold computeLegacy
    rw [(load_iff _ _ _ _).mpr ⟨hd, hi⟩]
    simp only [Option.bind_some]
    rcases hcase with ⟨rfl, he⟩ | ⟨rfl, he⟩
    · simp only [Option.bind_some]
      exact (hrest tx hlt code _).mpr ⟨sigs, he, h1, h2⟩
    · have : popPush (Scr.instructions inp.scriptSig) = some (code, ([] :: sigs).map (fun b => .ok (.push b))) := by
        rw [he, List.map_append]
        simp only [popPush, List.map_cons, List.map_nil, List.getLast?_append, List.getLast?_singleton, Option.some_or, Option.bind_some, pushOf,
          Option.map_some, List.dropLast_concat]
      rw [this]
      simp only [Option.bind_some]
      exact (hrest tx hlt code _).mpr ⟨sigs, rfl, h1, h2⟩

/-- A script signature put together with the builder is one the program reads. -/
theorem C113_legacy_built (H : Bytes → Hash) (D : Der) (raw : Bytes) (tx : Tx) (hd : txDec.decodeSlice raw = .ok tx) (i : Nat) (inp : TxIn)
    (hi : tx.inputs[i]? = some inp) (sigs : List Bytes) (hsig : ∀ b ∈ sigs, IsSig D b ∧ 2 ≤ b.length ∧ b.length < 2 ^ 32)
    (redeem : Bytes) (hr : 2 ≤ redeem.length ∧ redeem.length < 2 ^ 32)
    (hs : inp.scriptSig = (([] :: sigs ++ [redeem]).map Scr.Instr.push).foldl Scr.pushInstr []) :
    computeLegacy H D raw i none = some (sigs.map fun b => legacyDigest H tx i redeem (typeOf b)) := by
  refine (C113_legacy H D raw i none _).mpr ⟨tx, inp, redeem, sigs, hd, hi, .inr ⟨rfl, ?_⟩, fun b hb => (hsig b hb).1, rfl⟩
  have hmem : ∀ b ∈ [] :: sigs ++ [redeem], b.length < 2 ^ 32 ∧ b.length ≠ 1 := by
    intro b hb
    simp only [List.cons_append, List.mem_cons, List.mem_append, List.not_mem_nil, or_false] at hb
    rcases hb with rfl | hb | rfl
    · decide
    · have := hsig b hb; omega
    · omega
  have hnorm : ∀ b : Bytes, b.length ≠ 1 → Scr.norm (.push b) = .push b := by
    intro b hb
    match b, hb with
    | [], _ => rfl
    | [x], h => exact absurd rfl h
    | _ :: _ :: _, _ => rfl
  rw [hs, (Scr.C31_push_slice _ ?_).1]
  · rw [List.map_map, List.map_map]
    refine List.map_congr_left fun b hb => ?_
    simp only [Function.comp]
    rw [hnorm b (hmem b hb).2]
  · intro x hx
    obtain ⟨b, hb, rfl⟩ := List.mem_map.mp hx
    exact (hmem b hb).1

/-! ## script.rs -/

theorem lower_digits (b : Bytes) : (HexText.Digits .lower b).map Char.toLower = HexText.Digits .lower b := by
  have h := (HexText.C103_script b (HexText.Digits .lower b)).2
  exact h.1.mp (by rw [← h.2.1]; exact h.2.2.1)

/-- Read as text with the length, the text of a script without one is refused, unless the script starts with its own length; then another script
is read. -/
theorem C113_script_unprefixed (code : Bytes) (s : Bytes) :
    HexText.scriptFromHexPrefixed (HexText.scriptHex code) = .ok s ↔ s.length ≤ 4000000 ∧ code = csEncode s.length ++ s := by
  rw [(HexText.C103_script s _).1, (HexText.C103_script code []).2.2.1, lower_digits]
  constructor
  · rintro ⟨h1, h2⟩
    refine ⟨h1, ?_⟩
    have k1 := (HexText.C103_script code (HexText.Digits .lower code)).2.1.mpr (lower_digits _)
    have k2 := (HexText.C103_script (csEncode s.length ++ s) (HexText.Digits .lower code)).2.1.mpr (by rw [lower_digits]; exact h2)
    rw [k1] at k2
    exact Option.some.inj k2
  · rintro ⟨h1, h2⟩
    exact ⟨h1, by rw [← h2]⟩

/-- The assertions of script.rs hold for every public key hash (the program takes one). -/
theorem C113_script (pk : Arr 20) : ∃ f, ∀ fuel ≥ f, scriptProgram fuel pk = true := by
  have hcode : Scr.newP2pkh pk = [0x76, 0xa9, 0x14] ++ pk.1 ++ [0x88, 0xac] := (Scr.C35_constructors.2.1 pk).2
  have hlen : (Scr.newP2pkh pk).length = 25 := by rw [hcode]; simp [pk.2]
  obtain ⟨f1, h1⟩ := (HexText.C103_script (Scr.newP2pkh pk) []).2.2.2.2
  obtain ⟨f2, h2⟩ := HexText.C103_plain (C06_prefixed_bytes (Scr.newP2pkh pk))
  obtain ⟨cs, hy, hc⟩ := drains_iff.mp (C06_prefixed_bytes (Scr.newP2pkh pk))
  refine ⟨max (max f1 f2) cs.length, fun fuel hf => ?_⟩
  have e1 := (h1 fuel (by omega)).1
  have e2 := ((h2 fuel (by omega)).2.1 .lower).2
  have e3 := hy.drain fuel (by omega)
  rw [hc] at e3
  have hpre : HexText.scriptFromHexPrefixed (HexText.Digits .lower (csEncode (Scr.newP2pkh pk).length ++ Scr.newP2pkh pk)) = .ok (Scr.newP2pkh pk) :=
    (HexText.C103_script _ _).1.mpr ⟨by omega, lower_digits _⟩
  have hplain := (HexText.C103_script (Scr.newP2pkh pk) []).2.2.2.1
  have hdec : scriptDec.decodeSlice (csEncode (Scr.newP2pkh pk).length ++ Scr.newP2pkh pk) = .ok (Scr.newP2pkh pk) :=
    (HexText.scriptDec_ok _ _).mpr ⟨by omega, rfl⟩
  have hcs : csEncode (Scr.newP2pkh pk).length = [25] := by rw [hlen]; decide
  have hne : ∃ e, HexText.scriptFromHexPrefixed (HexText.scriptHex (Scr.newP2pkh pk)) = .error e := by
    cases h : HexText.scriptFromHexPrefixed (HexText.scriptHex (Scr.newP2pkh pk)) with
    | error e => exact ⟨e, rfl⟩
    | ok s =>
      obtain ⟨k1, k2⟩ := (C113_script_unprefixed _ _).mp h
      exfalso
      have hs : s.length < 25 := by
        have := congrArg List.length k2
        rw [hlen, List.length_append] at this
        have : 0 < (csEncode s.length).length := by
          rw [csEncode_length]
          unfold csSize
          repeat' split
          all_goals omega
        omega
      have : csEncode s.length = [UInt8.ofNat s.length] := by
        unfold csEncode
        rw [if_pos (by omega)]
      rw [this, hcode] at k2
      simp only [List.cons_append, List.cons.injEq] at k2
      have := congrArg UInt8.toNat k2.1
      simp at this
      omega
  obtain ⟨e, hne⟩ := hne
  unfold scriptProgram
  simp only [e1, e2, e3, hpre, hplain, hne]
  rw [hcs] at hdec ⊢
  simp only [List.cons_append, List.nil_append] at hdec ⊢
  simp [hdec]

/-! ## io.rs -/

/-- A writer that takes all it is given, as seen by a function of what it holds. -/
theorem drain_total {σ : Type} (W : Io.Writer σ) (g : σ → Bytes → σ) (hW : ∀ w b, W.write w b = (g w b, .ok b.length))
    (h0 : ∀ w, g w [] = w) (ha : ∀ w a b, g (g w a) b = g w (a ++ b)) {e : Enc} {s : e.S} {cs : List Bytes} (hy : Yields e s cs) :
    ∀ (rounds f : Nat) (w : σ), 1 ≤ rounds → cs.length ≤ f → W.drain e rounds f w s = some (g w cs.flatten, .ok ()) := by
  have hall : ∀ (rounds : Nat) (w : σ) (b : Bytes), 1 ≤ rounds → W.writeAll rounds w b = some (g w b, .ok ()) := by
    intro rounds w b hr
    obtain ⟨r, rfl⟩ : ∃ r, rounds = r + 1 := ⟨rounds - 1, by omega⟩
    match b with
    | [] => simp [Io.Writer.writeAll, h0]
    | x :: xs =>
      simp only [Io.Writer.writeAll, hW, List.length_cons]
      rw [List.drop_of_length_le (by simp)]
      simp [Io.Writer.writeAll]
  induction hy with
  | last s s' hadv =>
    intro rounds f w hr hf
    obtain ⟨f, rfl⟩ : ∃ m, f = m + 1 := ⟨f - 1, by simp at hf; omega⟩
    simp only [Io.Writer.drain, hall rounds w _ hr, hadv, List.flatten_cons, List.flatten_nil, List.append_nil]
  | more s s' cs hadv _ ih =>
    intro rounds f w hr hf
    obtain ⟨f, rfl⟩ : ∃ m, f = m + 1 := ⟨f - 1, by simp at hf; omega⟩
    simp only [Io.Writer.drain, hall rounds w _ hr, hadv]
    rw [ih rounds f _ hr (by simp at hf; omega), ha, List.flatten_cons]

/-- The counting writer of io.rs counts the bytes of whatever is encoded to it (36 for an outpoint, which the program asserts). -/
theorem C113_io_count {e : Enc} {s : e.S} {bs : Bytes} (h : Drains e s bs) : ∃ f, ∀ rounds ≥ 1, ∀ fuel ≥ f, ∀ n,
    countWriter.drain e rounds fuel n s = some (n + bs.length, .ok ()) := by
  obtain ⟨cs, hy, rfl⟩ := drains_iff.mp h
  exact ⟨cs.length, fun rounds hr fuel hf n => drain_total countWriter (fun n b => n + b.length) (fun _ _ => rfl) (fun _ => rfl)
    (fun w a b => by simp only [List.length_append]; omega) hy rounds fuel n hr hf⟩

theorem C113_io_outpoint (o : OutPoint) : ∃ f, ∀ rounds ≥ 1, ∀ fuel ≥ f,
    countWriter.drain outPointEnc rounds fuel 0 o.encoder = some (36, .ok ()) ∧ ioProgram rounds fuel o = some o := by
  obtain ⟨f, hf⟩ := C113_io_count (outPointEnc_drains o)
  obtain ⟨cs, hy, hc⟩ := drains_iff.mp (outPointEnc_drains o)
  have hlen : (o.txid.1 ++ u32le o.vout).length = 36 := by simp [o.txid.2]
  refine ⟨max (max f cs.length) 37, fun rounds hr fuel hfu => ⟨?_, ?_⟩⟩
  · rw [hf rounds hr fuel (by omega), hlen]
  · have hv := drain_total Io.vecWriter (fun v b => v ++ b) (fun _ _ => rfl) (fun w => List.append_nil w) (fun w a b => List.append_assoc w a b)
      hy rounds fuel [] hr (by omega)
    unfold ioProgram
    rw [hv]
    simp only
    rw [hc, List.nil_append]
    have hd : outPointDec.decodeSliceUnbounded (o.txid.1 ++ u32le o.vout) = .ok o [] := by
      have := ((Wire.dec outPointDec_lawful outPoint_wire).2 (o.txid.1 ++ u32le o.vout) o []).mpr ⟨trivial, (List.append_nil _).symm⟩
      exact this
    obtain ⟨r', h1, -⟩ := (Io.C58_decode Io.sliceBuf _ _ _ Io.C58_slice.2 ⟨_, outPointDec_lawful⟩ fuel (o.txid.1 ++ u32le o.vout) (by omega)).1 o [] hd
    rw [h1]

/-! ## encoder.rs -/

/-- The encoder of the example: the number of the items, each most significant byte first, then the bytes without their number. -/
theorem C113_encoder (v : List UInt32) (b : Bytes) :
    Drains adtEnc (adtEncoder v b) (csEncode v.length ++ v.flatMap (fun x => beBytes 4 x.toNat) ++ b) := by
  have heach : ∀ v : List UInt32, DrainsEach innerEnc (v.map innerEncoder) (v.map fun x => beBytes 4 x.toNat) := by
    intro v
    induction v with
    | nil => exact .nil
    | cons x v ih => exact .cons (C06_bytes _) ih
  have hp := C06_prefixed_slice_partial (e := innerEnc) (v.map innerEncoder) _ (heach v) (by
    intro s hs bs hb hc
    obtain ⟨x, -, rfl⟩ := List.mem_map.mp hs
    have : (beBytes 4 x.toNat : Bytes) = [] := hc
    have := congrArg List.length this
    simp at this)
  have := C06_tuple (es := [prefixedSliceEnc innerEnc, bytesEnc]) (by simp) (prefixedSlice innerEnc (v.map innerEncoder), b, ()) [_, b] ⟨hp, C06_bytes b, rfl⟩
  rw [List.length_map] at this
  rw [List.flatMap_def]
  simp only [List.flatten_cons, List.flatten_nil, List.append_nil] at this
  exact this

/-! ## Examples -/

/-- A signature type with encodings of `n` and one bytes. -/
def padDer (n : Nat) (h : n ≤ 71) : Der where
  Sig := Unit
  serialize _ := List.replicate n 0x30 ++ [1]
  parse b := if b = List.replicate n 0x30 ++ [1] then some () else none
  parse_serialize _ := if_pos rfl
  serialize_length _ := by simp; omega

def padCurve (n : Nat) (h : n ≤ 71) : Curve Secp.toy (padDer n h) where
  X := toyCurve.X
  dec := toyCurve.dec
  serX := toyCurve.serX
  parseX := toyCurve.parseX
  xonly := toyCurve.xonly
  point := toyCurve.point
  signSchnorr := toyCurve.signSchnorr
  verifySchnorr := toyCurve.verifySchnorr
  signEcdsa _ _ := ()
  verifyEcdsa _ _ _ := true
  parse_serX := toyCurve.parse_serX
  serX_parse := toyCurve.serX_parse
  point_xonly := toyCurve.point_xonly
  xonly_point := toyCurve.xonly_point
  xonly_negate := toyCurve.xonly_negate
  schnorr_ok := toyCurve.schnorr_ok
  ecdsa_ok _ _ := rfl

open SignTx (toyKey toyKey' toyH toyH160)

/-- A P2WPKH output and a two-of-three P2WSH output. -/
def padLocks (n : Nat) (h : n ≤ 71) : List (Lock (padCurve n h)) :=
  [.p2wpkh toyKey .single, .p2wshMultisig [toyKey.toPublicKey _, toyKey'.toPublicKey _, toyKey.toPublicKey _] [toyKey', toyKey] .all]
def padSpent (n : Nat) (h : n ≤ 71) : List TxOut :=
  (padLocks n h).map fun l => ⟨⟨1000, by decide⟩, ((l.address toyH toyH160 .test .testnets).map (·.scriptPubkey)).getD []⟩
def padTx : Tx where
  version := 2
  lockTime := 0
  inputs := (List.range 2).map fun n => ⟨⟨five, UInt32.ofNat n⟩, [], 0xFFFFFFFD, Wit.empty⟩
  outputs := (List.range 2).map fun n => ⟨⟨700, by decide⟩, [0x51, UInt8.ofNat n]⟩

/-- The hypotheses of `C113_sign_then_check`, whatever the length of the signatures. -/
theorem pad_hypotheses (n : Nat) (h : n ≤ 71) : (∀ s, (padDer n h).serialize s ≠ []) ∧ Unsigned padTx ∧ padTx.inputs.length ≤ 2 ^ 32 ∧
    (padSpent n h).length = padTx.inputs.length ∧ (∀ (i : Nat) (l : Lock (padCurve n h)), (padLocks n h)[i]? = some l → l.Usable padTx i) ∧
    Decodable padTx := by
  refine ⟨fun s => by simp [padDer], by decide +kernel, by decide +kernel, rfl, ?_, ?_⟩
  · intro i l h
    match i, h with
    | 0, h => cases h; trivial
    | 1, h =>
      cases h
      exact ⟨by decide, by decide, .cons _ (.cons_cons _ (.cons_cons _ .slnil))⟩
    | n + 2, h => cases h
  · refine ⟨by decide, by decide +kernel, ?_, by decide +kernel, by decide, ?_, ?_⟩
    · decide +kernel
    · decide +kernel
    · intro x hx
      have : x.witness = Wit.empty := by
        obtain ⟨n, -, rfl⟩ := List.mem_map.mp hx
        rfl
      rw [this]
      exact SignTx.built [] ⟨(by intro a x b h; cases a <;> cases h), by simp⟩ (by simp)

theorem pad_owns69 : Owns toyH toyH160 .test .testnets (padSpent 68 (by decide)) (padLocks 68 (by decide)) := by
  show _ = _
  decide +kernel

theorem pad_owns71 : Owns toyH toyH160 .test .testnets (padSpent 70 (by decide)) (padLocks 70 (by decide)) := by
  show _ = _
  decide +kernel

/-- The outputs that are spent. -/
theorem pad_out69 : (padSpent 68 (by decide))[1]? = some ⟨⟨1000, by decide⟩, [0x00, 0x20] ++ five.1⟩ := by decide +kernel
theorem pad_out71 : (padSpent 70 (by decide))[1]? = some ⟨⟨1000, by decide⟩, [0x00, 0x20] ++ five.1⟩ ∧
    (padSpent 70 (by decide))[0]? = some ⟨⟨1000, by decide⟩, [0x00, 0x14] ++ List.replicate 20 33⟩ := by decide +kernel

/-- The witnesses of the signed transaction. -/
theorem pad_signed69 : (signTx toyH toyH160 padTx (padSpent 68 (by decide)) (padLocks 68 (by decide))).map
    (fun tx => tx.inputs.map fun x => x.witness.toVec.map fun v => v.map (·.length)) = some [some [70, 33], some [0, 70, 70, 105]] := by
  decide +kernel

theorem pad_signed71 : (signTx toyH toyH160 padTx (padSpent 70 (by decide)) (padLocks 70 (by decide))).map
    (fun tx => tx.inputs.map fun x => x.witness.toVec.map fun v => v.map (·.length)) = some [some [72, 33], some [0, 72, 72, 105]] := by
  decide +kernel

/-- With DER signatures of 69 bytes the library signs a P2WSH input, the transaction is accepted, and the program panics on it. -/
theorem C113_p2wsh_fails : ∃ (S : Secp) (D : Der) (C : Curve S D) (H : Bytes → Hash) (H160 : Bytes → Arr 20) (tx : Tx) (P : List TxOut)
    (locks : List (Lock C)) (tx' : Tx) (raw : Bytes) (own : TxOut) (program : Arr 32),
    signTx H H160 tx P locks = some tx' ∧ Drains txEnc tx'.encoder raw ∧ txDec.decodeSlice raw = .ok tx' ∧ P[1]? = some own ∧
    own.spk = [0x00, 0x20] ++ program.1 ∧ Spends H H160 C tx' P 1 ∧ computeP2wsh H D raw 1 own.amount = none ∧
    ∀ s, (D.serialize s).length = 69 := by
  obtain ⟨h1, h2, h3, h4, h5, h6⟩ := pad_hypotheses 68 (by decide)
  obtain ⟨tx', a1, -, a3, a4, -⟩ := SignTx.C98_signed toyH toyH160 (padCurve 68 (by decide)) .test .testnets h1 padTx _ _ h2 h3 h4 pad_owns69 h5
  obtain ⟨raw, b1, b2⟩ := a4 h6
  have hs := a3 1 (by decide)
  have ho := pad_out69
  refine ⟨_, _, padCurve 68 (by decide), toyH, toyH160, padTx, _, padLocks 68 (by decide), tx', raw, _, five, a1, b1, b2, ho, rfl, hs, ?_, ?_⟩
  · obtain ⟨inp, sigs, script, c1, c2, -, c4⟩ := C113_p2wsh_spends_partial toyH toyH160 _ raw tx' b2 1 _ _ ho five rfl hs
    apply c4
    have := pad_signed69
    rw [a1] at this
    simp only [Option.map_some, Option.some.injEq] at this
    have := congrArg (·[1]?) this
    simp only [List.getElem?_map, c1, Option.map_some, c2, List.getElem?_cons_succ, List.getElem?_cons_zero, Option.some.injEq, List.cons_append, List.map_cons,
      List.map_append, List.length_nil, List.cons.injEq, List.map_nil] at this
    obtain ⟨-, this⟩ := this
    match sigs, this with
    | [], this => simp at this
    | b :: rest, this =>
      simp only [List.map_cons, List.cons_append, List.cons.injEq] at this
      exact ⟨b, by simp, .inl (by omega)⟩
  · intro s; simp [padDer]

theorem two_lengths (l : List Bytes) (n a b : Nat) (h : l.map List.length ++ [n] = [a, b, 105]) : ∃ x y, l = [x, y] ∧ x.length = a ∧ y.length = b := by
  match l, h with
  | [], h => simp at h
  | [x], h => simp at h
  | [x, y], h => simp at h; exact ⟨x, y, rfl, h.1, h.2.1⟩
  | x :: y :: z :: t, h => simp at h

/-- With DER signatures of 71 bytes both programs return for the signed transaction. -/
example : ∃ tx' raw, signTx toyH toyH160 padTx (padSpent 70 (by decide)) (padLocks 70 (by decide)) = some tx' ∧ txDec.decodeSlice raw = .ok tx' ∧
    (∃ h, computeP2wpkh toyH toyH160 (padCurve 70 (by decide)) raw 0 ⟨1000, by decide⟩ = some h) ∧
    computeP2wsh toyH (padDer 70 (by decide)) raw 1 ⟨1000, by decide⟩ = some [five, five] := by
  obtain ⟨h1, h2, h3, h4, h5, h6⟩ := pad_hypotheses 70 (by decide)
  obtain ⟨tx', raw, a1, -, a2, a3, a4⟩ := C113_sign_then_check toyH toyH160 (padCurve 70 (by decide)) .test .testnets h1 padTx _ _ h2 h3 h4 pad_owns71 h5 h6
  have hk := a4 0 toyKey .single _ rfl pad_out71.2
  refine ⟨tx', raw, a1, a2, hk, ?_⟩
  obtain ⟨inp, sigs, script, c1, c2, c3, -⟩ := C113_p2wsh_spends_partial toyH toyH160 _ raw tx' a2 1 _ _ pad_out71.1 five rfl (a3 1 (by decide))
  have := pad_signed71
  rw [a1] at this
  simp only [Option.map_some, Option.some.injEq] at this
  have := congrArg (·[1]?) this
  simp only [List.getElem?_map, c1, Option.map_some, c2, List.getElem?_cons_succ, List.getElem?_cons_zero, Option.some.injEq, List.cons_append, List.map_cons,
    List.map_append, List.length_nil, List.cons.injEq, List.map_nil] at this
  obtain ⟨x, y, rfl, hx, hy⟩ := two_lengths sigs _ _ _ this.2
  refine (c3 (by intro b hb; simp at hb; rcases hb with rfl | rfl <;> omega)).1.trans ?_
  simp only [List.map_cons, List.map_nil, v0Digest, toyH]

/-- A legacy two-of-two script signature, with the script pushed last and with the script given. -/
example : Scr.instructions ([0x00, 0x02, 0x01, 0x81, 0x02, 0x00, 0x03, 0x03, 0x51, 0x52, 0xae]) =
      ([[], [0x01, 0x81], [0x00, 0x03], [0x51, 0x52, 0xae]] : List Bytes).map (fun b => .ok (.push b)) ∧
    (([[], [0x01, 0x81], [0x00, 0x03], [0x51, 0x52, 0xae]] : List Bytes).map Scr.Instr.push).foldl Scr.pushInstr [] =
      [0x00, 0x02, 0x01, 0x81, 0x02, 0x00, 0x03, 0x03, 0x51, 0x52, 0xae] ∧
    IsSig toyDer [0x01, 0x81] ∧ IsSig toyDer [0x00, 0x03] ∧ typeOf [0x01, 0x81] = 0x81 ∧ ¬ IsSig toyDer [0x01, 0x04] := by
  refine ⟨by with_unfolding_all rfl, by decide, ⟨[1], 0x81, true, rfl, by decide, rfl⟩, ⟨[0], 0x03, false, rfl, by decide, rfl⟩, by decide, ?_⟩
  rintro ⟨der, ty, s, h1, h2, -⟩
  have := congrArg List.getLast? h1
  simp only [List.getLast?_append, List.getLast?_singleton, Option.some_or] at this
  cases this
  revert h2
  decide

def legacyTx : Tx where
  version := 1
  lockTime := 0
  inputs := [⟨⟨five, 0⟩, [0x00, 0x02, 0x01, 0x81, 0x02, 0x00, 0x03, 0x03, 0x51, 0x52, 0xae], 0xFFFFFFFD, Wit.empty⟩]
  outputs := [⟨⟨700, by decide⟩, [0x51]⟩]

def legacyRaw : Bytes := (txEnc.drain 40 legacyTx.encoder).getD []

/-- It is part of a transaction that decodes, and the program returns two hashes. -/
example : computeLegacy (fun b => ⟨List.replicate 32 (UInt8.ofNat b.length), by simp⟩) toyDer legacyRaw 0 none =
    some [⟨List.replicate 32 32, by decide⟩, ⟨List.replicate 32 32, by decide⟩] ∧
    computeLegacy (fun b => ⟨List.replicate 32 (UInt8.ofNat b.length), by simp⟩) toyDer legacyRaw 1 none = none := by
  decide +kernel

/-- The script of script.rs 84-88 has a text that is refused without the length; a script that starts with its own length is not refused. -/
example : HexText.scriptFromHexPrefixed (HexText.scriptHex [0x01, 0x51]) = .ok [0x51] :=
  (C113_script_unprefixed _ _).mpr ⟨by decide, by decide⟩

/-- encoder.rs 8-17: two numbers and two bytes. -/
example : Drains adtEnc (adtEncoder [0xcafebabe, 0xdeadbeef] [0xab, 0xcd]) [0x02, 0xca, 0xfe, 0xba, 0xbe, 0xde, 0xad, 0xbe, 0xef, 0xab, 0xcd] :=
  C113_encoder [0xcafebabe, 0xdeadbeef] [0xab, 0xcd]

end Examples
end Btc
