import Verif.Props.C131
/-!
# C134: outputs made by the library for witness scripts, for script trees and for later witness versions are spent exactly by the intended witnesses

Verification is `verify` of C129.
-/
namespace Btc
namespace Scr
namespace Core

section
open SignTx Crypto
open Taproot (Hash)
open Classical

variable {S : Secp} {D : Der} {H : Bytes → Hash} {H160 : Bytes → Arr 20} {C : Curve S D} {tx : Tx} {spent : List TxOut} {i : Nat}

theorem verByte_range : ∀ v : UInt8, v.toNat ≤ 16 →
    (verByte v = 0 ∨ 0x51 ≤ (verByte v).toNat ∧ (verByte v).toNat ≤ 0x60) ∧ (verByte v).toNat - 0x50 = v.toNat := by
  set_option maxRecDepth 8000 in
  exact forall_u8 (by decide +kernel)

theorem asProgram_verByte (v : UInt8) (hv : v.toNat ≤ 16) (p : Bytes) (h1 : 2 ≤ p.length) (h2 : p.length ≤ 40) :
    asProgram (verByte v :: UInt8.ofNat p.length :: p) = some (v.toNat, p) := by
  have hl : (UInt8.ofNat p.length).toNat = p.length := UInt8.toNat_ofNat_of_lt' (by show p.length < 256; omega)
  unfold asProgram
  simp only []
  rw [if_pos ⟨(verByte_range v hv).1, hl, h1, h2⟩, (verByte_range v hv).2]

/-- A witness program of any version as a script leaves the program on the stack. -/
theorem eval_verByte (other : UInt8 → List Bytes → Option (List Bytes)) (lock : UInt8 → List Bytes → Bool) (chk : Bytes → Bytes → Bool) (v : UInt8)
    (hv : v.toNat ≤ 16) (p : Bytes) (h1 : 2 ≤ p.length) (h2 : p.length ≤ 40) :
    eval .legacy (std false false H160 chk other lock) (verByte v :: UInt8.ofNat p.length :: p) [] = castBool p := by
  have hl : (UInt8.ofNat p.length).toNat = p.length := UInt8.toNat_ofNat_of_lt' (by show p.length < 256; omega)
  have hacc : ∀ x, (std false false H160 chk other lock).accept [p, x] = castBool p := by
    intro x
    show (castBool p && (!false || _)) = _
    simp
  have e0 : (UInt8.ofNat p.length :: p : Bytes) = SignTx.pushed p ++ [] := by simp [SignTx.pushed]
  have ho : ops (verByte v :: UInt8.ofNat p.length :: p) = ([(verByte v, []), (UInt8.ofNat p.length, p)], true) := by
    rcases (verByte_range v hv).1 with hb | hb
    · rw [hb, show (0 :: UInt8.ofNat p.length :: p : Bytes) = SignTx.pushed [] ++ (SignTx.pushed p ++ []) by simp [SignTx.pushed],
        ops_push _ _ (by simp), ops_push _ _ (by omega), ops_nil]
      rfl
    · rw [e0, ops_op _ (by omega), ops_push _ _ (by omega), ops_nil]
  rcases (verByte_range v hv).1 with hb | ⟨hb1, hb2⟩
  · rw [eval_line _ _ _ _ _ ho (by
      intro o ho
      simp only [List.mem_cons, List.not_mem_nil, or_false] at ho
      rcases ho with rfl | rfl
      · exact Or.inl (by rw [hb]; decide)
      · exact Or.inl ⟨by show (UInt8.ofNat p.length).toNat ≤ _; omega, by show p.length ≤ _; omega⟩) (Nat.le_of_ble_eq_true rfl) (by nofun)]
    rw [line_push _ _ _ _ _ _ _ _ (by rw [hb]; decide) _ _ (by decide), line_push _ _ _ _ _ _ _ _ (by omega) _ _ (by decide)]
    exact hacc _
  · rw [eval_line _ _ _ _ _ ho (by
      intro o ho
      simp only [List.mem_cons, List.not_mem_nil, or_false] at ho
      rcases ho with rfl | rfl
      · exact Or.inr (Or.inl ⟨rfl, hb1, hb2⟩)
      · exact Or.inl ⟨by show (UInt8.ofNat p.length).toNat ≤ _; omega, by show p.length ≤ _; omega⟩) (Nat.le_of_ble_eq_true rfl) (by nofun)]
    rw [line_num _ _ _ _ _ _ _ _ hb1 hb2 _ (by decide), line_push _ _ _ _ _ _ _ _ (by omega) _ _ (by simp)]
    exact hacc _

/-- Verification of an input that spends a witness program. -/
theorem native_verify (other : UInt8 → List Bytes → Option (List Bytes)) (lock : UInt8 → List Bytes → Bool) (txin : TxIn) (own : TxOut)
    (hi : tx.inputs[i]? = some txin) (ho : spent[i]? = some own) (v : UInt8) (hv : v.toNat ≤ 16) (p : Bytes) (h1 : 2 ≤ p.length) (h2 : p.length ≤ 40)
    (he : own.spk = newWitnessProgramUnchecked v p) :
    verify H H160 C other lock tx spent i = true ↔ txin.scriptSig = [] ∧ castBool p = true ∧ ∃ stack, txin.witness.toVec = some stack ∧
      witnessOk H H160 C other lock tx spent i txin own false v.toNat p stack = true := by
  rw [newWitness_eq v p hv h1 h2] at he
  have hs0 : stackOf H H160 C other lock tx i [] = some [] := by
    unfold stackOf
    rw [if_neg (by decide)]
    rfl
  have hlen : own.spk.length ≤ 10000 := by rw [he]; simp only [List.length_cons]; omega
  have hp := asProgram_verByte v hv p h1 h2
  have hev := fun chk => eval_verByte (H160 := H160) other lock chk v hv p h1 h2
  rw [← he] at hp hev
  unfold verify
  rw [hi, ho]
  simp only []
  by_cases hs : txin.scriptSig = []
  · rw [hs, hs0]
    cases hw : txin.witness.toVec with
    | none => simp
    | some stack =>
      simp only []
      rw [hp]
      simp only []
      unfold base
      rw [hev]
      simp [hlen]
  · refine ⟨fun e => ?_, fun e => absurd e.1 hs⟩
    exfalso
    split at e
    · rw [hp] at e
      simp [hs] at e
    · cases e

theorem wsh_ok (other : UInt8 → List Bytes → Option (List Bytes)) (lock : UInt8 → List Bytes → Bool) (txin : TxIn) (own : TxOut) (s : Bytes) (b : Bool) :
    (∃ stack, txin.witness.toVec = some stack ∧ witnessOk H H160 C other lock tx spent i txin own b 0 (H s).1 stack = true) ↔
      ∃ items script, txin.witness.toVec = some (items ++ [script]) ∧ H script = H s ∧ script.length ≤ 10000 ∧ (∀ x ∈ items, x.length ≤ 520) ∧
      eval .legacy (std false true H160 (fun pk sig => decide (EcdsaOk C (v0Digest H tx i txin own script) pk sig)) other lock) script items.reverse = true := by
  constructor
  · rintro ⟨stack, hw, hok⟩
    unfold witnessOk at hok
    rw [if_pos (rfl), if_pos (H s).2] at hok
    cases hr : stack.reverse with
    | nil => rw [hr] at hok; cases hok
    | cons script r =>
      rw [hr] at hok
      simp only [Bool.and_eq_true, decide_eq_true_eq, List.all_eq_true] at hok
      obtain ⟨⟨⟨a1, a2⟩, a3⟩, a4⟩ := hok
      have hst : stack = r.reverse ++ [script] := by
        have := congrArg List.reverse hr
        simpa using this
      refine ⟨r.reverse, script, by rw [hw, hst], Subtype.ext a1, a2, fun x hx => a3 x (List.mem_reverse.1 hx), ?_⟩
      rw [List.reverse_reverse]
      exact a4
  · rintro ⟨items, script, hw, a1, a2, a3, a4⟩
    refine ⟨_, hw, ?_⟩
    unfold witnessOk
    rw [if_pos (rfl), if_pos (H s).2, List.reverse_append, List.reverse_singleton, List.singleton_append]
    simp only [Bool.and_eq_true, decide_eq_true_eq, List.all_eq_true]
    exact ⟨⟨⟨by rw [a1], a2⟩, fun x hx => a3 x (List.mem_reverse.1 hx)⟩, a4⟩

/-- An output of `to_p2wsh` is spent exactly with an empty script signature and a witness that ends with a script of the same hash, unless the hash is
zero: the elements before it are within the size limit and that script succeeds on them. -/
theorem C134_p2wsh (other : UInt8 → List Bytes → Option (List Bytes)) (lock : UInt8 → List Bytes → Bool) (txin : TxIn) (own : TxOut)
    (hi : tx.inputs[i]? = some txin) (ho : spent[i]? = some own) (s : Bytes) (he : toP2wsh H s = some own.spk) :
    verify H H160 C other lock tx spent i = true ↔ txin.scriptSig = [] ∧ castBool (H s).1 = true ∧ ∃ items script, txin.witness.toVec = some (items ++ [script]) ∧
      H script = H s ∧ script.length ≤ 10000 ∧ (∀ x ∈ items, x.length ≤ 520) ∧
      eval .legacy (std false true H160 (fun pk sig => decide (EcdsaOk C (v0Digest H tx i txin own script) pk sig)) other lock) script items.reverse = true := by
  have hspk : own.spk = newWitnessProgramUnchecked 0 (H s).1 := by
    unfold toP2wsh at he
    split at he
    · cases he
    · exact (Option.some.inj he).symm
  rw [native_verify other lock txin own hi ho 0 (by decide) (H s).1 (by rw [(H s).2]; decide) (by rw [(H s).2]; decide) hspk]
  exact and_congr_right fun _ => and_congr_right fun _ => wsh_ok other lock txin own s false

/-- What `p2sh_p2wpkh` and `p2sh_p2wsh` put into the script signature is the pushed redeem script. -/
theorem nested_script (p : Bytes) (h1 : 2 ≤ p.length) (h2 : p.length ≤ 40) :
    pushSlice [] (pushSlice (pushOpcode [] 0) p) = SignTx.pushed (newWitnessProgramUnchecked 0 p) := by
  have h : pushSlice (pushOpcode [] 0) p = newWitnessProgramUnchecked 0 p := rfl
  have hl : (newWitnessProgramUnchecked 0 p).length = p.length + 2 := by rw [newWitness_eq 0 p (by decide) h1 h2]; rfl
  rw [h, pushSlice_long _ _ (by omega) (by omega)]
  rfl

/-- Verification of an input that spends a witness program of version 0 in P2SH. -/
theorem nested_verify (other : UInt8 → List Bytes → Option (List Bytes)) (lock : UInt8 → List Bytes → Bool) (txin : TxIn) (own : TxOut)
    (hi : tx.inputs[i]? = some txin) (ho : spent[i]? = some own) (p : Bytes) (h1 : 2 ≤ p.length) (h2 : p.length ≤ 40)
    (he : own.spk = newP2sh (H160 (newWitnessProgramUnchecked 0 p))) (hsig : txin.scriptSig = SignTx.pushed (newWitnessProgramUnchecked 0 p)) :
    verify H H160 C other lock tx spent i = true ↔ castBool p = true ∧ ∃ stack, txin.witness.toVec = some stack ∧
      witnessOk H H160 C other lock tx spent i txin own true 0 p stack = true := by
  generalize hred : newWitnessProgramUnchecked 0 p = redeem at he hsig
  rw [newWitness_eq 0 p (by decide) h1 h2] at hred
  have hrl : redeem.length = p.length + 2 := by rw [← hred]; rfl
  have hs : stackOf H H160 C other lock tx i txin.scriptSig = some [redeem] := by
    rw [hsig]
    refine stackOf_pushes [redeem] (by simp) ?_ (SignTx.pushed redeem) (by simp)
    intro x hx
    simp only [List.mem_cons, List.not_mem_nil, or_false] at hx
    rw [hx]; omega
  have hev := (C129_p2sh false H160 (ecdsa C (legacyDigest H tx i own.spk)) other lock (H160 redeem) [redeem]).2
    ⟨redeem, [], rfl, rfl, by simp, fun _ => rfl⟩
  rw [← he] at hev
  have hev2 := eval_verByte (H160 := H160) other lock (ecdsa C (legacyDigest H tx i redeem)) 0 (by decide) p h1 h2
  rw [hred] at hev2
  have he' := he.trans (C35_constructors.2.2.1 _).2
  have h3 : asProgram own.spk = none := by
    rw [he']
    show asProgram (0xa9 :: 0x14 :: _) = none
    unfold asProgram
    simp only []
    rw [if_neg]
    rintro ⟨h, -⟩
    revert h
    decide
  have h4 : asProgram redeem = some (0, p) := by rw [← hred]; exact asProgram_verByte 0 (by decide) p h1 h2
  have h5 : (ops txin.scriptSig).1.all (fun o => decide (o.1.toNat ≤ 0x60)) = true := by
    have hn : (UInt8.ofNat redeem.length).toNat = redeem.length := UInt8.toNat_ofNat_of_lt' (by show redeem.length < 256; omega)
    rw [hsig, show SignTx.pushed redeem = SignTx.pushed redeem ++ [] by simp, ops_push _ _ (by omega), ops_nil]
    simp only [List.all_cons, List.all_nil, hn, Bool.and_true, decide_eq_true_eq]
    omega
  have hlen : own.spk.length ≤ 10000 := by rw [he']; simp [(H160 redeem).2]
  unfold verify
  rw [hi, ho]
  simp only []
  rw [hs]
  cases hw : txin.witness.toVec with
  | none => simp
  | some stack =>
    simp only []
    rw [h3]
    simp only []
    rw [if_pos ⟨H160 redeem, he'⟩, h5, h4]
    simp only []
    unfold base
    rw [hev, hev2]
    simp [hlen, hsig]

/-- The same output within P2SH, spent with the script signature of `p2sh_p2wsh`. -/
theorem C134_p2sh_p2wsh (other : UInt8 → List Bytes → Option (List Bytes)) (lock : UInt8 → List Bytes → Bool) (txin : TxIn) (own : TxOut)
    (hi : tx.inputs[i]? = some txin) (ho : spent[i]? = some own) (s : Bytes) (he : (toP2wsh H s).bind (toP2sh H160) = some own.spk)
    (hsig : p2shP2wsh H s = some txin.scriptSig) :
    verify H H160 C other lock tx spent i = true ↔ castBool (H s).1 = true ∧ ∃ items script, txin.witness.toVec = some (items ++ [script]) ∧
      H script = H s ∧ script.length ≤ 10000 ∧ (∀ x ∈ items, x.length ≤ 520) ∧
      eval .legacy (std false true H160 (fun pk sig => decide (EcdsaOk C (v0Digest H tx i txin own script) pk sig)) other lock) script items.reverse = true := by
  have hl : 2 ≤ (H s).1.length ∧ (H s).1.length ≤ 40 := by rw [(H s).2]; decide
  have hspk : own.spk = newP2sh (H160 (newWitnessProgramUnchecked 0 (H s).1)) := by
    unfold toP2wsh at he
    split at he
    · cases he
    · unfold toP2sh at he
      simp only [Option.bind_some] at he
      split at he
      · cases he
      · exact (Option.some.inj he).symm
  have hsg : txin.scriptSig = SignTx.pushed (newWitnessProgramUnchecked 0 (H s).1) := by
    unfold p2shP2wsh at hsig
    split at hsig
    · cases hsig
    · rw [← nested_script _ hl.1 hl.2]
      exact (Option.some.inj hsig).symm
  rw [nested_verify other lock txin own hi ho (H s).1 hl.1 hl.2 hspk hsg]
  exact and_congr_right fun _ => wsh_ok other lock txin own s true

/-- The output for a key within P2SH, spent with the script signature of `p2sh_p2wpkh`. -/
theorem C134_p2sh_p2wpkh (other : UInt8 → List Bytes → Option (List Bytes)) (lock : UInt8 → List Bytes → Bool) (txin : TxIn) (own : TxOut)
    (hi : tx.inputs[i]? = some txin) (ho : spent[i]? = some own) (h : Arr 20) (he : toP2sh H160 (newP2wpkh h) = some own.spk)
    (hsig : txin.scriptSig = p2shP2wpkh h) :
    verify H H160 C other lock tx spent i = true ↔ castBool h.1 = true ∧ ∃ sig pk, txin.witness.toVec = some [sig, pk] ∧
      sig.length ≤ 520 ∧ pk.length ≤ 520 ∧ H160 pk = h ∧ EcdsaOk C (v0Digest H tx i txin own ([0x76, 0xa9, 0x14] ++ h.1 ++ [0x88, 0xac])) pk sig := by
  have hl : 2 ≤ h.1.length ∧ h.1.length ≤ 40 := by rw [h.2]; decide
  have hspk : own.spk = newP2sh (H160 (newWitnessProgramUnchecked 0 h.1)) := by
    unfold toP2sh at he
    split at he
    · cases he
    · exact (Option.some.inj he).symm
  have hsg : txin.scriptSig = SignTx.pushed (newWitnessProgramUnchecked 0 h.1) := by
    rw [← nested_script _ hl.1 hl.2]
    exact hsig
  have hcode : [0x76, 0xa9, 0x14] ++ h.1 ++ [0x88, 0xac] = newP2pkh h := (C35_constructors.2.1 _).2.symm
  rw [nested_verify other lock txin own hi ho h.1 hl.1 hl.2 hspk hsg]
  refine and_congr_right fun _ => ?_
  have hok : ∀ stack, witnessOk H H160 C other lock tx spent i txin own true 0 h.1 stack = true ↔ (stack.length = 2 ∧ ∀ x ∈ stack, x.length ≤ 520) ∧
      eval .legacy (std false true H160 (ecdsa C (v0Digest H tx i txin own (newP2pkh h))) other lock) (newP2pkh h) stack.reverse = true := by
    intro stack
    unfold witnessOk
    rw [if_pos rfl, if_neg (by rw [h.2]; decide), if_pos h.2, hcode]
    unfold v0
    simp only [Bool.and_eq_true, decide_eq_true_eq, List.all_eq_true]
  simp only [hok, hcode]
  constructor
  · rintro ⟨stack, hw, ⟨hl2, hsz⟩, hev⟩
    rw [C129_p2pkh] at hev
    obtain ⟨pk, sig, rest, e1, e2, e3, e4⟩ := hev
    have : rest = [] := e4.2 rfl
    subst this
    have hst : stack = [sig, pk] := by
      have := congrArg List.reverse e1
      simpa using this
    subst hst
    exact ⟨sig, pk, hw, hsz sig (by simp), hsz pk (by simp), e2, of_decide_eq_true e3⟩
  · rintro ⟨sig, pk, hw, e2, e3, e4, e5⟩
    refine ⟨_, hw, ⟨rfl, ?_⟩, ?_⟩
    · intro x hx
      simp only [List.mem_cons, List.not_mem_nil, or_false] at hx
      rcases hx with rfl | rfl <;> assumption
    · rw [C129_p2pkh]
      exact ⟨pk, sig, [], rfl, e4, decide_eq_true e5, by simp, fun _ => rfl⟩

/-- An output for a witness program of a version that has no rules yet (all but version 0 and 32 bytes of version 1) is spent by any witness. -/
theorem C134_later_versions (other : UInt8 → List Bytes → Option (List Bytes)) (lock : UInt8 → List Bytes → Bool) (txin : TxIn) (own : TxOut)
    (hi : tx.inputs[i]? = some txin) (ho : spent[i]? = some own) (v : UInt8) (hv : 1 ≤ v.toNat) (hv' : v.toNat ≤ 16) (p : Bytes) (w : WitProgram)
    (hw : WitProgram.new v p = .ok w) (ht : w.isP2tr = false) (he : own.spk = w.script) :
    verify H H160 C other lock tx spent i = true ↔ txin.scriptSig = [] ∧ castBool p = true ∧ ∃ stack, txin.witness.toVec = some stack := by
  unfold WitProgram.new at hw
  split at hw
  · cases hw
  · rename_i hl
    split at hw
    · cases hw
    · cases hw
      rw [native_verify other lock txin own hi ho v hv' p (by omega) (by omega) he]
      refine and_congr_right fun _ => and_congr_right fun _ => exists_congr fun stack => ?_
      unfold witnessOk
      rw [if_neg (by omega), if_neg]
      · simp
      · rintro ⟨e1, e2, -⟩
        have : v = 1 := UInt8.toNat_inj.1 e1
        subst this
        simp [WitProgram.isP2tr, e2] at ht

/-- An output of `new_p2a` is spent by any witness. -/
theorem C134_p2a (other : UInt8 → List Bytes → Option (List Bytes)) (lock : UInt8 → List Bytes → Bool) (txin : TxIn) (own : TxOut)
    (hi : tx.inputs[i]? = some txin) (ho : spent[i]? = some own) (he : own.spk = newP2a) :
    verify H H160 C other lock tx spent i = true ↔ txin.scriptSig = [] ∧ ∃ stack, txin.witness.toVec = some stack := by
  rw [C134_later_versions other lock txin own hi ho 1 (by decide) (by decide) P2A_PROGRAM ⟨1, P2A_PROGRAM⟩ rfl rfl he]
  have : castBool P2A_PROGRAM = true := by decide
  simp [this]

/-- An output for a tree of scripts is spent with the control block of any of its scripts: exactly if the script signature is empty and, for a script of
BIP-342, the elements before it are within the limits and the script succeeds on them; a script of another leaf version is not evaluated.  (Unless the
output key is zero.) -/
theorem C134_script_path (other : UInt8 → List Bytes → Option (List Bytes)) (lock : UInt8 → List Bytes → Bool) (k : Taproot.XOnly C.taproot)
    (t : Taproot.Tree) (ht : t.height ≤ 128) (hq : Taproot.tapTweak H k (some (t.root H)) ≠ none) :
    ∃ st info, Taproot.runCalls H [] (t.dfs 0) = .ok st ∧ Taproot.finalize H st k = some (.ok info) ∧
      ∀ s v, (s, v) ∈ t.scripts → ∃ cb, Taproot.controlBlock info (s, v) = some (some cb) ∧
        ∀ (tx : Tx) (spent : List TxOut) (i : Nat) txin own items, tx.inputs[i]? = some txin → spent[i]? = some own → own.spk = newP2tr (C.serX info.outputKey.inner) →
          txin.witness.toVec = some (items ++ [s, cb.serialize]) →
          (verify H H160 C other lock tx spent i = true ↔ txin.scriptSig = [] ∧ castBool (C.serX info.outputKey.inner).1 = true ∧
            (v = .tapScript → items.length ≤ 1000 ∧ (∀ x ∈ items, x.length ≤ 520) ∧
              eval .tapScript (std true true H160 (schnorr C (tapDigest H tx i txin spent own (some (Taproot.leafHash H s .tapScript, 0xFFFFFFFF))))
                other lock) s items.reverse = true)) := by
  obtain ⟨st, a0, a3⟩ := Taproot.C50_control_block H C.taproot k t ht
  cases hq' : Taproot.tapTweak H k (some (t.root H)) with
  | none => exact absurd hq' hq
  | some q =>
    rw [hq'] at a3
    obtain ⟨info, b1, b2, b3, b4, -⟩ := a3
    refine ⟨st, info, a0, b1, fun s v hs => ?_⟩
    obtain ⟨cb, c1, c2, c3, -, -, -, -, c8⟩ := b4 s v hs
    refine ⟨cb, c1, fun tx spent i txin own items hi ho he hw => ?_⟩
    subst b3
    have hvalid := (Taproot.valid_serialize H cb c8 info.outputKey s).mpr c2
    have hcons : cb.serialize = ((if cb.parity then 1 else 0) ||| cb.leafVersion.toConsensus) :: ((C.serX cb.internalKey.inner).1 ++ (cb.branch.map (·.1)).flatten) := rfl
    have hf := (Taproot.firstByte_cb cb.parity cb.leafVersion).1
    rw [c3] at hf hcons
    generalize ((if cb.parity = true then 1 else 0) ||| v.toConsensus : UInt8) = c0 at hf hcons
    generalize (C.serX cb.internalKey.inner).1 ++ (cb.branch.map (·.1)).flatten = c at hcons
    have hc0 : ¬ c0 = 0x50 := by
      rintro rfl
      cases v with
      | tapScript => revert hf; decide
      | future u => exact u.2.2.1 (by rw [← show _ = u.1 from hf]; decide)
    have hk := (C.serX info.outputKey.inner).2
    rw [native_verify other lock txin own hi ho 1 (by decide) _ (by rw [hk]; decide) (by rw [hk]; decide) he]
    refine and_congr_right fun _ => and_congr_right fun _ => ?_
    rw [hw]
    simp only [Option.some.injEq, exists_eq_left']
    unfold witnessOk
    rw [if_neg (by decide), if_pos ⟨rfl, hk, rfl⟩, List.reverse_append]
    rw [hcons] at hvalid ⊢
    simp only [List.reverse_cons, List.reverse_nil, List.nil_append, List.cons_append]
    rw [if_neg hc0]
    have hex : ∃ (q : Arr 32) (Q : C.X), q.1 = (C.serX info.outputKey.inner).1 ∧ C.parseX q = some Q ∧ Taproot.Bip341.valid H C.taproot Q (c0 :: c) s = true :=
      ⟨_, _, rfl, C.parse_serX _, hvalid⟩
    rw [decide_eq_true hex, Bool.true_and]
    cases v with
    | tapScript =>
      rw [if_pos (show c0 &&& 0xfe = 0xc0 from hf)]
      have hle : Taproot.leafHash H s .tapScript = H ((H (Taproot.Bip341.ascii "TapLeaf")).1 ++ (H (Taproot.Bip341.ascii "TapLeaf")).1 ++
          (0xc0 :: (Taproot.Bip341.compactSize s.length ++ s))) := Subtype.ext (Taproot.leafHash_eq_bip H s .tapScript)
      rw [← hle]
      simp only [Bool.and_eq_true, decide_eq_true_eq, List.all_eq_true, List.length_reverse, List.mem_reverse, true_imp_iff, and_assoc]
      rfl
    | future u =>
      rw [if_neg (by rw [hf]; exact u.2.2.2)]
      simp

/-! ## Examples -/

def wH : Bytes → Hash := fun b => ⟨List.replicate 32 (UInt8.ofNat (b.length + 1)), by simp⟩
/-- A transaction that spends one output, with the given script signature and witness. -/
def wTx (sig : Bytes) (stack : List Bytes) : Tx := ⟨2, 0, [⟨⟨five, 0⟩, sig, 0xFFFFFFFD, Wit.ofList stack⟩], [⟨⟨700, by decide⟩, [0x51]⟩]⟩
def wOut (spk : Bytes) : TxOut := ⟨⟨1000, by decide⟩, spk⟩

/-- The script `OP_2`: spent by the script, not by a script of another hash, nor with a script signature. -/
example : toP2wsh wH [0x52] = some (newP2wsh (wH [0x52])) ∧
    verify wH toyH160 toyCurve (fun _ _ => none) (fun _ _ => false) (wTx [] [[0x52]]) [wOut (newP2wsh (wH [0x52]))] 0 = true ∧
    verify wH toyH160 toyCurve (fun _ _ => none) (fun _ _ => false) (wTx [] [[0x52, 0x6a]]) [wOut (newP2wsh (wH [0x52]))] 0 = false ∧
    verify wH toyH160 toyCurve (fun _ _ => none) (fun _ _ => false) (wTx [0x51] [[0x52]]) [wOut (newP2wsh (wH [0x52]))] 0 = false := by
  refine ⟨rfl, ?_, ?_, ?_⟩
  · rw [C134_p2wsh _ _ _ _ rfl rfl [0x52] rfl]
    exact ⟨rfl, by decide +kernel, [], [0x52], by decide +kernel, rfl, by decide, by simp, rfl⟩
  · rw [Bool.eq_false_iff, ne_eq, C134_p2wsh _ _ _ _ rfl rfl [0x52] rfl]
    rintro ⟨-, -, items, script, hw, hh, -⟩
    have hv : (wTx [] [[0x52, 0x6a]]).inputs.map (·.witness.toVec) = [some [[0x52, 0x6a]]] := by decide +kernel
    have hv := (List.cons.inj hv).1
    have := congrArg List.getLast? (Option.some.inj (hw.symm.trans hv))
    simp at this
    subst this
    revert hh
    decide +kernel
  · rw [Bool.eq_false_iff, ne_eq, C134_p2wsh _ _ _ _ rfl rfl [0x52] rfl]
    rintro ⟨h, -⟩
    cases h
example : (toP2wsh wH [0x52]).bind (toP2sh toyH160) = some (newP2sh (toyH160 (newP2wsh (wH [0x52])))) ∧
    p2shP2wsh wH [0x52] = some (SignTx.pushed (newP2wsh (wH [0x52]))) ∧
    verify wH toyH160 toyCurve (fun _ _ => none) (fun _ _ => false) (wTx (SignTx.pushed (newP2wsh (wH [0x52]))) [[0x52]])
      [wOut (newP2sh (toyH160 (newP2wsh (wH [0x52]))))] 0 = true := by
  have h1 : (toP2wsh wH [0x52]).bind (toP2sh toyH160) = some (newP2sh (toyH160 (newP2wsh (wH [0x52])))) := by decide +kernel
  have h2 : p2shP2wsh wH [0x52] = some (SignTx.pushed (newP2wsh (wH [0x52]))) := by decide +kernel
  refine ⟨h1, h2, ?_⟩
  rw [C134_p2sh_p2wsh _ _ _ _ rfl rfl [0x52] h1 h2]
  exact ⟨by decide +kernel, [], [0x52], by decide +kernel, rfl, by decide, by simp, rfl⟩
/-- An empty witness does not spend the output of a nested key; the third input of the transaction of C98 does spend one. -/
example : toP2sh toyH160 (newP2wpkh (toyH160 [1])) = some (newP2sh (toyH160 (newP2wpkh (toyH160 [1])))) ∧
    verify wH toyH160 toyCurve (fun _ _ => none) (fun _ _ => false) (wTx (p2shP2wpkh (toyH160 [1])) []) [wOut (newP2sh (toyH160 (newP2wpkh (toyH160 [1]))))] 0 =
      false := by
  have h1 : toP2sh toyH160 (newP2wpkh (toyH160 [1])) = some (newP2sh (toyH160 (newP2wpkh (toyH160 [1])))) := by decide +kernel
  refine ⟨h1, ?_⟩
  rw [Bool.eq_false_iff, ne_eq, C134_p2sh_p2wpkh _ _ _ _ rfl rfl (toyH160 [1]) h1 rfl]
  rintro ⟨-, sig, pk, hw, -⟩
  have hv : (wTx (p2shP2wpkh (toyH160 [1])) []).inputs.map (·.witness.toVec) = [some []] := by decide +kernel
  cases Option.some.inj (hw.symm.trans (List.cons.inj hv).1)
/-- Anchor outputs and an output of version 16, with an arbitrary witness. -/
example : verify wH toyH160 toyCurve (fun _ _ => none) (fun _ _ => false) (wTx [] [[1], [2, 3]]) [wOut newP2a] 0 = true ∧
    verify wH toyH160 toyCurve (fun _ _ => none) (fun _ _ => false) (wTx [0x51] []) [wOut newP2a] 0 = false ∧
    verify wH toyH160 toyCurve (fun _ _ => none) (fun _ _ => false) (wTx [] [[1], [2, 3]]) [wOut (WitProgram.script ⟨16, [0, 9]⟩)] 0 = true := by
  refine ⟨?_, ?_, ?_⟩
  · rw [C134_p2a _ _ _ _ rfl rfl rfl]
    exact ⟨rfl, [[1], [2, 3]], by decide +kernel⟩
  · rw [Bool.eq_false_iff, ne_eq, C134_p2a _ _ _ _ rfl rfl rfl]
    rintro ⟨h, -⟩
    cases h
  · rw [C134_later_versions _ _ _ _ rfl rfl 16 (by decide) (by decide) [0, 9] ⟨16, [0, 9]⟩ rfl rfl rfl]
    exact ⟨rfl, by decide, [[1], [2, 3]], by decide +kernel⟩
set_option linter.constructorNameAsVariable false in
/-- The tree of C98 has the script `OP_TRUE`; its output is spent with that script and its control block alone. -/
example : ∃ st info cb, Taproot.runCalls wH [] (toyTree.dfs 0) = .ok st ∧
    Taproot.finalize wH st (XOnlyKey.fromKeypair toyCurve ⟨two⟩) = some (.ok info) ∧ Taproot.controlBlock info ([0x51], .tapScript) = some (some cb) ∧
    verify wH toyH160 toyCurve (fun _ _ => none) (fun _ _ => false) (wTx [] [[0x51], cb.serialize]) [wOut (newP2tr (toyCurve.serX info.outputKey.inner))] 0 = true := by
  obtain ⟨st, info, h1, h2, h3⟩ := C134_script_path (H := wH) (H160 := toyH160) (C := toyCurve) (fun _ _ => none) (fun _ _ => false)
    (XOnlyKey.fromKeypair toyCurve ⟨two⟩) toyTree (by decide) (by
      rw [← Option.isSome_iff_ne_none]
      decide +kernel)
  obtain ⟨cb, h4, h5⟩ := h3 [0x51] .tapScript (by simp [toyTree, Taproot.Tree.scripts])
  refine ⟨st, info, cb, h1, h2, h4, ?_⟩
  have hz : ((Taproot.finalize wH st (XOnlyKey.fromKeypair toyCurve ⟨two⟩)).map fun r => match r with
      | .ok info => castBool (toyCurve.serX info.outputKey.inner).1
      | .error _ => false) = some true := by
    have : Taproot.runCalls wH [] (toyTree.dfs 0) = .ok st := h1
    have hh : (match Taproot.runCalls wH [] (toyTree.dfs 0) with
      | .ok st => (Taproot.finalize wH st (XOnlyKey.fromKeypair toyCurve ⟨two⟩)).map fun r => match r with
        | .ok info => castBool (toyCurve.serX info.outputKey.inner).1
        | .error _ => false
      | .error _ => none) = some true := by decide +kernel
    rw [this] at hh
    exact hh
  rw [h2] at hz
  have hlen : cb.serialize.length = 33 + 32 * cb.branch.length := Taproot.C51_size cb
  have hb : cb.branch.length ≤ 128 := by
    obtain ⟨st', a0, a3⟩ := Taproot.C50_control_block wH toyCurve.taproot (XOnlyKey.fromKeypair toyCurve ⟨two⟩) toyTree (by decide)
    rw [h1] at a0
    cases a0
    split at a3
    · rw [h2] at a3; cases a3
    · obtain ⟨info', b1, -, -, b4, -⟩ := a3
      rw [h2] at b1
      cases b1
      obtain ⟨cb', c1, -, -, -, -, -, -, c8⟩ := b4 [0x51] .tapScript (by simp [toyTree, Taproot.Tree.scripts])
      rw [h4] at c1
      cases c1
      exact c8
  have hf : P2tr.Fits [[0x51], cb.serialize] := by
    refine fits_of_sum _ ?_ ?_
    · simp only [List.map_cons, List.map_nil, List.sum_cons, List.sum_nil, List.length_cons, List.length_nil]; omega
    · intro x hx
      simp only [List.mem_cons, List.not_mem_nil, or_false] at hx
      rcases hx with rfl | rfl
      · decide
      · omega
  refine (h5 (wTx [] [[0x51], cb.serialize]) _ 0 _ _ [] rfl rfl rfl (Wit.toVec_ofList _ hf.1 hf.2)).2 ⟨rfl, Option.some.inj hz, fun _ => ⟨by decide, by simp, rfl⟩⟩

end

end Core
end Scr
end Btc
