import Verif.Bitcoin.TxHelpers
import Verif.Props.C14
import Verif.Props.C35
import Verif.Props.C37_C38
import Verif.Props.C42
/-!
# C85: decisions on transactions: replacement, finality, effective value, predicted weight, dust, verification
-/
namespace Btc

/-! ### Replacement (BIP-125) and finality (BIP-113, `IsFinalTx` of Bitcoin Core) -/

/-- BIP-125: "explicitly signaling: any of its inputs have an nSequence number less than (0xffffffff - 1)". -/
theorem C85_rbf (tx : Tx) : tx.isExplicitlyRbf = true ↔ ∃ i ∈ tx.inputs, i.sequence.toNat < 0xffffffff - 1 := by
  unfold Tx.isExplicitlyRbf
  rw [List.any_eq_true]
  constructor
  · rintro ⟨i, hi, h⟩
    exact ⟨i, hi, UInt32.lt_iff_toNat_lt.1 (of_decide_eq_true h)⟩
  · rintro ⟨i, hi, h⟩
    exact ⟨i, hi, decide_eq_true (UInt32.lt_iff_toNat_lt.2 h)⟩

/-- `IsFinalTx(tx, nBlockHeight, nBlockTime)` of Bitcoin Core (consensus/tx_verify.cpp), statement by statement. -/
def CoreIsFinal (tx : Tx) (nBlockHeight nBlockTime : Nat) : Prop :=
  if tx.lockTime.toNat = 0 then True
  else if tx.lockTime.toNat < (if tx.lockTime.toNat < 500000000 then nBlockHeight else nBlockTime) then True
  else ∀ i ∈ tx.inputs, i.sequence.toNat = 0xffffffff

theorem lockTimeEnabled_iff (tx : Tx) : tx.isLockTimeEnabled = false ↔ ∀ i ∈ tx.inputs, i.sequence.toNat = 0xffffffff := by
  unfold Tx.isLockTimeEnabled
  rw [List.any_eq_false]
  have h : ∀ i : TxIn, (¬ i.enablesLockTime = true) ↔ i.sequence.toNat = 0xffffffff := by
    intro i
    unfold TxIn.enablesLockTime Lock.Seq.MAX
    rw [bne_iff_ne, ne_eq, Decidable.not_not, Lock.Seq.mk.injEq, ← UInt32.toNat_inj]
    exact Iff.rfl
  constructor
  · intro hh i hi; exact (h i).1 (hh i hi)
  · intro hh i hi; exact (h i).2 (hh i hi)

/-- **The lock time check is the consensus rule for the next block**, on a chain whose tip has this height and median time past. -/
theorem C85_final (tx : Tx) (h : Lock.Height) (t : Lock.Mtp) :
    ∃ b, tx.isAbsoluteTimelockSatisfied h t = some b ∧ (b = true ↔ CoreIsFinal tx (h.n.toNat + 1) t.n.toNat) := by
  obtain ⟨l, hl, -, -⟩ := Lock.C37_from_consensus tx.lockTime
  have hs := Lock.C37_satisfied tx.lockTime h t l hl
  unfold Tx.isAbsoluteTimelockSatisfied
  rw [hl]
  refine ⟨_, rfl, ?_⟩
  unfold CoreIsFinal
  unfold Lock.Final at hs
  cases he : tx.isLockTimeEnabled with
  | false =>
    have := (lockTimeEnabled_iff tx).1 he
    simp only [Bool.not_false, if_true, true_iff]
    by_cases h0 : tx.lockTime.toNat = 0
    · rw [if_pos h0]; trivial
    · rw [if_neg h0]
      generalize (if tx.lockTime.toNat < 500000000 then h.n.toNat + 1 else t.n.toNat) = x
      by_cases h1 : tx.lockTime.toNat < x
      · rw [if_pos h1]; trivial
      · rw [if_neg h1]; exact this
  | true =>
    have hne : ¬ ∀ i ∈ tx.inputs, i.sequence.toNat = 0xffffffff := by
      intro c; rw [(lockTimeEnabled_iff tx).2 c] at he; cases he
    simp only [Bool.not_true, Bool.false_eq_true, if_false]
    rw [hs]
    by_cases h0 : tx.lockTime.toNat = 0
    · rw [if_pos (by omega), if_pos h0]
      simp only [iff_true]; omega
    · rw [if_neg h0]
      by_cases hlt : tx.lockTime.toNat < 500000000
      · rw [if_pos hlt, if_pos hlt]
        by_cases c : tx.lockTime.toNat < h.n.toNat + 1
        · rw [if_pos c]; simp [c]
        · rw [if_neg c]; simp only [c, false_iff]; exact hne
      · rw [if_neg hlt, if_neg hlt]
        by_cases c : tx.lockTime.toNat < t.n.toNat
        · rw [if_pos c]; simp [c]
        · rw [if_neg c]; simp only [c, false_iff]; exact hne

/-- Fetching by index. -/
theorem C85_index (tx : Tx) (n : Nat) (i : TxIn) (o : TxOut) :
    (tx.txIn n = .ok i ↔ tx.inputs[n]? = some i) ∧ (tx.txOut n = .ok o ↔ tx.outputs[n]? = some o) ∧
    (tx.inputs.length ≤ n → tx.txIn n = .error (n, tx.inputs.length)) ∧
    (tx.outputs.length ≤ n → tx.txOut n = .error (n, tx.outputs.length)) := by
  unfold Tx.txIn Tx.txOut
  refine ⟨?_, ?_, ?_, ?_⟩
  · cases tx.inputs[n]? <;> simp
  · cases tx.outputs[n]? <;> simp
  · intro h; rw [List.getElem?_eq_none h]
  · intro h; rw [List.getElem?_eq_none h]

/-! ### Effective value -/

/-- **Effective value**: never a panic, never out of range; the value minus the fee for spending it, and the fee covers the rate. -/
theorem C85_effective (rate : Nat) (p : InputPrediction) (w value : Nat) (hw : p.totalWeight = some w) (hv : value ≤ 2100000000000000) :
    ∃ v : Int, effectiveValue rate p value = some v ∧ -2100000000000000 ≤ v ∧ v ≤ value ∧
      v = (value : Int) - min (Amt.feeOf rate w) 2100000000000000 ∧
      (rate * w ≤ 4000000 * (value - v) ∨ v = (value : Int) - 2100000000000000) := by
  have hf := Amt.C42_to_fee rate w
  have hle : Amt.toFee rate w ≤ 2100000000000000 := by rw [hf]; omega
  have hsub := (Amt.C40_conversions value (Amt.toFee rate w) 0 0 hv hle (by decide) (by decide)).2.2.1
  refine ⟨(value : Int) - Amt.toFee rate w, ?_, by omega, by omega, by rw [hf], ?_⟩
  · unfold effectiveValue
    rw [hw]; exact hsub
  · rw [hf]
    by_cases c : Amt.feeOf rate w ≤ 2100000000000000
    · left
      rw [Nat.min_eq_left c]
      have h1 := Amt.le_cdiv_mul (a := rate) (b := 4000) (by omega)
      have h2 := Amt.le_cdiv_mul (a := Amt.perKwu rate * w) (b := 1000) (by omega)
      have h3 : rate * w ≤ Amt.cdiv rate 4000 * 4000 * w := Nat.mul_le_mul_right w h1
      have h4 : Amt.cdiv rate 4000 * 4000 * w = 4000 * (Amt.perKwu rate * w) := by
        show Amt.cdiv rate 4000 * 4000 * w = 4000 * (Amt.cdiv rate 4000 * w)
        rw [Nat.mul_comm (Amt.cdiv rate 4000) 4000, Nat.mul_assoc]
      have h5 : rate * w ≤ 4000000 * Amt.feeOf rate w := by
        unfold Amt.feeOf
        omega
      omega
    · right; omega

/-- A higher rate or a heavier input never makes a coin more valuable. -/
theorem C85_effective_antitone (rate rate' : Nat) (p p' : InputPrediction) (w w' value : Nat) (hw : p.totalWeight = some w)
    (hw' : p'.totalWeight = some w') (hv : value ≤ 2100000000000000) (hr : rate ≤ rate') (hww : w ≤ w') (v v' : Int)
    (h : effectiveValue rate p value = some v) (h' : effectiveValue rate' p' value = some v') : v' ≤ v := by
  obtain ⟨x, e, -, -, ex, -⟩ := C85_effective rate p w value hw hv
  obtain ⟨y, e', -, -, ey, -⟩ := C85_effective rate' p' w' value hw' hv
  rw [h] at e; rw [h'] at e'
  injection e with e; injection e' with e'
  subst e e'
  have mono : ∀ a b c, 0 < c → a ≤ b → Amt.cdiv a c ≤ Amt.cdiv b c := by
    intro a b c _ hab
    unfold Amt.cdiv
    exact Nat.div_le_div_right (by omega)
  have : Amt.feeOf rate w ≤ Amt.feeOf rate' w' := by
    unfold Amt.feeOf Amt.perKwu
    exact mono _ _ _ (by omega) (Nat.mul_le_mul (mono _ _ _ (by omega) hr) hww)
  omega

/-! ### Predictions for signatures -/

open InputPrediction in
/-- **Predictions with ground signatures** give the weight of an input with a signature of `72 - n` bytes (with its hash type) and a
compressed key; `n = 0` is the maximum without grinding.  More than 62 bytes cannot be asked for. -/
theorem C85_ground (n : Nat) (i : TxIn) (sig pk : Bytes) (hn : n ≤ 62) (hs : sig.length = 72 - n) (hp : pk.length = 33) :
    (i.scriptSig = [] → Wit.fromSlice [sig, pk] = some i.witness →
      ∃ q, groundP2wpkh n = some q ∧ q.totalWeight = i.segwitWeight ∧ q.totalWeight = some (272 - n)) ∧
    (i.scriptSig.length = 23 → Wit.fromSlice [sig, pk] = some i.witness →
      ∃ q, groundNestedP2wpkh n = some q ∧ q.totalWeight = i.segwitWeight ∧ q.totalWeight = some (364 - n)) ∧
    (i.scriptSig = Scr.pushSlice (Scr.pushSlice [] sig) pk →
      ∃ q, groundP2pkhCompressed n = some q ∧ q.totalWeight = some i.legacyWeight ∧ q.totalWeight = some (592 - 4 * n)) := by
  have hd : derSize n = some (72 - n) := by unfold derSize; rw [if_pos hn]; congr 1; omega
  have hwit : Wit.fromSlice [sig, pk] = some i.witness → i.witness.size = some (108 - n) := by
    intro hw
    have hes : elemsSize [sig, pk] = 107 - n := by
      unfold elemsSize
      simp only [List.map_cons, List.map_nil, List.sum_cons, List.sum_nil, hs, hp]
      have : csSize (72 - n) = 1 := by unfold csSize; rw [if_pos (by omega)]
      rw [this]
      show 1 + (72 - n) + (1 + 33 + 0) = _
      omega
    have hfit : WitFits [sig, pk] := by
      refine ⟨?_, by omega⟩
      intro x hx
      simp only [List.mem_cons, List.not_mem_nil, or_false] at hx
      rcases hx with rfl | rfl <;> omega
    have h := sizeOk_fits hfit hw
    unfold SizeOk at h
    rw [h]
    rw [Wit.fromSlice_eq _ hfit.offsets] at hw
    rw [← Option.some.inj hw, witBytes_ofList, List.length_append, ← elemsSize_eq, hes, csEncode_length]
    show some (1 + (107 - n)) = _
    congr 1; omega
  have ev : ∀ k, k ≤ 72 → 10 ≤ k → (fromSlice 0 [k, 33]).totalWeight = some (200 + k) ∧
      (fromSlice 23 [k, 33]).totalWeight = some (292 + k) ∧ (fromSlice (2 + 33 + k) []).totalWeight = some (304 + 4 * k) := by
    intro k h1 h2
    have c1 : csSize k = 1 := by unfold csSize; rw [if_pos (by omega)]
    have c2 : csSize (2 + 33 + k) = 1 := by unfold csSize; rw [if_pos (by omega)]
    have c3 : csSize 0 = 1 := rfl
    have c4 : csSize 23 = 1 := rfl
    have c5 : csSize 33 = 1 := rfl
    have c6 : csSize 2 = 1 := rfl
    have w1 : witnessBytes [k, 33] = 36 + k := by
      unfold witnessBytes scriptBytes
      rw [if_neg (by simp)]
      simp only [List.length_cons, List.length_nil, List.map_cons, List.map_nil, List.sum_cons, List.sum_nil, c1, c5]
      show 1 + _ = _
      omega
    have w2 : witnessBytes [] = 0 := rfl
    refine ⟨?_, ?_, ?_⟩
    · rw [fromSlice_spec _ _ (by unfold PredictionFits scriptBytes; omega)]
      unfold totalWeight witnessWeight addU32 u32Max scriptBytes
      rw [w1, c3, if_neg (by show ¬ (1 + 0) * 4 > _; omega), if_neg (by show ¬ (1 + 0) * 4 + (36 + k) > _; omega)]
      simp only [Option.map_some, Option.some.injEq]
      omega
    · rw [fromSlice_spec _ _ (by unfold PredictionFits scriptBytes; omega)]
      unfold totalWeight witnessWeight addU32 u32Max scriptBytes
      rw [w1, c4, if_neg (by show ¬ (1 + 23) * 4 > _; omega), if_neg (by show ¬ (1 + 23) * 4 + (36 + k) > _; omega)]
      simp only [Option.map_some, Option.some.injEq]
      omega
    · rw [fromSlice_spec _ _ (by unfold PredictionFits scriptBytes; omega)]
      unfold totalWeight witnessWeight addU32 u32Max scriptBytes
      rw [w2, c2, if_neg (by show ¬ (1 + (2 + 33 + k)) * 4 > _; omega), if_neg (by show ¬ (1 + (2 + 33 + k)) * 4 + 0 > _; omega)]
      simp only [Option.map_some, Option.some.injEq]
      omega
  obtain ⟨e1, e2, e3⟩ := ev (72 - n) (by omega) (by omega)
  refine ⟨?_, ?_, ?_⟩
  · intro h1 h2
    refine ⟨fromSlice 0 [72 - n, 33], by simp only [groundP2wpkh, hd, Option.map_some], ?_, e1.trans (congrArg some (by omega))⟩
    unfold TxIn.segwitWeight TxIn.baseSize
    rw [e1, hwit h2, h1]
    show some _ = some ((36 + 1 + 0 + 4) * 4 + _)
    congr 1; omega
  · intro h1 h2
    refine ⟨fromSlice 23 [72 - n, 33], by simp only [groundNestedP2wpkh, hd, Option.map_some], ?_, e2.trans (congrArg some (by omega))⟩
    unfold TxIn.segwitWeight TxIn.baseSize
    rw [e2, hwit h2, h1]
    show some _ = some ((36 + 1 + 23 + 4) * 4 + _)
    congr 1; omega
  · intro h1
    refine ⟨fromSlice (2 + 33 + (72 - n)) [], by simp only [groundP2pkhCompressed, hd, Option.map_some], ?_, e3.trans (congrArg some (by omega))⟩
    have hl : i.scriptSig.length = 107 - n := by
      rw [h1, Scr.pushSlice_long _ pk (by omega) (by omega), Scr.pushSlice_long [] sig (by omega) (by omega)]
      simp only [List.nil_append, List.length_append, List.length_cons]
      omega
    have : csSize (107 - n) = 1 := by unfold csSize; rw [if_pos (by omega)]
    refine e3.trans (congrArg some ?_)
    unfold TxIn.legacyWeight TxIn.baseSize
    rw [hl, this]
    omega

open InputPrediction in
/-- The constants are the predictions without grinding, and asking for more than the signature has is a panic. -/
theorem C85_constants : groundP2wpkh 0 = some P2WPKH_MAX ∧ groundNestedP2wpkh 0 = some NESTED_P2WPKH_MAX ∧
    groundP2pkhCompressed 0 = some P2PKH_COMPRESSED_MAX ∧ P2PKH_UNCOMPRESSED_MAX = fromSlice (1 + 72 + 1 + 65) [] ∧
    P2TR_KEY_DEFAULT_SIGHASH.totalWeight = some (41 * 4 + 1 + 1 + 64) ∧
    P2TR_KEY_NON_DEFAULT_SIGHASH.totalWeight = some (41 * 4 + 1 + 1 + 64 + 1) ∧
    ∀ n, 62 < n → groundP2wpkh n = none ∧ groundNestedP2wpkh n = none ∧ groundP2pkhCompressed n = none := by
  refine ⟨by decide, by decide, by decide, by decide, by decide, by decide, ?_⟩
  intro n hn
  have hd : derSize n = none := by unfold derSize; rw [if_neg (by omega)]
  unfold groundP2wpkh groundNestedP2wpkh groundP2pkhCompressed
  rw [hd]
  exact ⟨rfl, rfl, rfl⟩

/-! ### Policy -/

/-- The virtual size for policy: a quarter, rounded up, of the weight or of twenty times the signature operations, whichever is more. -/
theorem C85_virtual_size (w s : Int) (hw : 0 ≤ w) (hs : 0 ≤ s) (h1 : w < 2 ^ 62) (h2 : s < 2 ^ 57) :
    ∃ v, getVirtualTxSize w s = some v ∧ w ≤ 4 * v ∧ 20 * s ≤ 4 * v ∧ (4 * v < w + 4 ∨ 4 * v < 20 * s + 4) := by
  have ok : ∀ x : Int, -(2 ^ 63) ≤ x → x < 2 ^ 63 → Amt.i64 x = some x := fun x a b => if_pos ⟨a, b⟩
  refine ⟨(max w (s * 20) + 4 - 1).tdiv 4, ?_, ?_⟩
  · unfold getVirtualTxSize
    rw [ok _ (by omega) (by omega), Option.bind_some, ok _ (by omega) (by omega), Option.bind_some, ok _ (by omega) (by omega)]
    rfl
  · rw [Int.tdiv_eq_ediv_of_nonneg (by omega)]
    omega

/-- `GetDustThreshold` of Bitcoin Core 0.21 (policy/policy.cpp, with `CFeeRate::GetFee` of policy/feerate.cpp), rate in satoshi per 1000
bytes: nothing for unspendable outputs, otherwise the rate times the size over 1000, but at least one satoshi for a positive rate. -/
noncomputable def coreDust (s : Bytes) (rate : Nat) : Nat :=
  if s.head? = some 0x6a ∨ s.length > 10000 then 0
  else
    let fee := rate * Scr.dustSize s / 1000
    if fee = 0 ∧ 0 < rate then 1 else fee

theorem dustSize_ge (s : Bytes) : 76 ≤ Scr.dustSize s := by
  unfold Scr.dustSize
  have := csSize_pos s.length
  split <;> omega

theorem dust_core (s : Bytes) (r a : Nat) (hr : 14 ≤ r) (h : Scr.minimalNonDustInternal s r = some a) :
    coreDust s r ≤ a ∧ (s.length ≤ 10000 → a = coreDust s r) := by
  rw [Scr.C35_dust] at h
  have hd := dustSize_ge s
  have hm : 14 * 76 ≤ r * Scr.dustSize s := Nat.mul_le_mul hr hd
  unfold coreDust
  by_cases ho : Scr.Pattern .opReturn s
  · rw [if_pos ho] at h
    injection h with h
    obtain ⟨t, rfl⟩ := ho
    rw [if_pos (.inl rfl)]
    exact ⟨by omega, fun _ => h.symm⟩
  · have ho' : ¬ s.head? = some 0x6a := by
      intro hh
      cases s with
      | nil => cases hh
      | cons b t => injection hh with hh; exact ho ⟨t, by rw [hh]⟩
    rw [if_neg ho] at h
    split at h
    · injection h with h
      by_cases hl : s.length > 10000
      · rw [if_pos (.inr hl)]
        exact ⟨by omega, fun c => absurd hl (by omega)⟩
      · rw [if_neg (by rintro (c | c); exact ho' c; exact hl c)]
        simp only
        rw [if_neg (by rintro ⟨c, -⟩; omega), h]
        exact ⟨Nat.le_refl _, fun _ => rfl⟩
    · cases h

/-- **Dust**: at the default rate, and at every custom rate above 13 satoshi per thousand virtual bytes, the amount is not below
Bitcoin Core's threshold; it is the threshold for scripts of at most 10,000 bytes.  For smaller rates
`C85_dust_refuted` shows that it can be. -/
theorem C85_dust_custom (s : Bytes) (rate a : Nat) (hr : 13000 < rate) (h : txOutMinimalNonDustCustom s rate = some a) :
    coreDust s (Amt.cdiv rate 1000) ≤ a ∧ (s.length ≤ 10000 → a = coreDust s (Amt.cdiv rate 1000)) := by
  unfold txOutMinimalNonDustCustom Amt.kvbCeil at h
  rw [Amt.divCeil_eq _ _ (by omega)] at h
  exact dust_core s _ a (by unfold Amt.cdiv; omega) h

theorem C85_dust_default (s : Bytes) (a : Nat) (h : txOutMinimalNonDust s = some a) :
    coreDust s 3000 ≤ a ∧ (s.length ≤ 10000 → a = coreDust s 3000) :=
  dust_core s 3000 a (by omega) h

/-- Finding: for smaller custom rates the amount is below the threshold, although the comment in the code says it must never be. -/
theorem C85_dust_refuted : ∃ s rate a, txOutMinimalNonDustCustom s rate = some a ∧ a < coreDust s (Amt.cdiv rate 1000) := by
  have he : txOutMinimalNonDustCustom [] 1000 = some 0 := by decide
  refine ⟨[], 1000, 0, he, ?_⟩
  have hc : Amt.cdiv 1000 1000 = 1 := by decide
  unfold coreDust
  rw [hc, if_neg (by simp)]
  have : 1 * Scr.dustSize [] / 1000 = 0 := by
    unfold Scr.dustSize
    have : csSize ([] : Bytes).length = 1 := rfl
    rw [this]
    split <;> rfl
  simp only [this]
  decide

/-! ### Verification -/

/-- **Verification**: with a map of the spent outputs, the transaction is accepted exactly if every input spends a known output and the
library accepts it, with its script, its amount and the index of the input, for the serialized transaction. -/
theorem C85_verify {E : Type} (lib : ConsensusLib E) (tx : Tx) (ser : Bytes) (utxo : OutPoint → Option TxOut) (flags : UInt32) :
    verifyTransactionWithFlags lib tx ser (fun (_ : Unit) o => (utxo o, ())) () flags = .ok () ↔
      ∀ (n : Nat) (i : TxIn), tx.inputs[n]? = some i →
        ∃ o, utxo i.prev = some o ∧ lib o.spk o.amount.1 ser n flags = .ok () := by
  have key : ∀ (ins : List TxIn) (k : Nat), verifyLoop lib ser flags (fun (_ : Unit) o => (utxo o, ())) k ins () = .ok () ↔
      ∀ (n : Nat) (i : TxIn), ins[n]? = some i → ∃ o, utxo i.prev = some o ∧ lib o.spk o.amount.1 ser (k + n) flags = .ok () := by
    intro ins
    induction ins with
    | nil => intro k; simp [verifyLoop]
    | cons i rest ih =>
      intro k
      simp only [verifyLoop]
      cases hu : utxo i.prev with
      | none =>
        simp only
        constructor
        · intro h; cases h
        · intro h
          obtain ⟨o, ho, _⟩ := h 0 i rfl
          rw [hu] at ho; cases ho
      | some o =>
        simp only
        cases hl : lib o.spk o.amount.1 ser k flags with
        | error e =>
          simp only
          constructor
          · intro h; cases h
          · intro h
            obtain ⟨o', ho, hk⟩ := h 0 i rfl
            rw [hu] at ho; cases ho
            rw [Nat.add_zero, hl] at hk; cases hk
        | ok u =>
          simp only
          rw [ih (k + 1)]
          constructor
          · intro h n j hj
            cases n with
            | zero =>
              cases hj
              exact ⟨o, hu, hl⟩
            | succ n =>
              obtain ⟨o', ho, hk⟩ := h n j hj
              exact ⟨o', ho, by rwa [show k + (n + 1) = k + 1 + n by omega]⟩
          · intro h n j hj
            obtain ⟨o', ho, hk⟩ := h (n + 1) j hj
            exact ⟨o', ho, by rwa [show k + 1 + n = k + (n + 1) by omega]⟩
  have := key tx.inputs 0
  simp only [Nat.zero_add] at this
  exact this

/-- The rules asked for before taproot: P2SH (bit 0), strict DER signatures (2), the empty dummy of `OP_CHECKMULTISIG` (4),
`OP_CHECKLOCKTIMEVERIFY` (9), `OP_CHECKSEQUENCEVERIFY` (10) and segregated witnesses (11), no others. -/
def PreTaproot (flags : UInt32) : Prop :=
  ∀ b, flags.toNat.testBit b = true ↔ b ∈ [0, 2, 4, 9, 10, 11]

/-- `verify_transaction` asks for exactly the rules from before taproot. -/
theorem C85_verify_default {E : Type} (lib : ConsensusLib E) (tx : Tx) (ser : Bytes) (utxo : OutPoint → Option TxOut) :
    ∃ flags, PreTaproot flags ∧
      (verifyTransaction lib tx ser (fun (_ : Unit) o => (utxo o, ())) () = .ok () ↔
        ∀ (n : Nat) (i : TxIn), tx.inputs[n]? = some i →
          ∃ o, utxo i.prev = some o ∧ lib o.spk o.amount.1 ser n flags = .ok ()) := by
  refine ⟨_, fun b => ?_, C85_verify lib tx ser utxo _⟩
  by_cases h : b < 12
  · have key : ∀ b : Fin 12, (1 ||| 4 ||| 16 ||| 512 ||| 1024 ||| 2048 : UInt32).toNat.testBit b.1 = true ↔
        b.1 ∈ [0, 2, 4, 9, 10, 11] := by decide
    exact key ⟨b, h⟩
  · rw [Nat.testBit_lt_two_pow]
    · exact ⟨fun h => (by cases h), fun hm => by
        simp only [List.mem_cons, List.not_mem_nil, or_false] at hm
        omega⟩
    · exact Nat.lt_of_lt_of_le (by decide : (1 ||| 4 ||| 16 ||| 512 ||| 1024 ||| 2048 : UInt32).toNat < 2 ^ 12)
        (Nat.pow_le_pow_right (by decide) (by omega))

/-- The error is that of the first input that fails. -/
theorem C85_verify_error {E : Type} (lib : ConsensusLib E) (tx : Tx) (ser : Bytes) (utxo : OutPoint → Option TxOut) (flags : UInt32)
    (e : TxVerifyError E)
    (h : verifyTransactionWithFlags lib tx ser (fun (_ : Unit) o => (utxo o, ())) () flags = .error e) :
    ∃ (n : Nat) (i : TxIn), tx.inputs[n]? = some i ∧
      (∀ m, m < n → ∀ j, tx.inputs[m]? = some j → ∃ o, utxo j.prev = some o ∧ lib o.spk o.amount.1 ser m flags = .ok ()) ∧
      ((e = .unknown i.prev ∧ utxo i.prev = none) ∨
        ∃ o x, e = .script x ∧ utxo i.prev = some o ∧ lib o.spk o.amount.1 ser n flags = .error x) := by
  have key : ∀ (ins : List TxIn) (k : Nat), verifyLoop lib ser flags (fun (_ : Unit) o => (utxo o, ())) k ins () = .error e →
      ∃ (n : Nat) (i : TxIn), ins[n]? = some i ∧
      (∀ m, m < n → ∀ j, ins[m]? = some j → ∃ o, utxo j.prev = some o ∧ lib o.spk o.amount.1 ser (k + m) flags = .ok ()) ∧
      ((e = .unknown i.prev ∧ utxo i.prev = none) ∨
        ∃ o x, e = .script x ∧ utxo i.prev = some o ∧ lib o.spk o.amount.1 ser (k + n) flags = .error x) := by
    intro ins
    induction ins with
    | nil => intro k h; cases h
    | cons i rest ih =>
      intro k h
      simp only [verifyLoop] at h
      cases hu : utxo i.prev with
      | none =>
        rw [hu] at h
        injection h with h
        exact ⟨0, i, rfl, fun m hm => absurd hm (by omega), .inl ⟨h.symm, hu⟩⟩
      | some o =>
        rw [hu] at h
        simp only at h
        cases hl : lib o.spk o.amount.1 ser k flags with
        | error x =>
          rw [hl] at h
          injection h with h
          exact ⟨0, i, rfl, fun m hm => absurd hm (by omega), .inr ⟨o, x, h.symm, hu, hl⟩⟩
        | ok u =>
          rw [hl] at h
          obtain ⟨n, j, hj, hb, he⟩ := ih (k + 1) h
          refine ⟨n + 1, j, hj, ?_, ?_⟩
          · intro m hm j' hj'
            cases m with
            | zero => cases hj'; exact ⟨o, hu, hl⟩
            | succ m =>
              obtain ⟨o', ho, hk⟩ := hb m (by omega) j' hj'
              exact ⟨o', ho, by rwa [show k + (m + 1) = k + 1 + m by omega]⟩
          · rcases he with he | ⟨o', x, h1, h2, h3⟩
            · exact .inl he
            · exact .inr ⟨o', x, h1, h2, by rwa [show k + (n + 1) = k + 1 + n by omega]⟩
  have := key tx.inputs 0 h
  simpa only [Nat.zero_add] using this

/-- Taking outputs out of a set: the first with this outpoint is removed. -/
def takeOut : List (OutPoint × TxOut) → OutPoint → Option TxOut × List (OutPoint × TxOut)
  | [], _ => (none, [])
  | x :: rest, o => if x.1 = o then (some x.2, rest) else let (r, s) := takeOut rest o; (r, x :: s)

theorem takeOut_gone (l : List (OutPoint × TxOut)) (hn : (l.map Prod.fst).Nodup) (o : OutPoint) (t : TxOut) (l' : List (OutPoint × TxOut))
    (h : takeOut l o = (some t, l')) : (l'.map Prod.fst).Nodup ∧ (∀ x ∈ l'.map Prod.fst, x ∈ l.map Prod.fst ∧ x ≠ o) := by
  induction l generalizing l' with
  | nil => cases h
  | cons x rest ih =>
    rw [List.map_cons, List.nodup_cons] at hn
    rw [takeOut] at h
    by_cases hx : x.1 = o
    · rw [if_pos hx] at h
      cases h
      exact ⟨hn.2, fun y hy => ⟨by simp [hy], fun c => hn.1 (by rw [hx, ← c]; exact hy)⟩⟩
    · rw [if_neg hx] at h
      cases hr : takeOut rest o with
      | mk r s =>
        rw [hr] at h
        cases h
        obtain ⟨h1, h2⟩ := ih hn.2 s hr
        rw [List.map_cons, List.nodup_cons]
        refine ⟨⟨fun c => hn.1 (h2 _ c).1, h1⟩, ?_⟩
        intro y hy
        rcases List.mem_cons.1 hy with rfl | hy
        · exact ⟨by simp, hx⟩
        · exact ⟨List.mem_cons_of_mem _ (h2 y hy).1, (h2 y hy).2⟩

/-- **No double spending within a transaction** passes if the closure takes the outputs out of a set, as the documentation suggests. -/
theorem C85_verify_distinct {E : Type} (lib : ConsensusLib E) (tx : Tx) (ser : Bytes) (set : List (OutPoint × TxOut))
    (hset : (set.map Prod.fst).Nodup) (flags : UInt32)
    (h : verifyTransactionWithFlags lib tx ser takeOut set flags = .ok ()) : (tx.inputs.map TxIn.prev).Nodup := by
  have known : ∀ (ins : List TxIn) (k : Nat) (st : List (OutPoint × TxOut)), (st.map Prod.fst).Nodup →
      verifyLoop lib ser flags takeOut k ins st = .ok () →
      (ins.map TxIn.prev).Nodup ∧ ∀ p ∈ ins.map TxIn.prev, p ∈ st.map Prod.fst := by
    intro ins
    induction ins with
    | nil => intros; simp
    | cons i rest ih =>
      intro k st hst h
      rw [verifyLoop] at h
      cases ht : takeOut st i.prev with
      | mk r st' =>
        rw [ht] at h
        cases r with
        | none => cases h
        | some t =>
          simp only at h
          cases hl : lib t.spk t.amount.1 ser k flags with
          | error e => rw [hl] at h; cases h
          | ok u =>
            rw [hl] at h
            obtain ⟨h1, h2⟩ := takeOut_gone st hst i.prev t st' ht
            obtain ⟨i1, i2⟩ := ih (k + 1) st' h1 h
            rw [List.map_cons, List.nodup_cons]
            refine ⟨⟨fun c => (h2 _ (i2 _ c)).2 rfl, i1⟩, ?_⟩
            intro p hp
            rcases List.mem_cons.1 hp with rfl | hp
            · have found : ∀ (l : List (OutPoint × TxOut)) (o : OutPoint) (t : TxOut) (l' : List (OutPoint × TxOut)),
                  takeOut l o = (some t, l') → o ∈ l.map Prod.fst := by
                intro l o
                induction l with
                | nil => intro t l' hh; cases hh
                | cons x rest ih =>
                  intro t l' hh
                  rw [takeOut] at hh
                  by_cases hx : x.1 = o
                  · simp [hx]
                  · rw [if_neg hx] at hh
                    cases hr : takeOut rest o with
                    | mk r s =>
                      rw [hr] at hh
                      cases hh
                      exact List.mem_cons_of_mem _ (ih t s hr)
              exact found st i.prev t st' ht
            · exact (h2 _ (i2 _ hp)).1
  exact (known tx.inputs 0 set hset h).1

/-! ### Examples -/

/-- Two inputs, the second signals replacement; the lock time is a height. -/
def exTx : Tx := ⟨2, 800000, [⟨OutPoint.null, [], 0xFFFFFFFE, Wit.empty⟩, ⟨OutPoint.null, [], 5, Wit.empty⟩], []⟩
example : exTx.isExplicitlyRbf = true := by decide
example : { exTx with inputs := exTx.inputs.take 1 }.isExplicitlyRbf = false := by decide
example : exTx.isAbsoluteTimelockSatisfied ⟨799999⟩ ⟨1700000000⟩ = some false ∧
    exTx.isAbsoluteTimelockSatisfied ⟨800000⟩ ⟨1700000000⟩ = some true := by decide
example : exTx.txIn 2 = .error (2, 2) := rfl
/-- Ten satoshi per virtual byte, a P2WPKH coin of 1000 satoshi: minus 1720 is below zero. -/
example : effectiveValue 10000000 InputPrediction.P2WPKH_MAX 1000 = some 320 := by decide
example : effectiveValue 100000000 InputPrediction.P2WPKH_MAX 1000 = some (-5800) := by decide
example : ∃ i : TxIn, i.scriptSig = [] ∧ Wit.fromSlice [List.replicate 71 1, List.replicate 33 2] = some i.witness :=
  ⟨⟨OutPoint.null, [], 0, Wit.ofList [List.replicate 71 1, List.replicate 33 2]⟩, rfl, by decide +kernel⟩
example : getVirtualTxSize 401 3 = some 101 ∧ getVirtualTxSize 401 30 = some 150 := by decide
example : txOutMinimalNonDustCustom [0x51] 13001 = some 2 := by decide
/-- A library that accepts every script; the second input spends the same output again. -/
example : verifyTransactionWithFlags (E := Unit) (fun _ _ _ _ _ => .ok ()) exTx [] takeOut
    [(OutPoint.null, ⟨⟨7, by decide⟩, []⟩)] 0 = .error (.unknown OutPoint.null) := by rfl
example : verifyTransactionWithFlags (E := Unit) (fun _ _ _ _ _ => .ok ()) { exTx with inputs := exTx.inputs.take 1 } [] takeOut
    [(OutPoint.null, ⟨⟨7, by decide⟩, []⟩)] 0 = .ok () := by rfl

end Btc
