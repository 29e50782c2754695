import Verif.Props.C67
import Verif.Props.C98
/-!
# C114: what may be changed after signing
-/
namespace Btc
namespace AfterSigning
open Crypto
open Taproot (Hash)
open Sighash (SameSigned)
open SignTx (EcdsaOk SchnorrOk v0Digest legacyDigest tapDigest Spends ProgramOk Matches pushed)

variable {S : Secp} {D : Der}

/-! ## Words of the statements -/

/-- The byte at the end. -/
def lastByte (b : Bytes) : UInt8 := b.getLast?.getD 0

/-- Does the input spend an output of version 1? -/
def isTaproot (own : TxOut) : Bool := own.spk.head? == some 0x51

/-- Is the signature in the script signature? -/
def isLegacy (x : TxIn) : Bool := x.witness.toVec == some []

/-- The hash types of the signatures of an input: of the first push without witness; of the first element for taproot, where 64 bytes are
a signature of the default type; else of all elements but the last that are not empty. -/
def hashTypes (own : TxOut) (x : TxIn) : List UInt8 :=
  match x.witness.toVec with
  | none => []
  | some [] => [lastByte (x.scriptSig.take (1 + (x.scriptSig.head?.getD 0).toNat))]
  | some (sig :: stack) =>
    if isTaproot own then [if sig.length = 64 then 0 else lastByte sig]
    else ((sig :: stack).dropLast.filter (· ≠ [])).map lastByte

/-- `tx'` has, at `i'`, the input `i` of `tx`, and all that a signature of type `t` in it covers. -/
structure Keeps (tx tx' : Tx) (P P' : List TxOut) (i i' : Nat) (taproot legacy : Bool) (t : UInt8) : Prop where
  version : tx'.version = tx.version
  lockTime : tx'.lockTime = tx.lockTime
  input : tx'.inputs[i']? = tx.inputs[i]?
  own : P'[i']? = P[i]?
  /-- Without ANYONECANPAY (`0x80`): the index and all outpoints. -/
  prevs : t < 0x80 → i' = i ∧ tx'.inputs.map (·.prev) = tx.inputs.map (·.prev)
  /-- In taproot all amounts and scripts too. -/
  spent : t < 0x80 → taproot = true → P' = P
  /-- All sequences, in taproot whatever the outputs. -/
  sequences : t < 0x80 → taproot = true ∨ t &&& 3 < 2 → tx'.inputs.map (·.sequence) = tx.inputs.map (·.sequence)
  /-- DEFAULT and ALL: all outputs. -/
  outputs : t &&& 3 < 2 → tx'.outputs = tx.outputs
  /-- SINGLE: the output of the index, and for the original algorithm the index. -/
  output : t &&& 3 = 3 → tx'.outputs[i']? = tx.outputs[i]? ∧ (legacy = true → i' = i)

def ecdsaTypes : Bytes := [0x01, 0x02, 0x03, 0x81, 0x82, 0x83]

/-! ## The digests -/

theorem app {a a' b b' : Bytes} (h1 : a = a') (h2 : b = b') : a ++ b = a' ++ b' := by rw [h1, h2]

theorem flat_of_map {α β : Type} (f : α → β) (g : β → Bytes) (l l' : List α) (h : l.map f = l'.map f) :
    (l.flatMap fun x => g (f x)) = l'.flatMap fun x => g (f x) := by
  have : ∀ l : List α, (l.flatMap fun x => g (f x)) = (l.map f).flatMap g := fun l => by rw [List.flatMap_map]
  rw [this, this, h]

theorem bip143_keeps {tx tx' : Tx} {P P' : List TxOut} {i i' : Nat} {b c : Bool} {t : UInt8} (hk : Keeps tx tx' P P' i i' b c t) (ht : t ∈ ecdsaTypes)
    (H : Bytes → Hash) (txin : TxIn) (code : Bytes) (amount : Amount) :
    Sighash.bip143 H tx' i' txin code amount t.toUInt32 = Sighash.bip143 H tx i txin code amount t.toUInt32 := by
  have c1 : ¬ (t.toUInt32 &&& 0x80 ≠ 0) → t < 0x80 := by
    clear hk
    simp only [ecdsaTypes, List.mem_cons, List.not_mem_nil, or_false] at ht
    rcases ht with rfl | rfl | rfl | rfl | rfl | rfl <;> decide
  have c2 : (t.toUInt32 &&& 0x1f ≠ 3 ∧ t.toUInt32 &&& 0x1f ≠ 2) → t &&& 3 < 2 := by
    clear hk c1
    simp only [ecdsaTypes, List.mem_cons, List.not_mem_nil, or_false] at ht
    rcases ht with rfl | rfl | rfl | rfl | rfl | rfl <;> decide
  have c3 : t.toUInt32 &&& 0x1f = 3 → t &&& 3 = 3 := by
    clear hk c1 c2
    simp only [ecdsaTypes, List.mem_cons, List.not_mem_nil, or_false] at ht
    rcases ht with rfl | rfl | rfl | rfl | rfl | rfl <;> decide
  unfold Sighash.bip143
  refine app (app (app (app (app (app (app (app (app ?_ ?_) ?_) rfl) rfl) rfl) rfl) ?_) ?_) rfl
  · rw [hk.version]
  · refine ite_congr rfl (fun _ => rfl) fun h => ?_
    have := flat_of_map TxIn.prev (fun p : OutPoint => p.txid.1 ++ leBytes 4 p.vout.toNat) _ _ (hk.prevs (c1 h)).2
    simp only at this ⊢
    rw [this]
  · refine ite_congr rfl (fun h => ?_) fun _ => rfl
    have := flat_of_map TxIn.sequence (fun s : UInt32 => leBytes 4 s.toNat) _ _ (hk.sequences (c1 h.1) (.inr (c2 h.2)))
    simp only at this ⊢
    rw [this]
  · refine ite_congr rfl (fun h => ?_) fun _ => ite_congr rfl (fun h => ?_) fun _ => rfl
    · rw [hk.outputs (c2 h)]
    · rw [(hk.output (c3 h)).1]
  · rw [hk.lockTime]

theorem bip341_keeps {tx tx' : Tx} {P P' : List TxOut} {i i' : Nat} {c : Bool} {t : UInt8} (hk : Keeps tx tx' P P' i i' true c t) (ht : t ∈ 0 :: ecdsaTypes)
    (H : Bytes → Hash) (txin : TxIn) (own : TxOut) (ext : Option (Hash × UInt32)) :
    Sighash.bip341 H tx' i' txin P' own none ext t = Sighash.bip341 H tx i txin P own none ext t := by
  have c1 : ¬ ((t &&& 0x80 == 0x80) = true) → t < 0x80 := by
    clear hk
    simp only [ecdsaTypes, List.mem_cons, List.not_mem_nil, or_false] at ht
    rcases ht with rfl | rfl | rfl | rfl | rfl | rfl | rfl <;> decide
  have c2 : (t &&& 3 ≠ 2 ∧ t &&& 3 ≠ 3) → t &&& 3 < 2 := by
    clear hk
    simp only [ecdsaTypes, List.mem_cons, List.not_mem_nil, or_false] at ht
    rcases ht with rfl | rfl | rfl | rfl | rfl | rfl | rfl <;> decide
  unfold Sighash.bip341
  refine app (app (app (app (app (app (app (app (app rfl ?_) ?_) ?_) ?_) rfl) ?_) rfl) ?_) rfl
  · rw [hk.version]
  · rw [hk.lockTime]
  · refine ite_congr rfl (fun _ => rfl) fun h => ?_
    have h1 := flat_of_map TxIn.prev (fun p : OutPoint => p.txid.1 ++ leBytes 4 p.vout.toNat) _ _ (hk.prevs (c1 h)).2
    have h2 := flat_of_map TxIn.sequence (fun s : UInt32 => leBytes 4 s.toNat) _ _ (hk.sequences (c1 h) (.inl rfl))
    simp only at h1 h2 ⊢
    rw [h1, h2, hk.spent (c1 h) rfl]
  · refine ite_congr rfl (fun h => ?_) fun _ => rfl
    rw [hk.outputs (c2 h)]
  · refine ite_congr rfl (fun _ => rfl) fun h => ?_
    rw [(hk.prevs (c1 h)).1]
  · refine ite_congr rfl (fun h => ?_) fun _ => rfl
    rw [(hk.output h).1]

theorem getElem?_ge_iff {α : Type} {l l' : List α} {i i' : Nat} (h : l'[i']? = l[i]?) : i' ≥ l'.length ↔ i ≥ l.length := by
  rw [ge_iff_le, ge_iff_le, ← List.getElem?_eq_none_iff, ← List.getElem?_eq_none_iff, h]

theorem tapDigest_keeps {tx tx' : Tx} {P P' : List TxOut} {i i' : Nat} {c : Bool} {t : UInt8} (hk : Keeps tx tx' P P' i i' true c t) (ht : t ∈ 0 :: ecdsaTypes)
    (H : Bytes → Hash) (txin : TxIn) (own : TxOut) (ext : Option (Hash × UInt32)) :
    tapDigest H tx' i' txin P' own ext t = tapDigest H tx i txin P own ext t := by
  unfold tapDigest
  simp only []
  rw [bip341_keeps hk ht]
  refine ite_congr ?_ (fun _ => rfl) fun _ => rfl
  refine propext (and_congr_right fun h => getElem?_ge_iff (hk.output h).1)

theorem take_one {α : Type} (l : List α) (i : Nat) : (l.drop i).take 1 = l[i]?.toList := by
  by_cases h : i < l.length
  · rw [List.drop_eq_getElem_cons h, List.getElem?_eq_getElem h]; rfl
  · rw [List.drop_of_length_le (by omega), List.getElem?_eq_none (by omega)]; rfl

theorem legacyMsg_keeps {tx tx' : Tx} {P P' : List TxOut} {i i' : Nat} {b : Bool} {t : UInt8} (hk : Keeps tx tx' P P' i i' b true t) (ht : t ∈ ecdsaTypes)
    (code : Bytes) : Sighash.legacyMsg tx' i' code t.toUInt32 = Sighash.legacyMsg tx i code t.toUInt32 := by
  have c1 : ¬ (t.toUInt32 &&& 0x80 ≠ 0) → t < 0x80 := by
    clear hk
    simp only [ecdsaTypes, List.mem_cons, List.not_mem_nil, or_false] at ht
    rcases ht with rfl | rfl | rfl | rfl | rfl | rfl <;> decide
  have c2 : ¬ (t.toUInt32 &&& 0x1f = 2 ∨ t.toUInt32 &&& 0x1f = 3) → t &&& 3 < 2 := by
    clear hk
    simp only [ecdsaTypes, List.mem_cons, List.not_mem_nil, or_false] at ht
    rcases ht with rfl | rfl | rfl | rfl | rfl | rfl <;> decide
  have c3 : t.toUInt32 &&& 0x1f = 3 → t &&& 3 = 3 := by
    clear hk
    simp only [ecdsaTypes, List.mem_cons, List.not_mem_nil, or_false] at ht
    rcases ht with rfl | rfl | rfl | rfl | rfl | rfl <;> decide
  have hcopy : Sighash.legacyCopy tx' i' code t.toUInt32 = Sighash.legacyCopy tx i code t.toUInt32 := by
    unfold Sighash.legacyCopy
    refine (Sighash.LegacyCopy.mk.injEq _ _ _ _).mpr ⟨?_, ?_⟩
    · refine ite_congr rfl (fun h => ?_) fun h => ?_
      · rw [take_one, take_one]
        congr 1
        have hin := hk.input
        split
        · simp only [List.getElem?_mapIdx, hin, Option.map_map]
        · simp only [List.getElem?_mapIdx, hin]
      · obtain ⟨hi, hprev⟩ := hk.prevs (c1 h)
        subst hi
        have hprev' : ∀ n : Nat, (tx'.inputs[n]?).map TxIn.prev = (tx.inputs[n]?).map TxIn.prev := fun n => by
          rw [← List.getElem?_map, ← List.getElem?_map, hprev]
        refine ite_congr rfl (fun hb => ?_) fun hb => ?_
        · refine List.ext_getElem? fun n => ?_
          simp only [List.getElem?_mapIdx, Option.map_map]
          have h1 := hprev' n
          by_cases hn : n = i'
          · subst hn
            rw [hk.input]
          · generalize tx'.inputs[n]? = x', tx.inputs[n]? = x at h1
            cases x' <;> cases x <;> simp_all
        · refine List.ext_getElem? fun n => ?_
          have h1 := hprev' n
          have hseq : (tx'.inputs[n]?).map TxIn.sequence = (tx.inputs[n]?).map TxIn.sequence := by
            rw [← List.getElem?_map, ← List.getElem?_map, hk.sequences (c1 h) (.inr (c2 hb))]
          simp only [List.getElem?_mapIdx]
          generalize tx'.inputs[n]? = x', tx.inputs[n]? = x at h1 hseq
          cases x' <;> cases x <;> simp_all
    · refine ite_congr rfl (fun _ => rfl) fun h2 => ite_congr rfl (fun h3 => ?_) fun h3 => ?_
      · obtain ⟨ho, hi⟩ := hk.output (c3 h3)
        rw [take_one, take_one, List.getElem?_map, List.getElem?_map, ho, hi rfl]
      · rw [hk.outputs (c2 (fun h => h.elim h2 h3))]
  unfold Sighash.legacyMsg
  rw [hcopy, hk.version, hk.lockTime]

theorem legacyDigest_keeps {tx tx' : Tx} {P P' : List TxOut} {i i' : Nat} {b : Bool} {t : UInt8} (hk : Keeps tx tx' P P' i i' b true t) (ht : t ∈ ecdsaTypes)
    (H : Bytes → Hash) (code : Bytes) : legacyDigest H tx' i' code t.toUInt32 = legacyDigest H tx i code t.toUInt32 := by
  have c3 : t.toUInt32 &&& 0x1f = 3 → t &&& 3 = 3 := by
    clear hk
    simp only [ecdsaTypes, List.mem_cons, List.not_mem_nil, or_false] at ht
    rcases ht with rfl | rfl | rfl | rfl | rfl | rfl <;> decide
  unfold legacyDigest
  rw [legacyMsg_keeps hk ht]
  refine ite_congr ?_ (fun _ => rfl) fun _ => rfl
  refine propext (and_congr_right fun h => getElem?_ge_iff (hk.output (c3 h)).1)

/-! ## Acceptance -/

theorem lastByte_concat (d : Bytes) (t : UInt8) : lastByte (d ++ [t]) = t := by
  unfold lastByte
  rw [List.getLast?_append, List.getLast?_singleton, Option.some_or, Option.getD_some]

theorem EcdsaOk.keeps {C : Curve S D} {d d' : UInt32 → Hash} {pk sig : Bytes} (h : EcdsaOk C d pk sig)
    (hd : lastByte sig ∈ ecdsaTypes → d' (lastByte sig).toUInt32 = d (lastByte sig).toUInt32) : EcdsaOk C d' pk sig := by
  obtain ⟨der, ty, p, s, rfl, h1, h2, h3, h4⟩ := h
  rw [lastByte_concat] at hd
  exact ⟨der, ty, p, s, rfl, h1, h2, h3, by rw [hd h1]; exact h4⟩

theorem EcdsaOk.ne_nil {C : Curve S D} {d : UInt32 → Hash} {pk sig : Bytes} (h : EcdsaOk C d pk sig) : sig ≠ [] := by
  obtain ⟨der, ty, p, s, rfl, -⟩ := h
  simp

theorem Matches.keeps {ok ok' : Bytes → Bytes → Prop} {ks ss : List Bytes} (h : Matches ok ks ss) (hok : ∀ k s, s ∈ ss → ok k s → ok' k s) :
    Matches ok' ks ss := by
  induction h with
  | nil ks => exact .nil ks
  | hit k ks s ss h1 _ ih => exact .hit k ks s ss (hok k s (by simp) h1) (ih fun k x hx => hok k x (by simp [hx]))
  | skip k ks ss _ ih => exact .skip k ks ss (ih hok)

theorem SchnorrOk.keeps {C : Curve S D} {d d' : UInt8 → Option Hash} {x : Arr 32} {sig : Bytes} (h : SchnorrOk C d x sig)
    (hd : ∀ t, t = (if sig.length = 64 then 0 else lastByte sig) → t ∈ 0 :: ecdsaTypes → d' t = d t) : SchnorrOk C d' x sig := by
  obtain ⟨X, s, ty, m, h1, h2, h3, h4⟩ := h
  refine ⟨X, s, ty, m, h1, h2, ?_, h4⟩
  rw [← h3]
  rcases h2 with ⟨rfl, rfl⟩ | ⟨rfl, h2⟩
  · exact hd 0 (by rw [if_pos s.2]) (by simp)
  · refine hd ty ?_ (List.mem_cons_of_mem _ h2)
    rw [if_neg (by rw [List.length_append, s.2]; simp), lastByte_concat]

/-- The first push. -/
theorem first_push (sig pk : Bytes) (h : sig.length ≤ 75) :
    (pushed sig ++ pushed pk).take (1 + ((pushed sig ++ pushed pk).head?.getD 0).toNat) = UInt8.ofNat sig.length :: sig := by
  have hn : (UInt8.ofNat sig.length).toNat = sig.length := by rw [UInt8.toNat_ofNat']; omega
  simp only [pushed, List.cons_append, List.head?_cons, Option.getD_some, hn]
  rw [Nat.add_comm, List.take_succ_cons, List.take_append_of_le_length (by omega), List.take_of_length_le (by omega)]

theorem ProgramOk.keeps {H : Bytes → Hash} {H160 : Bytes → Arr 20} {C : Curve S D} {tx tx' : Tx} {P P' : List TxOut} {i i' : Nat} {inp : TxIn} {own : TxOut}
    {version : Nat} {program : Bytes} {stack : List Bytes} (h : ProgramOk H H160 C tx i inp P own version program stack)
    (h0 : version = 0 → isTaproot own = false) (h1 : version = 1 → isTaproot own = true) (hw : inp.witness.toVec = some stack)
    (hk : ∀ t ∈ hashTypes own inp, Keeps tx tx' P P' i i' (isTaproot own) (isLegacy inp) t) :
    ProgramOk H H160 C tx' i' inp P' own version program stack ∧ tx'.inputs[i']? = tx.inputs[i]? ∧ P'[i']? = P[i]? := by
  have v0 : ∀ (code pk sig : Bytes), lastByte sig ∈ hashTypes own inp → EcdsaOk C (v0Digest H tx i inp own code) pk sig →
      EcdsaOk C (v0Digest H tx' i' inp own code) pk sig := by
    intro code pk sig hm ho
    refine EcdsaOk.keeps ho fun ht => ?_
    unfold v0Digest
    rw [bip143_keeps (hk _ hm) ht]
  cases h with
  | wpkh sig pk a1 a0 a2 =>
    have hn := EcdsaOk.ne_nil a2
    have hm : lastByte sig ∈ hashTypes own inp := by
      simp [hashTypes, hw, h0 rfl, hn]
    exact ⟨.wpkh sig pk a1 a0 (v0 _ _ _ hm a2), (hk _ hm).input, (hk _ hm).own⟩
  | wsh m keys sigs script a1 a2 a3 a4 a5 a6 a7 a8 =>
    have hn : ∀ s ∈ sigs, s ≠ [] := by
      intro s hs
      have : ∀ {ks ss : List Bytes}, Matches (EcdsaOk C (v0Digest H tx i inp own script)) ks ss → ∀ s ∈ ss, s ≠ [] := by
        intro ks ss hm
        induction hm with
        | nil ks => intro s hs; cases hs
        | hit k ks s ss b1 _ ih =>
          intro x hx
          rcases List.mem_cons.mp hx with rfl | hx
          · exact EcdsaOk.ne_nil b1
          · exact ih x hx
        | skip k ks ss _ ih => exact ih
      exact this a8 s hs
    have hm : ∀ s ∈ sigs, lastByte s ∈ hashTypes own inp := by
      intro s hs
      simp only [hashTypes, hw, h0 rfl, List.cons_append]
      refine List.mem_map_of_mem (List.mem_filter.mpr ⟨?_, by simp [hn s hs]⟩)
      rw [← List.cons_append, List.dropLast_concat]
      exact List.mem_cons_of_mem _ hs
    obtain ⟨s, hs⟩ : ∃ s, s ∈ sigs := by
      cases sigs with
      | nil => simp at a6; omega
      | cons s _ => exact ⟨s, by simp⟩
    exact ⟨.wsh m keys sigs script a1 a2 a3 a4 a5 a6 a7 (Matches.keeps a8 fun k s hs ho => v0 _ _ _ (hm s hs) ho), (hk _ (hm s hs)).input, (hk _ (hm s hs)).own⟩
  | trKey q sig a1 =>
    have hm : (if sig.length = 64 then 0 else lastByte sig) ∈ hashTypes own inp := by
      simp [hashTypes, hw, h1 rfl]
    have hk := hk _ hm
    rw [h1 rfl] at hk
    refine ⟨.trKey q sig (SchnorrOk.keeps a1 fun t ht htt => ?_), hk.input, hk.own⟩
    subst ht
    exact tapDigest_keeps hk htt H inp own none
  | trScript q key Q sig script c0 c leaf a1 a2 a3 a4 a5 a6 =>
    have hm : (if sig.length = 64 then 0 else lastByte sig) ∈ hashTypes own inp := by
      simp [hashTypes, hw, h1 rfl]
    have hk := hk _ hm
    rw [h1 rfl] at hk
    refine ⟨.trScript q key Q sig script c0 c leaf a1 a2 a3 a4 a5 (SchnorrOk.keeps a6 fun t ht htt => ?_), hk.input, hk.own⟩
    subst ht
    exact tapDigest_keeps hk htt H inp own _

/-- **C114.** An accepted input stays accepted in any transaction that keeps what the signatures in it cover, whatever else is changed. -/
theorem C114_stays (H : Bytes → Hash) (H160 : Bytes → Arr 20) (C : Curve S D) (tx tx' : Tx) (P P' : List TxOut) (i i' : Nat)
    (inp : TxIn) (own : TxOut) (hi : tx.inputs[i]? = some inp) (ho : P[i]? = some own) (hs : Spends H H160 C tx P i)
    (hk : ∀ t ∈ hashTypes own inp, Keeps tx tx' P P' i i' (isTaproot own) (isLegacy inp) t) : Spends H H160 C tx' P' i' := by
  cases hs with
  | p2pkh txin own' sig pk e1 e2 e3 e4 e5 e6 e7 e8 e9 e10 =>
    rw [hi] at e1; cases e1
    rw [ho] at e2; cases e2
    have hl : isLegacy inp = true := by simp [isLegacy, e9]
    have hty : hashTypes own inp = [lastByte sig] := by
      unfold hashTypes
      rw [e9]
      simp only
      rw [e4, first_push sig pk e6]
      have : sig ≠ [] := EcdsaOk.ne_nil e10
      unfold lastByte
      rw [List.getLast?_cons, List.getLast?_eq_some_getLast this]
      rfl
    have hk := hk (lastByte sig) (by rw [hty]; simp)
    rw [hl] at hk
    refine .p2pkh inp own sig pk (by rw [hk.input, hi]) (by rw [hk.own, ho]) e3 e4 e5 e6 e7 e8 e9 (EcdsaOk.keeps e10 fun ht => ?_)
    exact legacyDigest_keeps hk ht H own.spk
  | native txin own' version program stack e1 e2 e3 e4 e5 e6 =>
    rw [hi] at e1; cases e1
    rw [ho] at e2; cases e2
    obtain ⟨b1, b2, b3⟩ := ProgramOk.keeps e6 (fun hv => by rw [hv] at e3; simp [isTaproot, e3]) (fun hv => by rw [hv] at e3; simp [isTaproot, e3]) e5 hk
    exact .native inp own version program stack (b2.trans hi) (b3.trans ho) e3 e4 e5 b1
  | nested txin own' version program redeem stack e1 e2 e3 e4 e5 e6 e7 e8 =>
    rw [hi] at e1; cases e1
    rw [ho] at e2; cases e2
    obtain ⟨b1, b2, b3⟩ := ProgramOk.keeps e8 (fun _ => by simp [isTaproot, e3]) (fun hv => by omega) e6 hk
    exact .nested inp own version program redeem stack (b2.trans hi) (b3.trans ho) e3 e4 e5 e6 e7 b1

/-! ## What signers do with that -/

/-- The inputs chosen by `A` from `a`, the others from `b`. -/
def combine (A : Nat → Bool) (a b : Tx) : Tx := { a with inputs := a.inputs.mapIdx fun n x => if A n then x else (b.inputs[n]?).getD x }

/-- Every type: nothing is covered of the script signatures and witnesses. -/
theorem keeps_of_same {tx tx' : Tx} (h : SameSigned tx tx') {i : Nat} (hi : tx'.inputs[i]? = tx.inputs[i]?) (P : List TxOut) (b c : Bool) (t : UInt8) :
    Keeps tx tx' P P i i b c t := by
  have h1 := congrArg (List.map Prod.fst) h.2.2.1
  have h2 := congrArg (List.map Prod.snd) h.2.2.1
  simp only [List.map_map] at h1 h2
  exact ⟨h.1.symm, h.2.1.symm, hi, rfl, fun _ => ⟨rfl, h1.symm⟩, fun _ _ => rfl, fun _ _ => h2.symm, fun _ => h.2.2.2.symm,
    fun _ => ⟨by rw [h.2.2.2], fun _ => rfl⟩⟩

/-- Two signers work on copies of one unsigned transaction, each signing inputs of their own, with any types: putting the inputs together gives
a transaction of which every input is valid, which still is the transaction they were given. -/
theorem C114_combine (H : Bytes → Hash) (H160 : Bytes → Arr 20) (C : Curve S D) (u a b : Tx) (P : List TxOut) (A : Nat → Bool)
    (ha : SameSigned a u) (hb : SameSigned b u) (hP : P.length = u.inputs.length)
    (h : ∀ i, i < u.inputs.length → Spends H H160 C (if A i then a else b) P i) :
    SameSigned (combine A a b) u ∧ ∀ i, i < u.inputs.length → Spends H H160 C (combine A a b) P i := by
  have la : a.inputs.length = u.inputs.length := ha.length
  have lb : b.inputs.length = u.inputs.length := hb.length
  have hin : ∀ n : Nat, (combine A a b).inputs[n]? = if A n then a.inputs[n]? else b.inputs[n]? := fun n => by
    unfold combine
    simp only [List.getElem?_mapIdx]
    by_cases hn : n < u.inputs.length
    · rw [List.getElem?_eq_getElem (by omega : n < a.inputs.length), List.getElem?_eq_getElem (by omega : n < b.inputs.length)]
      cases A n <;> simp
    · rw [List.getElem?_eq_none (by omega : a.inputs.length ≤ n), List.getElem?_eq_none (by omega : b.inputs.length ≤ n)]
      cases A n <;> simp
  have hsame : SameSigned (combine A a b) u := by
    refine ⟨ha.1, ha.2.1, List.ext_getElem? fun n => ?_, ha.2.2.2⟩
    have h1 := congrArg (fun l => l[n]?) ha.2.2.1
    have h2 := congrArg (fun l => l[n]?) hb.2.2.1
    simp only [List.getElem?_map] at h1 h2 ⊢
    rw [hin]
    cases A n
    · exact h2
    · exact h1
  refine ⟨hsame, fun i hi => ?_⟩
  have hs := h i hi
  have hx : ∃ x, (if A i then a else b).inputs[i]? = some x := by
    cases A i
    · exact ⟨b.inputs[i]'(by omega), List.getElem?_eq_getElem (l := b.inputs) (by omega)⟩
    · exact ⟨a.inputs[i]'(by omega), List.getElem?_eq_getElem (l := a.inputs) (by omega)⟩
  obtain ⟨x, hx⟩ := hx
  refine C114_stays H H160 C _ _ P P i i x P[i] hx (List.getElem?_eq_getElem (by omega)) hs fun t _ => keeps_of_same ?_ ?_ _ _ _ _
  · have hse : SameSigned (if A i then a else b) u := by cases A i <;> assumption
    exact ⟨hse.1.trans hsame.1.symm, hse.2.1.trans hsame.2.1.symm, hse.2.2.1.trans hsame.2.2.1.symm, hse.2.2.2.trans hsame.2.2.2.symm⟩
  · rw [hin]; cases A i <;> rfl

/-- Other inputs added before and after. -/
def addInputs (l r : List TxIn) (tx : Tx) : Tx := { tx with inputs := l ++ tx.inputs ++ r }

theorem mid {α : Type} (l m r : List α) (i : Nat) (hi : i < m.length) : (l ++ m ++ r)[l.length + i]? = m[i]? := by
  rw [List.append_assoc, List.getElem?_append_right (by omega), List.getElem?_append_left (by omega)]
  congr 1
  omega

/-- ALL and NONE with ANYONECANPAY: anyone may add inputs, anywhere. -/
theorem C114_fund (H : Bytes → Hash) (H160 : Bytes → Arr 20) (C : Curve S D) (tx : Tx) (P : List TxOut) (i : Nat) (inp : TxIn) (own : TxOut)
    (l r : List TxIn) (lP rP : List TxOut) (hi : tx.inputs[i]? = some inp) (ho : P[i]? = some own) (hs : Spends H H160 C tx P i)
    (hl : lP.length = l.length) (ht : ∀ t ∈ hashTypes own inp, t = 0x81 ∨ t = 0x82) :
    Spends H H160 C (addInputs l r tx) (lP ++ P ++ rP) (l.length + i) := by
  have h1 := List.getElem?_eq_some_iff.mp hi
  have h2 := List.getElem?_eq_some_iff.mp ho
  refine C114_stays H H160 C tx _ P _ i _ inp own hi ho hs fun t hm => ?_
  have hlt : ¬ t < 0x80 := by rcases ht t hm with rfl | rfl <;> decide
  refine ⟨rfl, rfl, mid _ _ _ _ h1.1, ?_, fun h => absurd h hlt, fun h => absurd h hlt, fun h => absurd h hlt, fun _ => rfl, fun h => ?_⟩
  · rw [← hl]; exact mid _ _ _ _ h2.1
  · rcases ht t hm with rfl | rfl <;> exact absurd h (by decide)

/-- NONE: the outputs may be replaced by any; the other inputs' sequences too, outside taproot. -/
theorem C114_none (H : Bytes → Hash) (H160 : Bytes → Arr 20) (C : Curve S D) (tx : Tx) (P : List TxOut) (i : Nat) (inp : TxIn) (own : TxOut)
    (outs : List TxOut) (hi : tx.inputs[i]? = some inp) (ho : P[i]? = some own) (hs : Spends H H160 C tx P i)
    (ht : ∀ t ∈ hashTypes own inp, t = 0x02 ∨ t = 0x82) : Spends H H160 C { tx with outputs := outs } P i := by
  refine C114_stays H H160 C tx _ P _ i _ inp own hi ho hs fun t hm => ?_
  refine ⟨rfl, rfl, rfl, rfl, fun _ => ⟨rfl, rfl⟩, fun _ _ => rfl, fun _ _ => rfl, fun h => ?_, fun h => ?_⟩ <;>
    rcases ht t hm with rfl | rfl <;> exact absurd h (by decide)

/-- The inputs and the outputs of both. -/
def join (a b : Tx) : Tx := { a with inputs := a.inputs ++ b.inputs, outputs := a.outputs ++ b.outputs }

/-- SINGLE with ANYONECANPAY: transactions with as many outputs as inputs can be joined into one, as in a market of offers; in the second one the
signatures must not be of the original algorithm, which commits to the index. -/
theorem C114_join (H : Bytes → Hash) (H160 : Bytes → Arr 20) (C : Curve S D) (a b : Tx) (Pa Pb : List TxOut) (hv : a.version = b.version)
    (hlock : a.lockTime = b.lockTime) (hlen : a.outputs.length = a.inputs.length) (hPa : Pa.length = a.inputs.length) (hPb : Pb.length = b.inputs.length)
    (ha : ∀ i, i < a.inputs.length → Spends H H160 C a Pa i) (hb : ∀ i, i < b.inputs.length → Spends H H160 C b Pb i)
    (ta : ∀ (i : Nat) (x : TxIn) (o : TxOut), a.inputs[i]? = some x → Pa[i]? = some o → ∀ t ∈ hashTypes o x, t = 0x83)
    (tb : ∀ (i : Nat) (x : TxIn) (o : TxOut), b.inputs[i]? = some x → Pb[i]? = some o → isLegacy x = false ∧ ∀ t ∈ hashTypes o x, t = 0x83) :
    ∀ i, i < (join a b).inputs.length → Spends H H160 C (join a b) (Pa ++ Pb) i := by
  intro i hi
  have hi : i < a.inputs.length + b.inputs.length := by simpa [join] using hi
  by_cases hia : i < a.inputs.length
  · have e1 : a.inputs[i]? = some a.inputs[i] := List.getElem?_eq_getElem hia
    have e2 : Pa[i]? = some (Pa[i]'(by omega)) := List.getElem?_eq_getElem (by omega)
    refine C114_stays H H160 C a _ Pa _ i _ _ _ e1 e2 (ha i hia) fun t hm => ?_
    cases ta i _ _ e1 e2 t hm
    refine ⟨rfl, rfl, ?_, ?_, fun h => absurd h (by decide), fun h => absurd h (by decide), fun h => absurd h (by decide), fun h => absurd h (by decide),
      fun _ => ⟨?_, fun _ => rfl⟩⟩
    · exact List.getElem?_append_left hia
    · exact List.getElem?_append_left (by omega)
    · exact List.getElem?_append_left (by omega)
  · obtain ⟨j, rfl⟩ : ∃ j, i = a.inputs.length + j := ⟨i - a.inputs.length, by omega⟩
    have hj : j < b.inputs.length := by omega
    have e1 : b.inputs[j]? = some b.inputs[j] := List.getElem?_eq_getElem hj
    have e2 : Pb[j]? = some (Pb[j]'(by omega)) := List.getElem?_eq_getElem (by omega)
    refine C114_stays H H160 C b _ Pb _ j _ _ _ e1 e2 (hb j hj) fun t hm => ?_
    cases (tb j _ _ e1 e2).2 t hm
    refine ⟨hv, hlock, ?_, ?_, fun h => absurd h (by decide), fun h => absurd h (by decide), fun h => absurd h (by decide), fun h => absurd h (by decide),
      fun _ => ⟨?_, fun h => ?_⟩⟩
    · show (a.inputs ++ b.inputs)[_]? = _
      rw [List.getElem?_append_right (by omega)]; congr 1; omega
    · rw [List.getElem?_append_right (by omega)]; congr 1; omega
    · show (a.outputs ++ b.outputs)[_]? = _
      rw [List.getElem?_append_right (by omega)]; congr 1; omega
    · rw [(tb j _ _ e1 e2).1] at h; cases h

/-! ## Nothing else may be changed -/

theorem nodup_index {α : Type} {l : List α} (h : l.Nodup) {i j : Nat} {x : α} (hi : l[i]? = some x) (hj : l[j]? = some x) : i = j := by
  obtain ⟨a, b⟩ := List.getElem?_eq_some_iff.mp hi
  obtain ⟨c, d⟩ := List.getElem?_eq_some_iff.mp hj
  have hp := List.pairwise_iff_getElem.mp h
  rcases Nat.lt_trichotomy i j with hl | hl | hl
  · exact absurd (b.trans d.symm) (hp i j a c hl)
  · exact hl
  · exact absurd (d.trans b.symm) (hp j i c a hl)

/-- Segwit version 0: the same digest for an input that is in both transactions means that all the covered parts were kept. -/
theorem C114_exact_segwit (H : Bytes → Hash) (tx tx' : Tx) (P P' : List TxOut) (i i' : Nat) (inp : TxIn) (own : TxOut) (code : Bytes) (ty : Ecdsa)
    (hi : tx.inputs[i]? = some inp) (hi' : tx'.inputs[i']? = some inp) (ho : P[i]? = some own) (ho' : P'[i']? = some own)
    (hn : (tx.inputs.map (·.prev)).Nodup)
    (fo : ∀ o ∈ tx.outputs, o.spk.length < 2 ^ 64) (fo' : ∀ o ∈ tx'.outputs, o.spk.length < 2 ^ 64) (fc : code.length < 2 ^ 64)
    (h : v0Digest H tx i inp own code ty.toU32 = v0Digest H tx' i' inp own code ty.toU32) :
    Collision H (Sighash.segwitInputs H tx i inp code own.amount ty ++ Sighash.segwitInputs H tx' i' inp code own.amount ty) ∨
      (∃ o, (tx.outputs[i]? = some o ∨ tx'.outputs[i']? = some o) ∧ (H (H (Sighash.outBytes o)).1).1 = List.replicate 32 0) ∨
      Keeps tx tx' P P' i i' false false ty.toU32.toUInt8 := by
  have e := Sighash.C56_p2wsh H tx i code own.amount ty
  have e' := Sighash.C56_p2wsh H tx' i' code own.amount ty
  rw [hi] at e
  rw [hi'] at e'
  simp only at e e'
  have e' := e'.trans (congrArg (fun d => some (Except.ok d)) h.symm)
  rcases Sighash.C67_segwit H tx tx' i i' inp inp code code own.amount own.amount ty ty _ hi hi' fo fo' fc fc e e' with hc | hs
  · exact .inl hc
  · by_cases hz : ∃ o, (tx.outputs[i]? = some o ∨ tx'.outputs[i']? = some o) ∧ (H (H (Sighash.outBytes o)).1).1 = List.replicate 32 0
    · exact .inr (.inl hz)
    · refine .inr (.inr ⟨hs.version.symm, hs.lockTime.symm, hi'.trans hi.symm, ho'.trans ho.symm, fun ht => ?_, fun _ h => (nomatch h), fun ht h => ?_, fun h => ?_,
        fun h => ⟨?_, fun h => (nomatch h)⟩⟩)
      · have hp := hs.prevs (by revert ht; clear e e' h hs; cases ty <;> decide)
        refine ⟨(nodup_index hn (x := inp.prev) ?_ ?_).symm, hp.symm⟩
        · rw [List.getElem?_map, hi]; rfl
        · rw [hp, List.getElem?_map, hi']; rfl
      · refine (hs.sequences ?_).symm
        have h := h.resolve_left (by simp)
        revert ht h; clear e e' hs; cases ty <;> decide
      · refine (hs.outputs ?_).symm
        revert h; clear e e' hs; cases ty <;> decide
      · refine ((hs.output ?_).resolve_right hz).symm
        revert h; clear e e' hs; cases ty <;> decide

/-- Taproot, likewise, and here whatever the outpoints. -/
theorem C114_exact_taproot (H : Bytes → Hash) (tx tx' : Tx) (P P' : List TxOut) (i i' : Nat) (inp : TxIn) (own : TxOut) (ext : Option (Hash × UInt32))
    (ty : Tap) (d : Hash) (hi : tx.inputs[i]? = some inp) (hi' : tx'.inputs[i']? = some inp) (ho : P[i]? = some own) (ho' : P'[i']? = some own)
    (h32 : i < 2 ^ 32) (h32' : i' < 2 ^ 32) (f : Sighash.Fits tx P own none) (f' : Sighash.Fits tx' P' own none)
    (h : tapDigest H tx i inp P own ext ty.toU8 = some d) (h' : tapDigest H tx' i' inp P' own ext ty.toU8 = some d) :
    Collision H (Sighash.tapInputs H tx i inp P own none ext ty ++ Sighash.tapInputs H tx' i' inp P' own none ext ty) ∨
      Keeps tx tx' P P' i i' true false ty.toU8 := by
  have ht : "TapSighash".toUTF8.data.toList = Sighash.sighashTag := by decide
  unfold tapDigest at h h'
  simp only [ht] at h h'
  have g : ∀ {j : Nat} {t : Tx} {x : Hash}, (if ty.toU8 &&& 3 = 3 ∧ j ≥ t.outputs.length then none else some x) = some d →
      (ty.toU8 &&& 3 = 3 → j < t.outputs.length) ∧ x = d := by
    intro j t x hx
    by_cases hc : ty.toU8 &&& 3 = 3 ∧ j ≥ t.outputs.length
    · rw [if_pos hc] at hx; cases hx
    · rw [if_neg hc] at hx
      exact ⟨fun h3 => Nat.lt_of_not_le fun hge => hc ⟨h3, hge⟩, Option.some.inj hx⟩
  obtain ⟨o1, e1⟩ := g h
  obtain ⟨o2, e2⟩ := g h'
  rcases Sighash.hash_eq (S := Sighash.tapInputs H tx i inp P own none ext ty ++ Sighash.tapInputs H tx' i' inp P' own none ext ty)
    (by simp [Sighash.tapInputs]) (by simp [Sighash.tapInputs]) (congrArg Subtype.val (e1.trans e2.symm)) with hc | hm
  · exact .inl hc
  rcases Sighash.tap_msg_commits H tx tx' i i' inp inp P P' own own none none ext ext ty ty h32 h32' f f' o1 o2 (List.append_cancel_left hm) with hc | hs
  · refine .inl (hc.mono fun x hx => ?_)
    simp only [Sighash.tapInputs, List.mem_append, List.mem_cons] at hx ⊢
    exact hx.elim (fun hx => .inl (.inr hx)) fun hx => .inr (.inr hx)
  · refine .inr ⟨hs.version.symm, hs.lockTime.symm, hi'.trans hi.symm, ho'.trans ho.symm, fun t => ?_, fun t _ => ?_, fun t _ => (hs.inputs t).2.2.1.symm,
      fun t => (hs.outputs t).symm, fun t => ⟨(hs.output t).symm, fun h => nomatch h⟩⟩
    · exact ⟨(hs.inputs t).1.symm, (hs.inputs t).2.1.symm⟩
    · obtain ⟨-, -, -, h1, h2⟩ := hs.inputs t
      refine List.ext_getElem? fun n => ?_
      have h1 := congrArg (fun l => l[n]?) h1
      have h2 := congrArg (fun l => l[n]?) h2
      simp only [List.getElem?_map] at h1 h2
      generalize P[n]? = x at h1 h2
      generalize P'[n]? = y at h1 h2
      cases x with
      | none => cases y with
        | none => rfl
        | some y => simp at h1
      | some x => cases y with
        | none => simp at h1
        | some y =>
          simp only [Option.map_some, Option.some.injEq] at h1 h2
          cases x; cases y; simp_all

/-! ## Examples: a transaction spending a P2WPKH and a taproot output, signed with two types -/

open SignTx (toyH toyH160 toyKey signTx Lock)

def exLocks (t : Ecdsa) (u : Tap) : List (Lock toyCurve) := [.p2wpkh toyKey t, .p2trKey ⟨two⟩ none u]
def exSpent : List TxOut := (exLocks .all .all).map fun l => ⟨⟨1000, by decide⟩, ((l.address toyH toyH160 .test .testnets).map (·.scriptPubkey)).getD []⟩
def exTx : Tx where
  version := 2
  lockTime := 0
  inputs := (List.range 2).map fun n => ⟨⟨five, UInt32.ofNat n⟩, [], 0xFFFFFFFD, Wit.empty⟩
  outputs := (List.range 2).map fun n => ⟨⟨700, by decide⟩, [0x51, UInt8.ofNat n]⟩

/-- Its signed form, with the types found in it. -/
theorem ex_signed (t : Ecdsa) (u : Tap) : ∃ tx', signTx toyH toyH160 exTx exSpent (exLocks t u) = some tx' ∧ SameSigned tx' exTx ∧
    ∀ i, i < 2 → Spends toyH toyH160 toyCurve tx' exSpent i := by
  obtain ⟨tx', a1, a2, a3, -⟩ := SignTx.C98_signed toyH toyH160 toyCurve .test .testnets (fun s => by simp [toyDer]) exTx exSpent (exLocks t u)
    (by decide +kernel) (by decide +kernel) (by decide +kernel) (by cases t <;> cases u <;> decide +kernel) (by
      intro i l h
      match i, h with
      | 0, h => cases h; trivial
      | 1, h => cases h; exact ⟨fun t e => (by cases e), fun _ => by decide⟩
      | n + 2, h => cases h)
  exact ⟨tx', a1, a2, a3⟩

def typesOf (tx : Tx) : List (List UInt8 × Bool) := List.zipWith (fun o x => (hashTypes o x, isLegacy x)) exSpent tx.inputs

/-- The types are found in the signed transaction. -/
example : (signTx toyH toyH160 exTx exSpent (exLocks .noneAcp .allAcp)).map typesOf = some [([0x82], false), ([0x81], false)] := by decide +kernel
example : (signTx toyH toyH160 exTx exSpent (exLocks .all .default)).map typesOf = some [([0x01], false), ([0x00], false)] := by decide +kernel
example : (signTx toyH toyH160 SignTx.toyTx SignTx.toySpent SignTx.toyLocks).map
    (fun tx => List.zipWith (fun o x => (hashTypes o x, isLegacy x)) SignTx.toySpent tx.inputs) =
    some [([0x03], true), ([0x01], false), ([0x82], false), ([0x01, 0x01], false), ([0x00], false), ([0x83], false)] := by decide +kernel

theorem ex_types {t : Ecdsa} {u : Tap} {tx' : Tx} {L : List (List UInt8 × Bool)} (h : signTx toyH toyH160 exTx exSpent (exLocks t u) = some tx')
    (hL : (signTx toyH toyH160 exTx exSpent (exLocks t u)).map typesOf = some L) (i : Nat) (x : TxIn) (o : TxOut) (hx : tx'.inputs[i]? = some x)
    (ho : exSpent[i]? = some o) : L[i]? = some (hashTypes o x, isLegacy x) := by
  rw [h] at hL
  cases hL
  unfold typesOf
  rw [List.getElem?_zipWith, hx, ho]

/-- Funding: two more inputs in front. -/
example : ∃ tx', signTx toyH toyH160 exTx exSpent (exLocks .noneAcp .allAcp) = some tx' ∧
    ∀ l r : List TxIn, ∀ lP rP : List TxOut, lP.length = l.length → ∀ i, i < 2 →
      Spends toyH toyH160 toyCurve (addInputs l r tx') (lP ++ exSpent ++ rP) (l.length + i) := by
  obtain ⟨tx', a1, a2, a3⟩ := ex_signed .noneAcp .allAcp
  refine ⟨tx', a1, fun l r lP rP hl i hi => ?_⟩
  have hlen : tx'.inputs.length = 2 := a2.length
  have hx : tx'.inputs[i]? = some (tx'.inputs[i]'(by omega)) := List.getElem?_eq_getElem (by omega)
  have ho : exSpent[i]? = some (exSpent[i]'hi) := List.getElem?_eq_getElem hi
  refine C114_fund toyH toyH160 toyCurve tx' exSpent i _ _ l r lP rP hx ho (a3 i hi) hl ?_
  have := ex_types (L := [([0x82], false), ([0x81], false)]) a1 (by decide +kernel) i _ _ hx ho
  match i, hi, this with
  | 0, _, this => simp only [List.getElem?_cons_zero, Option.some.injEq, Prod.mk.injEq] at this; rw [← this.1]; simp
  | 1, _, this => simp only [List.getElem?_cons_succ, List.getElem?_cons_zero, Option.some.injEq, Prod.mk.injEq] at this; rw [← this.1]; simp

/-- Joining two copies of an offer. -/
example : ∃ tx', signTx toyH toyH160 exTx exSpent (exLocks .singleAcp .singleAcp) = some tx' ∧
    ∀ i, i < 4 → Spends toyH toyH160 toyCurve (join tx' tx') (exSpent ++ exSpent) i := by
  obtain ⟨tx', a1, a2, a3⟩ := ex_signed .singleAcp .singleAcp
  have hlen : tx'.inputs.length = 2 := a2.length
  have hout : tx'.outputs = exTx.outputs := a2.2.2.2
  have ht : ∀ (i : Nat) (x : TxIn) (o : TxOut), tx'.inputs[i]? = some x → exSpent[i]? = some o → isLegacy x = false ∧ ∀ t ∈ hashTypes o x, t = 0x83 := by
    intro i x o hx ho
    have hi : i < 2 := by have := List.getElem?_eq_some_iff.mp hx; obtain ⟨h, -⟩ := this; omega
    have := ex_types (L := [([0x83], false), ([0x83], false)]) a1 (by decide +kernel) i _ _ hx ho
    match i, hi, this with
    | 0, _, this =>
      simp only [List.getElem?_cons_zero, Option.some.injEq, Prod.mk.injEq] at this; rw [← this.1, ← this.2]; simp
    | 1, _, this =>
      simp only [List.getElem?_cons_succ, List.getElem?_cons_zero, Option.some.injEq, Prod.mk.injEq] at this; rw [← this.1, ← this.2]; simp
  refine ⟨tx', a1, fun i hi => ?_⟩
  have hs : ∀ i, i < tx'.inputs.length → Spends toyH toyH160 toyCurve tx' exSpent i := fun i hi => a3 i (by omega)
  exact C114_join toyH toyH160 toyCurve tx' tx' exSpent exSpent rfl rfl (by rw [hout, hlen]; rfl) (by rw [hlen]; rfl) (by rw [hlen]; rfl) hs hs
    (fun i x o h1 h2 => (ht i x o h1 h2).2) ht i (by simp only [join, List.length_append]; omega)

/-- Two signers, with different types. -/
example : ∃ a b, signTx toyH toyH160 exTx exSpent (exLocks .all .none) = some a ∧ signTx toyH toyH160 exTx exSpent (exLocks .single .default) = some b ∧
    ∀ A, SameSigned (combine A a b) exTx ∧ ∀ i, i < 2 → Spends toyH toyH160 toyCurve (combine A a b) exSpent i := by
  obtain ⟨a, a1, a2, a3⟩ := ex_signed .all .none
  obtain ⟨b, b1, b2, b3⟩ := ex_signed .single .default
  refine ⟨a, b, a1, b1, fun A => C114_combine toyH toyH160 toyCurve exTx a b exSpent A a2 b2 rfl fun i hi => ?_⟩
  cases A i
  · exact b3 i hi
  · exact a3 i hi

/-- NONE, with outputs for anyone. -/
example : ∃ tx', signTx toyH toyH160 exTx exSpent (exLocks .none .noneAcp) = some tx' ∧
    ∀ outs, Spends toyH toyH160 toyCurve { tx' with outputs := outs } exSpent 0 := by
  obtain ⟨tx', a1, a2, a3⟩ := ex_signed .none .noneAcp
  refine ⟨tx', a1, fun outs => ?_⟩
  have hlen : tx'.inputs.length = 2 := a2.length
  have hx : tx'.inputs[0]? = some (tx'.inputs[0]'(by omega)) := List.getElem?_eq_getElem (by omega)
  have ho : exSpent[0]? = some (exSpent[0]'(by decide)) := List.getElem?_eq_getElem (by decide)
  refine C114_none toyH toyH160 toyCurve tx' exSpent 0 _ _ outs hx ho (a3 0 (by omega)) ?_
  have := ex_types (L := [([0x02], false), ([0x82], false)]) a1 (by decide +kernel) 0 _ _ hx ho
  simp only [List.getElem?_cons_zero, Option.some.injEq, Prod.mk.injEq] at this
  rw [← this.1]; simp

/-- The hypotheses of the converses, with two different transactions of the same digest, whatever the hash function. -/
def exFree : Tx := { exTx with outputs := [] }
example (H : Bytes → Hash) : exTx.inputs[0]? = exFree.inputs[0]? ∧ (exTx.inputs.map (·.prev)).Nodup ∧ exTx ≠ exFree ∧
    ∀ inp own code, v0Digest H exTx 0 inp own code Ecdsa.none.toU32 = v0Digest H exFree 0 inp own code Ecdsa.none.toU32 :=
  ⟨rfl, by decide +kernel, fun h => absurd (congrArg (fun t => t.outputs.length) h) (by decide), fun _ _ _ => rfl⟩
example (H : Bytes → Hash) (inp : TxIn) (own : TxOut) : Sighash.Fits exTx exSpent exSpent[1] none ∧
    ∃ d, tapDigest H exTx 1 inp exSpent own none Tap.none.toU8 = some d ∧ tapDigest H exFree 1 inp exSpent own none Tap.none.toU8 = some d :=
  ⟨⟨by decide +kernel, by decide +kernel, by decide +kernel, by simp⟩, _, rfl, rfl⟩

end AfterSigning
end Btc
