import Verif.Primitives.TransactionDecode
import Verif.Primitives.WitnessLaws
/-!
# What the transaction parser accepts
-/
namespace Btc

/-! ## Wire forms -/

/-- An input without its witness. -/
def txInBytes (i : TxIn) : Bytes :=
  i.prev.txid.1 ++ u32le i.prev.vout ++ (csEncode i.scriptSig.length ++ i.scriptSig) ++
    u32le i.sequence

def txOutBytes (o : TxOut) : Bytes := leBytes 8 o.amount.1 ++ (csEncode o.spk.length ++ o.spk)

/-- A witness. -/
def witBytes (w : Wit) : Bytes := csEncode w.elems ++ w.content.take w.idx

theorem witBytes_ofList (l : List Bytes) :
    witBytes (Wit.ofList l) = csEncode l.length ++ elemsEnc l := by
  simp [witBytes, Wit.ofList]

/-- A witness the decoder can produce. -/
def WitGood (w : Wit) : Prop := ∃ l, WitOk l ∧ w = Wit.ofList l

/-- BIP-144 serialization (`segwit`) and the original one. -/
def txBytes (segwit : Bool) (tx : Tx) : Bytes :=
  u32le tx.version ++ (if segwit then [0, 1] else []) ++
  (csEncode tx.inputs.length ++ (tx.inputs.map txInBytes).flatten) ++
  (csEncode tx.outputs.length ++ (tx.outputs.map txOutBytes).flatten) ++
  (if segwit then (tx.inputs.map fun i => witBytes i.witness).flatten else []) ++
  u32le tx.lockTime

theorem u32_wire : Wire u32Parser u32le (fun _ => True) := by
  refine (Wire.array 4).mapE ?_ ?_
  · intro a b ha h
    cases h
    exact ⟨trivial, u32le_ofNat_leNat a ha⟩
  · intro b _
    exact ⟨u32le b, by simp, by simp [ofNat_leNat_u32le]⟩

theorem outPoint_wire :
    Wire outPointParser (fun o => o.txid.1 ++ u32le o.vout) (fun _ => True) := by
  refine (Wire.array 36).mapE ?_ ?_
  · intro a b ha h
    have ht : (a.take 32).length = 32 := by simp [ha]
    rw [dif_pos ht] at h
    cases h
    refine ⟨trivial, ?_⟩
    simp only
    rw [u32le_ofNat_leNat (a.drop 32) (by simp [ha])]
    exact List.take_append_drop 32 a
  · intro b _
    have h1 := b.txid.2
    refine ⟨b.txid.1 ++ u32le b.vout, by simp [h1], ?_⟩
    have ht : (b.txid.1 ++ u32le b.vout).take 32 = b.txid.1 := by
      rw [List.take_append_of_le_length (by omega), List.take_of_length_le (by omega)]
    have hd : (b.txid.1 ++ u32le b.vout).drop 32 = u32le b.vout := by
      rw [List.drop_append_of_le_length (by omega), List.drop_of_length_le (by omega)]; rfl
    rw [dif_pos (by rw [ht]; exact h1)]
    simp only [ht, hd, ofNat_leNat_u32le]

theorem MAX_MONEY_lt : MAX_MONEY < 256 ^ 8 := by decide
theorem MAX_VEC_SIZE_lt : MAX_VEC_SIZE < 2 ^ 64 := by decide

theorem amount_wire : Wire amountParser (fun a => leBytes 8 a.1) (fun _ => True) := by
  refine (Wire.array 8).mapE ?_ ?_
  · intro a b ha h
    split at h
    · cases h
      exact ⟨trivial, leBytes_leNat' 8 a ha⟩
    · cases h
  · intro b _
    have hb := b.2
    have : leNat (leBytes 8 b.1) = b.1 :=
      leNat_leBytes 8 _ (Nat.lt_of_le_of_lt hb MAX_MONEY_lt)
    refine ⟨leBytes 8 b.1, by simp, ?_⟩
    simp only [this]
    rw [dif_pos hb]

theorem byteVec_wire : Wire (byteVecParser MAX_VEC_SIZE) (fun b => csEncode b.length ++ b)
    (fun b => b.length ≤ MAX_VEC_SIZE) :=
  (Wire.byteVec MAX_VEC_SIZE).congr
    (fun _ => ⟨fun h => h.1, fun h => ⟨h, Nat.lt_of_le_of_lt h MAX_VEC_SIZE_lt⟩⟩) (fun _ _ => rfl)

theorem txIn_wire : Wire txInParser txInBytes
    (fun i => i.scriptSig.length ≤ MAX_VEC_SIZE ∧ i.witness = Wit.empty) := by
  refine ((((outPoint_wire.seq byteVec_wire).seq u32_wire)).mapE
    (enc' := fun x => x.1.txid.1 ++ u32le x.1.vout ++ (csEncode x.2.1.length ++ x.2.1) ++ u32le x.2.2)
    (ok' := fun x => x.2.1.length ≤ MAX_VEC_SIZE) ?_ ?_).mapE ?_ ?_
  · rintro ⟨⟨o, b⟩, s⟩ y ⟨⟨_, h⟩, _⟩ hy
    cases hy
    exact ⟨h, rfl⟩
  · rintro ⟨o, b, s⟩ h
    exact ⟨((o, b), s), ⟨⟨trivial, h⟩, trivial⟩, rfl⟩
  · rintro ⟨o, b, s⟩ i h hi
    cases hi
    exact ⟨⟨h, rfl⟩, rfl⟩
  · rintro ⟨o, b, s, w⟩ ⟨h, hw⟩
    simp only at h hw
    subst hw
    exact ⟨(o, b, s), h, rfl⟩

theorem txOut_wire : Wire txOutParser txOutBytes (fun o => o.spk.length ≤ MAX_VEC_SIZE) := by
  refine (amount_wire.seq byteVec_wire).mapE ?_ ?_
  · rintro ⟨a, b⟩ y ⟨_, h⟩ hy
    cases hy
    exact ⟨h, rfl⟩
  · rintro ⟨a, b⟩ h
    exact ⟨(a, b), ⟨trivial, h⟩, rfl⟩

theorem vec_wire {α : Type} {P : Parser α} {enc : α → Bytes} {ok : α → Prop} (h : Wire P enc ok) :
    Wire (vecParser P MAX_VEC_SIZE) (fun l => csEncode l.length ++ (l.map enc).flatten)
      (fun l => l.length ≤ MAX_VEC_SIZE ∧ ∀ a ∈ l, ok a) :=
  (h.vec MAX_VEC_SIZE).congr
    (fun _ => ⟨fun h => ⟨h.1, h.2.2⟩, fun h => ⟨h.1, Nat.lt_of_le_of_lt h.1 MAX_VEC_SIZE_lt, h.2⟩⟩)
    (fun _ _ => rfl)

theorem wit_wire : Wire witParser witBytes WitGood := by
  intro bs w rest
  rw [witParser_done]
  constructor
  · rintro ⟨l, h1, rfl, rfl⟩
    exact ⟨⟨l, h1, rfl⟩, by rw [witBytes_ofList]⟩
  · rintro ⟨⟨l, h1, rfl⟩, rfl⟩
    exact ⟨l, h1, rfl, by rw [witBytes_ofList]⟩

/-! ## The checks of `end` -/

/-- Sum of the output values. -/
def Tx.outSum (tx : Tx) : Nat := (tx.outputs.map fun o => o.amount.1).sum

structure TxSane (tx : Tx) : Prop where
  outputs : tx.outputs ≠ []
  nonNull : tx.inputs.length > 1 → ∀ i ∈ tx.inputs, i.prev ≠ OutPoint.null
  coinbase : ∀ i, tx.inputs = [i] → i.prev = OutPoint.null →
    2 ≤ i.scriptSig.length ∧ i.scriptSig.length ≤ 100
  nodup : (tx.inputs.map (·.prev)).Nodup
  total : tx.outSum ≤ MAX_MONEY

theorem firstNull_none (k : Nat) (l : List TxIn) :
    firstNull k l = none ↔ ∀ i ∈ l, i.prev ≠ OutPoint.null := by
  induction l generalizing k with
  | nil => simp [firstNull]
  | cons i t ih =>
    simp only [firstNull, List.mem_cons, forall_eq_or_imp]
    split
    · rename_i h; simp [h]
    · rename_i h; rw [ih]; simp [h]

theorem coinbaseCheck_none (tx : Tx) : coinbaseCheck tx = none ↔
    ∀ i, tx.inputs = [i] → i.prev = OutPoint.null →
      2 ≤ i.scriptSig.length ∧ i.scriptSig.length ≤ 100 := by
  obtain ⟨v, lt, ins, outs⟩ := tx
  match ins with
  | [] => simp [coinbaseCheck, Tx.isCoinbase]
  | [i] =>
    by_cases hn : i.prev = OutPoint.null
    · simp only [coinbaseCheck, Tx.isCoinbase, hn, beq_self_eq_true]
      constructor
      · intro h j hj _
        cases hj
        split at h
        · cases h
        · split at h
          · cases h
          · omega
      · intro h
        have := h i rfl hn
        rw [if_neg (by omega), if_neg (by omega)]
    · have : (i.prev == OutPoint.null) = false := by simpa using hn
      simp only [coinbaseCheck, Tx.isCoinbase, this, true_iff]
      intro j hj hp
      cases hj
      exact absurd hp hn
  | a :: b :: t => simp [coinbaseCheck, Tx.isCoinbase]

theorem OutPoint.key_inj {a b : OutPoint} (h : a.key = b.key) : a = b := by
  obtain ⟨⟨ta, ha⟩, va⟩ := a
  obtain ⟨⟨tb, hb⟩, vb⟩ := b
  simp only [OutPoint.key] at h
  have h1 : va.toNat < 2 ^ 32 := va.toNat_lt
  have h2 : vb.toNat < 2 ^ 32 := vb.toNat_lt
  have hv : va.toNat = vb.toNat := by omega
  have ht : beNat ta = beNat tb := by omega
  have e1 := beBytes_beNat 32 ta ha
  have e2 := beBytes_beNat 32 tb hb
  rw [ht, e2] at e1
  have e3 : va = vb := UInt32.toNat_inj.mp hv
  simp [e1, e3]

/-- On a sorted list neighbouring duplicates are all duplicates. -/
theorem firstPair_none : ∀ (l : List OutPoint), l.Pairwise (fun a b => a.key ≤ b.key) →
    (firstPair l = none ↔ l.Nodup)
  | [], _ => by simp [firstPair]
  | [a], _ => by simp [firstPair]
  | a :: b :: t, h => by
    have ih := firstPair_none (b :: t) (List.pairwise_cons.mp h).2
    simp only [firstPair]
    by_cases hab : a = b
    · simp [hab]
    · rw [if_neg hab, ih, List.nodup_cons (a := a)]
      have hnot : a ∉ b :: t := by
        intro hm
        rcases List.mem_cons.mp hm with h1 | h1
        · exact hab h1
        · have h2 := (List.pairwise_cons.mp h).1 b (by simp)
          have h3 := (List.pairwise_cons.mp (List.pairwise_cons.mp h).2).1 a h1
          exact hab (OutPoint.key_inj (Nat.le_antisymm h2 h3))
      simp [hnot]

theorem sort_sorted (l : List OutPoint) :
    (sortOutpoints l).Pairwise (fun a b => a.key ≤ b.key) := by
  have := List.pairwise_mergeSort (le := fun a b : OutPoint => decide (a.key ≤ b.key))
    (by intro a b c; simp; omega) (by intro a b; simp; omega) l
  simpa [sortOutpoints] using this

theorem firstPair_sort (l : List OutPoint) : firstPair (sortOutpoints l) = none ↔ l.Nodup := by
  rw [firstPair_none _ (sort_sorted l)]
  exact (List.mergeSort_perm l _).nodup_iff

theorem sumCheck_none (l : List TxOut) : ∀ acc, acc ≤ MAX_MONEY →
    (sumCheck acc l = none ↔ acc + (l.map fun o => o.amount.1).sum ≤ MAX_MONEY) := by
  induction l with
  | nil => intro acc h; simp [sumCheck, h]
  | cons o t ih =>
    intro acc h
    have ho := o.amount.2
    have hm : MAX_MONEY + MAX_MONEY < 2 ^ 64 - 1 := by decide
    have hmin : min (acc + o.amount.1) (2 ^ 64 - 1) = acc + o.amount.1 := Nat.min_eq_left (by omega)
    simp only [sumCheck, hmin, List.map_cons, List.sum_cons]
    split
    · simp; omega
    · rw [ih _ (by omega)]; omega

theorem txCheck_ok (tx tx' : Tx) : txCheck tx = .ok tx' ↔ TxSane tx ∧ tx' = tx := by
  unfold txCheck
  constructor
  · intro h
    split at h
    · cases h
    rename_i h1
    split at h
    · cases h
    rename_i h2
    split at h
    · cases h
    rename_i h3
    split at h
    · cases h
    rename_i h4
    split at h
    · cases h
    rename_i h5
    cases h
    refine ⟨⟨by simpa using h1, fun hl => ?_, (coinbaseCheck_none tx).mp h3,
      (firstPair_sort _).mp h4, ?_⟩, rfl⟩
    · rw [if_pos hl] at h2
      exact (firstNull_none 0 _).mp h2
    · have := (sumCheck_none _ 0 (Nat.zero_le _)).mp h5
      simpa [Tx.outSum] using this
  · rintro ⟨h, rfl⟩
    rw [if_neg (by simpa using h.outputs)]
    have h2 : (if tx'.inputs.length > 1 then firstNull 0 tx'.inputs else none) = none := by
      split
      · rename_i hl; exact (firstNull_none 0 _).mpr (h.nonNull hl)
      · rfl
    have h5 : sumCheck 0 tx'.outputs = none :=
      (sumCheck_none _ 0 (Nat.zero_le _)).mpr (by simpa [Tx.outSum] using h.total)
    rw [h2]
    simp only [(coinbaseCheck_none tx').mpr h.coinbase, (firstPair_sort _).mpr h.nodup, h5]

/-! ## Sequencing -/

/-- An input without witness. -/
def TxIn.strip (i : TxIn) : TxIn := { i with witness := Wit.empty }

theorem txInBytes_strip (i : TxIn) : txInBytes i.strip = txInBytes i := rfl

theorem lockP_done (v : UInt32) (ins : List TxIn) (outs : List TxOut) (bs : Bytes) (tx : Tx)
    (rest : Bytes) : lockP v ins outs u32Parser bs = .done tx rest ↔
      tx = ⟨v, tx.lockTime, ins, outs⟩ ∧ TxSane tx ∧ bs = u32le tx.lockTime ++ rest := by
  unfold lockP
  rw [Parser.andThen_done]
  constructor
  · rintro ⟨lt, r, h1, h2⟩
    obtain ⟨_, rfl⟩ := (u32_wire _ _ _).mp h1
    cases hc : txCheck ⟨v, lt, ins, outs⟩ with
    | error e => rw [hc] at h2; cases h2
    | ok tx' =>
      rw [hc] at h2
      cases h2
      obtain ⟨h3, rfl⟩ := (txCheck_ok _ _).mp hc
      exact ⟨rfl, h3, rfl⟩
  · rintro ⟨h1, h2, rfl⟩
    refine ⟨tx.lockTime, rest, (u32_wire _ _ _).mpr ⟨trivial, rfl⟩, ?_⟩
    rw [← h1, (txCheck_ok _ _).mpr ⟨h2, rfl⟩]
    rfl

theorem witP_done (v : UInt32) (outs : List TxOut) (tx : Tx) (rest : Bytes) :
    ∀ (todo donel : List TxIn) (i : TxIn) (bs : Bytes),
    witP u32Parser witParser v outs todo donel i witParser bs = .done tx rest ↔
      ∃ ins, ins.map TxIn.strip = (i :: todo).map TxIn.strip ∧ (∀ j ∈ ins, WitGood j.witness) ∧
        tx = ⟨v, tx.lockTime, donel ++ ins, outs⟩ ∧ TxSane tx ∧
        (∃ j ∈ donel ++ ins, j.witness.isEmpty = false) ∧
        bs = (ins.map fun j => witBytes j.witness).flatten ++ u32le tx.lockTime ++ rest := by
  intro todo
  induction todo with
  | nil =>
    intro donel i bs
    unfold witP
    rw [Parser.andThen_done]
    constructor
    · rintro ⟨w, r, h1, h2⟩
      obtain ⟨hw, rfl⟩ := (wit_wire _ _ _).mp h1
      split at h2
      · cases h2
      · rename_i hne
        obtain ⟨h3, h4, rfl⟩ := (lockP_done _ _ _ _ _ _).mp h2
        refine ⟨[{ i with witness := w }], rfl, by simpa using hw, h3, h4, ?_, by simp⟩
        simp only [Bool.not_eq_true, List.all_eq_false] at hne
        obtain ⟨j, hj, hj2⟩ := hne
        exact ⟨j, hj, by simpa using hj2⟩
    · rintro ⟨ins, h1, h2, h3, h4, h5, rfl⟩
      match ins, h1 with
      | [j], h1 =>
        have hj : ({ i with witness := j.witness } : TxIn) = j := by
          obtain ⟨a, b, c, d⟩ := j
          simp only [List.map_cons, List.map_nil, TxIn.strip, List.cons.injEq, TxIn.mk.injEq] at h1
          obtain ⟨⟨e1, e2, e3, _⟩, _⟩ := h1
          simp only [e1, e2, e3]
        refine ⟨j.witness, u32le tx.lockTime ++ rest,
          (wit_wire _ _ _).mpr ⟨h2 j (by simp), by simp⟩, ?_⟩
        rw [hj]
        obtain ⟨k, hk, hk2⟩ := h5
        rw [if_neg (by intro hall; have := List.all_eq_true.mp hall k hk; rw [hk2] at this; cases this)]
        exact (lockP_done _ _ _ _ _ _).mpr ⟨h3, h4, rfl⟩
      | [], h1 => simp at h1
      | _ :: _ :: _, h1 => simp at h1
  | cons n todo ih =>
    intro donel i bs
    unfold witP
    rw [Parser.andThen_done]
    constructor
    · rintro ⟨w, r, h1, h2⟩
      obtain ⟨hw, rfl⟩ := (wit_wire _ _ _).mp h1
      obtain ⟨ins, h3, h4, h5, h6, h7, rfl⟩ := (ih _ _ _).mp h2
      refine ⟨{ i with witness := w } :: ins, ?_, ?_, ?_, h6, ?_, by simp⟩
      · rw [List.map_cons, h3]; rfl
      · intro j hj
        rcases List.mem_cons.mp hj with rfl | hj
        · exact hw
        · exact h4 j hj
      · simpa using h5
      · simpa using h7
    · rintro ⟨ins, h1, h2, h3, h4, h5, rfl⟩
      match ins, h1 with
      | j :: ins, h1 =>
        have hj : ({ i with witness := j.witness } : TxIn) = j := by
          obtain ⟨a, b, c, d⟩ := j
          rw [List.map_cons, List.map_cons, List.cons.injEq] at h1
          simp only [TxIn.strip, TxIn.mk.injEq] at h1
          obtain ⟨⟨e1, e2, e3, _⟩, _⟩ := h1
          simp only [e1, e2, e3]
        refine ⟨j.witness, (ins.map fun j => witBytes j.witness).flatten ++ u32le tx.lockTime ++ rest,
          (wit_wire _ _ _).mpr ⟨h2 j (by simp), by simp⟩, ?_⟩
        rw [hj, ih]
        refine ⟨ins, ?_, fun k hk => h2 k (by simp [hk]), by simpa using h3, h4, by simpa using h5,
          rfl⟩
        rw [List.map_cons, List.map_cons, List.cons.injEq] at h1
        exact h1.2

/-- The transactions in the range of the decoder. -/
structure TxOk (tx : Tx) : Prop where
  sane : TxSane tx
  nIn : tx.inputs.length ≤ MAX_VEC_SIZE
  nOut : tx.outputs.length ≤ MAX_VEC_SIZE
  scriptSigs : ∀ i ∈ tx.inputs, i.scriptSig.length ≤ MAX_VEC_SIZE
  spks : ∀ o ∈ tx.outputs, o.spk.length ≤ MAX_VEC_SIZE
  witnesses : ∀ i ∈ tx.inputs, WitGood i.witness

theorem witGood_empty : WitGood Wit.empty :=
  ⟨[], ⟨by simp, by simp, fun a x b h => by simp at h⟩, rfl⟩

theorem usesSegwit_iff (tx : Tx) : tx.usesSegwit = true ↔
    tx.inputs = [] ∨ ∃ i ∈ tx.inputs, i.witness.isEmpty = false := by
  unfold Tx.usesSegwit
  split
  · rename_i h
    simp only [List.any_eq_true, Bool.not_eq_true'] at h
    simp [h]
  · rename_i h
    simp only [List.any_eq_true, Bool.not_eq_true'] at h
    simp [h]

theorem witGood_isEmpty {w : Wit} (h : WitGood w) (he : w.isEmpty = true) : w = Wit.empty := by
  obtain ⟨l, _, rfl⟩ := h
  have : l = [] := by simpa [Wit.isEmpty, Wit.ofList] using he
  rw [this]; rfl

theorem ins_wire_strip {ins : List TxIn} :
    (ins.map TxIn.strip).map txInBytes = ins.map txInBytes := by
  rw [List.map_map]; rfl

/-- After the (true) inputs, segwit form. -/
theorem outP_true_done (v : UInt32) (ins : List TxIn) (hins : ins.map TxIn.strip = ins) (bs : Bytes)
    (tx : Tx) (rest : Bytes) :
    outP u32Parser witParser v ins true (vecParser txOutParser MAX_VEC_SIZE) bs = .done tx rest ↔
      tx.version = v ∧ tx.inputs.map TxIn.strip = ins ∧ (∀ i ∈ tx.inputs, WitGood i.witness) ∧
      TxSane tx ∧ tx.usesSegwit = true ∧
      (tx.outputs.length ≤ MAX_VEC_SIZE ∧ ∀ o ∈ tx.outputs, o.spk.length ≤ MAX_VEC_SIZE) ∧
      bs = (csEncode tx.outputs.length ++ (tx.outputs.map txOutBytes).flatten) ++
        (tx.inputs.map fun i => witBytes i.witness).flatten ++ u32le tx.lockTime ++ rest := by
  unfold outP
  rw [Parser.andThen_done]
  constructor
  · rintro ⟨outs, r, h1, h2⟩
    obtain ⟨ho, rfl⟩ := (vec_wire txOut_wire _ _ _).mp h1
    match ins with
    | [] =>
      obtain ⟨h3, h4, rfl⟩ := (lockP_done _ _ _ _ _ _).mp h2
      obtain ⟨v', lt, ins', outs'⟩ := tx
      simp only [Tx.mk.injEq, true_and] at h3
      obtain ⟨rfl, rfl, rfl⟩ := h3
      exact ⟨rfl, rfl, by simp, h4, rfl, ho, by simp⟩
    | i :: t =>
      obtain ⟨ins, h3, h4, h5, h6, h7, rfl⟩ := (witP_done _ _ _ _ _ _ _ _).mp h2
      obtain ⟨v', lt, ins', outs'⟩ := tx
      simp only [Tx.mk.injEq, true_and, List.nil_append] at h5
      obtain ⟨rfl, rfl, rfl⟩ := h5
      refine ⟨rfl, by rw [h3, hins], h4, h6, ?_, ho, by simp⟩
      rw [usesSegwit_iff]
      right
      simpa using h7
  · rintro ⟨rfl, h2, h3, h4, h5, h6, rfl⟩
    refine ⟨tx.outputs, (tx.inputs.map fun i => witBytes i.witness).flatten ++ u32le tx.lockTime ++ rest,
      (vec_wire txOut_wire _ _ _).mpr ⟨h6, by simp⟩, ?_⟩
    match ins with
    | [] =>
      have h0 : tx.inputs = [] := by simpa using h2
      refine (lockP_done _ _ _ _ _ _).mpr ⟨?_, h4, by simp [h0]⟩
      rw [← h0]
    | i :: t =>
      refine (witP_done _ _ _ _ _ _ _ _).mpr ⟨tx.inputs, by rw [h2, hins], h3, rfl, h4, ?_, rfl⟩
      rw [usesSegwit_iff] at h5
      rcases h5 with h5 | h5
      · rw [h5] at h2; cases h2
      · simpa using h5

/-- After the inputs, original form. -/
theorem outP_false_done (v : UInt32) (ins : List TxIn) (bs : Bytes) (tx : Tx) (rest : Bytes) :
    outP u32Parser witParser v ins false (vecParser txOutParser MAX_VEC_SIZE) bs = .done tx rest ↔
      tx.version = v ∧ tx.inputs = ins ∧ TxSane tx ∧
      (tx.outputs.length ≤ MAX_VEC_SIZE ∧ ∀ o ∈ tx.outputs, o.spk.length ≤ MAX_VEC_SIZE) ∧
      bs = (csEncode tx.outputs.length ++ (tx.outputs.map txOutBytes).flatten) ++
        u32le tx.lockTime ++ rest := by
  unfold outP
  rw [Parser.andThen_done]
  constructor
  · rintro ⟨outs, r, h1, h2⟩
    obtain ⟨ho, rfl⟩ := (vec_wire txOut_wire _ _ _).mp h1
    have h2' : lockP v ins outs u32Parser r = .done tx rest := h2
    obtain ⟨h3, h4, rfl⟩ := (lockP_done _ _ _ _ _ _).mp h2'
    obtain ⟨v', lt, ins', outs'⟩ := tx
    simp only [Tx.mk.injEq, true_and] at h3
    obtain ⟨rfl, rfl, rfl⟩ := h3
    exact ⟨rfl, rfl, h4, ho, by simp⟩
  · rintro ⟨rfl, rfl, h4, h6, rfl⟩
    exact ⟨tx.outputs, u32le tx.lockTime ++ rest,
      (vec_wire txOut_wire _ _ _).mpr ⟨h6, by simp⟩,
      (lockP_done _ _ _ _ _ _).mpr ⟨rfl, h4, rfl⟩⟩

theorem csEncode_zero : csEncode 0 = [0] := rfl

/-- The parser accepts exactly the serializations of the transactions in its range, segwit form
exactly when the encoder uses it. -/
theorem tx_wire : Wire txParser (fun tx => txBytes tx.usesSegwit tx) TxOk := by
  have hI := vec_wire txIn_wire
  have strip_of : ∀ l : List TxIn, (∀ i ∈ l, i.witness = Wit.empty) → l.map TxIn.strip = l := by
    intro l h
    refine (List.map_congr_left (g := id) fun i hi => ?_).trans (List.map_id l)
    have := h i hi
    obtain ⟨a, b, c, d⟩ := i
    simp only at this
    subst this
    rfl
  intro bs tx rest
  unfold txParser verP
  rw [Parser.andThen_done]
  constructor
  · rintro ⟨v, r, h1, h2⟩
    obtain ⟨_, rfl⟩ := (u32_wire _ _ _).mp h1
    unfold in1P at h2
    obtain ⟨ins, r2, h3, h4⟩ := Parser.andThen_done.mp h2
    obtain ⟨⟨hi1, hi2⟩, rfl⟩ := (hI _ _ _).mp h3
    split at h4
    · rename_i he
      have he : ins = [] := by simpa using he
      subst he
      unfold flagP at h4
      match r2 with
      | [] => cases h4
      | f :: r3 =>
        simp only at h4
        split at h4
        · cases h4
        · rename_i hf
          have hf : f = 1 := by simpa using hf
          subst hf
          unfold in2P at h4
          obtain ⟨ins2, r4, h5, h6⟩ := Parser.andThen_done.mp h4
          obtain ⟨⟨hj1, hj2⟩, rfl⟩ := (hI _ _ _).mp h5
          rw [outP_true_done _ _ (strip_of _ fun i hi => (hj2 i hi).2)] at h6
          obtain ⟨rfl, rfl, g3, g4, g5, g6, rfl⟩ := h6
          refine ⟨⟨g4, by simpa using hj1, g6.1, fun i hi => ?_, g6.2, g3⟩, ?_⟩
          · exact (hj2 i.strip (List.mem_map_of_mem hi)).1
          · simp only [g5, txBytes, if_true, ins_wire_strip, List.length_map, List.map_nil,
              List.flatten_nil, List.length_nil, csEncode_zero]
            simp
    · rename_i he
      rw [outP_false_done] at h4
      obtain ⟨rfl, rfl, g4, g6, rfl⟩ := h4
      have hsw : tx.usesSegwit = false := by
        rw [← Bool.not_eq_true, usesSegwit_iff]
        rintro (h | ⟨i, hi, h⟩)
        · rw [h] at he; exact he rfl
        · rw [(hi2 i hi).2] at h; cases h
      refine ⟨⟨g4, hi1, g6.1, fun i hi => (hi2 i hi).1, g6.2, fun i hi => ?_⟩, ?_⟩
      · rw [(hi2 i hi).2]; exact witGood_empty
      · simp [hsw, txBytes]
  · rintro ⟨h, rfl⟩
    cases hsw : tx.usesSegwit with
    | true =>
      have hb : txBytes true tx ++ rest = u32le tx.version ++ (csEncode 0 ++ ([1] ++
          ((csEncode tx.inputs.length ++ (tx.inputs.map txInBytes).flatten) ++
          ((csEncode tx.outputs.length ++ (tx.outputs.map txOutBytes).flatten) ++
          (tx.inputs.map fun i => witBytes i.witness).flatten ++ u32le tx.lockTime ++ rest)))) := by
        simp [txBytes, csEncode_zero]
      simp only [hsw, hb]
      refine ⟨tx.version, _, (u32_wire _ _ _).mpr ⟨trivial, rfl⟩, ?_⟩
      unfold in1P
      rw [Parser.andThen_done]
      refine ⟨[], _, (hI _ _ _).mpr ⟨⟨Nat.zero_le _, by simp⟩, by
        simp only [List.map_nil, List.flatten_nil, List.length_nil, List.append_nil]
        rfl⟩, ?_⟩
      rw [if_pos (show ([] : List TxIn).isEmpty = true from rfl)]
      simp only [List.cons_append, List.nil_append, flagP]
      rw [if_neg (by simp)]
      unfold in2P
      rw [Parser.andThen_done]
      refine ⟨tx.inputs.map TxIn.strip, (csEncode tx.outputs.length ++
        (tx.outputs.map txOutBytes).flatten) ++
        (tx.inputs.map fun i => witBytes i.witness).flatten ++ u32le tx.lockTime ++ rest,
        (hI _ _ _).mpr ⟨⟨by simpa using h.nIn, ?_⟩, ?_⟩, ?_⟩
      · intro i hi
        obtain ⟨j, hj, rfl⟩ := List.mem_map.mp hi
        exact ⟨h.scriptSigs j hj, rfl⟩
      · simp only [ins_wire_strip, List.length_map, List.append_assoc]
      · rw [outP_true_done _ _ (by rw [List.map_map]; rfl)]
        exact ⟨rfl, rfl, h.witnesses, h.sane, hsw, ⟨h.nOut, h.spks⟩, rfl⟩
    | false =>
      have hne : ∀ i ∈ tx.inputs, i.witness = Wit.empty := by
        intro i hi
        apply witGood_isEmpty (h.witnesses i hi)
        cases hw : i.witness.isEmpty with
        | true => rfl
        | false =>
          have := (usesSegwit_iff tx).mpr (.inr ⟨i, hi, hw⟩)
          rw [hsw] at this; cases this
      have hne2 : tx.inputs ≠ [] := fun h0 => by
        have := (usesSegwit_iff tx).mpr (.inl h0)
        rw [hsw] at this; cases this
      have hb : txBytes false tx ++ rest = u32le tx.version ++
          ((csEncode tx.inputs.length ++ (tx.inputs.map txInBytes).flatten) ++
          ((csEncode tx.outputs.length ++ (tx.outputs.map txOutBytes).flatten) ++
          u32le tx.lockTime ++ rest)) := by
        simp [txBytes]
      simp only [hsw, hb]
      refine ⟨tx.version, _, (u32_wire _ _ _).mpr ⟨trivial, rfl⟩, ?_⟩
      unfold in1P
      rw [Parser.andThen_done]
      refine ⟨tx.inputs, (csEncode tx.outputs.length ++ (tx.outputs.map txOutBytes).flatten) ++
        u32le tx.lockTime ++ rest,
        (hI _ _ _).mpr ⟨⟨h.nIn, fun i hi => ⟨h.scriptSigs i hi, hne i hi⟩⟩, by simp⟩, ?_⟩
      rw [if_neg (by simpa using hne2), outP_false_done]
      exact ⟨rfl, rfl, h.sane, ⟨h.nOut, h.spks⟩, rfl⟩

end Btc
