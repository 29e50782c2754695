import Verif.Primitives.TransactionLaws
import Verif.Props.C18_C19
import Verif.Props.C01_C05
/-!
# C08-C12: transactions
-/
namespace Btc

/-! ## The encoder -/

theorem witEnc_drains (w : Wit) : Drains Wit.enc w.encoder (witBytes w) := by
  have := C06_tuple (es := [bytesEnc, bytesEnc]) (by simp)
    (csEncode w.elems, w.content.take w.idx, ()) [csEncode w.elems, w.content.take w.idx]
    ⟨C06_bytes _, C06_bytes _, rfl⟩
  rw [show [csEncode w.elems, w.content.take w.idx].flatten = witBytes w by simp [witBytes]] at this
  exact this

theorem outPointEnc_drains (o : OutPoint) :
    Drains outPointEnc o.encoder (o.txid.1 ++ u32le o.vout) := by
  have := C06_tuple (es := [bytesEnc, bytesEnc]) (by simp)
    (o.txid.1, u32le o.vout, ()) [o.txid.1, u32le o.vout] ⟨C06_bytes _, C06_bytes _, rfl⟩
  rw [show [o.txid.1, u32le o.vout].flatten = o.txid.1 ++ u32le o.vout by simp] at this
  exact this

theorem txInEnc_drains (i : TxIn) : Drains txInEnc i.encoder (txInBytes i) := by
  have := C06_tuple (es := [outPointEnc, prefixedBytesEnc, bytesEnc]) (by simp)
    (i.prev.encoder, prefixedBytes i.scriptSig, u32le i.sequence, ())
    [i.prev.txid.1 ++ u32le i.prev.vout, csEncode i.scriptSig.length ++ i.scriptSig, u32le i.sequence]
    ⟨outPointEnc_drains _, C06_prefixed_bytes _, C06_bytes _, rfl⟩
  rw [show [i.prev.txid.1 ++ u32le i.prev.vout, csEncode i.scriptSig.length ++ i.scriptSig,
    u32le i.sequence].flatten = txInBytes i by simp [txInBytes]] at this
  exact this

theorem txOutEnc_drains (o : TxOut) : Drains txOutEnc o.encoder (txOutBytes o) := by
  have := C06_tuple (es := [bytesEnc, prefixedBytesEnc]) (by simp)
    (leBytes 8 o.amount.1, prefixedBytes o.spk, ())
    [leBytes 8 o.amount.1, csEncode o.spk.length ++ o.spk]
    ⟨C06_bytes _, C06_prefixed_bytes _, rfl⟩
  rw [show [leBytes 8 o.amount.1, csEncode o.spk.length ++ o.spk].flatten = txOutBytes o by
    simp [txOutBytes]] at this
  exact this

theorem drainsEach_map {α : Type} {e : Enc} (f : α → e.S) (g : α → Bytes)
    (h : ∀ a, Drains e (f a) (g a)) (l : List α) : DrainsEach e (l.map f) (l.map g) := by
  induction l with
  | nil => exact .nil
  | cons a l ih => exact .cons (h a) ih

theorem insEnc_drains (l : List TxIn) : Drains (prefixedSliceEnc txInEnc)
    (prefixedSlice txInEnc (l.map TxIn.encoder)) (csEncode l.length ++ (l.map txInBytes).flatten) := by
  have := C06_prefixed_slice_partial _ _ (drainsEach_map TxIn.encoder txInBytes txInEnc_drains l)
    (by
      intro s hs bs _ hc
      obtain ⟨i, _, rfl⟩ := List.mem_map.mp hs
      have h1 : i.prev.txid.1 = [] := hc
      have h2 := i.prev.txid.2
      rw [h1] at h2
      simp at h2)
  rwa [List.length_map] at this

theorem outsEnc_drains (l : List TxOut) : Drains (prefixedSliceEnc txOutEnc)
    (prefixedSlice txOutEnc (l.map TxOut.encoder))
    (csEncode l.length ++ (l.map txOutBytes).flatten) := by
  have := C06_prefixed_slice_partial _ _ (drainsEach_map TxOut.encoder txOutBytes txOutEnc_drains l)
    (by
      intro s hs bs _ hc
      obtain ⟨o, _, rfl⟩ := List.mem_map.mp hs
      have h1 : leBytes 8 o.amount.1 = [] := hc
      have h2 := leBytes_length 8 o.amount.1
      rw [h1] at h2
      simp at h2)
  rwa [List.length_map] at this

theorem csEncode_ne_nil (v : Nat) : csEncode v ≠ [] := by
  intro h
  have := csEncode_length v
  rw [h] at this
  have := csSize_pos v
  simp_all

theorem wsNext_cons (i : TxIn) (t : List TxIn) :
    wsNext (i :: t) = ((i :: t, some i.witness.encoder), true) := by
  have : Wit.enc.cur i.witness.encoder ≠ [] := csEncode_ne_nil i.witness.elems
  simp only [wsNext, if_pos this]

theorem witnesses_yields : ∀ (t : List TxIn) (i : TxIn) (c : Wit.enc.S) (cs : List Bytes),
    Yields Wit.enc c cs → ∃ ds, Yields witnessesEnc (i :: t, some c) ds ∧
      ds.flatten = cs.flatten ++ (t.map fun i => witBytes i.witness).flatten := by
  intro t
  induction t with
  | nil =>
    intro i c cs h
    induction h with
    | last c c' ha =>
      refine ⟨_, .last (e := witnessesEnc) ([i], some c) ([], none) ?_, by simp [witnessesEnc]⟩
      simp [witnessesEnc, ha, wsNext]
    | more c c' cs ha _ ih =>
      obtain ⟨ds, h1, h2⟩ := ih
      refine ⟨_, .more (e := witnessesEnc) ([i], some c) ([i], some c') ds ?_ h1, ?_⟩
      · simp [witnessesEnc, ha]
      · simp [h2, witnessesEnc]
  | cons j t iht =>
    intro i c cs h
    induction h with
    | last c c' ha =>
      obtain ⟨es, h1, h2⟩ := drains_iff.mp (witEnc_drains j.witness)
      obtain ⟨ds, h3, h4⟩ := iht j _ es h1
      refine ⟨_, .more (e := witnessesEnc) (i :: j :: t, some c) (j :: t, some j.witness.encoder) ds
        ?_ h3, ?_⟩
      · simp [witnessesEnc, ha, wsNext_cons]
      · simp [h4, h2, witnessesEnc]
    | more c c' cs ha _ ih =>
      obtain ⟨ds, h1, h2⟩ := ih
      refine ⟨_, .more (e := witnessesEnc) (i :: j :: t, some c) (i :: j :: t, some c') ds ?_ h1, ?_⟩
      · simp [witnessesEnc, ha]
      · simp [h2, witnessesEnc]

theorem witnesses_drains (l : List TxIn) :
    Drains witnessesEnc (witnessesStart l) (l.map fun i => witBytes i.witness).flatten := by
  cases l with
  | nil => exact ⟨1, rfl⟩
  | cons i t =>
    obtain ⟨es, h1, h2⟩ := drains_iff.mp (witEnc_drains i.witness)
    obtain ⟨ds, h3, h4⟩ := witnesses_yields t i _ es h1
    exact drains_iff.mpr ⟨ds, h3, by simp [h4, h2]⟩

/-- The encoder produces the BIP-144 serialization when `uses_segwit_serialization`, the original one
otherwise. -/
theorem txEnc_drains (tx : Tx) : Drains txEnc tx.encoder (txBytes tx.usesSegwit tx) := by
  cases hs : tx.usesSegwit with
  | true =>
    have := C06_tuple (es := [bytesEnc, optEnc bytesEnc, prefixedSliceEnc txInEnc,
        prefixedSliceEnc txOutEnc, optEnc witnessesEnc, bytesEnc]) (by simp)
      (u32le tx.version, (some [0, 1] : Option Bytes),
        prefixedSlice txInEnc (tx.inputs.map TxIn.encoder),
        prefixedSlice txOutEnc (tx.outputs.map TxOut.encoder),
        (some (witnessesStart tx.inputs) : Option witnessesEnc.S), u32le tx.lockTime, ())
      [u32le tx.version, [0, 1], csEncode tx.inputs.length ++ (tx.inputs.map txInBytes).flatten,
        csEncode tx.outputs.length ++ (tx.outputs.map txOutBytes).flatten,
        (tx.inputs.map fun i => witBytes i.witness).flatten, u32le tx.lockTime]
      ⟨C06_bytes _, C06_option.2 _ _ (C06_bytes [0, 1]), insEnc_drains _, outsEnc_drains _,
        C06_option.2 _ _ (witnesses_drains _), C06_bytes _, rfl⟩
    have he : tx.encoder = (0, u32le tx.version, (some [0, 1] : Option Bytes),
      prefixedSlice txInEnc (tx.inputs.map TxIn.encoder),
      prefixedSlice txOutEnc (tx.outputs.map TxOut.encoder),
      (some (witnessesStart tx.inputs) : Option witnessesEnc.S), u32le tx.lockTime, ()) := by
      unfold Tx.encoder; exact if_pos hs
    rw [he]
    rw [show List.flatten [u32le tx.version, [0, 1],
      csEncode tx.inputs.length ++ (tx.inputs.map txInBytes).flatten,
      csEncode tx.outputs.length ++ (tx.outputs.map txOutBytes).flatten,
      (tx.inputs.map fun i => witBytes i.witness).flatten, u32le tx.lockTime] = txBytes true tx by
      simp [txBytes]] at this
    exact this
  | false =>
    have := C06_tuple (es := [bytesEnc, optEnc bytesEnc, prefixedSliceEnc txInEnc,
        prefixedSliceEnc txOutEnc, optEnc witnessesEnc, bytesEnc]) (by simp)
      (u32le tx.version, (none : Option Bytes),
        prefixedSlice txInEnc (tx.inputs.map TxIn.encoder),
        prefixedSlice txOutEnc (tx.outputs.map TxOut.encoder),
        (none : Option witnessesEnc.S), u32le tx.lockTime, ())
      [u32le tx.version, [], csEncode tx.inputs.length ++ (tx.inputs.map txInBytes).flatten,
        csEncode tx.outputs.length ++ (tx.outputs.map txOutBytes).flatten,
        [], u32le tx.lockTime]
      ⟨C06_bytes _, C06_option.1, insEnc_drains _, outsEnc_drains _,
        C06_option.1, C06_bytes _, rfl⟩
    have he : tx.encoder = (0, u32le tx.version, (none : Option Bytes),
      prefixedSlice txInEnc (tx.inputs.map TxIn.encoder),
      prefixedSlice txOutEnc (tx.outputs.map TxOut.encoder),
      (none : Option witnessesEnc.S), u32le tx.lockTime, ()) := by
      unfold Tx.encoder; exact if_neg (by rw [hs]; simp)
    rw [he]
    rw [show List.flatten [u32le tx.version, [],
      csEncode tx.inputs.length ++ (tx.inputs.map txInBytes).flatten,
      csEncode tx.outputs.length ++ (tx.outputs.map txOutBytes).flatten,
      [], u32le tx.lockTime] = txBytes false tx by
      simp [txBytes]] at this
    exact this

/-! ## C08, C09, C10 -/

/-- A witness that can be built from elements within the decoder's limits (count and sizes at most
4,000,000, all elements but the last within 4 GiB). -/
def BuiltWitness (w : Wit) : Prop := ∃ l, WitOk l ∧ Wit.fromSlice l = some w

theorem builtWitness_iff (w : Wit) : BuiltWitness w ↔ WitGood w := by
  constructor
  · rintro ⟨l, h1, h2⟩
    rw [Wit.fromSlice_eq l h1.fits] at h2
    cases h2
    exact ⟨l, h1, rfl⟩
  · rintro ⟨l, h1, rfl⟩
    exact ⟨l, h1, Wit.fromSlice_eq l h1.fits⟩

/-- The rules of the decoder, in terms of the transaction only. -/
structure Decodable (tx : Tx) : Prop where
  outputs : tx.outputs ≠ []
  distinct : (tx.inputs.map (·.prev)).Nodup
  nonNull : ∀ i ∈ tx.inputs, i.prev = OutPoint.null →
    tx.inputs = [i] ∧ 2 ≤ i.scriptSig.length ∧ i.scriptSig.length ≤ 100
  value : (tx.outputs.map fun o => o.amount.1).sum ≤ 2100000000000000
  counts : tx.inputs.length ≤ 4000000 ∧ tx.outputs.length ≤ 4000000
  scripts : (∀ i ∈ tx.inputs, i.scriptSig.length ≤ 4000000) ∧ ∀ o ∈ tx.outputs, o.spk.length ≤ 4000000
  witnesses : ∀ i ∈ tx.inputs, BuiltWitness i.witness

theorem decodable_iff (tx : Tx) : Decodable tx ↔ TxOk tx := by
  constructor
  · intro h
    refine ⟨⟨h.outputs, fun hl i hi hn => ?_, fun i hi hn => ?_, h.distinct, h.value⟩, h.counts.1,
      h.counts.2, h.scripts.1, h.scripts.2, fun i hi => (builtWitness_iff _).mp (h.witnesses i hi)⟩
    · have := (h.nonNull i hi hn).1
      rw [this] at hl
      simp at hl
    · exact (h.nonNull i (by simp [hi]) hn).2
  · intro h
    refine ⟨h.sane.outputs, h.sane.nodup, fun i hi hn => ?_, h.sane.total, ⟨h.nIn, h.nOut⟩,
      ⟨h.scriptSigs, h.spks⟩, fun i hi => (builtWitness_iff _).mpr (h.witnesses i hi)⟩
    have h1 : tx.inputs = [i] := by
      match hl : tx.inputs with
      | [] => rw [hl] at hi; cases hi
      | [j] => rw [hl] at hi; simp at hi; rw [hi]
      | _ :: _ :: _ =>
        exact absurd hn (h.sane.nonNull (by rw [hl]; simp) i hi)
    exact ⟨h1, h.sane.coinbase i h1 hn⟩

theorem txDec_isLawful : IsLawful txDec := ⟨_, txDec_lawful⟩
theorem witDec_isLawful : IsLawful witDec := ⟨_, witDec_lawful⟩

/-- Splitting the input over any chunks does not matter for the witness and transaction decoders. -/
theorem C03_split_tx (cs cs' : List Bytes) (heq : cs.flatten = cs'.flatten) :
    (witDec.feedChunks witDec.init cs = witDec.feedChunks witDec.init cs' ∧
      witDec.feedChunks witDec.init cs ≠ .stuck) ∧
    txDec.feedChunks txDec.init cs = txDec.feedChunks txDec.init cs' ∧
      txDec.feedChunks txDec.init cs ≠ .stuck :=
  ⟨C03_split witDec_isLawful cs cs' heq, C03_split txDec_isLawful cs cs' heq⟩

theorem txDec_ok_iff (bs : Bytes) (tx : Tx) :
    txDec.decodeSlice bs = .ok tx ↔ TxOk tx ∧ bs = txBytes tx.usesSegwit tx := by
  obtain ⟨inv, den, L, hP⟩ := txDec_lawful
  rw [L.decodeSlice_ok_iff, hP, tx_wire]
  simp

/-- A decodable transaction decodes from its encoding, to the last byte. -/
theorem C08_roundtrip (tx : Tx) (h : Decodable tx) :
    ∃ bs, Drains txEnc tx.encoder bs ∧ txDec.decodeSlice bs = .ok tx ∧
      ∀ rest, txDec.decodeSliceUnbounded (bs ++ rest) = .ok tx rest := by
  have hok := (decodable_iff tx).mp h
  refine ⟨_, txEnc_drains tx, (txDec_ok_iff _ _).mpr ⟨hok, rfl⟩, fun rest => ?_⟩
  obtain ⟨inv, den, L, hP⟩ := txDec_lawful
  rw [L.decodeSliceUnbounded_spec, hP, (tx_wire _ _ _).mpr ⟨hok, rfl⟩]
  rfl

/-- Every accepted byte string is the encoding of the transaction it decodes to. -/
theorem C09_canonical (bs : Bytes) (tx : Tx) (h : txDec.decodeSlice bs = .ok tx) :
    Drains txEnc tx.encoder bs := by
  obtain ⟨_, rfl⟩ := (txDec_ok_iff _ _).mp h
  exact txEnc_drains tx

theorem C09_injective (bs bs' : Bytes) (tx : Tx) (h : txDec.decodeSlice bs = .ok tx)
    (h' : txDec.decodeSlice bs' = .ok tx) : bs = bs' :=
  (C09_canonical bs tx h).det (C09_canonical bs' tx h')

/-- Every accepted transaction obeys the rules (and by `C08_roundtrip` exactly those are accepted). -/
theorem C10_sane (bs : Bytes) (tx : Tx) (h : txDec.decodeSlice bs = .ok tx) : Decodable tx :=
  (decodable_iff tx).mpr ((txDec_ok_iff _ _).mp h).1

/-! ### A concrete transaction -/

/-- A two-input segwit transaction. -/
def sampleTx : Tx :=
  { version := 2, lockTime := 500000
    inputs := [
      { prev := ⟨⟨List.replicate 32 7, by simp⟩, 1⟩, scriptSig := [], sequence := 0xFFFFFFFE,
        witness := Wit.ofList [[1, 2, 3], []] },
      { prev := ⟨⟨List.replicate 32 9, by simp⟩, 0⟩, scriptSig := [0x51], sequence := 0,
        witness := Wit.empty }]
    outputs := [{ amount := ⟨5000, by decide⟩, spk := [0x51, 0x87] },
      { amount := ⟨0, by decide⟩, spk := [] }] }

theorem sampleTx_decodable : Decodable sampleTx where
  outputs := by simp [sampleTx]
  distinct := by
    simp only [sampleTx, List.map_cons, List.map_nil]
    decide
  nonNull := by
    intro i hi hn
    simp only [sampleTx, List.mem_cons, List.not_mem_nil, or_false] at hi
    rcases hi with rfl | rfl <;> exact absurd hn (by decide)
  value := by decide
  counts := by simp [sampleTx]
  scripts := by simp [sampleTx]
  witnesses := by
    intro i hi
    rw [builtWitness_iff]
    simp only [sampleTx, List.mem_cons, List.not_mem_nil, or_false] at hi
    rcases hi with rfl | rfl
    · refine ⟨[[1, 2, 3], []], ⟨by simp, by simp, fun a x b h => ?_⟩, rfl⟩
      match a, h with
      | [], _ => simp
      | [y], h =>
        simp only [List.cons_append, List.nil_append, List.cons.injEq] at h
        rw [← h.1]; decide
      | _ :: _ :: _, h => simp at h
    · exact witGood_empty

example : ∃ bs, Drains txEnc sampleTx.encoder bs ∧ txDec.decodeSlice bs = .ok sampleTx ∧
    ∀ rest, txDec.decodeSliceUnbounded (bs ++ rest) = .ok sampleTx rest :=
  C08_roundtrip sampleTx sampleTx_decodable

example : ∃ bs, txDec.decodeSlice bs = .ok sampleTx ∧ Drains txEnc sampleTx.encoder bs := by
  obtain ⟨bs, _, h, _⟩ := C08_roundtrip sampleTx sampleTx_decodable
  exact ⟨bs, h, C09_canonical bs _ h⟩

example : txCheck { sampleTx with outputs := [] } = .error (.custom 13 0) := rfl

/-! ## C11, C12 -/

theorem hashIns_eq (l : List TxIn) :
    (l.map fun i => i.prev.txid.1 ++ u32le i.prev.vout ++
      csEncode i.scriptSig.length ++ i.scriptSig ++ u32le i.sequence) = l.map txInBytes := by
  apply List.map_congr_left
  intro i _
  simp [txInBytes]

theorem hashOuts_eq (l : List TxOut) :
    (l.map fun o => leBytes 8 o.amount.1 ++ csEncode o.spk.length ++ o.spk) = l.map txOutBytes := by
  apply List.map_congr_left
  intro i _
  simp [txOutBytes]

theorem hashTxInput_false (tx : Tx) : hashTxInput tx false = some (txBytes false tx) := by
  unfold hashTxInput txBytes
  rw [hashIns_eq, hashOuts_eq]
  simp

theorem hashWitness_good {w : Wit} {l : List Bytes} (ho : OffsetsFit l)
    (hs : ∀ x ∈ l, x.length ≤ 4000000) (hw : Wit.fromSlice l = some w) :
    hashWitness w = some (witBytes w) := by
  rw [Wit.fromSlice_eq l ho] at hw
  cases hw
  unfold hashWitness
  rw [Wit.toVec_ofList l ho hs, witBytes_ofList]
  rfl

theorem mapM_hashWitness (l : List TxIn) (h : ∀ i ∈ l, hashWitness i.witness = some (witBytes i.witness)) :
    (l.mapM fun i => hashWitness i.witness) = some (l.map fun i => witBytes i.witness) := by
  induction l with
  | nil => rfl
  | cons i t ih =>
    rw [List.mapM_cons, h i (by simp), ih (fun j hj => h j (by simp [hj]))]
    rfl

theorem hashTxInput_true (tx : Tx)
    (h : ∀ i ∈ tx.inputs, hashWitness i.witness = some (witBytes i.witness)) :
    hashTxInput tx true = some (txBytes true tx) := by
  unfold hashTxInput txBytes
  rw [hashIns_eq, hashOuts_eq, mapM_hashWitness _ h]
  simp

/-- `tx` with other witnesses. -/
def Tx.sameExceptWitness (a b : Tx) : Prop :=
  a.version = b.version ∧ a.lockTime = b.lockTime ∧ a.outputs = b.outputs ∧
    a.inputs.map (fun i => (i.prev, i.scriptSig, i.sequence)) =
      b.inputs.map (fun i => (i.prev, i.scriptSig, i.sequence))

theorem ins_eq {a b : List TxIn} (h : a.map (fun i => (i.prev, i.scriptSig, i.sequence)) =
    b.map (fun i => (i.prev, i.scriptSig, i.sequence))) :
    a.length = b.length ∧ a.map txInBytes = b.map txInBytes := by
  have h1 := congrArg List.length h
  have h2 := congrArg (List.map fun x : OutPoint × Bytes × UInt32 =>
    x.1.txid.1 ++ u32le x.1.vout ++ (csEncode x.2.1.length ++ x.2.1) ++ u32le x.2.2) h
  simp only [List.length_map] at h1
  rw [List.map_map, List.map_map] at h2
  exact ⟨h1, h2⟩

/-- The txid never panics and hashes the original (non-segwit) serialization. -/
theorem C11_txid_preimage (H : Bytes → Arr 32) (tx : Tx) :
    tx.txid H = some (H (u32le tx.version ++
      (csEncode tx.inputs.length ++ (tx.inputs.map txInBytes).flatten) ++
      (csEncode tx.outputs.length ++ (tx.outputs.map txOutBytes).flatten) ++
      u32le tx.lockTime)) := by
  unfold Tx.txid
  rw [hashTxInput_false]
  simp [txBytes]

/-- Changing witnesses does not change the txid. -/
theorem C11_txid_ignores_witness (H : Bytes → Arr 32) (a b : Tx) (h : a.sameExceptWitness b) :
    a.txid H = b.txid H := by
  obtain ⟨h1, h2, h3, h4⟩ := h
  obtain ⟨h5, h6⟩ := ins_eq h4
  rw [C11_txid_preimage, C11_txid_preimage, h1, h2, h3, h5, h6]

/-- Full statement: for *every* transaction the wtxid hashes exactly the consensus encoding.  Proved
for witnesses whose elements have at most 4,000,000 bytes; false beyond, see
`C11_wtxid_large_element`. -/
theorem C11_wtxid_preimage_partial (H : Bytes → Arr 32) (tx : Tx)
    (hw : ∀ i ∈ tx.inputs, ∃ l, WitFits l ∧ Wit.fromSlice l = some i.witness) :
    ∃ bs, Drains txEnc tx.encoder bs ∧ tx.wtxid H = some (H bs) := by
  refine ⟨_, txEnc_drains tx, ?_⟩
  unfold Tx.wtxid
  cases hs : tx.usesSegwit with
  | false => rw [hashTxInput_false]; rfl
  | true =>
    rw [hashTxInput_true tx (fun i hi => ?_)]
    · rfl
    · obtain ⟨l, h1, h2⟩ := hw i hi
      exact hashWitness_good h1.offsets h1.1 h2

/-- The two preimages coincide exactly when no segwit serialization is used. -/
theorem C11_preimages_differ (tx : Tx) :
    txBytes tx.usesSegwit tx = txBytes false tx ↔ tx.usesSegwit = false := by
  constructor
  · intro h
    cases hs : tx.usesSegwit with
    | false => rfl
    | true =>
      rw [hs] at h
      have := congrArg List.length h
      simp [txBytes] at this
      omega
  · intro h; rw [h]

/-- The witness of one element above 4,000,000 bytes followed by another one: `witness.len()` is
hashed but the elements are not, so the wtxid preimage is not the consensus encoding. -/
theorem C11_wtxid_large_element (x : Bytes) (h : 4000000 < x.length) (h' : x.length < 2 ^ 31)
    (i : TxIn) (v lt : UInt32) (outs : List TxOut) :
    ∃ w, Wit.fromSlice [x, [7]] = some w ∧
      ∃ pre bs, hashTxInput ⟨v, lt, [{ i with witness := w }], outs⟩ true = some pre ∧
        Drains txEnc (Tx.encoder ⟨v, lt, [{ i with witness := w }], outs⟩) bs ∧
        pre.length < bs.length := by
  have hlt : (elemsEnc [x]).length < 2 ^ 32 := by
    have : csSize x.length ≤ 9 := by unfold csSize; split; omega; split; omega; split <;> omega
    simp [elemEnc_length]; omega
  have hf : OffsetsFit [x, [7]] := by
    intro a y b hab
    match a, hab with
    | [], _ => simp
    | [z], hab =>
      simp only [List.cons_append, List.nil_append, List.cons.injEq] at hab
      rw [← hab.1]; exact hlt
    | _ :: _ :: _, hab => simp at hab
  have h64 : ∀ y ∈ [x, [7]], y.length < 2 ^ 64 := by
    intro y hy
    simp at hy
    rcases hy with rfl | rfl
    · omega
    · simp
  have htv : (Wit.ofList [x, [7]]).toVec = some [] := by
    unfold Wit.toVec Wit.iterFrom
    rw [Wit.get_ofList _ hf h64]
    simp only [List.getElem?_cons_zero]
    rw [if_neg (by omega)]
  refine ⟨_, Wit.fromSlice_eq _ hf, ?_⟩
  have hsw : Tx.usesSegwit ⟨v, lt, [{ i with witness := Wit.ofList [x, [7]] }], outs⟩ = true := rfl
  have hd := txEnc_drains ⟨v, lt, [{ i with witness := Wit.ofList [x, [7]] }], outs⟩
  rw [hsw] at hd
  refine ⟨u32le v ++ [0, 1] ++
      (csEncode 1 ++ txInBytes { i with witness := Wit.ofList [x, [7]] }) ++
      (csEncode outs.length ++ (outs.map txOutBytes).flatten) ++ csEncode 2 ++ u32le lt,
    _, ?_, hd, ?_⟩
  · unfold hashTxInput
    rw [hashIns_eq, hashOuts_eq]
    have hw : hashWitness (Wit.ofList [x, [7]]) = some (csEncode 2) := by
      unfold hashWitness
      rw [htv]
      simp [Wit.ofList]
    simp [hw]
  · simp only [txBytes]
    simp [elemEnc, witBytes_ofList]
    omega

example : ∃ x : Bytes, 4000000 < x.length ∧ x.length < 2 ^ 31 :=
  ⟨List.replicate 4000001 0, by rw [List.length_replicate]; decide, by
    rw [List.length_replicate]; decide⟩

/-! ### The preimages determine the transaction -/

/-- Lengths that fit a compact size (always true in memory). -/
structure TxLens (tx : Tx) : Prop where
  nIn : tx.inputs.length < 2 ^ 64
  nOut : tx.outputs.length < 2 ^ 64
  scriptSigs : ∀ i ∈ tx.inputs, i.scriptSig.length < 2 ^ 64
  spks : ∀ o ∈ tx.outputs, o.spk.length < 2 ^ 64

/-- The original serialization determines everything but the witnesses. -/
theorem txBytes_false_inj {a b : Tx} (ha : TxLens a) (hb : TxLens b)
    (h : txBytes false a = txBytes false b) : a.sameExceptWitness b := by
  have key : ∀ t : Tx, txBytes false t = (fun x : (UInt32 × List ((OutPoint × Bytes) × UInt32)) ×
      (List (Amount × Bytes) × UInt32) => (u32le x.1.1 ++ (csEncode x.1.2.length ++
        (x.1.2.map fun y => (y.1.1.txid.1 ++ u32le y.1.1.vout) ++
          (csEncode y.1.2.length ++ y.1.2) ++ u32le y.2).flatten)) ++
      ((csEncode x.2.1.length ++ (x.2.1.map fun y => leBytes 8 y.1.1 ++
          (csEncode y.2.length ++ y.2)).flatten) ++ u32le x.2.2))
      ((t.version, t.inputs.map fun i => ((i.prev, i.scriptSig), i.sequence)),
        (t.outputs.map fun o => (o.amount, o.spk), t.lockTime)) := by
    intro t
    have e1 : (t.inputs.map txInBytes) = (t.inputs.map fun i => ((i.prev, i.scriptSig), i.sequence)).map
        fun y => (y.1.1.txid.1 ++ u32le y.1.1.vout) ++ (csEncode y.1.2.length ++ y.1.2) ++ u32le y.2 := by
      rw [List.map_map]; rfl
    have e2 : (t.outputs.map txOutBytes) = (t.outputs.map fun o => (o.amount, o.spk)).map
        fun y => leBytes 8 y.1.1 ++ (csEncode y.2.length ++ y.2) := by
      rw [List.map_map]; rfl
    simp only [txBytes, e1, e2, List.length_map]
    simp
  have ok : ∀ t : Tx, TxLens t →
      ((True ∧ ((t.inputs.map fun i => ((i.prev, i.scriptSig), i.sequence)).length ≤ 2 ^ 64 ∧
        (t.inputs.map fun i => ((i.prev, i.scriptSig), i.sequence)).length < 2 ^ 64 ∧
        ∀ y ∈ (t.inputs.map fun i => ((i.prev, i.scriptSig), i.sequence)),
          (True ∧ (y.1.2.length ≤ 2 ^ 64 ∧ y.1.2.length < 2 ^ 64)) ∧ True)) ∧
      (((t.outputs.map fun o => (o.amount, o.spk)).length ≤ 2 ^ 64 ∧
        (t.outputs.map fun o => (o.amount, o.spk)).length < 2 ^ 64 ∧
        ∀ y ∈ (t.outputs.map fun o => (o.amount, o.spk)),
          True ∧ (y.2.length ≤ 2 ^ 64 ∧ y.2.length < 2 ^ 64)) ∧ True)) := by
    intro t ht
    refine ⟨⟨trivial, ?_, ?_, ?_⟩, ⟨?_, ?_, ?_⟩, trivial⟩
    · have := ht.nIn; rw [List.length_map]; omega
    · have := ht.nIn; rw [List.length_map]; omega
    · intro y hy
      obtain ⟨i, hi, rfl⟩ := List.mem_map.mp hy
      have := ht.scriptSigs i hi
      exact ⟨⟨trivial, Nat.le_of_lt this, this⟩, trivial⟩
    · have := ht.nOut; rw [List.length_map]; omega
    · have := ht.nOut; rw [List.length_map]; omega
    · intro y hy
      obtain ⟨o, ho, rfl⟩ := List.mem_map.mp hy
      have := ht.spks o ho
      exact ⟨trivial, Nat.le_of_lt this, this⟩
  have wire := (u32_wire.seq ((((outPoint_wire.seq (Wire.byteVec (2 ^ 64))).seq u32_wire)).vec
    (2 ^ 64))).seq (((amount_wire.seq (Wire.byteVec (2 ^ 64))).vec (2 ^ 64)).seq u32_wire)
  have := wire.inj (ok a ha) (ok b hb) ((key a).symm.trans (h.trans (key b)))
  simp only [Prod.mk.injEq] at this
  obtain ⟨⟨h1, h2⟩, h3, h4⟩ := this
  refine ⟨h1, h4, ?_, ?_⟩
  · have := congrArg (List.map fun y : Amount × Bytes => TxOut.mk y.1 y.2) h3
    rw [List.map_map, List.map_map, show ((fun y : Amount × Bytes => TxOut.mk y.1 y.2) ∘
      fun o : TxOut => (o.amount, o.spk)) = id from rfl, List.map_id, List.map_id] at this
    exact this
  · have := congrArg (List.map fun y : (OutPoint × Bytes) × UInt32 => (y.1.1, y.1.2, y.2)) h2
    rw [List.map_map, List.map_map] at this
    exact this

/-- A collision of the hash function among the strings `S`, which are always those that were hashed.  (That some two strings collide is
no news: there are only `2^256` hashes.) -/
def Collision (H : Bytes → Arr 32) (S : List Bytes) : Prop := ∃ x ∈ S, ∃ y ∈ S, x ≠ y ∧ H x = H y

theorem Collision.mono {H : Bytes → Arr 32} {S T : List Bytes} (h : Collision H S) (hs : ∀ x ∈ S, x ∈ T) : Collision H T :=
  let ⟨x, hx, y, hy, hxy⟩ := h
  ⟨x, hs x hx, y, hs y hy, hxy⟩

theorem Collision.pair {H : Bytes → Arr 32} {x y : Bytes} (hne : x ≠ y) (h : H x = H y) : Collision H [x, y] :=
  ⟨x, by simp, y, by simp, hne, h⟩

/-- The txid commits to everything but the witnesses. -/
theorem C11_txid_commits (H : Bytes → Arr 32) (a b : Tx) (ha : TxLens a) (hb : TxLens b)
    (h : a.txid H = b.txid H) : a.sameExceptWitness b ∨ Collision H [txBytes false a, txBytes false b] := by
  unfold Tx.txid at h
  rw [hashTxInput_false, hashTxInput_false] at h
  simp only [Option.map_some, Option.some.injEq] at h
  by_cases he : txBytes false a = txBytes false b
  · exact .inl (txBytes_false_inj ha hb he)
  · exact .inr (.pair he h)

/-- The wtxid commits to the whole transaction. -/
theorem C11_wtxid_commits (H : Bytes → Arr 32) (a b : Tx) (ha : Decodable a) (hb : Decodable b)
    (h : a.wtxid H = b.wtxid H) : a = b ∨ Collision H [txBytes a.usesSegwit a, txBytes b.usesSegwit b] := by
  have key : ∀ t : Tx, Decodable t → t.wtxid H = some (H (txBytes t.usesSegwit t)) := by
    intro t ht
    unfold Tx.wtxid
    cases hs : t.usesSegwit with
    | false => rw [hashTxInput_false]; rfl
    | true =>
      rw [hashTxInput_true t (fun i hi => ?_)]
      · rfl
      · obtain ⟨l, h1, h2⟩ := ht.witnesses i hi
        exact hashWitness_good h1.fits h1.sizes h2
  rw [key a ha, key b hb, Option.some.injEq] at h
  by_cases he : txBytes a.usesSegwit a = txBytes b.usesSegwit b
  · exact .inl (tx_wire.inj ((decodable_iff a).mp ha) ((decodable_iff b).mp hb) he)
  · exact .inr (.pair he h)

example (H : Bytes → Arr 32) : Tx.txid H sampleTx = Tx.txid H { sampleTx with
    inputs := sampleTx.inputs.map fun i => { i with witness := Wit.ofList [[5]] } } :=
  C11_txid_ignores_witness H _ _ ⟨rfl, rfl, rfl, rfl⟩

example (H : Bytes → Arr 32) : ∃ bs, Drains txEnc sampleTx.encoder bs ∧
    sampleTx.wtxid H = some (H bs) :=
  C11_wtxid_preimage_partial H sampleTx (by
    intro i hi
    simp only [sampleTx, List.mem_cons, List.not_mem_nil, or_false] at hi
    rcases hi with rfl | rfl
    · exact ⟨[[1, 2, 3], []], ⟨by simp, by simp [elemsSize, csSize]⟩, by decide⟩
    · exact ⟨[], ⟨by simp, by simp [elemsSize]⟩, by decide⟩)

/-- Same transaction up to script signatures and witnesses. -/
def Tx.sameExceptSigs (a b : Tx) : Prop :=
  a.version = b.version ∧ a.lockTime = b.lockTime ∧ a.outputs = b.outputs ∧
    a.inputs.map (fun i => (i.prev, i.sequence)) = b.inputs.map (fun i => (i.prev, i.sequence))

theorem normalized_eq (a b : Tx) : a.sameExceptSigs b ↔ a.normalized = b.normalized := by
  have key : ∀ t : Tx, t.normalized.inputs = (t.inputs.map fun i => (i.prev, i.sequence)).map
      fun y => ⟨y.1, [], y.2, Wit.empty⟩ := by
    intro t; rw [List.map_map]; rfl
  constructor
  · rintro ⟨h1, h2, h3, h4⟩
    have h5 : a.normalized.inputs = b.normalized.inputs := by rw [key, key, h4]
    show Tx.mk _ _ a.normalized.inputs _ = Tx.mk _ _ b.normalized.inputs _
    rw [h1, h2, h3, h5]
  · intro h
    have g1 := congrArg Tx.version h
    have g2 := congrArg Tx.lockTime h
    have g3 := congrArg Tx.outputs h
    refine ⟨g1, g2, g3, ?_⟩
    have h5 := congrArg (fun t : Tx => t.inputs.map fun i => (i.prev, i.sequence)) h
    simp only [Tx.normalized, List.map_map] at h5
    exact h5

/-- The ntxid is unchanged by any change of script signatures and witnesses. -/
theorem C12_ignores_sigs (H : Bytes → Arr 32) (a b : Tx) (h : a.sameExceptSigs b) :
    a.ntxid H = b.ntxid H := by
  unfold Tx.ntxid
  rw [(normalized_eq a b).mp h]

/-- It is the txid of any version of the transaction with all script signatures removed. -/
theorem C12_is_txid (H : Bytes → Arr 32) (a b : Tx) (h : a.sameExceptSigs b)
    (hb : ∀ i ∈ b.inputs, i.scriptSig = []) : a.ntxid H = b.txid H := by
  rw [C12_ignores_sigs H a b h]
  unfold Tx.ntxid
  refine C11_txid_ignores_witness H _ _ ⟨rfl, rfl, rfl, ?_⟩
  simp only [Tx.normalized, List.map_map]
  apply List.map_congr_left
  intro i hi
  simp [hb i hi]

/-- And it commits to everything else. -/
theorem C12_commits (H : Bytes → Arr 32) (a b : Tx) (ha : a.inputs.length < 2 ^ 64)
    (hb : b.inputs.length < 2 ^ 64) (ha' : a.outputs.length < 2 ^ 64)
    (hb' : b.outputs.length < 2 ^ 64) (hao : ∀ o ∈ a.outputs, o.spk.length < 2 ^ 64)
    (hbo : ∀ o ∈ b.outputs, o.spk.length < 2 ^ 64) (h : a.ntxid H = b.ntxid H) :
    a.sameExceptSigs b ∨ Collision H [txBytes false a.normalized, txBytes false b.normalized] := by
  have lens : ∀ t : Tx, t.inputs.length < 2 ^ 64 → t.outputs.length < 2 ^ 64 →
      (∀ o ∈ t.outputs, o.spk.length < 2 ^ 64) → TxLens t.normalized := by
    intro t h1 h2 h3
    refine ⟨by simpa [Tx.normalized] using h1, h2, fun i hi => ?_, h3⟩
    obtain ⟨j, _, rfl⟩ := List.mem_map.mp hi
    simp
  rcases C11_txid_commits H _ _ (lens a ha ha' hao) (lens b hb hb' hbo) h with hc | hc
  · left
    obtain ⟨h1, h2, h3, h4⟩ := hc
    refine ⟨h1, h2, h3, ?_⟩
    have := congrArg (List.map fun y : OutPoint × Bytes × UInt32 => (y.1, y.2.2)) h4
    simp only [Tx.normalized, List.map_map] at this
    exact this
  · exact .inr hc

example (H : Bytes → Arr 32) : sampleTx.ntxid H = Tx.txid H { sampleTx with
    inputs := sampleTx.inputs.map fun i => { i with scriptSig := [] } } :=
  C12_is_txid H _ _ ⟨rfl, rfl, rfl, rfl⟩ (by
    intro i hi
    obtain ⟨j, _, rfl⟩ := List.mem_map.mp hi
    rfl)

end Btc
