import Verif.Primitives.BlockLaws
import Verif.Props.C08_C12
/-!
# C13, C16, C17: sizes, headers, blocks
-/
namespace Btc

theorem headerEnc_drains (h : Header) : Drains headerEnc h.encoder (headerBytes h) := by
  have := C06_tuple (es := [bytesEnc, bytesEnc, bytesEnc, bytesEnc, bytesEnc, bytesEnc]) (by simp)
    (u32le h.version, h.prev.1, h.merkleRoot.1, u32le h.time, u32le h.bits, u32le h.nonce, ())
    [u32le h.version, h.prev.1, h.merkleRoot.1, u32le h.time, u32le h.bits, u32le h.nonce]
    ⟨C06_bytes _, C06_bytes _, C06_bytes _, C06_bytes _, C06_bytes _, C06_bytes _, rfl⟩
  rw [show List.flatten [u32le h.version, h.prev.1, h.merkleRoot.1, u32le h.time, u32le h.bits,
    u32le h.nonce] = headerBytes h by simp [headerBytes]] at this
  exact this

theorem txEnc_goodStart (tx : Tx) : GoodStart txEnc tx.encoder := by
  intro bs _ hc
  have h1 : txEnc.cur tx.encoder = u32le tx.version := by
    unfold Tx.encoder
    cases tx.usesSegwit <;> rfl
  rw [h1] at hc
  have := u32le_length tx.version
  rw [hc] at this
  simp at this

theorem blockEnc_drains (b : Block) : Drains blockEnc b.encoder (blockBytes b) := by
  have h1 := C06_prefixed_slice_partial _ _
    (drainsEach_map Tx.encoder (fun tx => txBytes tx.usesSegwit tx) txEnc_drains b.txs)
    (by
      intro s hs
      obtain ⟨tx, _, rfl⟩ := List.mem_map.mp hs
      exact txEnc_goodStart tx)
  rw [List.length_map] at h1
  have := C06_tuple (es := [headerEnc, prefixedSliceEnc txEnc]) (by simp)
    (b.header.encoder, prefixedSlice txEnc (b.txs.map Tx.encoder), ())
    [headerBytes b.header, csEncode b.txs.length ++ (b.txs.map fun tx => txBytes tx.usesSegwit tx).flatten]
    ⟨headerEnc_drains _, h1, rfl⟩
  rw [show [headerBytes b.header, csEncode b.txs.length ++
    (b.txs.map fun tx => txBytes tx.usesSegwit tx).flatten].flatten = blockBytes b by
    simp [blockBytes]] at this
  exact this

/-- Split independence of the header and block decoders. -/
theorem C03_split_block (cs cs' : List Bytes) (heq : cs.flatten = cs'.flatten) :
    (headerDec.feedChunks headerDec.init cs = headerDec.feedChunks headerDec.init cs' ∧
      headerDec.feedChunks headerDec.init cs ≠ .stuck) ∧
    blockDec.feedChunks blockDec.init cs = blockDec.feedChunks blockDec.init cs' ∧
      blockDec.feedChunks blockDec.init cs ≠ .stuck :=
  ⟨C03_split ⟨_, headerDec_lawful⟩ cs cs' heq, C03_split ⟨_, blockDec_lawful⟩ cs cs' heq⟩

/-! ## C16 -/

theorem headerDec_ok_iff (bs : Bytes) (h : Header) :
    headerDec.decodeSlice bs = .ok h ↔ bs = headerBytes h := by
  obtain ⟨inv, den, L, hP⟩ := headerDec_lawful
  rw [L.decodeSlice_ok_iff, hP, header_wire]
  simp

/-- Every header encodes to 80 bytes which decode to it. -/
theorem C16_roundtrip (h : Header) : ∃ bs, Drains headerEnc h.encoder bs ∧ bs.length = 80 ∧
    headerDec.decodeSlice bs = .ok h :=
  ⟨_, headerEnc_drains h, headerBytes_length h, (headerDec_ok_iff _ _).mpr rfl⟩

/-- Every string of 80 bytes, and no other string, is the encoding of exactly one header. -/
theorem C16_total (bs : Bytes) :
    (bs.length = 80 → ∃ h, headerDec.decodeSlice bs = .ok h ∧ Drains headerEnc h.encoder bs ∧
      ∀ h', Drains headerEnc h'.encoder bs → h' = h) ∧
    ∀ h, headerDec.decodeSlice bs = .ok h → bs.length = 80 := by
  constructor
  · intro hl
    obtain ⟨h, hh⟩ : ∃ h, bs = headerBytes h := by
      refine ⟨⟨UInt32.ofNat (leNat (bs.take 4)), ⟨(bs.drop 4).take 32, by simp; omega⟩,
        ⟨(bs.drop 36).take 32, by simp; omega⟩, UInt32.ofNat (leNat ((bs.drop 68).take 4)),
        UInt32.ofNat (leNat ((bs.drop 72).take 4)), UInt32.ofNat (leNat (bs.drop 76))⟩, ?_⟩
      simp only [headerBytes]
      rw [u32le_ofNat_leNat _ (by simp; omega), u32le_ofNat_leNat _ (by simp; omega),
        u32le_ofNat_leNat _ (by simp; omega), u32le_ofNat_leNat _ (by simp; omega)]
      have e : ∀ n m : Nat, (bs.drop n).take m ++ bs.drop (n + m) = bs.drop n := by
        intro n m
        rw [← List.drop_drop]
        exact List.take_append_drop m (bs.drop n)
      have e1 := e 72 4
      have e2 := e 68 4
      have e3 := e 36 32
      have e4 := e 4 32
      rw [List.append_assoc, e1, List.append_assoc, e2, List.append_assoc, e3, List.append_assoc, e4,
        List.take_append_drop]
    refine ⟨h, (headerDec_ok_iff _ _).mpr hh, hh ▸ headerEnc_drains h, fun h' hd => ?_⟩
    have h1 := hd.det (headerEnc_drains h')
    exact header_wire.inj trivial trivial (h1.symm.trans hh)
  · intro h hh
    rw [(headerDec_ok_iff _ _).mp hh, headerBytes_length]

/-- The block hash is the hash of the 80 bytes, and commits to every field. -/
theorem C16_block_hash (H : Bytes → Arr 32) (h h' : Header) :
    (∀ bs, Drains headerEnc h.encoder bs → h.blockHash H = H bs) ∧
    (h.blockHash H = h'.blockHash H → h = h' ∨ Collision H [headerBytes h, headerBytes h']) := by
  constructor
  · intro bs hd
    rw [hd.det (headerEnc_drains h)]
    rfl
  · intro he
    by_cases hb : headerBytes h = headerBytes h'
    · exact .inl (header_wire.inj trivial trivial hb)
    · exact .inr (.pair hb he)

def sampleHeader : Header :=
  ⟨0x20000002, ⟨List.replicate 32 1, by simp⟩, ⟨List.replicate 32 2, by simp⟩, 1231006505, 0x1d00ffff,
    2083236893⟩

example : ∃ h, headerDec.decodeSlice (List.replicate 80 0xAB) = .ok h :=
  let ⟨h, hh, _⟩ := (C16_total (List.replicate 80 0xAB)).1 (by simp)
  ⟨h, hh⟩
example : ∃ bs, Drains headerEnc sampleHeader.encoder bs ∧ bs.length = 80 ∧
    headerDec.decodeSlice bs = .ok sampleHeader := C16_roundtrip sampleHeader

/-! ## C17 -/

theorem blockDec_ok_iff (bs : Bytes) (b : Block) :
    blockDec.decodeSlice bs = .ok b ↔ BlockOk b ∧ bs = blockBytes b := by
  obtain ⟨inv, den, L, hP⟩ := blockDec_lawful
  rw [L.decodeSlice_ok_iff, hP, block_wire]
  simp

/-- Blocks of at most 4,000,000 decodable transactions round-trip. -/
theorem C17_roundtrip (b : Block) (hn : b.txs.length ≤ 4000000) (ht : ∀ tx ∈ b.txs, Decodable tx) :
    ∃ bs, Drains blockEnc b.encoder bs ∧ blockDec.decodeSlice bs = .ok b ∧
      ∀ rest, blockDec.decodeSliceUnbounded (bs ++ rest) = .ok b rest := by
  have hok : BlockOk b := ⟨hn, fun tx h => (decodable_iff tx).mp (ht tx h)⟩
  refine ⟨_, blockEnc_drains b, (blockDec_ok_iff _ _).mpr ⟨hok, rfl⟩, fun rest => ?_⟩
  obtain ⟨inv, den, L, hP⟩ := blockDec_lawful
  rw [L.decodeSliceUnbounded_spec, hP, (block_wire _ _ _).mpr ⟨hok, rfl⟩]
  rfl

/-- Accepted blocks re-encode to the same bytes and consist of decodable transactions. -/
theorem C17_canonical (bs : Bytes) (b : Block) (h : blockDec.decodeSlice bs = .ok b) :
    Drains blockEnc b.encoder bs ∧ b.txs.length ≤ 4000000 ∧ ∀ tx ∈ b.txs, Decodable tx := by
  obtain ⟨h1, rfl⟩ := (blockDec_ok_iff _ _).mp h
  exact ⟨blockEnc_drains b, h1.1, fun tx ht => (decodable_iff tx).mpr (h1.2 tx ht)⟩

theorem C17_injective (bs bs' : Bytes) (b : Block) (h : blockDec.decodeSlice bs = .ok b)
    (h' : blockDec.decodeSlice bs' = .ok b) : bs = bs' :=
  (C17_canonical bs b h).1.det (C17_canonical bs' b h').1

example : ∃ bs, Drains blockEnc (Block.encoder ⟨sampleHeader, [sampleTx, sampleTx]⟩) bs ∧
    blockDec.decodeSlice bs = .ok ⟨sampleHeader, [sampleTx, sampleTx]⟩ := by
  obtain ⟨bs, h1, h2, _⟩ := C17_roundtrip ⟨sampleHeader, [sampleTx, sampleTx]⟩ (by simp)
    (by intro tx h; simp at h; subst h; exact sampleTx_decodable)
  exact ⟨bs, h1, h2⟩

/-! ## C13 -/

theorem txInBytes_length (i : TxIn) : (txInBytes i).length = i.baseSize := by
  simp [txInBytes, TxIn.baseSize, i.prev.txid.2, csEncode_length]
  omega

theorem txOutBytes_length (o : TxOut) : (txOutBytes o).length = o.size := by
  simp [txOutBytes, TxOut.size, csEncode_length]
  omega

theorem txInBytes_length' : (List.length ∘ txInBytes) = TxIn.baseSize := funext txInBytes_length
theorem txOutBytes_length' : (List.length ∘ txOutBytes) = TxOut.size := funext txOutBytes_length

/-- `Witness::size` is right. -/
def SizeOk (w : Wit) : Prop := w.size = some (witBytes w).length

theorem sizeOk_fits {w : Wit} {l : List Bytes} (h : WitFits l) (hw : Wit.fromSlice l = some w) :
    SizeOk w := by
  rw [Wit.fromSlice_eq l h.offsets] at hw
  cases hw
  unfold SizeOk
  rw [(agrees_ofList l h.offsets h.1).size, witBytes_ofList, elemsSize_eq]
  simp [csEncode_length]

theorem mapM_some {α β : Type} (l : List α) (f : α → Option β) (g : α → β)
    (h : ∀ a ∈ l, f a = some (g a)) : l.mapM f = some (l.map g) := by
  induction l with
  | nil => rfl
  | cons a t ih =>
    rw [List.mapM_cons, h a (by simp), ih (fun b hb => h b (by simp [hb]))]
    rfl

theorem baseSize_eq (tx : Tx) : tx.baseSize = (txBytes false tx).length := by
  simp [Tx.baseSize, txBytes, csEncode_length, txInBytes_length', txOutBytes_length']
  omega

theorem totalSize_eq (tx : Tx) (h : ∀ i ∈ tx.inputs, SizeOk i.witness) :
    tx.totalSize = some (txBytes tx.usesSegwit tx).length := by
  unfold Tx.totalSize
  cases hs : tx.usesSegwit with
  | true =>
    rw [mapM_some tx.inputs _ (fun i => i.baseSize + (witBytes i.witness).length) (by
      intro i hi
      have := h i hi
      unfold SizeOk at this
      simp [TxIn.totalSize, this])]
    have e : ∀ l : List TxIn, (l.map fun i => i.baseSize + (witBytes i.witness).length).sum =
        (l.map TxIn.baseSize).sum + (l.map fun i => (witBytes i.witness).length).sum := by
      intro l
      induction l with
      | nil => rfl
      | cons a t ih => simp only [List.map_cons, List.sum_cons, ih]; omega
    have e2 : (List.length ∘ fun i : TxIn => witBytes i.witness) =
      fun i : TxIn => (witBytes i.witness).length := rfl
    simp [txBytes, e, e2, csEncode_length, txInBytes_length', txOutBytes_length']
    omega
  | false =>
    rw [mapM_some tx.inputs _ TxIn.baseSize (by intro i hi; simp)]
    simp [txBytes, csEncode_length, txInBytes_length', txOutBytes_length']
    omega

/-- All witnesses of the transaction have elements of at most 4,000,000 bytes (4 GiB in total). -/
def WitnessesFit (tx : Tx) : Prop :=
  ∀ i ∈ tx.inputs, ∃ l, WitFits l ∧ Wit.fromSlice l = some i.witness

theorem WitnessesFit.size {tx : Tx} (h : WitnessesFit tx) : ∀ i ∈ tx.inputs, SizeOk i.witness := by
  intro i hi
  obtain ⟨l, h1, h2⟩ := h i hi
  exact sizeOk_fits h1 h2

theorem toVbCeil_spec (w : Nat) : w ≤ 4 * toVbCeil w ∧ 4 * toVbCeil w < w + 4 := by
  unfold toVbCeil
  split <;> omega

/-- Sizes and weights.  Full statement: for every transaction.  Proved for witness elements of at most
4,000,000 bytes; `C13_large_element` refutes the rest.  `base` is the txid preimage, the encoding
without marker, flag and witnesses. -/
theorem C13_tx_partial (tx : Tx) (h : WitnessesFit tx) :
    ∃ bs base, Drains txEnc tx.encoder bs ∧ hashTxInput tx false = some base ∧
      tx.totalSize = some bs.length ∧ tx.baseSize = base.length ∧
      tx.weight = some (3 * base.length + bs.length) ∧
      ∃ v, tx.vsize = some v ∧ 3 * base.length + bs.length ≤ 4 * v ∧
        4 * v < 3 * base.length + bs.length + 4 := by
  have ht := totalSize_eq tx h.size
  have hw : tx.weight = some (3 * (txBytes false tx).length + (txBytes tx.usesSegwit tx).length) := by
    unfold Tx.weight
    rw [ht, baseSize_eq]
    simp [Nat.mul_comm]
  refine ⟨_, _, txEnc_drains tx, hashTxInput_false tx, ht, baseSize_eq tx, hw, ?_⟩
  refine ⟨_, by unfold Tx.vsize; rw [hw]; rfl, toVbCeil_spec _⟩

/-- The base size is the length of the encoding with all witnesses removed (a transaction without
inputs cannot be written without marker and flag). -/
theorem C13_base_stripped (tx : Tx) (hn : tx.inputs ≠ []) (bs : Bytes)
    (hd : Drains txEnc (Tx.encoder
      { tx with inputs := tx.inputs.map fun i => { i with witness := Wit.empty } }) bs) :
    tx.baseSize = bs.length := by
  have h1 : Tx.usesSegwit { tx with inputs := tx.inputs.map fun i => { i with witness := Wit.empty } } =
      false := by
    unfold Tx.usesSegwit
    simp [Wit.isEmpty, Wit.empty, hn]
  have h2 := hd.det (txEnc_drains _)
  rw [h1] at h2
  rw [h2, ← baseSize_eq]
  simp only [Tx.baseSize, List.length_map, List.map_map]
  rfl

/-- Weights of parts: inputs and outputs contribute exactly their encoded bytes. -/
theorem C13_parts (i : TxIn) (o : TxOut) (l : List Bytes) (h : WitFits l)
    (hw : Wit.fromSlice l = some i.witness) (ib ob wb : Bytes) (hi : Drains txInEnc i.encoder ib)
    (ho : Drains txOutEnc o.encoder ob) (hwb : Drains Wit.enc i.witness.encoder wb) :
    i.baseSize = ib.length ∧ i.totalSize = some (ib.length + wb.length) ∧
      i.legacyWeight = 4 * ib.length ∧ i.segwitWeight = some (4 * ib.length + wb.length) ∧
      o.size = ob.length ∧ o.weight = 4 * ob.length := by
  rw [hi.det (txInEnc_drains i), ho.det (txOutEnc_drains o), hwb.det (witEnc_drains _)]
  have hs := sizeOk_fits h hw
  unfold SizeOk at hs
  simp [TxIn.totalSize, TxIn.legacyWeight, TxIn.segwitWeight, TxOut.weight, hs, txInBytes_length,
    txOutBytes_length, Nat.mul_comm]

/-- Blocks: total size is the encoded length; weight adds three times the base sizes. -/
theorem C13_block_partial (b : Block) (h : ∀ tx ∈ b.txs, WitnessesFit tx) :
    ∃ bs base, Drains blockEnc b.encoder bs ∧ b.txs.mapM (hashTxInput · false) = some base ∧
      b.totalSize = some bs.length ∧
      b.baseSize = 80 + (csEncode b.txs.length).length + base.flatten.length ∧
      b.weight = some (3 * b.baseSize + bs.length) := by
  have e1 : b.txs.mapM Tx.totalSize = some (b.txs.map fun tx => (txBytes tx.usesSegwit tx).length) :=
    mapM_some _ _ _ fun tx ht => totalSize_eq tx (h tx ht).size
  have e2 : b.txs.mapM (hashTxInput · false) = some (b.txs.map (txBytes false)) :=
    mapM_some _ _ _ fun tx _ => hashTxInput_false tx
  have e3 : b.totalSize = some (blockBytes b).length := by
    unfold Block.totalSize
    rw [e1]
    simp only [blockBytes, Option.map_some, List.length_append, headerBytes_length, csEncode_length,
      List.length_flatten, List.map_map]
    congr 1
    rw [Nat.add_assoc]
    rfl
  refine ⟨_, _, blockEnc_drains b, e2, e3, ?_, ?_⟩
  · unfold Block.baseSize
    rw [csEncode_length, List.length_flatten, List.map_map]
    congr 3
    exact funext baseSize_eq
  · unfold Block.weight
    rw [e3]
    simp [Nat.mul_comm]

/-- `Witness::size`, and with it total size and weight, is too small for a witness with an element
above 4,000,000 bytes. -/
theorem C13_large_element (x : Bytes) (h : 4000000 < x.length) (h' : x.length < 2 ^ 31) (i : TxIn)
    (v lt : UInt32) (outs : List TxOut) :
    ∃ w, Wit.fromSlice [x, [7]] = some w ∧
      ∃ n bs, Tx.totalSize ⟨v, lt, [{ i with witness := w }], outs⟩ = some n ∧
        Drains txEnc (Tx.encoder ⟨v, lt, [{ i with witness := w }], outs⟩) bs ∧ n < bs.length := by
  obtain ⟨w, hw, pre, bs, h1, h2, h3⟩ := C11_wtxid_large_element x h h' i v lt outs
  refine ⟨w, hw, pre.length, bs, ?_, h2, h3⟩
  have hlt : (elemsEnc [x]).length < 2 ^ 32 := by
    have : csSize x.length ≤ 9 := by unfold csSize; split; omega; split; omega; split <;> omega
    simp [elemEnc_length]; omega
  have hf : OffsetsFit [x, [7]] := by
    intro a y b hab
    match a, hab with
    | [], _ => simp
    | [z], hab =>
      simp only [List.cons_append, List.nil_append, List.cons.injEq] at hab
      rw [← hab.1]; exact hlt
    | _ :: _ :: _, hab => simp at hab
  rw [Wit.fromSlice_eq _ hf] at hw
  cases hw
  have hus : Tx.usesSegwit ⟨v, lt, [{ i with witness := Wit.ofList [x, [7]] }], outs⟩ = true := rfl
  unfold hashTxInput at h1
  unfold Tx.totalSize
  rw [hashIns_eq, hashOuts_eq] at h1
  rw [hus]
  cases htv : (Wit.ofList [x, [7]]).toVec with
  | none => simp [hashWitness, htv] at h1
  | some l =>
    simp [hashWitness, htv] at h1
    rw [← h1]
    have e : (fun x => (txOutBytes x).length) = TxOut.size := funext txOutBytes_length
    simp [TxIn.totalSize, Wit.size, htv, csEncode_length, e, txInBytes_length,
      TxIn.baseSize, Function.comp_def]
    omega

example : ∃ bs, Drains txEnc sampleTx.encoder bs ∧ sampleTx.totalSize = some bs.length := by
  obtain ⟨bs, base, h1, _, h2, _⟩ := C13_tx_partial sampleTx (by
    intro i hi
    simp only [sampleTx, List.mem_cons, List.not_mem_nil, or_false] at hi
    rcases hi with rfl | rfl
    · exact ⟨[[1, 2, 3], []], ⟨by simp, by simp [elemsSize, csSize]⟩, by decide⟩
    · exact ⟨[], ⟨by simp, by simp [elemsSize]⟩, by decide⟩)
  exact ⟨bs, h1, h2⟩
example : sampleTx.baseSize = 113 := by decide

end Btc
