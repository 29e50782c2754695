import Verif.Props.C27_C28
/-!
# C61: the compact block messages on the wire (`p2p/src/bip152.rs`)
-/
namespace Btc
namespace Bip152

def shortIdParser : Parser (Arr 6) := (arrayParser 6 []).mapE (fun b => if h : b.length = 6 then .ok ⟨b, h⟩ else .error .panic) id
def prefilledParser : Parser Prefilled :=
  (seqParser (csParser (csEnd MAX_COMPACT_SIZE)) txParser).mapE (fun x => if x.1 < 2 ^ 16 then .ok ⟨x.1, x.2⟩ else .error (.custom 30 x.1)) (.tag 30)
def seq4 {α β γ δ : Type} (a : Parser α) (b : Parser β) (c : Parser γ) (e : Parser δ) : Parser (α × β × γ × δ) :=
  (seqParser (seqParser a b) (seqParser c e)).mapE (fun x => .ok (x.1.1, x.1.2, x.2.1, x.2.2)) id
def compactParser : Parser Compact :=
  (seq4 headerParser (arrayParser 8 []) (vecParser shortIdParser MAX_VEC_SIZE) (vecParser prefilledParser MAX_VEC_SIZE)).mapE
    (fun x => if x.2.2.1.length + x.2.2.2.length > 65535 then .error (.custom 31 0)
      else .ok ⟨x.1, UInt64.ofNat (leNat x.2.1), x.2.2.1, x.2.2.2⟩) (.tag 31)
def requestParser : Parser Request :=
  (seqParser hash32Parser (vecParser (csParser (csEnd MAX_COMPACT_SIZE)) MAX_VEC_SIZE)).mapE (fun x => .ok ⟨x.1, x.2⟩) (.tag 32)
def blockTxsParser : Parser BlockTxs :=
  (seqParser hash32Parser (vecParser txParser MAX_VEC_SIZE)).mapE (fun x => .ok ⟨x.1, x.2⟩) (.tag 33)

theorem shortIdDec_lawful : Lawful shortIdDec shortIdParser := mapE_lawful (arrayDec_lawful 6 (by omega)) _ _
theorem prefilledDec_lawful : Lawful prefilledDec prefilledParser := mapE_lawful (dec2_lawful (csDec_lawful _) txDec_lawful) _ _
theorem dec4_lawful {α β γ δ : Type} {a : Dec α} {b : Dec β} {c : Dec γ} {e : Dec δ} {A : Parser α} {B : Parser β}
    {C : Parser γ} {E : Parser δ} (ha : Lawful a A) (hb : Lawful b B) (hc : Lawful c C) (he : Lawful e E) :
    Lawful (dec4 a b c e) (seq4 A B C E) :=
  mapE_lawful (dec2_lawful (dec2_lawful ha hb) (dec2_lawful hc he)) _ _
theorem compactDec_lawful : Lawful compactDec compactParser :=
  mapE_lawful (dec4_lawful headerDec_lawful (arrayDec_lawful 8 (by omega)) (vecDec_lawful shortIdDec_lawful _)
    (vecDec_lawful prefilledDec_lawful _)) _ _
theorem requestDec_lawful : Lawful requestDec requestParser :=
  mapE_lawful (dec2_lawful hash32Dec_lawful (vecDec_lawful (csDec_lawful _) _)) _ _
theorem blockTxsDec_lawful : Lawful blockTxsDec blockTxsParser :=
  mapE_lawful (dec2_lawful hash32Dec_lawful (vecDec_lawful txDec_lawful _)) _ _

/-- Serializations. -/
def prefilledBytes (p : Prefilled) : Bytes := csEncode p.idx ++ txBytes p.tx.usesSegwit p.tx
def compactBytes (c : Compact) : Bytes :=
  headerBytes c.header ++ u64le c.nonce ++ ((csEncode c.shortIds.length ++ (c.shortIds.map (·.1)).flatten)
    ++ (csEncode c.prefilled.length ++ (c.prefilled.map prefilledBytes).flatten))
def requestBytes (r : Request) : Bytes := r.blockHash.1 ++ (csEncode r.offsets.length ++ (r.offsets.map csEncode).flatten)
def blockTxsBytes (b : BlockTxs) : Bytes :=
  b.blockHash.1 ++ (csEncode b.txs.length ++ (b.txs.map fun tx => txBytes tx.usesSegwit tx).flatten)

theorem shortId_wire : Wire shortIdParser (fun a => a.1) (fun _ => True) := by
  refine (Wire.array 6).mapE ?_ ?_
  · intro a b ha h
    rw [dif_pos ha] at h
    cases h
    exact ⟨trivial, rfl⟩
  · intro b _
    exact ⟨b.1, b.2, dif_pos b.2⟩

theorem prefilled_wire : Wire prefilledParser prefilledBytes (fun p => p.idx < 2 ^ 16 ∧ TxOk p.tx) := by
  refine ((cs_wire MAX_COMPACT_SIZE).seq tx_wire).mapE ?_ ?_
  · rintro ⟨n, tx⟩ y ⟨h1, h2⟩ hy
    by_cases hn : n < 2 ^ 16
    · simp only [if_pos hn] at hy
      cases hy
      exact ⟨⟨hn, h2⟩, rfl⟩
    · simp only [if_neg hn] at hy
      cases hy
  · rintro ⟨n, tx⟩ ⟨h1, h2⟩
    refine ⟨(n, tx), ⟨⟨?_, ?_⟩, h2⟩, if_pos h1⟩
    · simp only at h1 ⊢; have : (2 : Nat) ^ 16 ≤ MAX_COMPACT_SIZE := by decide
      omega
    · simp only at h1 ⊢; omega

theorem Wire.seq4 {α β γ δ : Type} {P : Parser α} {f : α → Bytes} {p : α → Prop} {Q : Parser β}
    {g : β → Bytes} {q : β → Prop} {R : Parser γ} {k : γ → Bytes} {r : γ → Prop} {S : Parser δ} {m : δ → Bytes} {t : δ → Prop}
    (hP : Wire P f p) (hQ : Wire Q g q) (hR : Wire R k r) (hS : Wire S m t) :
    Wire (seq4 P Q R S) (fun x => f x.1 ++ g x.2.1 ++ (k x.2.2.1 ++ m x.2.2.2)) (fun x => p x.1 ∧ q x.2.1 ∧ r x.2.2.1 ∧ t x.2.2.2) := by
  refine ((hP.seq hQ).seq (hR.seq hS)).mapE ?_ ?_
  · rintro ⟨⟨a, b⟩, c, d⟩ y ⟨⟨h1, h2⟩, h3, h4⟩ hy
    cases hy
    exact ⟨⟨h1, h2, h3, h4⟩, rfl⟩
  · rintro ⟨a, b, c, d⟩ ⟨h1, h2, h3, h4⟩
    exact ⟨((a, b), (c, d)), ⟨⟨h1, h2⟩, h3, h4⟩, rfl⟩

theorem compact_wire : Wire compactParser compactBytes (fun c => c.shortIds.length + c.prefilled.length ≤ 65535
    ∧ ∀ p ∈ c.prefilled, p.idx < 2 ^ 16 ∧ TxOk p.tx) := by
  refine (Wire.seq4 header_wire (Wire.array 8) (vec_wire shortId_wire) (vec_wire prefilled_wire)).mapE ?_ ?_
  · rintro ⟨h, n, s, p⟩ y ⟨_, h2, _, h4⟩ hy
    simp only at h2 h4
    by_cases hn : s.length + p.length > 65535
    · simp only [if_pos hn] at hy; cases hy
    · simp only [if_neg hn] at hy
      cases hy
      refine ⟨⟨by simp only; omega, h4.2⟩, ?_⟩
      simp only [compactBytes]
      rw [u64le_ofNat_leNat n h2]
  · rintro ⟨h, n, s, p⟩ ⟨h1, h2⟩
    simp only at h1 h2
    have hm : (65535 : Nat) ≤ MAX_VEC_SIZE := by decide
    refine ⟨(h, u64le n, s, p), ⟨trivial, u64le_length _, ⟨by simp only; omega, by simp⟩, ⟨by simp only; omega, h2⟩⟩, ?_⟩
    simp only
    rw [if_neg (by omega), ofNat_leNat_u64le]

theorem request_wire : Wire requestParser requestBytes (fun r => r.offsets.length ≤ MAX_VEC_SIZE ∧ ∀ o ∈ r.offsets, o ≤ MAX_COMPACT_SIZE) := by
  have hm : MAX_COMPACT_SIZE < 2 ^ 64 := by decide
  refine (hash32_wire.seq (vec_wire (cs_wire MAX_COMPACT_SIZE))).mapE ?_ ?_
  · rintro ⟨h, l⟩ y ⟨_, h2⟩ hy
    cases hy
    exact ⟨⟨h2.1, fun o ho => (h2.2 o ho).1⟩, rfl⟩
  · rintro ⟨h, l⟩ hb
    exact ⟨(h, l), ⟨trivial, hb.1, fun o ho => ⟨hb.2 o ho, Nat.lt_of_le_of_lt (hb.2 o ho) hm⟩⟩, rfl⟩

theorem blockTxs_wire : Wire blockTxsParser blockTxsBytes (fun b => b.txs.length ≤ MAX_VEC_SIZE ∧ ∀ tx ∈ b.txs, TxOk tx) := by
  refine (hash32_wire.seq (vec_wire tx_wire)).mapE ?_ ?_
  · rintro ⟨h, l⟩ y ⟨_, h2⟩ hy
    cases hy
    exact ⟨h2, rfl⟩
  · rintro ⟨h, l⟩ hb
    exact ⟨(h, l), ⟨trivial, hb⟩, rfl⟩

theorem csEncode_ne_nil (n : Nat) : csEncode n ≠ [] := by
  intro h
  have := congrArg List.length h
  unfold csEncode at this
  split at this <;> (try split at this) <;> (try split at this) <;> simp at this

theorem prefilledEnc_drains (p : Prefilled) : Drains prefilledEnc p.encoder (prefilledBytes p) := by
  have := C06_tuple (es := [bytesEnc, txEnc]) (by simp) (csEncode p.idx, p.tx.encoder, ()) [csEncode p.idx, txBytes p.tx.usesSegwit p.tx]
    ⟨C06_bytes _, txEnc_drains _, rfl⟩
  rw [show List.flatten _ = prefilledBytes p by simp [prefilledBytes]] at this
  exact this

theorem prefilledEnc_goodStart (p : Prefilled) : GoodStart prefilledEnc p.encoder := by
  intro bs _ hc
  exact absurd (show csEncode p.idx = [] from hc) (csEncode_ne_nil _)

theorem bytesSlice_drains {α : Type} (f : α → Bytes) (l : List α) (h : ∀ a ∈ l, f a ≠ []) :
    Drains (prefixedSliceEnc bytesEnc) (prefixedSlice bytesEnc (l.map f)) (csEncode l.length ++ (l.map f).flatten) := by
  have h1 := C06_prefixed_slice_partial (e := bytesEnc) (l.map f) (l.map f)
    (drainsEach_map (e := bytesEnc) f f (fun a => C06_bytes _) l)
    (by
      intro s hs bs _ hc
      obtain ⟨a, ha, rfl⟩ := List.mem_map.mp hs
      exact absurd (show f a = [] from hc) (h a ha))
  rw [← List.length_map (as := l) f]
  exact h1

theorem compactEnc_drains (c : Compact) : Drains compactEnc c.encoder (compactBytes c) := by
  have h1 := bytesSlice_drains (fun a : Arr 6 => a.1) c.shortIds (fun a _ h => by have := a.2; rw [h] at this; simp at this)
  have h2 := C06_prefixed_slice_partial _ _ (drainsEach_map Prefilled.encoder prefilledBytes prefilledEnc_drains c.prefilled)
    (by
      intro s hs
      obtain ⟨p, _, rfl⟩ := List.mem_map.mp hs
      exact prefilledEnc_goodStart p)
  rw [List.length_map] at h2
  have := C06_tuple (es := [headerEnc, bytesEnc, prefixedSliceEnc bytesEnc, prefixedSliceEnc prefilledEnc]) (by simp)
    (c.header.encoder, leBytes 8 c.nonce.toNat, prefixedSlice bytesEnc (c.shortIds.map (·.1)),
      prefixedSlice prefilledEnc (c.prefilled.map Prefilled.encoder), ())
    [headerBytes c.header, leBytes 8 c.nonce.toNat, csEncode c.shortIds.length ++ (c.shortIds.map (·.1)).flatten,
      csEncode c.prefilled.length ++ (c.prefilled.map prefilledBytes).flatten]
    ⟨headerEnc_drains _, C06_bytes _, h1, h2, rfl⟩
  rw [show List.flatten _ = compactBytes c by simp [compactBytes, u64le]] at this
  exact this

theorem requestEnc_drains (r : Request) : Drains requestEnc r.encoder (requestBytes r) := by
  have h1 := bytesSlice_drains csEncode r.offsets (fun a _ => csEncode_ne_nil a)
  have := C06_tuple (es := [bytesEnc, prefixedSliceEnc bytesEnc]) (by simp)
    (r.blockHash.1, prefixedSlice bytesEnc (r.offsets.map csEncode), ())
    [r.blockHash.1, csEncode r.offsets.length ++ (r.offsets.map csEncode).flatten] ⟨C06_bytes _, h1, rfl⟩
  rw [show List.flatten _ = requestBytes r by simp [requestBytes]] at this
  exact this

theorem blockTxsEnc_drains (b : BlockTxs) : Drains blockTxsEnc b.encoder (blockTxsBytes b) := by
  have h1 := C06_prefixed_slice_partial _ _
    (drainsEach_map Tx.encoder (fun tx => txBytes tx.usesSegwit tx) txEnc_drains b.txs)
    (by
      intro s hs
      obtain ⟨tx, _, rfl⟩ := List.mem_map.mp hs
      exact txEnc_goodStart tx)
  rw [List.length_map] at h1
  have := C06_tuple (es := [bytesEnc, prefixedSliceEnc txEnc]) (by simp)
    (b.blockHash.1, prefixedSlice txEnc (b.txs.map Tx.encoder), ())
    [b.blockHash.1, csEncode b.txs.length ++ (b.txs.map fun tx => txBytes tx.usesSegwit tx).flatten]
    ⟨C06_bytes _, h1, rfl⟩
  rw [show List.flatten _ = blockTxsBytes b by simp [blockTxsBytes]] at this
  exact this

/-- C61: the compact block decoder accepts exactly the encodings of compact blocks with at most 65535 entries, 16-bit
indices and decodable transactions. -/
theorem C61_compact (bs : Bytes) (c : Compact) :
    (compactDec.decodeSlice bs = .ok c ↔ Drains compactEnc c.encoder bs ∧ c.shortIds.length + c.prefilled.length ≤ 65535
      ∧ ∀ p ∈ c.prefilled, p.idx < 2 ^ 16 ∧ Decodable p.tx)
    ∧ ∀ rest, compactDec.decodeSliceUnbounded bs = .ok c rest → ∃ pre, bs = pre ++ rest ∧ compactDec.decodeSlice pre = .ok c := by
  obtain ⟨h1, h2⟩ := Wire.dec compactDec_lawful compact_wire
  refine ⟨?_, fun rest h => ?_⟩
  · rw [h1]
    constructor
    · rintro ⟨⟨a, b⟩, rfl⟩
      exact ⟨compactEnc_drains c, a, fun p hp => ⟨(b p hp).1, (decodable_iff _).2 (b p hp).2⟩⟩
    · rintro ⟨a, b, d⟩
      exact ⟨⟨b, fun p hp => ⟨(d p hp).1, (decodable_iff _).1 (d p hp).2⟩⟩, a.det (compactEnc_drains c)⟩
  · obtain ⟨a, b⟩ := (h2 _ _ _).1 h
    exact ⟨_, b, (h1 _ _).2 ⟨a, rfl⟩⟩

/-- C61: the same for `getblocktxn`: at most 4,000,000 offsets, each at most `MAX_COMPACT_SIZE`.  (Larger offsets are
encoded, but cannot be decoded.) -/
theorem C61_request (bs : Bytes) (r : Request) :
    (requestDec.decodeSlice bs = .ok r ↔ Drains requestEnc r.encoder bs ∧ r.offsets.length ≤ 4000000 ∧ ∀ o ∈ r.offsets, o ≤ 0x02000000)
    ∧ ∀ rest, requestDec.decodeSliceUnbounded bs = .ok r rest → ∃ pre, bs = pre ++ rest ∧ requestDec.decodeSlice pre = .ok r := by
  obtain ⟨h1, h2⟩ := Wire.dec requestDec_lawful request_wire
  refine ⟨?_, fun rest h => ?_⟩
  · rw [h1]
    constructor
    · rintro ⟨⟨a, b⟩, rfl⟩
      exact ⟨requestEnc_drains r, a, b⟩
    · rintro ⟨a, b, d⟩
      exact ⟨⟨b, d⟩, a.det (requestEnc_drains r)⟩
  · obtain ⟨a, b⟩ := (h2 _ _ _).1 h
    exact ⟨_, b, (h1 _ _).2 ⟨a, rfl⟩⟩

/-- C61: the same for `blocktxn`. -/
theorem C61_block_transactions (bs : Bytes) (b : BlockTxs) :
    (blockTxsDec.decodeSlice bs = .ok b ↔ Drains blockTxsEnc b.encoder bs ∧ b.txs.length ≤ 4000000 ∧ ∀ tx ∈ b.txs, Decodable tx)
    ∧ ∀ rest, blockTxsDec.decodeSliceUnbounded bs = .ok b rest → ∃ pre, bs = pre ++ rest ∧ blockTxsDec.decodeSlice pre = .ok b := by
  obtain ⟨h1, h2⟩ := Wire.dec blockTxsDec_lawful blockTxs_wire
  refine ⟨?_, fun rest h => ?_⟩
  · rw [h1]
    constructor
    · rintro ⟨⟨a, b⟩, rfl⟩
      exact ⟨blockTxsEnc_drains _, a, fun tx ht => (decodable_iff _).2 (b tx ht)⟩
    · rintro ⟨a, c, d⟩
      exact ⟨⟨c, fun tx ht => (decodable_iff _).1 (d tx ht)⟩, a.det (blockTxsEnc_drains b)⟩
  · obtain ⟨a, b⟩ := (h2 _ _ _).1 h
    exact ⟨_, b, (h1 _ _).2 ⟨a, rfl⟩⟩

/-- C61: every message has an encoding, so what satisfies the bounds round-trips. -/
theorem C61_encodable (c : Compact) (r : Request) (b : BlockTxs) :
    (∃ bs, Drains compactEnc c.encoder bs) ∧ (∃ bs, Drains requestEnc r.encoder bs) ∧ ∃ bs, Drains blockTxsEnc b.encoder bs :=
  ⟨⟨_, compactEnc_drains c⟩, ⟨_, requestEnc_drains r⟩, _, blockTxsEnc_drains b⟩

/-- C61: chunk independence of the three decoders. -/
theorem C61_split (cs cs' : List Bytes) (heq : cs.flatten = cs'.flatten) :
    (compactDec.feedChunks compactDec.init cs = compactDec.feedChunks compactDec.init cs' ∧ compactDec.feedChunks compactDec.init cs ≠ .stuck)
    ∧ (requestDec.feedChunks requestDec.init cs = requestDec.feedChunks requestDec.init cs' ∧ requestDec.feedChunks requestDec.init cs ≠ .stuck)
    ∧ (blockTxsDec.feedChunks blockTxsDec.init cs = blockTxsDec.feedChunks blockTxsDec.init cs' ∧ blockTxsDec.feedChunks blockTxsDec.init cs ≠ .stuck) :=
  ⟨C03_split ⟨_, compactDec_lawful⟩ cs cs' heq, C03_split ⟨_, requestDec_lawful⟩ cs cs' heq, C03_split ⟨_, blockTxsDec_lawful⟩ cs cs' heq⟩

example : ∃ bs, compactDec.decodeSlice bs = .ok ⟨sampleHeader, 7, [⟨[1, 2, 3, 4, 5, 6], rfl⟩], [⟨0, sampleTx⟩, ⟨65535, sampleTx⟩]⟩ := by
  obtain ⟨bs, h⟩ := (C61_encodable ⟨sampleHeader, 7, [⟨[1, 2, 3, 4, 5, 6], rfl⟩], [⟨0, sampleTx⟩, ⟨65535, sampleTx⟩]⟩ ⟨⟨List.replicate 32 0, by simp⟩, []⟩ ⟨⟨List.replicate 32 0, by simp⟩, []⟩).1
  refine ⟨bs, (C61_compact bs _).1.2 ⟨h, by simp, ?_⟩⟩
  intro p hp
  simp only [List.mem_cons, List.not_mem_nil, or_false] at hp
  rcases hp with rfl | rfl <;> exact ⟨by decide, sampleTx_decodable⟩
example : ∃ bs, requestDec.decodeSlice bs = .ok ⟨⟨List.replicate 32 9, by simp⟩, [0, 300, 0x02000000]⟩ :=
  ⟨_, (C61_request _ _).1.2 ⟨requestEnc_drains _, by simp, by simp⟩⟩
example (bs : Bytes) : requestDec.decodeSlice bs ≠ .ok ⟨⟨List.replicate 32 9, by simp⟩, [0, 0x02000001]⟩ :=
  fun h => absurd (((C61_request _ _).1.1 h).2.2 0x02000001 (by simp)) (by decide)
example : ∃ bs, blockTxsDec.decodeSlice bs = .ok ⟨⟨List.replicate 32 9, by simp⟩, [sampleTx, sampleTx]⟩ :=
  ⟨_, (C61_block_transactions _ _).1.2 ⟨blockTxsEnc_drains _, by simp, by
    intro tx h; simp at h; subst h; exact sampleTx_decodable⟩⟩

end Bip152
end Btc
