import Verif.P2p.LightClient
import Verif.Props.C22
import Verif.Props.C23_C24
import Verif.Props.C25_C26
import Verif.Props.C90
import Verif.Bitcoin.Genesis
import Verif.Bip32.Path
/-!
# C100: what a light client can conclude from a merkle block and from block filters
-/
namespace Btc
open P2p Pmt Bip158

/-- The ids of a block's transactions: the hashes of their serializations without witnesses. -/
def blockTxids (H : Bytes → Arr 32) (b : Block) : List (Arr 32) := b.txs.map fun t => H (txBytes false t)

theorem txid_bytes (H : Bytes → Arr 32) (t : Tx) : t.txid H = some (H (txBytes false t)) := by
  unfold Tx.txid
  rw [hashTxInput_false]
  rfl

theorem mapM_txid (H : Bytes → Arr 32) (l : List Tx) :
    l.mapM (Tx.txid H) = some (l.map fun t => H (txBytes false t)) := by
  induction l with
  | nil => rfl
  | cons a l ih => rw [List.mapM_cons, ih, txid_bytes]; rfl

/-- A block that passed `validate` has the merkle root of its transactions in its header. -/
theorem validate_root (H : Bytes → Arr 32) (b : Block) (w : Option (Arr 32)) (h : b.validate H = some (.ok w)) :
    merkleRootOf H (blockTxids H b) = some b.header.merkleRoot := by
  unfold Block.validate at h
  split at h
  · cases h
  · split at h
    · cases h
    · split at h
      · cases h
      · cases h
      · next hm =>
        unfold checkMerkleRoot computeMerkleRoot at hm
        rw [mapM_txid] at hm
        simp only [Option.map_some, Option.some.injEq] at hm
        unfold blockTxids
        split at hm
        · next r hr => rw [hr, eq_of_beq hm]
        · cases hm

/-- All the strings hashed when a client checks a merkle block and a transaction, and when the block was made. -/
def inclusionInputs (H : Bytes → Arr 32) (mb : MerkleBlock) (b : Block) (tx : Tx) : List Bytes :=
  mb.txn.inputs H ++ merkleInputs H (blockTxids H b) ++ (tx :: b.txs).map (txBytes false)

/-- A transaction whose id is reported by a merkle block with a valid block's header is the transaction at the
reported position of that block, whatever number of transactions the merkle block claims: unless a transaction
has a 64-byte serialization without witnesses. -/
theorem C100_inclusion (H : Bytes → Arr 32) (b : Block) (w : Option (Arr 32)) (hv : b.validate H = some (.ok w))
    (mb : MerkleBlock) (hh : mb.header.merkleRoot = b.header.merkleRoot) (found : List (Arr 32 × Nat))
    (hf : mb.extractMatches (combineH H) = .ok found) (tx : Tx) (id : Arr 32) (hid : tx.txid H = some id)
    (pos : Nat) (hpos : (id, pos) ∈ found) (hn : b.txs.length ≤ 2 ^ 32)
    (hlens : ∀ t ∈ tx :: b.txs, TxLens t) (h64 : ∀ t ∈ tx :: b.txs, (txBytes false t).length ≠ 64) :
    (∃ t, b.txs[pos]? = some t ∧ tx.sameExceptWitness t) ∨ Collision H (inclusionInputs H mb b tx) := by
  have hr := ((merkleRootOf_iff H _ _).1 (validate_root H b w hv)).1
  rw [← hh] at hr
  rw [txid_bytes] at hid
  cases hid
  unfold MerkleBlock.extractMatches at hf
  split at hf
  · cases hf
  next root ms he =>
  split at hf
  · next hroot =>
    cases hf
    rw [hroot] at he
    have hlen : (blockTxids H b).length ≤ 2 ^ 32 := by simpa [blockTxids] using hn
    have cross : ∀ t ∈ tx :: b.txs, ∀ (x : Arr 32 × Arr 32),
        x ∈ mb.txn.combined (combineH H) ++ Merkle.combined (combineH H) (blockTxids H b) →
        H (txBytes false t) = combineH H x.1 x.2 → Collision H (inclusionInputs H mb b tx) := by
      intro t ht x hx hxe
      refine ⟨txBytes false t, ?_, x.1.1 ++ x.2.1, ?_, ?_, hxe⟩
      · exact List.mem_append_right _ (List.mem_map.2 ⟨t, ht, rfl⟩)
      · refine List.mem_append_left _ ?_
        unfold Tree.inputs merkleInputs pairBytes
        rw [← List.map_append]
        exact List.mem_map.2 ⟨x, hx, rfl⟩
      · intro hc
        apply h64 t ht
        rw [hc, List.length_append, x.1.2, x.2.2]
    rcases extract_sound (combineH H) mb.txn _ _ _ hlen he hr with hc | ⟨h1, h2, h3⟩
    · refine .inr ((clash_collision H _ hc).mono ?_)
      intro s hs
      unfold inclusionInputs Tree.inputs merkleInputs
      unfold pairBytes at hs ⊢
      rw [List.map_append] at hs
      exact List.mem_append_left _ hs
    · rcases Nat.lt_trichotomy (height mb.txn.num) (height (blockTxids H b).length) with hlt | heq | hgt
      · obtain ⟨x, hx, hxe⟩ := h2 hlt _ hpos
        exact .inr (cross tx List.mem_cons_self x (List.mem_append_right _ hx) hxe)
      · have := h1 heq _ hpos
        simp only [blockTxids, List.getElem?_map, Option.map_eq_some_iff] at this
        obtain ⟨t, ht, hte⟩ := this
        have htm : t ∈ b.txs := List.mem_of_getElem? ht
        rcases C11_txid_commits H tx t (hlens tx List.mem_cons_self) (hlens t (List.mem_cons_of_mem _ htm))
            (by rw [txid_bytes, txid_bytes, hte]) with hs | hc
        · exact .inl ⟨t, ht, hs⟩
        · refine .inr (hc.mono ?_)
          intro s hs
          refine List.mem_append_right _ ?_
          simp only [List.mem_cons, List.not_mem_nil, or_false] at hs
          rcases hs with rfl | rfl
          · exact List.mem_map.2 ⟨tx, List.mem_cons_self, rfl⟩
          · exact List.mem_map.2 ⟨t, List.mem_cons_of_mem _ htm, rfl⟩
      · rcases h3 hgt with h0 | ⟨y, hy, x, hx, hxe⟩
        · rw [h0] at hpos; cases hpos
        · obtain ⟨t, ht, rfl⟩ := List.mem_map.1 hy
          exact .inr (cross t (List.mem_cons_of_mem _ ht) x (List.mem_append_left _ hx) hxe)
  · cases hf

/-- The client knows a connected chain of headers and the hash of the tip of the honest chain, of the same
length.  A transaction reported by a merkle block for the client's header at `k` is in the honest block at `k`. -/
theorem C100_chain (H : Bytes → Arr 32) (l m : List NetHeader) (hn : l.length = m.length)
    (hl : isConnected H l = true) (hm : isConnected H m = true)
    (ht : ∀ x y, l.getLast? = some x → m.getLast? = some y → x.header.blockHash H = y.header.blockHash H)
    (k : Nat) (mb : MerkleBlock) (hmb : (intoHeaders l)[k]? = some mb.header)
    (b : Block) (hb : (intoHeaders m)[k]? = some b.header) (w : Option (Arr 32)) (hv : b.validate H = some (.ok w))
    (found : List (Arr 32 × Nat)) (hf : mb.extractMatches (combineH H) = .ok found)
    (tx : Tx) (id : Arr 32) (hid : tx.txid H = some id) (pos : Nat) (hpos : (id, pos) ∈ found)
    (hcount : b.txs.length ≤ 2 ^ 32) (hlens : ∀ t ∈ tx :: b.txs, TxLens t)
    (h64 : ∀ t ∈ tx :: b.txs, (txBytes false t).length ≠ 64) :
    (∃ t, b.txs[pos]? = some t ∧ tx.sameExceptWitness t) ∨
      Collision H ((intoHeaders l ++ intoHeaders m).map headerBytes ++ inclusionInputs H mb b tx) := by
  rcases C90_tip_determines H l m hn hl hm ht with he | hc
  · rw [he, hb] at hmb
    injection hmb with hmb
    rcases C100_inclusion H b w hv mb (by rw [hmb]) found hf tx id hid pos hpos hcount hlens h64 with h | h
    · exact .inl h
    · exact .inr (h.mono fun _ hs => List.mem_append_right _ hs)
  · exact .inr (hc.mono fun _ hs => List.mem_append_left _ hs)

theorem matchedTxids_mem (l : List (Arr 32)) (p : Arr 32 → Bool) (e : Arr 32 × Nat) :
    e ∈ matchedTxids l (l.map p) ↔ l[e.2]? = some e.1 ∧ p e.1 = true := by
  unfold matchedTxids
  simp only [List.mem_map, List.mem_filter]
  constructor
  · rintro ⟨⟨⟨x, m⟩, i⟩, ⟨h1, h2⟩, rfl⟩
    have := List.mem_zipIdx_iff_getElem?.1 h1
    simp only [List.getElem?_zip_eq_some, List.getElem?_map, Option.map_eq_some_iff] at this
    obtain ⟨h3, y, h4, h5⟩ := this
    simp only at h2 h3 h4
    rw [h3] at h4
    cases h4
    exact ⟨h3, h5.trans h2⟩
  · rintro ⟨h1, h2⟩
    refine ⟨((e.1, true), e.2), ⟨List.mem_zipIdx_iff_getElem?.2 ?_, rfl⟩, rfl⟩
    simp only [List.getElem?_zip_eq_some, List.getElem?_map, h1, Option.map_some, h2, and_self]

/-- What an honest node makes from a valid block passes, and reports exactly the requested transactions of the
block with their positions. -/
theorem C100_server (H : Bytes → Arr 32) (b : Block) (w : Option (Arr 32)) (hv : b.validate H = some (.ok w))
    (hn : b.txs.length ≤ 16666) (p : Arr 32 → Bool) :
    ∃ mb found, MerkleBlock.fromBlock H b p = some mb ∧ mb.header = b.header ∧
      mb.extractMatches (combineH H) = .ok found ∧
      ∀ id pos, (id, pos) ∈ found ↔ (∃ t, b.txs[pos]? = some t ∧ t.txid H = some id) ∧ p id = true := by
  obtain ⟨mb, h1, h2⟩ := C23_merkle_block H b.header (blockTxids H b) p (by simpa [blockTxids] using hn)
    (validate_root H b w hv)
  refine ⟨mb, _, ?_, ?_, h2, fun id pos => ?_⟩
  · unfold MerkleBlock.fromBlock
    rw [mapM_txid]
    exact h1
  · unfold MerkleBlock.fromHeader at h1
    simp only [Option.map_eq_some_iff] at h1
    obtain ⟨t, _, rfl⟩ := h1
    rfl
  · rw [matchedTxids_mem]
    simp only [blockTxids, List.getElem?_map, Option.map_eq_some_iff, txid_bytes, Option.some.injEq]

/-- The client has checked its filters against a filter header of the honest chain.  If its filter for block `k`
does not match a script of the query, block `k` neither pays to nor spends from that script. -/
theorem C100_filter (H : Bytes → Arr 32) (sip : Nat → Nat → Bytes → Nat) (hS : ∀ a b x, sip a b x < 2 ^ 64)
    (checks : Bool) (g : Arr 32) (fs fs' : List Bytes) (hn : fs.length = fs'.length)
    (h : filterChain H g fs = filterChain H g fs') (k : Nat) (f : Bytes) (hk : fs[k]? = some f)
    (blockHash : Arr 32) (txs : List Tx) (coin : OutPoint → Except FErr Bytes) (content : Bytes)
    (hk' : fs'[k]? = some content) (hc : newScriptFilter sip checks blockHash txs coin = some (.ok content))
    (es : List Bytes) (hes : addInputScripts coin txs (addOutputScripts txs []) = .ok es) (hlen : es.length < 2 ^ 64)
    (query : List Bytes) (hq : filterMatchAny sip checks f blockHash query ≠ some (.ok true)) :
    (∀ s ∈ query, ¬ Relevant txs coin s) ∨ Collision H (filterInputs H g fs ++ filterInputs H g fs') := by
  rcases C90_filter_chain H g g fs fs' hn h with ⟨_, rfl⟩ | hcol
  · rw [hk] at hk'
    cases hk'
    exact .inl fun s hs hr =>
      hq ((C25_block sip hS checks blockHash txs coin f hc es hes hlen query).1 ⟨s, hs, hr⟩)
  · exact .inr hcol

/-! ### The exception is real -/

/-- A coinbase, and a transaction of 64 bytes: one input without a script, one output with a script of 4 bytes. -/
def cb64 : Tx :=
  { version := 1, lockTime := 0
    inputs := [{ prev := OutPoint.null, scriptSig := [1, 2, 3, 4], sequence := 0xFFFFFFFF, witness := Wit.ofList [] }]
    outputs := [{ amount := ⟨5000000000, by decide⟩, spk := [0x51] }] }
def tx64 : Tx :=
  { version := 2, lockTime := 0
    inputs := [{ prev := ⟨⟨List.replicate 32 7, by simp⟩, 1⟩, scriptSig := [], sequence := 0xFFFFFFFF,
                 witness := Wit.ofList [] }]
    outputs := [{ amount := ⟨1000, by decide⟩, spk := [0x6a, 0x02, 0xab, 0xcd] }] }

/-- A transaction that is in no block. -/
def fakeTx : Tx := { cb64 with version := 99 }

/-- The two halves of the 64 bytes. -/
def half1 : Arr 32 := ⟨(txBytes false tx64).take 32, by decide +kernel⟩
def half2 : Arr 32 := ⟨(txBytes false tx64).drop 32, by decide +kernel⟩

/-- `sha256d`, except that the id of `fakeTx` is the first half of `tx64` (a preimage an attacker has to find: the
halves have many bytes that can be chosen). -/
def plantedH (b : Bytes) : Arr 32 := if b = txBytes false fakeTx then half1 else Genesis.sha256d b

def block64 : Block :=
  { header := { sampleHeader with merkleRoot := combineH plantedH (plantedH (txBytes false cb64)) (plantedH (txBytes false tx64)) }
    txs := [cb64, tx64] }

/-- It claims four transactions; the 64-byte transaction is presented as an inner node. -/
def forged : MerkleBlock :=
  ⟨block64.header, ⟨4, [true, false, true, true, false], [plantedH (txBytes false cb64), half1, half2]⟩⟩

/-- Without the condition on 64 bytes `C100_inclusion` is false: the merkle block is accepted for the header of a
valid block of two transactions and reports, at position 2, a transaction that is not in it; and no two of the
strings hashed collide. -/
theorem C100_forged :
    block64.validate plantedH = some (.ok none) ∧ forged.header = block64.header ∧
    forged.extractMatches (combineH plantedH) = .ok [(half1, 2)] ∧ fakeTx.txid plantedH = some half1 ∧
    block64.txs.length = 2 ∧ (∀ t ∈ block64.txs, t.version ≠ fakeTx.version) ∧
    ¬ Collision plantedH (inclusionInputs plantedH forged block64 fakeTx) := by
  refine ⟨by decide +kernel, rfl, by decide +kernel, by decide +kernel, rfl, by decide, ?_⟩
  unfold Collision
  decide +kernel

/-- With `sha256d` itself: an accepted merkle block reports an id at a position beyond the end of the block. -/
theorem C100_forged_id :
    ∃ (b : Block) (mb : MerkleBlock) (id : Arr 32), b.validate Genesis.sha256d = some (.ok none) ∧ mb.header = b.header ∧
      b.txs.length = 2 ∧ mb.extractMatches (combineH Genesis.sha256d) = .ok [(id, 2)] ∧
      some id ∉ b.txs.map (Tx.txid Genesis.sha256d) := by
  refine ⟨block64, forged, half1, ?_, rfl, rfl, ?_, ?_⟩ <;> decide +kernel

/-! ### Examples -/

/-- A valid block of two transactions, neither of 64 bytes. -/
def twoBlock : Block :=
  { header := { sampleHeader with merkleRoot := combineH Genesis.sha256d (Genesis.sha256d (txBytes false cb64)) (Genesis.sha256d (txBytes false fakeTx)) }
    txs := [cb64, fakeTx] }
theorem twoBlock_valid : twoBlock.validate Genesis.sha256d = some (.ok none) := by decide +kernel

theorem twoBlock_lens : ∀ t ∈ fakeTx :: twoBlock.txs, TxLens t := by
  intro t ht
  simp only [twoBlock, List.mem_cons, List.not_mem_nil, or_false] at ht
  rcases ht with rfl | rfl | rfl <;> exact ⟨by decide, by decide, by decide, by decide⟩

/-- The server's answer about `fakeTx`, and what the client concludes from it. -/
example : ∃ mb, MerkleBlock.fromBlock Genesis.sha256d twoBlock (· = Genesis.sha256d (txBytes false fakeTx)) = some mb ∧
    ((∃ t, twoBlock.txs[1]? = some t ∧ fakeTx.sameExceptWitness t) ∨
      Collision Genesis.sha256d (inclusionInputs Genesis.sha256d mb twoBlock fakeTx)) := by
  obtain ⟨mb, found, h1, h2, h3, h4⟩ := C100_server Genesis.sha256d twoBlock none twoBlock_valid (by decide)
    (· = Genesis.sha256d (txBytes false fakeTx))
  exact ⟨mb, h1, C100_inclusion Genesis.sha256d twoBlock none twoBlock_valid mb (by rw [h2]) found h3 fakeTx _
    (txid_bytes _ _) 1 ((h4 _ _).2 ⟨⟨fakeTx, rfl, txid_bytes _ _⟩, by simp⟩) (by decide) twoBlock_lens (by decide +kernel)⟩

/-- A chain of two headers ending in that block. -/
def twoChain : List NetHeader :=
  [⟨sampleHeader, 0⟩, ⟨{ twoBlock.header with prev := sampleHeader.blockHash Genesis.sha256d }, 0⟩]
example : isConnected Genesis.sha256d twoChain = true := by decide +kernel
example : ({ twoBlock with header := { twoBlock.header with prev := sampleHeader.blockHash Genesis.sha256d } } : Block).validate
    Genesis.sha256d = some (.ok none) := by decide +kernel

/-- The filter of a block paying to `[0x51]` matches that script: the client does not miss it. -/
example (sip : Nat → Nat → Bytes → Nat) (hS : ∀ a b x, sip a b x < 2 ^ 64) (h : Arr 32) (content : Bytes)
    (hc : newScriptFilter sip true h [cb64] (fun _ => .error .utxoMissing) = some (.ok content))
    (hq : filterMatchAny sip true content h [[0x51]] ≠ some (.ok true)) (H : Bytes → Arr 32) (g : Arr 32) :
    Collision H (filterInputs H g [content] ++ filterInputs H g [content]) := by
  rcases C100_filter H sip hS true g [content] [content] rfl rfl 0 content rfl h [cb64] _ content rfl hc [[0x51]] (by rfl)
    (by decide) [[0x51]] hq with hr | hr
  · exact absurd ⟨by simp, .inl ⟨cb64, by simp, _, List.mem_singleton.2 rfl, rfl, by decide⟩⟩ (hr [0x51] (by simp))
  · exact hr

end Btc
