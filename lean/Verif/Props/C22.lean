import Verif.Primitives.BlockValidate
import Verif.Props.C20_C21
import Verif.Props.C13_C17
/-!
# C22: block validation, and C20/C21 for the real combining function
-/
namespace Btc

/-- The Bitcoin merkle root of a list of hashes: the root of the padded tree, no equal siblings. -/
def IsMerkleRoot (H : Bytes → Arr 32) (l : List (Arr 32)) (r : Arr 32) : Prop :=
  Merkle.root (combineH H) l = some r ∧ ¬ Merkle.TwinsSomewhere (combineH H) l

theorem merkleRootOf_iff (H : Bytes → Arr 32) (l : List (Arr 32)) (r : Arr 32) :
    merkleRootOf H l = some r ↔ IsMerkleRoot H l r := by
  unfold merkleRootOf IsMerkleRoot
  rcases Merkle.C20_batched (combineH H) l with ⟨h1, h2⟩ | ⟨h1, h2, r', h3, h4⟩
  · rw [h2]
    refine ⟨fun h => (by cases h), fun ⟨h, h'⟩ => ?_⟩
    rcases h1 with h1 | h1
    · subst h1; rw [Merkle.root] at h; cases h
    · exact absurd h1 h'
  · rw [h3, h4]
    exact ⟨fun h => ⟨h, h2⟩, fun h => h.1⟩

/-- The strings hashed for pairs of nodes. -/
def pairBytes (S : List (Arr 32 × Arr 32)) : List Bytes := S.map fun p => p.1.1 ++ p.2.1

/-- The strings hashed for the merkle root of a list: the concatenations of the siblings in its tree. -/
def merkleInputs (H : Bytes → Arr 32) (l : List (Arr 32)) : List Bytes := pairBytes (Merkle.combined (combineH H) l)

theorem clash_collision (H : Bytes → Arr 32) (S : List (Arr 32 × Arr 32)) (h : Merkle.Clash (combineH H) S) :
    Collision H (pairBytes S) := by
  obtain ⟨⟨a, b⟩, h1, ⟨a', b'⟩, h2, hne, he⟩ := h
  refine ⟨a.1 ++ b.1, List.mem_map.2 ⟨_, h1, rfl⟩, a'.1 ++ b'.1, List.mem_map.2 ⟨_, h2, rfl⟩, fun hc => hne ?_, he⟩
  have := List.append_inj hc (by rw [a.2, a'.2])
  rw [Subtype.ext this.1, Subtype.ext this.2]

/-- For lists of hashes the two algorithms agree, or there is an explicit collision of sha256d. -/
theorem C20_agree_hash (H : Bytes → Arr 32) (l : List (Arr 32)) :
    Merkle.calculateRoot (combineH H) none l = some (merkleRootOf H l) ∨ Collision H (merkleInputs H l) :=
  (Merkle.C20_agree (combineH H) l).imp id (clash_collision H _)

/-- The merkle root commits to the list of hashes. -/
theorem C21_commits (H : Bytes → Arr 32) (h : Nat) (l m : List (Arr 32)) (r : Arr 32)
    (hl : 2 ^ h < 2 * l.length ∧ l.length ≤ 2 ^ h) (hm : 2 ^ h < 2 * m.length ∧ m.length ≤ 2 ^ h)
    (hrl : merkleRootOf H l = some r) (hrm : merkleRootOf H m = some r) :
    l = m ∨ Collision H (merkleInputs H l ++ merkleInputs H m) := by
  refine (Merkle.C21_batched (combineH H) h l m r hl hm hrl hrm).imp id fun hc => ?_
  have := clash_collision H _ hc
  unfold pairBytes at this
  rw [List.map_append] at this
  exact this

/-- Repeating a tail of the leaves (which keeps the root of a padded tree) is never accepted with the
same root. -/
theorem C21_no_duplication (H : Bytes → Arr 32) (h : Nat) (l t : List (Arr 32)) (r : Arr 32) (ht : t ≠ [])
    (hl : 2 ^ h < 2 * l.length) (hm : (l ++ t).length ≤ 2 ^ h)
    (hrl : merkleRootOf H l = some r) (hrm : merkleRootOf H (l ++ t) = some r) :
    Collision H (merkleInputs H l ++ merkleInputs H (l ++ t)) := by
  have hle : (l ++ t).length = l.length + t.length := List.length_append
  have hpos := List.length_pos_iff.mpr ht
  rcases C21_commits H h l (l ++ t) r ⟨hl, by omega⟩ ⟨by omega, hm⟩ hrl hrm with h | h
  · have := congrArg List.length h
    omega
  · exact h

/-! ## The rules, spelled out -/

/-- An output of the form `OP_RETURN PUSH36 0xaa21a9ed <commitment> …`. -/
def CommitsTo (o : TxOut) (c : Bytes) : Prop :=
  c.length = 32 ∧ ∃ rest, o.spk = [0x6a, 0x24, 0xaa, 0x21, 0xa9, 0xed] ++ c ++ rest

/-- The last commitment output. -/
def LastCommitment (outs : List TxOut) (c : Bytes) : Prop :=
  ∃ pre o post, outs = pre ++ o :: post ∧ CommitsTo o c ∧ ∀ p ∈ post, ∀ c', ¬ CommitsTo p c'

/-- No input of the transaction has a witness. -/
def WitnessFree (tx : Tx) : Prop := ∀ i ∈ tx.inputs, Wit.fromSlice [] = some i.witness

/-- A coinbase transaction: exactly one input, spending the null out point. -/
def CoinbaseInput (cb : Tx) (i : TxIn) : Prop :=
  cb.inputs = [i] ∧ i.prev.txid.1 = List.replicate 32 0 ∧ i.prev.vout = 0xFFFFFFFF

/-- The witness commitment rule of BIP-141; the `Option` is the witness root when a commitment is
present. -/
inductive WitnessRule (H : Bytes → Arr 32) (cb : Tx) (i : TxIn) (rest : List Tx) : Option (Arr 32) → Prop
  | committed (c reserved : Bytes) (ids : List (Arr 32)) (root : Arr 32)
      (found : LastCommitment cb.outputs c)
      (value : Wit.fromSlice [reserved] = some i.witness) (len : reserved.length = 32)
      (wtxids : rest.mapM (Tx.wtxid H) = some ids)
      (tree : IsMerkleRoot H (⟨List.replicate 32 0, List.length_replicate⟩ :: ids) root)
      (hash : (H (root.1 ++ reserved)).1 = c) : WitnessRule H cb i rest (some root)
  | absent (missing : ∀ c, ¬ LastCommitment cb.outputs c)
      (free : ∀ tx ∈ cb :: rest, WitnessFree tx) : WitnessRule H cb i rest none

theorem isCommitment_iff (o : TxOut) : isCommitment o = true ↔ ∃ c, CommitsTo o c := by
  unfold isCommitment CommitsTo commitmentMagic
  rw [Bool.and_eq_true, decide_eq_true_eq, beq_iff_eq]
  constructor
  · rintro ⟨h1, h2⟩
    refine ⟨(o.spk.drop 6).take 32, by simp; omega, (o.spk.drop 6).drop 32, ?_⟩
    rw [List.append_assoc, List.take_append_drop, ← h2, List.take_append_drop]
  · rintro ⟨c, hc, rest, h⟩
    rw [h]
    refine ⟨by simp only [List.length_append, hc, List.length_cons, List.length_nil]; omega, ?_⟩
    rw [List.append_assoc]
    exact List.take_left' (by rfl)

theorem commitsTo_bytes {o : TxOut} {c : Bytes} (h : CommitsTo o c) : (o.spk.drop 6).take 32 = c := by
  obtain ⟨hc, rest, h⟩ := h
  rw [h, List.append_assoc, List.drop_left' (by rfl)]
  exact List.take_left' hc

theorem find_last {p : TxOut → Bool} (l : List TxOut) (o : TxOut) :
    l.reverse.find? p = some o ↔ p o = true ∧ ∃ pre post, l = pre ++ o :: post ∧ ∀ x ∈ post, p x = false := by
  rw [List.find?_eq_some_iff_append]
  constructor
  · rintro ⟨h, as, bs, h1, h2⟩
    refine ⟨h, bs.reverse, as.reverse, ?_, ?_⟩
    · have := congrArg List.reverse h1
      simpa using this
    · intro x hx
      have := h2 x (by simpa using hx)
      simpa using this
  · rintro ⟨h, pre, post, h1, h2⟩
    refine ⟨h, post.reverse, pre.reverse, by simp [h1], fun x hx => ?_⟩
    have := h2 x (by simpa using hx)
    simp [this]

theorem witnessCommitment_some (cb : Tx) (h : cb.isCoinbase = true) (c : Bytes) :
    witnessCommitment cb = some c ↔ LastCommitment cb.outputs c := by
  unfold witnessCommitment
  rw [if_pos h]
  constructor
  · intro hc
    split at hc
    · next o ho =>
      rw [find_last] at ho
      obtain ⟨h1, pre, post, h2, h3⟩ := ho
      obtain ⟨c', hc'⟩ := (isCommitment_iff o).mp h1
      rw [commitsTo_bytes hc'] at hc
      cases hc
      refine ⟨pre, o, post, h2, hc', fun x hx c'' hcc => ?_⟩
      have := h3 x hx
      rw [(isCommitment_iff x).mpr ⟨_, hcc⟩] at this
      cases this
    · cases hc
  · rintro ⟨pre, o, post, h2, h1, h3⟩
    have : cb.outputs.reverse.find? isCommitment = some o := by
      rw [find_last]
      refine ⟨(isCommitment_iff o).mpr ⟨_, h1⟩, pre, post, h2, fun x hx => ?_⟩
      cases hx' : isCommitment x
      · rfl
      · obtain ⟨c', hc'⟩ := (isCommitment_iff x).mp hx'
        exact absurd hc' (h3 x hx c')
    rw [this]
    simp only [commitsTo_bytes h1]

theorem isCoinbase_iff (tx : Tx) : tx.isCoinbase = true ↔ ∃ i, CoinbaseInput tx i := by
  unfold Tx.isCoinbase CoinbaseInput
  constructor
  · intro h
    split at h
    · next i hi =>
      have := beq_iff_eq.mp h
      exact ⟨i, hi, by rw [this]; rfl, by rw [this]; rfl⟩
    · cases h
  · rintro ⟨i, h1, h2, h3⟩
    rw [h1]
    simp only [beq_iff_eq]
    have ht : i.prev.txid = OutPoint.null.txid := Subtype.ext h2
    have hv : i.prev.vout = OutPoint.null.vout := h3
    cases hp : i.prev with
    | mk t v => rw [hp] at ht hv; simp only at ht hv; rw [ht, hv]

theorem isEmpty_iff (w : Wit) (l : List Bytes) (hl : WitFits l) (h : Wit.fromSlice l = some w) :
    w.isEmpty = true ↔ Wit.fromSlice [] = some w := by
  rw [Wit.fromSlice_eq l hl.offsets] at h
  cases h
  cases l with
  | nil => exact ⟨fun _ => rfl, fun _ => rfl⟩
  | cons a t =>
    have he : (Wit.ofList (a :: t)).isEmpty = false := by simp [Wit.ofList, Wit.isEmpty]
    rw [he]
    refine ⟨fun h => (by cases h), fun h => ?_⟩
    have h2 : (Wit.fromSlice []).map Wit.isEmpty = some true := rfl
    rw [h] at h2
    simp only [Option.map_some, he] at h2
    cases h2

theorem mapM_isSome {α β : Type} (l : List α) (f : α → Option β) (h : ∀ a ∈ l, ∃ b, f a = some b) :
    ∃ r, l.mapM f = some r := by
  induction l with
  | nil => exact ⟨[], rfl⟩
  | cons a t ih =>
    obtain ⟨b, hb⟩ := h a (by simp)
    obtain ⟨r, hr⟩ := ih (fun x hx => h x (by simp [hx]))
    exact ⟨b :: r, by rw [List.mapM_cons, hb, hr]; rfl⟩

open Classical in
/-- Validation succeeds exactly for blocks with a coinbase transaction first, whose header carries the
merkle root of the txids, and which obey the witness commitment rule; the checked block keeps the
witness root.  Panics never happen. -/
theorem C22_validate (H : Bytes → Arr 32) (b : Block) (hw : ∀ tx ∈ b.txs, WitnessesFit tx) :
    (∃ res, b.validate H = some res) ∧ ∀ root,
    (b.validate H = some (.ok root) ↔
      ∃ cb i rest ids, b.txs = cb :: rest ∧ CoinbaseInput cb i ∧
        b.txs.mapM (Tx.txid H) = some ids ∧ IsMerkleRoot H ids b.header.merkleRoot ∧
        WitnessRule H cb i rest root) := by
  unfold Block.validate
  cases hb : b.txs with
  | nil =>
    refine ⟨⟨_, rfl⟩, fun root => ⟨fun h => (by cases h), ?_⟩⟩
    rintro ⟨cb, i, rest, ids, h, _⟩
    cases h
  | cons cb rest =>
    simp only
    obtain ⟨ids, hids⟩ := mapM_isSome (cb :: rest) (Tx.txid H) (fun tx _ => ⟨_, C11_txid_preimage H tx⟩)
    cases hcb : cb.isCoinbase with
    | false =>
      refine ⟨⟨_, rfl⟩, fun root => ⟨fun h => (by cases h), ?_⟩⟩
      rintro ⟨cb', i, rest', ids', h, hc, _⟩
      cases h
      rw [(isCoinbase_iff _).mpr ⟨i, hc⟩] at hcb
      cases hcb
    | true =>
      obtain ⟨i, hi⟩ := (isCoinbase_iff _).mp hcb
      have hcm : checkMerkleRoot H b = some (decide (IsMerkleRoot H ids b.header.merkleRoot)) := by
        unfold checkMerkleRoot computeMerkleRoot
        rw [hb, hids]
        simp only [Option.map_some, Option.some.injEq]
        cases hm : merkleRootOf H ids with
        | none =>
          have : ¬ IsMerkleRoot H ids b.header.merkleRoot := fun hc => by
            rw [← merkleRootOf_iff, hm] at hc; cases hc
          simp [this]
        | some r =>
          rw [Bool.eq_iff_iff, beq_iff_eq, decide_eq_true_eq, ← merkleRootOf_iff, hm, Option.some.injEq]
          exact eq_comm
      have hcanon : ∀ root,
          (∃ cb' i rest' ids, cb :: rest = cb' :: rest' ∧ CoinbaseInput cb' i ∧
            (cb :: rest).mapM (Tx.txid H) = some ids ∧ IsMerkleRoot H ids b.header.merkleRoot ∧
            WitnessRule H cb' i rest' root) ↔
          (IsMerkleRoot H ids b.header.merkleRoot ∧ WitnessRule H cb i rest root) := by
        intro root
        constructor
        · rintro ⟨cb', i', rest', ids', h1, h2, h3, h4, h5⟩
          cases h1
          rw [hids] at h3
          cases h3
          have : i = i' := by
            have := hi.1.symm.trans h2.1
            simpa using this
          subst this
          exact ⟨h4, h5⟩
        · rintro ⟨h4, h5⟩
          exact ⟨cb, i, rest, ids, rfl, hi, hids, h4, h5⟩
      simp only [hcanon, hcm, Bool.not_true, Bool.false_eq_true, if_false]
      rcases (Classical.em (IsMerkleRoot H ids b.header.merkleRoot)).symm with hm | hm
      · simp only [hm, decide_false]
        exact ⟨⟨_, rfl⟩, fun root => ⟨fun h => (by cases h), fun h => absurd h.1 id⟩⟩
      simp only [hm, decide_true, true_and]
      have hwcb : WitnessesFit cb := hw cb (by rw [hb]; simp)
      obtain ⟨wl, hwl1, hwl2⟩ := hwcb i (by rw [hi.1]; simp)
      obtain ⟨wids, hwids⟩ := mapM_isSome rest (Tx.wtxid H) (fun tx htx => by
        obtain ⟨bs, _, h⟩ := C11_wtxid_preimage_partial H tx (hw tx (by rw [hb]; simp [htx]))
        exact ⟨_, h⟩)
      unfold checkWitnessCommitment
      simp only
      rw [if_pos hcb]
      cases hc : witnessCommitment cb with
      | none =>
        simp only
        have hnone : ∀ c, ¬ LastCommitment cb.outputs c := fun c hlc => by
          rw [← witnessCommitment_some cb hcb, hc] at hlc; cases hlc
        have hnw : noWitnesses (cb :: rest) = true ↔ ∀ tx ∈ cb :: rest, WitnessFree tx := by
          unfold noWitnesses WitnessFree
          simp only [List.all_eq_true]
          constructor
          · intro h tx htx i hi
            obtain ⟨l, h1, h2⟩ := hw tx (by rw [hb]; exact htx) i hi
            exact (isEmpty_iff _ l h1 h2).mp (h tx htx i hi)
          · intro h tx htx i hi
            obtain ⟨l, h1, h2⟩ := hw tx (by rw [hb]; exact htx) i hi
            exact (isEmpty_iff _ l h1 h2).mpr (h tx htx i hi)
        cases hn : noWitnesses (cb :: rest) with
        | true =>
          refine ⟨⟨_, rfl⟩, fun root => ?_⟩
          simp only [if_true, Option.some.injEq, Except.ok.injEq]
          constructor
          · rintro rfl
            exact .absent hnone (hnw.mp hn)
          · intro h
            cases h with
            | committed c _ _ _ found => exact absurd found (hnone c)
            | absent _ _ => rfl
        | false =>
          refine ⟨⟨_, rfl⟩, fun root => ⟨fun h => (by cases h), fun h => ?_⟩⟩
          cases h with
          | committed c _ _ _ found => exact absurd found (hnone c)
          | absent _ free => rw [hnw.mpr free] at hn; cases hn
      | some c =>
        have hlast := (witnessCommitment_some cb hcb c).mp hc
        have hval : ∀ reserved, Wit.fromSlice [reserved] = some i.witness → reserved.length = 32 →
            wl = [reserved] := by
          intro reserved h1 h2
          have ha := (agrees_ofList wl hwl1.offsets hwl1.1).toVec
          have hf : WitFits [reserved] := by
            refine ⟨by simp [h2], ?_⟩
            simp [elemsSize, h2, csSize]
          have hb := (agrees_ofList [reserved] hf.offsets hf.1).toVec
          rw [Wit.fromSlice_eq wl hwl1.offsets] at hwl2
          rw [Wit.fromSlice_eq _ hf.offsets] at h1
          rw [Option.some.inj hwl2] at ha
          rw [Option.some.inj h1] at hb
          exact Option.some.inj (ha.symm.trans hb)
        have huniq : ∀ c', LastCommitment cb.outputs c' → c' = c := fun c' h' => by
          rw [← witnessCommitment_some cb hcb, hc] at h'
          exact (Option.some.inj h').symm
        have hvec : i.witness.toVec = some wl := by
          have ha := (agrees_ofList wl hwl1.offsets hwl1.1).toVec
          rw [Wit.fromSlice_eq wl hwl1.offsets] at hwl2
          rw [Option.some.inj hwl2] at ha
          exact ha
        have hinv : ∀ root, WitnessRule H cb i rest root → ∃ reserved r, wl = [reserved] ∧
            reserved.length = 32 ∧ root = some r ∧ IsMerkleRoot H (zeroHash :: wids) r ∧
            (H (r.1 ++ reserved)).1 = c := by
          intro root h
          cases h with
          | committed c' reserved ids' r found value len wtxids tree hash =>
            rw [hwids] at wtxids
            cases wtxids
            rw [huniq c' found] at hash
            exact ⟨reserved, r, hval reserved value len, len, rfl, tree, hash⟩
          | absent hnone _ => exact absurd hlast (hnone c)
        rw [hi.1]
        simp only [hvec]
        match wl, hwl2, hinv with
        | [], _, hinv =>
          refine ⟨⟨_, rfl⟩, fun root => ⟨fun h => (by cases h), fun h => ?_⟩⟩
          obtain ⟨_, _, h, _⟩ := hinv root h
          cases h
        | _ :: _ :: _, _, hinv =>
          refine ⟨⟨_, rfl⟩, fun root => ⟨fun h => (by cases h), fun h => ?_⟩⟩
          obtain ⟨_, _, h, _⟩ := hinv root h
          cases h
        | [reserved], hwl2, hinv =>
          simp only
          rcases (Classical.em (reserved.length = 32)).symm with hlen | hlen
          · rw [if_neg hlen]
            refine ⟨⟨_, rfl⟩, fun root => ⟨fun h => (by cases h), fun h => ?_⟩⟩
            obtain ⟨_, _, h, h', _⟩ := hinv root h
            cases h
            exact absurd h' hlen
          rw [if_pos hlen]
          have hcwc : computeWitnessCommitment H (cb :: rest) reserved =
              some ((merkleRootOf H (zeroHash :: wids)).map fun r => (r, H (r.1 ++ reserved))) := by
            unfold computeWitnessCommitment computeWitnessRoot
            simp only [hwids, Option.map_some]
          rw [hcwc]
          cases hr : merkleRootOf H (zeroHash :: wids) with
          | none =>
            refine ⟨⟨_, rfl⟩, fun root => ⟨fun h => (by cases h), fun h => ?_⟩⟩
            obtain ⟨_, r, h, _, _, h', _⟩ := hinv root h
            rw [← merkleRootOf_iff, hr] at h'
            cases h'
          | some r =>
            simp only [Option.map_some]
            by_cases heq : c = (H (r.1 ++ reserved)).1
            · rw [if_pos heq]
              refine ⟨⟨_, rfl⟩, fun root => ?_⟩
              simp only [Option.some.injEq, Except.ok.injEq]
              constructor
              · rintro rfl
                exact .committed c reserved wids r hlast hwl2 hlen hwids
                  ((merkleRootOf_iff H _ r).mp hr) heq.symm
              · intro h
                obtain ⟨_, r', h1, _, h2, h3, _⟩ := hinv root h
                rw [← merkleRootOf_iff] at h3
                have : r = r' := Option.some.inj (hr.symm.trans h3)
                rw [h2, this]
            · rw [if_neg heq]
              refine ⟨⟨_, rfl⟩, fun root => ⟨fun h => (by cases h), fun h => ?_⟩⟩
              obtain ⟨_, r', h1, _, h2, h3, h4⟩ := hinv root h
              rw [← merkleRootOf_iff] at h3
              have : r = r' := Option.some.inj (hr.symm.trans h3)
              subst this
              cases h1
              exact absurd h4.symm heq

/-- The error names the first rule that fails. -/
theorem C22_errors (H : Bytes → Arr 32) (b : Block) (hw : ∀ tx ∈ b.txs, WitnessesFit tx) :
    (b.validate H = some (.error .noTransactions) ↔ b.txs = []) ∧
    (b.validate H = some (.error .invalidCoinbase) ↔
      ∃ cb rest, b.txs = cb :: rest ∧ ∀ i, ¬ CoinbaseInput cb i) ∧
    (b.validate H = some (.error .invalidMerkleRoot) ↔
      ∃ cb i rest, b.txs = cb :: rest ∧ CoinbaseInput cb i ∧
        ∀ ids, b.txs.mapM (Tx.txid H) = some ids → ¬ IsMerkleRoot H ids b.header.merkleRoot) := by
  obtain ⟨⟨res, hres⟩, hok⟩ := C22_validate H b hw
  unfold Block.validate at *
  cases hb : b.txs with
  | nil => simp
  | cons cb rest =>
    simp only [hb] at hres hok ⊢
    obtain ⟨ids, hids⟩ := mapM_isSome (cb :: rest) (Tx.txid H) (fun tx _ => ⟨_, C11_txid_preimage H tx⟩)
    cases hcb : cb.isCoinbase with
    | false =>
      have hno : ∀ i, ¬ CoinbaseInput cb i := fun i hi => by
        rw [(isCoinbase_iff _).mpr ⟨i, hi⟩] at hcb; cases hcb
      simp only [Bool.not_false, if_true]
      refine ⟨by simp, ⟨fun _ => ⟨cb, rest, rfl, hno⟩, fun _ => trivial⟩, ⟨fun h => (by cases h), ?_⟩⟩
      rintro ⟨cb', i, rest', h, hi, _⟩
      cases h
      exact absurd hi (hno i)
    | true =>
      obtain ⟨i, hi⟩ := (isCoinbase_iff _).mp hcb
      simp only [Bool.not_true, Bool.false_eq_true, if_false]
      have hcm : checkMerkleRoot H b = some true ↔ IsMerkleRoot H ids b.header.merkleRoot := by
        unfold checkMerkleRoot computeMerkleRoot
        rw [hb, hids, ← merkleRootOf_iff]
        simp only [Option.map_some, Option.some.injEq]
        cases hm : merkleRootOf H ids with
        | none => simp
        | some r => rw [beq_iff_eq, Option.some.injEq]; exact eq_comm
      have hsome : ∃ v, checkMerkleRoot H b = some v := by
        unfold checkMerkleRoot computeMerkleRoot
        rw [hb, hids]
        exact ⟨_, rfl⟩
      obtain ⟨v, hv⟩ := hsome
      rw [hv] at hcm
      rw [hv]
      have hcb' : (∃ cb_1 rest_1, cb :: rest = cb_1 :: rest_1 ∧ ∀ i, ¬ CoinbaseInput cb_1 i) ↔ False := by
        constructor
        · rintro ⟨_, _, h, h'⟩
          cases h
          exact h' i hi
        · exact False.elim
      rw [hcb']
      cases v with
      | false =>
        refine ⟨by simp, by simp, ⟨fun _ => ⟨cb, i, rest, rfl, hi, fun ids' h' => ?_⟩, fun _ => rfl⟩⟩
        rw [hids] at h'
        cases h'
        intro hm
        have := hcm.mpr hm
        cases this
      | true =>
        have hm := hcm.mp rfl
        simp only
        have hno : ¬ ∃ cb_1 i rest_1, cb :: rest = cb_1 :: rest_1 ∧ CoinbaseInput cb_1 i ∧
            ∀ ids, (cb :: rest).mapM (Tx.txid H) = some ids → ¬ IsMerkleRoot H ids b.header.merkleRoot := by
          rintro ⟨_, _, _, _, _, h⟩
          exact h ids hids hm
        rw [iff_false_right hno]
        cases hc : checkWitnessCommitment H (cb :: rest) with
        | none => simp
        | some x =>
          obtain ⟨y, z⟩ := x
          cases y <;> simp

/-! ### Example: a two-transaction block with a witness commitment -/

/-- A toy "hash": the length, repeated. -/
def lenHash (b : Bytes) : Arr 32 := ⟨List.replicate 32 (UInt8.ofNat b.length), List.length_replicate⟩
/-- Collisions are among the strings listed: every function to 32 bytes has some collision, but not one among strings it tells apart. -/
example : ¬ Collision lenHash [[1], [1, 2], [1, 2, 3]] := by unfold Collision; simp [lenHash]
example : Collision lenHash [[1], [1, 2], [7]] := ⟨[1], by simp, [7], by simp, by decide, rfl⟩

def sampleCoinbase : Tx :=
  { version := 1, lockTime := 0
    inputs := [{ prev := OutPoint.null, scriptSig := [1, 2, 3], sequence := 0xFFFFFFFF,
                 witness := Wit.ofList [List.replicate 32 0] }]
    outputs := [{ amount := ⟨5000000000, by decide⟩, spk := [0x51] },
      { amount := ⟨0, by decide⟩,
        spk := [0x6a, 0x24, 0xaa, 0x21, 0xa9, 0xed] ++ List.replicate 32 64 ++ [7] }] }

def sampleBlock : Block :=
  { header := { sampleHeader with merkleRoot := ⟨List.replicate 32 64, List.length_replicate⟩ }
    txs := [sampleCoinbase, sampleTx] }

set_option maxRecDepth 100000 in
theorem sampleBlock_valid : sampleBlock.validate lenHash =
    some (.ok (some ⟨List.replicate 32 64, List.length_replicate⟩)) := by rfl

example : ({ sampleBlock with txs := [sampleTx] }).validate lenHash = some (.error .invalidCoinbase) := by
  rfl

theorem sampleBlock_fits : ∀ tx ∈ sampleBlock.txs, WitnessesFit tx := by
  intro tx htx i hi
  simp only [sampleBlock, List.mem_cons, List.not_mem_nil, or_false] at htx
  rcases htx with rfl | rfl
  · simp only [sampleCoinbase, List.mem_cons, List.not_mem_nil, or_false] at hi
    subst hi
    exact ⟨[List.replicate 32 0], ⟨by simp, by decide⟩, by decide⟩
  · simp only [sampleTx, List.mem_cons, List.not_mem_nil, or_false] at hi
    rcases hi with rfl | rfl
    · exact ⟨[[1, 2, 3], []], ⟨by simp, by decide⟩, by decide⟩
    · exact ⟨[], ⟨by simp, by decide⟩, by decide⟩

example : ∃ cb i rest ids, sampleBlock.txs = cb :: rest ∧ CoinbaseInput cb i ∧
    sampleBlock.txs.mapM (Tx.txid lenHash) = some ids ∧
    IsMerkleRoot lenHash ids sampleBlock.header.merkleRoot ∧
    WitnessRule lenHash cb i rest (some ⟨List.replicate 32 64, List.length_replicate⟩) :=
  ((C22_validate lenHash sampleBlock sampleBlock_fits).2 _).mp sampleBlock_valid

end Btc
