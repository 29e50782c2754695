import Verif.Props.C27_C28
import Verif.Props.C61
import Verif.Props.C101
/-!
# C102: a compact block, a mempool and one round of questions give the block

The crate has the messages; the receiver below is the one of BIP-152, over the functions and codecs of the crate.
-/
namespace Btc
namespace Bip152

/-! ### The receiver -/

/-- The slots of a compact block looked up: prefilled transactions are taken, short ids are looked for in the pool. -/
def guess (id : Tx → Option (Arr 6)) (pool : List Tx) : Tx ⊕ Arr 6 → Option Tx
  | .inl t => some t
  | .inr s => pool.find? fun t => id t == some s

/-- From the bytes of `cmpctblock`: the header and what is known of the transactions. -/
def receive (sip : Nat → Nat → Bytes → Nat) (H1 H : Bytes → Arr 32) (pool : List Tx) (w : Bytes) : Option (Header × List (Option Tx)) :=
  match compactDec.decodeSlice w with
  | .ok c => (rebuild (c.prefilled.map fun x => (x.idx, x.tx)) c.shortIds).map fun slots =>
      (c.header, slots.map (guess (idOf sip H (sipKeys H1 c.header c.nonce) 2) pool))
  | _ => none

/-- The positions still unknown. -/
def missing : Nat → List (Option Tx) → List Nat
  | _, [] => []
  | k, none :: g => k :: missing (k + 1) g
  | k, some _ :: g => missing (k + 1) g

/-- Known transactions kept, the others taken from the answer in order. -/
def fill : List (Option Tx) → List Tx → Option (List Tx)
  | [], _ => some []
  | some t :: g, ts => (fill g ts).map (t :: ·)
  | none :: g, t :: ts => (fill g ts).map (t :: ·)
  | none :: _, [] => none

/-- From the bytes of `blocktxn`: the block. -/
def finish (h : Header) (g : List (Option Tx)) (w : Bytes) : Option Block :=
  match blockTxsDec.decodeSlice w with
  | .ok b => (fill g b.txs).map fun txs => ⟨h, txs⟩
  | _ => none

/-! ### Lemmas -/

theorem rebuild_facts {τ σ : Type} : ∀ (ps : List (Nat × τ)) (s : List σ) (out : List (τ ⊕ σ)), rebuild ps s = some out →
    out.length = ps.length + s.length ∧ ∀ p ∈ ps, p.1 ≤ s.length ∧ .inl p.2 ∈ out
  | [], s, out, h => by
    simp only [rebuild, Option.some.injEq] at h
    subst h
    simp
  | (d, t) :: ps, s, out, h => by
    simp only [rebuild] at h
    split at h
    · next hd =>
      simp only [Option.map_eq_some_iff] at h
      obtain ⟨r, hr, rfl⟩ := h
      obtain ⟨h1, h2⟩ := rebuild_facts ps _ r hr
      refine ⟨?_, ?_⟩
      · simp only [List.length_append, List.length_map, List.length_take, List.length_cons, h1, List.length_drop]
        omega
      · intro p hp
        rcases List.mem_cons.1 hp with rfl | hp
        · exact ⟨hd, by simp⟩
        · obtain ⟨h3, h4⟩ := h2 p hp
          rw [List.length_drop] at h3
          exact ⟨by omega, List.mem_append_right _ (List.mem_cons_of_mem _ h4)⟩
    · cases h

theorem missing_lt : ∀ (g : List (Option Tx)) (k : Nat),
    (missing k g).Pairwise (· < ·) ∧ ∀ i ∈ missing k g, k ≤ i ∧ i < k + g.length
  | [], k => by simp [missing]
  | some t :: g, k => by
    obtain ⟨h1, h2⟩ := missing_lt g (k + 1)
    refine ⟨h1, fun i hi => ?_⟩
    have := h2 i hi
    simp only [List.length_cons]
    omega
  | none :: g, k => by
    obtain ⟨h1, h2⟩ := missing_lt g (k + 1)
    refine ⟨List.pairwise_cons.2 ⟨fun i hi => ?_, h1⟩, fun i hi => ?_⟩
    · have := h2 i hi; omega
    · simp only [missing, List.mem_cons] at hi
      simp only [List.length_cons]
      rcases hi with rfl | hi
      · omega
      · have := h2 i hi; omega

theorem fill_missing : ∀ (g : List (Option Tx)) (l pre : List Tx) (ts : List Tx), g.length = l.length →
    (∀ p ∈ g.zip l, p.1 = none ∨ p.1 = some p.2) →
    (missing pre.length g).map (fun i => (pre ++ l)[i]?) = ts.map some → fill g ts = some l
  | [], [], _, ts, _, _, _ => rfl
  | [], _ :: _, _, _, h, _, _ => by simp at h
  | _ :: _, [], _, _, h, _, _ => by simp at h
  | some t :: g, x :: l, pre, ts, h, ha, hm => by
    have ht : t = x := by simpa using ha (some t, x) (by simp)
    subst ht
    rw [fill, fill_missing g l (pre ++ [t]) ts (by simpa using h) (fun p hp => ha p (by simp [hp]))
      (by simpa [missing] using hm)]
    rfl
  | none :: g, x :: l, pre, ts, h, ha, hm => by
    simp only [missing, List.map_cons] at hm
    cases ts with
    | nil => simp at hm
    | cons t ts =>
      simp only [List.map_cons, List.cons.injEq] at hm
      have ht : x = t := by simpa using hm.1
      subst ht
      rw [fill, fill_missing g l (pre ++ [x]) ts (by simpa using h) (fun p hp => ha p (by simp [hp]))
        (by simpa using hm.2)]
      rfl

theorem le_sum_take : ∀ (l : List Nat) (i : Nat) (h : i < l.length), l[i] ≤ (l.take (i + 1)).sum
  | a :: l, 0, _ => by simp
  | a :: l, i + 1, h => by
    have := le_sum_take l i (by simpa using h)
    simp only [List.getElem_cons_succ, List.take_succ_cons, List.sum_cons]
    omega

/-- A request for increasing positions of a block of at most 65535 transactions: what it decodes to and its bounds. -/
theorem ask_ok (checks : Bool) (bh : Arr 32) (l : List Nat) (n : Nat) (hl : l.Pairwise (· < ·)) (hb : ∀ i ∈ l, i < n) (hn : n ≤ 65535) :
    ∃ r, fromUnsortedIndices checks bh l = some r ∧ r.blockHash = bh ∧ r.indices = .ok l ∧ r.offsets.length ≤ 4000000 ∧
      ∀ o ∈ r.offsets, o ≤ 0x02000000 := by
  obtain ⟨r, l', h1, h2, h3, h4, h5⟩ := C27_round_trip checks bh l (hl.imp fun h => Nat.ne_of_lt h) (fun x hx => by have := hb x hx; omega)
  have hll : l' = l := h5.eq_of_pairwise (fun a b _ _ hab hba => by omega) h4 hl
  subst hll
  have h6 := ((C27_indices r l').1 h3).2
  have hlen : l'.length = r.offsets.length := by rw [h6]; simp
  have h7 : ∀ i (h : i < r.offsets.length), r.offsets[i] < n := by
    intro i hi
    have hm : (r.offsets.take (i + 1)).sum + i ∈ l' := by
      rw [h6]
      exact List.mem_map.2 ⟨i, List.mem_range.2 hi, rfl⟩
    have := hb _ hm
    have := le_sum_take r.offsets i hi
    omega
  have hle : l'.length ≤ n := by
    have := strict_length l' 0 n hl (fun q hq => ⟨Nat.zero_le _, hb q hq⟩)
    omega
  refine ⟨r, h1, h2, h3, by omega, fun o ho => ?_⟩
  obtain ⟨i, hi, rfl⟩ := List.getElem_of_mem ho
  have := h7 i hi
  omega

theorem answer_ok (r : Request) (b : Block) (l : List Nat) (h : r.indices = .ok l) (hl : ∀ i ∈ l, i < b.txs.length) :
    ∃ t, fromRequest r b = .ok t ∧ t.blockHash = r.blockHash ∧ l.map (fun i => b.txs[i]?) = t.txs.map some := by
  cases hf : fromRequest r b with
  | ok t =>
    obtain ⟨l', h1, h2, h3⟩ := ((C27_from_request r b).1 t).1 hf
    rw [h] at h1
    cases h1
    exact ⟨t, rfl, h2, h3⟩
  | error e =>
    exfalso
    rcases ((C27_from_request r b).2 e).1 hf with h1 | ⟨l', h1, h2⟩
    · rw [h] at h1; cases h1
    · rw [h] at h1
      cases h1
      have h3 := List.find?_some h2
      have h4 := hl e (List.mem_of_find?_eq_some h2)
      simp only [decide_eq_true_eq] at h3
      omega

theorem zip_mapIdx_slots {out : List (Tx ⊕ Arr 6)} {l : List Tx} {f : Nat → Tx → Option (Tx ⊕ Arr 6)} (h : l.mapIdx f = out.map some) :
    out.length = l.length ∧ ∀ p ∈ out.zip l, ∃ i, f i p.2 = some p.1 := by
  have hlen : out.length = l.length := by simpa using (congrArg List.length h).symm
  refine ⟨hlen, fun p hp => ?_⟩
  obtain ⟨i, hi, rfl⟩ := List.getElem_of_mem hp
  simp only [List.length_zip] at hi
  have := congrArg (fun x => x[i]?) h
  simp only [List.getElem?_mapIdx, List.getElem?_map] at this
  rw [List.getElem?_eq_getElem (by omega), List.getElem?_eq_getElem (by omega)] at this
  simp only [Option.map_some, Option.some.injEq] at this
  exact ⟨i, by simpa using this⟩

/-! ### C102 -/

/-- A node sends the compact block of a block (version 2, any prefilled positions); the receiver, with a pool in which no
other transaction has the short id of one in the block, asks for what it does not have, and the answer gives it the
block.  All messages go through their encodings. -/
theorem C102_relay (sip : Nat → Nat → Bytes → Nat) (H1 H : Bytes → Arr 32) (checks : Bool) (b : Block) (nonce : UInt64)
    (prefill : List Nat) (hn : b.txs.length ≤ 65535) (hp : prefill.Pairwise (· < ·)) (hb : ∀ p ∈ prefill, p < b.txs.length)
    (hd : ∀ t ∈ b.txs, Decodable t) (pool : List Tx)
    (hpool : ∀ m ∈ pool, ∀ t ∈ b.txs, IdOf sip H1 H b.header nonce 2 m = IdOf sip H1 H b.header nonce 2 t → m = t) :
    ∃ c w1 g r w2 r' a w3,
      fromBlock sip H1 H b nonce 2 prefill = some (.ok c) ∧ Drains compactEnc c.encoder w1 ∧
      receive sip H1 H pool w1 = some (b.header, g) ∧
      (∀ i, i ∈ missing 0 g → ∃ t, b.txs[i]? = some t ∧ t ∉ pool ∧ i ≠ 0 ∧ i ∉ prefill) ∧
      fromUnsortedIndices checks (b.header.blockHash H) (missing 0 g) = some r ∧ Drains requestEnc r.encoder w2 ∧
      requestDec.decodeSlice w2 = .ok r' ∧ fromRequest r' b = .ok a ∧ Drains blockTxsEnc a.encoder w3 ∧
      finish b.header g w3 = some b ∧ (missing 0 g = [] → fill g [] = some b.txs) := by
  obtain ⟨c, out, h1, h2, h3, h4, h5⟩ := C28_covers_partial sip H1 H b nonce 2 prefill (.inr rfl) (by omega) hp hb
    (fun t ht => (C28_ids sip H1 H b.header nonce t).2 (hd t ht))
  obtain ⟨hlen, hslots⟩ := zip_mapIdx_slots h5
  obtain ⟨hcount, hpre⟩ := rebuild_facts _ _ _ h4
  rw [List.length_map] at hcount
  have hinl : ∀ t, (.inl t : Tx ⊕ Arr 6) ∈ out → t ∈ b.txs := by
    intro t ht
    obtain ⟨i, hi, he⟩ := List.getElem_of_mem ht
    have hz : (out[i], b.txs[i]'(by omega)) ∈ out.zip b.txs :=
      List.mem_of_getElem? (i := i) (by rw [List.getElem?_zip_eq_some]; exact ⟨List.getElem?_eq_getElem hi, List.getElem?_eq_getElem (by omega)⟩)
    obtain ⟨j, hj⟩ := hslots _ hz
    simp only at hj
    rw [he] at hj
    split at hj
    · simp only [Sent, Nat.reduceEqDiff, if_false, Option.some.injEq, Sum.inl.injEq] at hj
      rw [← hj]
      exact List.getElem_mem _
    · simp only [Option.map_eq_some_iff] at hj
      obtain ⟨s, _, hs⟩ := hj
      cases hs
  have w1ok : compactDec.decodeSlice (compactBytes c) = .ok c := by
    refine (C61_compact _ c).1.2 ⟨compactEnc_drains c, by omega, fun p hp => ?_⟩
    obtain ⟨h6, h7⟩ := hpre (p.idx, p.tx) (List.mem_map.2 ⟨p, hp, rfl⟩)
    simp only at h6 h7
    exact ⟨by omega, hd _ (hinl _ h7)⟩
  have hid : idOf sip H (sipKeys H1 b.header nonce) 2 = IdOf sip H1 H b.header nonce 2 := rfl
  have hrec : receive sip H1 H pool (compactBytes c) =
      some (b.header, out.map (guess (IdOf sip H1 H b.header nonce 2) pool)) := by
    unfold receive
    rw [w1ok]
    simp only
    rw [h4, h2, h3, hid]
    rfl
  have hagree : ∀ p ∈ (out.map (guess (IdOf sip H1 H b.header nonce 2) pool)).zip b.txs, p.1 = none ∨ p.1 = some p.2 := by
    intro p hp
    rw [List.zip_map_left, List.mem_map] at hp
    obtain ⟨⟨o, t⟩, ho, rfl⟩ := hp
    have htm : t ∈ b.txs := (List.of_mem_zip ho).2
    obtain ⟨i, hi⟩ := hslots _ ho
    simp only [Prod.map_fst, Prod.map_snd, id_eq]
    split at hi
    · simp only [Sent, Nat.reduceEqDiff, if_false, Option.some.injEq] at hi
      rw [← hi]
      exact .inr rfl
    · simp only [Option.map_eq_some_iff] at hi
      obtain ⟨s, hs, rfl⟩ := hi
      simp only [guess]
      cases hf : pool.find? (fun t => IdOf sip H1 H b.header nonce 2 t == some s) with
      | none => exact .inl rfl
      | some m =>
        have h8 := List.find?_some hf
        rw [hpool m (List.mem_of_find?_eq_some hf) t htm (by rw [hs]; exact eq_of_beq h8)]
        exact .inr rfl
  obtain ⟨hm1, hm2⟩ := missing_lt (out.map (guess (IdOf sip H1 H b.header nonce 2) pool)) 0
  have hglen : (out.map (guess (IdOf sip H1 H b.header nonce 2) pool)).length = b.txs.length := by rw [List.length_map, hlen]
  have hm3 : ∀ i ∈ missing 0 (out.map (guess (IdOf sip H1 H b.header nonce 2) pool)), i < b.txs.length := fun i hi => by
    have := (hm2 i hi).2; omega
  have mnone : ∀ (g : List (Option Tx)) k i, i ∈ missing k g → g[i - k]? = some none ∧ k ≤ i := by
    intro g
    induction g with
    | nil => intro k i h; simp [missing] at h
    | cons x g ih =>
      intro k i h
      have step : i ∈ missing (k + 1) g → (x :: g)[i - k]? = some none ∧ k ≤ i := by
        intro h
        obtain ⟨h1, h2⟩ := ih (k + 1) i h
        have : i - k = (i - (k + 1)) + 1 := by omega
        rw [this, List.getElem?_cons_succ]
        exact ⟨h1, by omega⟩
      cases x with
      | some t => exact step h
      | none =>
        rcases List.mem_cons.1 h with rfl | h
        · exact ⟨by simp, by omega⟩
        · exact step h
  obtain ⟨r, r1, r2, r3, r4, r5⟩ := ask_ok checks (b.header.blockHash H) _ b.txs.length hm1 hm3 hn
  obtain ⟨a, a1, a2, a3⟩ := answer_ok r b _ r3 hm3
  have hfill : fill (out.map (guess (IdOf sip H1 H b.header nonce 2) pool)) a.txs = some b.txs :=
    fill_missing _ b.txs [] a.txs hglen hagree (by simpa using a3)
  have hal : a.txs.length ≤ 4000000 := by
    have e : a.txs.length = (missing 0 (out.map (guess (IdOf sip H1 H b.header nonce 2) pool))).length := by
      simpa using (congrArg List.length a3).symm
    have := strict_length _ 0 b.txs.length hm1 (fun q hq => ⟨Nat.zero_le _, hm3 q hq⟩)
    omega
  have had : ∀ t ∈ a.txs, Decodable t := by
    intro t ht
    have : some t ∈ a.txs.map some := List.mem_map.2 ⟨t, ht, rfl⟩
    rw [← a3] at this
    obtain ⟨i, _, hi⟩ := List.mem_map.1 this
    exact hd t (List.mem_of_getElem? hi)
  refine ⟨c, compactBytes c, _, r, requestBytes r, r, a, blockTxsBytes a, h1, compactEnc_drains c, hrec, ?_, r1, requestEnc_drains r,
    (C61_request _ r).1.2 ⟨requestEnc_drains r, r4, r5⟩, a1, blockTxsEnc_drains a, ?_, ?_⟩
  · intro i hi
    have hil := hm3 i hi
    obtain ⟨h6, _⟩ := mnone _ _ _ hi
    rw [Nat.sub_zero, List.getElem?_map, Option.map_eq_some_iff] at h6
    obtain ⟨o, ho, hg⟩ := h6
    have h7 := congrArg (fun x => x[i]?) h5
    simp only [List.getElem?_mapIdx, List.getElem?_map, ho, List.getElem?_eq_getElem hil, Option.map_some,
      Option.some.injEq] at h7
    refine ⟨b.txs[i], List.getElem?_eq_getElem hil, ?_⟩
    split at h7
    · cases h7
      simp [guess] at hg
    · next hno =>
      simp only [Option.map_eq_some_iff] at h7
      obtain ⟨s, hs, rfl⟩ := h7
      simp only [guess] at hg
      refine ⟨fun hmem => ?_, fun h => hno (.inl h), fun h => hno (.inr h)⟩
      have := List.find?_eq_none.1 hg _ hmem
      exact this (by rw [hs]; exact BEq.rfl)
  · unfold finish
    rw [(C61_block_transactions _ a).1.2 ⟨blockTxsEnc_drains a, hal, had⟩]
    simp only [hfill, Option.map_some]
  · intro h0
    have : a.txs = [] := by
      rw [h0] at a3
      simpa using a3.symm
    rw [this] at hfill
    exact hfill

/-- Whatever the peers send and whatever is in the pool: if what the receiver puts together passes validation and has the
hash of a valid block, it is that block. -/
theorem C102_accept (sip : Nat → Nat → Bytes → Nat) (H1 H : Bytes → Arr 32) (pool : List Tx) (w1 w3 : Bytes) (h : Header)
    (g : List (Option Tx)) (_hr : receive sip H1 H pool w1 = some (h, g)) (got : Block) (hg : finish h g w3 = some got)
    (b : Block) (rb rg : Option (Arr 32)) (hb : b.validate H = some (.ok rb)) (hv : got.validate H = some (.ok rg))
    (hh : h.blockHash H = b.header.blockHash H)
    (hd : ∀ t ∈ got.txs ++ b.txs, Decodable t ∧ WitnessesFit t) (h64 : ∀ t ∈ got.txs ++ b.txs, (txBytes false t).length ≠ 64) :
    got = b ∨ Collision H (blockInputs H got ++ blockInputs H b) := by
  refine C101_block H got b rg rb hv hb ?_ hd h64
  unfold finish at hg
  split at hg
  · simp only [Option.map_eq_some_iff] at hg
    obtain ⟨txs, _, rfl⟩ := hg
    exact hh
  · cases hg

/-! ### Examples -/

/-- A block of three transactions; the receiver has the last one and one that is not in the block. -/
def otherTx : Tx := { tx64 with version := 3, lockTime := 5 }
def relayBlock : Block := ⟨sampleHeader, [cb64, fakeTx, otherTx]⟩
def relayPool : List Tx := [{ otherTx with lockTime := 6 }, otherTx]
def relaySip (k0 k1 : Nat) (x : Bytes) : Nat := (k0 + k1 + leNat (x.take 8)) % 2 ^ 64

theorem relay_decodable : ∀ t ∈ relayBlock.txs, Decodable t := by
  have h : ∀ t, t = cb64 ∨ t = fakeTx ∨ t = otherTx → Decodable t := by
    rintro t (rfl | rfl | rfl) <;>
      exact (Unique.plain (by decide) (by decide) (by decide) (by decide) (by decide) (by decide) (by decide)).1
  intro t ht
  exact h t (by simpa [relayBlock] using ht)

theorem relay_pool : ∀ m ∈ relayPool, ∀ t ∈ relayBlock.txs,
    IdOf relaySip Genesis.sha256d Genesis.sha256d relayBlock.header 9 2 m =
      IdOf relaySip Genesis.sha256d Genesis.sha256d relayBlock.header 9 2 t → m = t := by decide +kernel

example := C102_relay relaySip Genesis.sha256d Genesis.sha256d true relayBlock 9 [] (by decide) (by simp) (by simp)
  relay_decodable relayPool relay_pool

/-- In it exactly the second transaction is asked for. -/
example : (fromBlock relaySip Genesis.sha256d Genesis.sha256d relayBlock 9 2 []).bind (fun
    | .ok c => (receive relaySip Genesis.sha256d Genesis.sha256d relayPool (compactBytes c)).map fun x => missing 0 x.2
    | _ => none) = some [1] := by decide +kernel

deriving instance DecidableEq for Prefilled, Compact, Block

/-- The condition on the pool is needed: with a hash under which all short ids are equal, the wrong transaction is taken,
nothing is asked for, and the result is not the block (and does not validate, `C102_accept`). -/
theorem C102_ambiguous : ∃ (sip : Nat → Nat → Bytes → Nat) (c : Compact) (g : List (Option Tx)) (l : List Tx),
    fromBlock sip Genesis.sha256d Genesis.sha256d twoBlock 9 2 [] = some (.ok c) ∧
    receive sip Genesis.sha256d Genesis.sha256d [otherTx] (compactBytes c) = some (twoBlock.header, g) ∧ missing 0 g = [] ∧
    fill g [] = some l ∧ l ≠ twoBlock.txs ∧
    (⟨twoBlock.header, l⟩ : Block).validate Genesis.sha256d = some (.error .invalidMerkleRoot) :=
  ⟨fun _ _ _ => 0, ⟨twoBlock.header, 9, [⟨List.replicate 6 0, by simp⟩], [⟨0, cb64⟩]⟩, [some cb64, some otherTx], [cb64, otherTx],
    by decide +kernel, by decide +kernel, rfl, rfl, by decide +kernel, by decide +kernel⟩

/-- An answer that makes the receiver's block of `twoBlock`'s header valid: it is `twoBlock`. -/
example : (receive relaySip Genesis.sha256d Genesis.sha256d [] (compactBytes ⟨twoBlock.header, 9, [⟨List.replicate 6 0, by simp⟩], [⟨0, cb64⟩]⟩)).bind
    (fun x => finish x.1 x.2 (blockTxsBytes ⟨twoBlock.header.blockHash Genesis.sha256d, [fakeTx]⟩)) = some twoBlock := by decide +kernel
example (w1 w3 : Bytes) (g : List (Option Tx)) (hr : receive relaySip Genesis.sha256d Genesis.sha256d relayPool w1 = some (twoBlock.header, g))
    (hg : finish twoBlock.header g w3 = some twoBlock) :
    twoBlock = twoBlock ∨ Collision Genesis.sha256d (blockInputs Genesis.sha256d twoBlock ++ blockInputs Genesis.sha256d twoBlock) :=
  C102_accept relaySip Genesis.sha256d Genesis.sha256d relayPool w1 w3 twoBlock.header g hr twoBlock hg twoBlock none none
    twoBlock_valid twoBlock_valid rfl two_plain (by decide +kernel)

end Bip152
end Btc
