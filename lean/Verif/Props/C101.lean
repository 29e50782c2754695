import Verif.Props.C100
/-!
# C101: a block hash identifies one valid block
-/
namespace Btc

namespace Merkle
variable {α : Type} [DecidableEq α] (c : α → α → α)

omit [DecidableEq α] in
theorem mem_level : ∀ (l : List α) (y : α), y ∈ level c l → ∃ p ∈ pairs l, y = c p.1 p.2
  | [], y, h => by simp [level] at h
  | [a], y, h => by
    simp only [level, List.mem_singleton] at h
    exact ⟨(a, a), by simp [pairs], h⟩
  | a :: b :: t, y, h => by
    simp only [level, List.mem_cons] at h
    rcases h with h | h
    · exact ⟨(a, b), by simp [pairs], h⟩
    · obtain ⟨p, hp, e⟩ := mem_level t y h
      exact ⟨p, by simp [pairs, hp], e⟩

omit [DecidableEq α] in
theorem pairs_fst : ∀ (l : List α) (p : α × α), p ∈ pairs l → p.1 ∈ l
  | [], p, h => by simp [pairs] at h
  | [a], p, h => by
    simp only [pairs, List.mem_singleton] at h
    simp [h]
  | a :: b :: t, p, h => by
    simp only [pairs, List.mem_cons] at h
    rcases h with h | h
    · simp [h]
    · have := pairs_fst t p h
      simp [this]

omit [DecidableEq α] in
/-- The left nodes of the pairs above the leaves are themselves parents. -/
theorem combined_level_fst : ∀ (n : Nat) (m : List α), m.length = n → ∀ x ∈ combined c (level c m), 1 < m.length →
    ∃ z ∈ combined c m, x.1 = c z.1 z.2 := by
  intro n
  induction n using Nat.strongRecOn with
  | ind n ih =>
    intro m hm x hx h1
    by_cases h2 : 1 < (level c m).length
    · rw [combined_eq c h2, List.mem_append] at hx
      rcases hx with hx | hx
      · obtain ⟨z, hz, e⟩ := mem_level c m x.1 (pairs_fst _ _ hx)
        exact ⟨z, by rw [combined_eq c h1]; exact List.mem_append_left _ hz, e⟩
      · obtain ⟨z, hz, e⟩ := ih (level c m).length (by rw [level_length]; omega) (level c m) rfl x hx h2
        exact ⟨z, by rw [combined_eq c h1]; exact List.mem_append_right _ hz, e⟩
    · exfalso
      match hl : level c m, h2 with
      | [], _ => rw [hl, combined] at hx; cases hx
      | [_], _ => rw [hl, combined] at hx; cases hx
      | _ :: _ :: _, h2 => simp at h2

omit [DecidableEq α] in
theorem root_combined : ∀ (n : Nat) (m : List α), m.length = n → 1 < m.length → ∀ r, root c m = some r →
    ∃ x ∈ combined c m, r = c x.1 x.2 := by
  intro n
  induction n using Nat.strongRecOn with
  | ind n ih =>
    intro m hm h1 r hr
    rw [root_eq c h1] at hr
    by_cases h2 : 1 < (level c m).length
    · obtain ⟨x, hx, e⟩ := ih _ (by rw [level_length]; omega) _ rfl h2 r hr
      exact ⟨x, by rw [combined_eq c h1]; exact List.mem_append_right _ hx, e⟩
    · match hl : level c m, h2 with
      | [], _ => rw [hl, root] at hr; cases hr
      | [y], _ =>
        rw [hl, root] at hr
        cases hr
        obtain ⟨p, hp, e⟩ := mem_level c m r (by rw [hl]; simp)
        exact ⟨p, by rw [combined_eq c h1]; exact List.mem_append_left _ hp, e⟩
      | _ :: _ :: _, h2 => simp at h2

/-- Trees of different heights with the same root: a leaf of the lower one is a parent in the higher one. -/
theorem root_cross : ∀ (h h' : Nat) (l m : List α) (r : α), h < h' →
    2 ^ h < 2 * l.length → l.length ≤ 2 ^ h → 2 ^ h' < 2 * m.length → m.length ≤ 2 ^ h' →
    root c l = some r → root c m = some r →
    Clash c (combined c l ++ combined c m) ∨ ∃ y ∈ l, ∃ x ∈ combined c m, y = c x.1 x.2 := by
  intro h
  induction h with
  | zero =>
    intro h' l m r hh hl1 hl2 hm1 hm2 hrl hrm
    have h1m : 1 < m.length := by
      have : 2 ^ 1 ≤ 2 ^ h' := Nat.pow_le_pow_right (by omega) hh
      omega
    match l, hl1, hl2, hrl with
    | [a], _, _, hrl =>
      rw [root] at hrl
      cases hrl
      obtain ⟨x, hx, e⟩ := root_combined c _ m rfl h1m _ hrm
      exact .inr ⟨_, List.mem_singleton.2 rfl, x, hx, e⟩
    | [], hl1, _, _ => simp at hl1
    | _ :: _ :: _, _, hl2, _ => simp at hl2
  | succ h ih =>
    intro h' l m r hh hl1 hl2 hm1 hm2 hrl hrm
    obtain ⟨k, rfl⟩ : ∃ k, h' = k + 1 := ⟨h' - 1, by omega⟩
    have hpow : 2 ^ (h + 1) = 2 ^ h * 2 := Nat.pow_succ 2 h
    have hpow' : 2 ^ (k + 1) = 2 ^ k * 2 := Nat.pow_succ 2 k
    have hp : 0 < 2 ^ h := Nat.pow_pos (by omega)
    have hp' : 0 < 2 ^ k := Nat.pow_pos (by omega)
    have h1l : 1 < l.length := by omega
    have h1m : 1 < m.length := by omega
    rw [root_eq c h1l] at hrl
    rw [root_eq c h1m] at hrm
    have hll := level_length c l
    have hlm := level_length c m
    rcases ih k (level c l) (level c m) r (by omega) (by omega) (by omega) (by omega) (by omega) hrl hrm with h | ⟨y, hy, x, hx, e⟩
    · refine .inl (h.mono fun x hx => ?_)
      rw [combined_eq c h1l, combined_eq c h1m]
      simp only [List.mem_append] at hx ⊢
      exact hx.imp .inr .inr
    · obtain ⟨p, hp, e'⟩ := mem_level c l y hy
      by_cases hpx : p = x
      · obtain ⟨z, hz, e2⟩ := combined_level_fst c _ m rfl x hx h1m
        exact .inr ⟨p.1, pairs_fst l p hp, z, hz, by rw [hpx, e2]⟩
      · refine .inl ⟨p, ?_, x, ?_, hpx, by rw [← e, ← e']⟩
        · rw [combined_eq c h1l]
          exact List.mem_append_left _ (List.mem_append_left _ hp)
        · rw [combined_eq c h1m]
          exact List.mem_append_right _ (List.mem_append_right _ hx)

theorem exists_height (n : Nat) (hn : 0 < n) : ∃ h, 2 ^ h < 2 * n ∧ n ≤ 2 ^ h := by
  induction n with
  | zero => omega
  | succ n ih =>
    rcases Nat.eq_zero_or_pos n with h0 | h0
    · exact ⟨0, by omega, by omega⟩
    · obtain ⟨h, h1, h2⟩ := ih h0
      by_cases hle : n + 1 ≤ 2 ^ h
      · exact ⟨h, by omega, hle⟩
      · exact ⟨h + 1, by rw [Nat.pow_succ]; omega, by rw [Nat.pow_succ]; omega⟩

end Merkle

/-- What is hashed for the wtxids. -/
def fullBytes (t : Tx) : Bytes := txBytes t.usesSegwit t

/-- The leaves of the witness tree: zeros for the coinbase, the wtxids of the others. -/
def witnessLeaves (H : Bytes → Arr 32) (b : Block) : List (Arr 32) :=
  zeroHash :: (b.txs.drop 1).map fun t => H (fullBytes t)

/-- The string hashed for the witness commitment: the witness root and the reserved value in the coinbase. -/
def commitmentInputs (H : Bytes → Arr 32) (b : Block) : List Bytes :=
  match Merkle.root (combineH H) (witnessLeaves H b), b.txs with
  | some r, cb :: _ => (cb.inputs.map fun i => (i.witness.toVec.getD []).map fun reserved => r.1 ++ reserved).flatten
  | _, _ => []

/-- All the strings hashed when a block is validated and identified. -/
def blockInputs (H : Bytes → Arr 32) (b : Block) : List Bytes :=
  headerBytes b.header :: (merkleInputs H (blockTxids H b) ++ b.txs.map (txBytes false) ++
    merkleInputs H (witnessLeaves H b) ++ b.txs.map fullBytes ++ commitmentInputs H b)

namespace Unique
variable {H : Bytes → Arr 32}

theorem lens {t : Tx} (h : Decodable t) : TxLens t :=
  ⟨by have := h.counts.1; omega, by have := h.counts.2; omega, fun i hi => by have := h.scripts.1 i hi; omega,
    fun o ho => by have := h.scripts.2 o ho; omega⟩

/-- Lists of equal ids: the elements correspond, or there is a collision among what was hashed. -/
theorem pointwise {α : Type} (f : α → Bytes) (R : α → α → Prop) (P : α → Prop)
    (key : ∀ a b, P a → P b → f a = f b → R a b) :
    ∀ (l m : List α), (∀ a ∈ l, P a) → (∀ a ∈ m, P a) → l.map (fun a => H (f a)) = m.map (fun a => H (f a)) →
      (l.length = m.length ∧ ∀ p ∈ l.zip m, R p.1 p.2) ∨ Collision H (l.map f ++ m.map f)
  | [], [], _, _, _ => .inl ⟨rfl, by simp⟩
  | [], _ :: _, _, _, h => by simp at h
  | _ :: _, [], _, _, h => by simp at h
  | a :: l, b :: m, hl, hm, h => by
    simp only [List.map_cons, List.cons.injEq] at h
    by_cases he : f a = f b
    · rcases pointwise f R P key l m (fun x hx => hl x (List.mem_cons_of_mem _ hx)) (fun x hx => hm x (List.mem_cons_of_mem _ hx)) h.2 with ⟨h1, h2⟩ | hc
      · refine .inl ⟨by simp [h1], ?_⟩
        intro p hp
        rw [List.zip_cons_cons, List.mem_cons] at hp
        rcases hp with rfl | hp
        · exact key a b (hl a List.mem_cons_self) (hm b List.mem_cons_self) he
        · exact h2 p hp
      · refine .inr (hc.mono fun x hx => ?_)
        simp only [List.map_cons, List.mem_append, List.mem_cons] at hx ⊢
        exact hx.imp .inr .inr
    · exact .inr ⟨f a, by simp, f b, by simp, he, h.1⟩

theorem zip_eq {α : Type} : ∀ (l m : List α), l.length = m.length → (∀ p ∈ l.zip m, p.1 = p.2) → l = m
  | [], [], _, _ => rfl
  | [], _ :: _, h, _ => by simp at h
  | _ :: _, [], h, _ => by simp at h
  | a :: l, b :: m, h, hp => by
    have h1 : a = b := hp (a, b) (by simp)
    rw [h1, zip_eq l m (by simpa using h) fun p hpm => hp p (by simp [hpm])]

theorem wtxid_bytes {t : Tx} (ht : Decodable t) : t.wtxid H = some (H (fullBytes t)) := by
  unfold Tx.wtxid fullBytes
  cases hs : t.usesSegwit with
  | false => rw [hashTxInput_false]; rfl
  | true =>
    rw [hashTxInput_true t (fun i hi => ?_)]
    · rfl
    · obtain ⟨l, h1, h2⟩ := ht.witnesses i hi
      exact hashWitness_good h1.fits h1.sizes h2

theorem mapM_wtxid (l : List Tx) (h : ∀ t ∈ l, Decodable t) :
    l.mapM (Tx.wtxid H) = some (l.map fun t => H (fullBytes t)) := by
  induction l with
  | nil => rfl
  | cons a l ih =>
    rw [List.mapM_cons, ih fun t ht => h t (List.mem_cons_of_mem _ ht), wtxid_bytes (h a List.mem_cons_self)]
    rfl

theorem roots (l m : List (Arr 32)) (r : Arr 32) (hl : IsMerkleRoot H l r) (hm : IsMerkleRoot H m r) (S : List Bytes)
    (hS : ∀ x, x ∈ merkleInputs H l ++ merkleInputs H m → x ∈ S)
    (leaf : ∀ y ∈ l ++ m, ∃ s ∈ S, s.length ≠ 64 ∧ y = H s) : l = m ∨ Collision H S := by
  have ne : ∀ l : List (Arr 32), IsMerkleRoot H l r → 0 < l.length := by
    intro l hl
    cases l with
    | nil => have := hl.1; rw [Merkle.root] at this; cases this
    | cons a t => simp
  obtain ⟨h, h1, h2⟩ := Merkle.exists_height _ (ne l hl)
  obtain ⟨h', h3, h4⟩ := Merkle.exists_height _ (ne m hm)
  have cross : ∀ (l m : List (Arr 32)), (∀ x, x ∈ merkleInputs H l ++ merkleInputs H m → x ∈ S) →
      (∀ y ∈ l, ∃ s ∈ S, s.length ≠ 64 ∧ y = H s) →
      (Merkle.Clash (combineH H) (Merkle.combined (combineH H) l ++ Merkle.combined (combineH H) m) ∨
        ∃ y ∈ l, ∃ x ∈ Merkle.combined (combineH H) m, y = combineH H x.1 x.2) → Collision H S := by
    intro l m hS hleaf hc
    rcases hc with hc | ⟨y, hy, x, hx, e⟩
    · refine (clash_collision H _ hc).mono fun s hs => hS s ?_
      unfold pairBytes at hs
      rw [List.map_append] at hs
      exact hs
    · obtain ⟨s, hs, hs64, rfl⟩ := hleaf y hy
      refine ⟨s, hs, x.1.1 ++ x.2.1, hS _ (List.mem_append_right _ (List.mem_map.2 ⟨x, hx, rfl⟩)), fun he => hs64 ?_, e⟩
      rw [he, List.length_append, x.1.2, x.2.2]
  rcases Nat.lt_trichotomy h h' with hlt | heq | hgt
  · exact .inr (cross l m hS (fun y hy => leaf y (List.mem_append_left _ hy))
      (Merkle.root_cross (combineH H) h h' l m r hlt h1 h2 h3 h4 hl.1 hm.1))
  · subst heq
    refine (C21_commits H h l m r ⟨h1, h2⟩ ⟨h3, h4⟩ ((merkleRootOf_iff _ _ _).2 hl) ((merkleRootOf_iff _ _ _).2 hm)).imp id
      fun hc => hc.mono hS
  · refine .inr (cross m l (fun x hx => hS x ?_) (fun y hy => leaf y (List.mem_append_right _ hy))
      (Merkle.root_cross (combineH H) h' h m l r hgt h3 h4 h1 h2 hm.1 hl.1))
    simp only [List.mem_append] at hx ⊢
    exact hx.symm

theorem same_of_witness {a b : Tx} (h : a.sameExceptWitness b)
    (hw : a.inputs.map (·.witness) = b.inputs.map (·.witness)) : a = b := by
  obtain ⟨h1, h2, h3, h4⟩ := h
  have key : ∀ (l m : List TxIn), l.map (fun i => (i.prev, i.scriptSig, i.sequence)) = m.map (fun i => (i.prev, i.scriptSig, i.sequence)) →
      l.map (·.witness) = m.map (·.witness) → l = m := by
    intro l
    induction l with
    | nil => intro m h _; cases m with
      | nil => rfl
      | cons => simp at h
    | cons i l ih =>
      intro m h hw
      cases m with
      | nil => simp at h
      | cons j m =>
        simp only [List.map_cons, List.cons.injEq, Prod.mk.injEq] at h hw
        rw [ih m h.2 hw.2]
        congr 1
        cases i; cases j
        simp_all
  have := key _ _ h4 hw
  cases a; cases b
  simp_all

theorem lastCommitment_unique {outs : List TxOut} {x y : Bytes} (cb : Tx) (ho : cb.outputs = outs) (hcb : cb.isCoinbase = true)
    (hx : LastCommitment outs x) (hy : LastCommitment outs y) : x = y := by
  subst ho
  have h1 := (witnessCommitment_some cb hcb x).2 hx
  have h2 := (witnessCommitment_some cb hcb y).2 hy
  rw [h1] at h2
  exact Option.some.inj h2

theorem free_same {a b : Tx} (h : a.sameExceptWitness b) (ha : WitnessFree a) (hb : WitnessFree b) : a = b := by
  refine same_of_witness h ?_
  have hlen : a.inputs.length = b.inputs.length := by simpa using congrArg List.length h.2.2.2
  have key : ∀ (l m : List TxIn), l.length = m.length → (∀ i ∈ l, Wit.fromSlice [] = some i.witness) →
      (∀ i ∈ m, Wit.fromSlice [] = some i.witness) → l.map (·.witness) = m.map (·.witness) := by
    intro l
    induction l with
    | nil => intro m h _ _; cases m with
      | nil => rfl
      | cons => simp at h
    | cons i l ih =>
      intro m h hl hm
      cases m with
      | nil => simp at h
      | cons j m =>
        have h1 := hl i List.mem_cons_self
        rw [hm j List.mem_cons_self] at h1
        simp only [List.map_cons]
        rw [ih m (by simpa using h) (fun x hx => hl x (List.mem_cons_of_mem _ hx)) (fun x hx => hm x (List.mem_cons_of_mem _ hx)),
          Option.some.inj h1]
  exact key _ _ hlen ha hb

theorem toVec_single {reserved : Bytes} {w : Wit} (hl : reserved.length = 32) (h : Wit.fromSlice [reserved] = some w) :
    w.toVec = some [reserved] := by
  have hf : OffsetsFit [reserved] := WitFits.offsets ⟨by intro x hx; simp only [List.mem_singleton] at hx; subst hx; omega,
    by simp [elemsSize, csSize, hl]⟩
  rw [Wit.fromSlice_eq _ hf] at h
  cases h
  exact Wit.toVec_ofList _ hf (by intro x hx; simp only [List.mem_singleton] at hx; subst hx; omega)

end Unique

open Unique in
/-- Two valid blocks whose headers have the same merkle root have the same transactions, witnesses included. -/
theorem C101_transactions (H : Bytes → Arr 32) (a b : Block) (ra rb : Option (Arr 32))
    (ha : a.validate H = some (.ok ra)) (hb : b.validate H = some (.ok rb))
    (hr : a.header.merkleRoot = b.header.merkleRoot)
    (hd : ∀ t ∈ a.txs ++ b.txs, Decodable t ∧ WitnessesFit t) (h64 : ∀ t ∈ a.txs ++ b.txs, (txBytes false t).length ≠ 64) :
    a.txs = b.txs ∨ Collision H (blockInputs H a ++ blockInputs H b) := by
  have hda : ∀ t ∈ a.txs, Decodable t := fun t ht => (hd t (List.mem_append_left _ ht)).1
  have hdb : ∀ t ∈ b.txs, Decodable t := fun t ht => (hd t (List.mem_append_right _ ht)).1
  obtain ⟨cb, i, rest, ids, ea, ci, _, _, wa⟩ :=
    ((C22_validate H a fun t ht => (hd t (List.mem_append_left _ ht)).2).2 ra).1 ha
  obtain ⟨cb', i', rest', ids', eb, ci', _, _, wb⟩ :=
    ((C22_validate H b fun t ht => (hd t (List.mem_append_right _ ht)).2).2 rb).1 hb
  have hma := (merkleRootOf_iff H _ _).1 (validate_root H a ra ha)
  have hmb := (merkleRootOf_iff H _ _).1 (validate_root H b rb hb)
  rw [← hr] at hmb
  have memA : ∀ x, x ∈ blockInputs H a → x ∈ blockInputs H a ++ blockInputs H b := fun x hx => List.mem_append_left _ hx
  have memB : ∀ x, x ∈ blockInputs H b → x ∈ blockInputs H a ++ blockInputs H b := fun x hx => List.mem_append_right _ hx
  have parts : ∀ (b : Block) x, x ∈ merkleInputs H (blockTxids H b) ∨ x ∈ b.txs.map (txBytes false) ∨
      x ∈ merkleInputs H (witnessLeaves H b) ∨ x ∈ b.txs.map fullBytes ∨ x ∈ commitmentInputs H b → x ∈ blockInputs H b := by
    intro b x hx
    unfold blockInputs
    simp only [List.mem_cons, List.mem_append]
    rcases hx with h | h | h | h | h <;> simp [h]
  -- the ids
  rcases roots (H := H) _ _ _ hma hmb (blockInputs H a ++ blockInputs H b) (by
      intro x hx
      rcases List.mem_append.1 hx with hx | hx
      · exact memA x (parts a x (.inl hx))
      · exact memB x (parts b x (.inl hx))) (by
      intro y hy
      rcases List.mem_append.1 hy with hy | hy
      · obtain ⟨t, ht, rfl⟩ := List.mem_map.1 hy
        exact ⟨_, memA _ (parts a _ (.inr (.inl (List.mem_map.2 ⟨t, ht, rfl⟩)))), h64 t (List.mem_append_left _ ht), rfl⟩
      · obtain ⟨t, ht, rfl⟩ := List.mem_map.1 hy
        exact ⟨_, memB _ (parts b _ (.inr (.inl (List.mem_map.2 ⟨t, ht, rfl⟩)))), h64 t (List.mem_append_right _ ht), rfl⟩) with hids | hc
  rotate_left
  · exact .inr hc
  -- the transactions up to witnesses
  rcases pointwise (H := H) (txBytes false) Tx.sameExceptWitness TxLens (fun a b h1 h2 h3 => txBytes_false_inj h1 h2 h3)
      a.txs b.txs (fun t ht => lens (hda t ht)) (fun t ht => lens (hdb t ht)) hids with ⟨hlen, hsame⟩ | hc
  rotate_left
  · refine .inr (hc.mono fun x hx => ?_)
    rcases List.mem_append.1 hx with hx | hx
    · exact memA x (parts a x (.inr (.inl hx)))
    · exact memB x (parts b x (.inr (.inl hx)))
  have hcbs : cb.sameExceptWitness cb' := hsame (cb, cb') (by rw [ea, eb]; simp)
  have hcoin : cb.isCoinbase = true := (isCoinbase_iff cb).2 ⟨i, ci⟩
  have hout : cb.outputs = cb'.outputs := hcbs.2.2.1
  have hra : a.txs.drop 1 = rest := by rw [ea]; rfl
  have hrb : b.txs.drop 1 = rest' := by rw [eb]; rfl
  cases wa with
  | committed c res wids root found value len wtx tree hash =>
    cases wb with
    | absent missing free => exact absurd (hout ▸ found) (missing c)
    | committed c' res' wids' root' found' value' len' wtx' tree' hash' =>
      have hcc : c = c' := lastCommitment_unique cb rfl hcoin found (hout ▸ found')
      subst hcc
      have hwa : wids = rest.map fun t => H (fullBytes t) := by
        rw [mapM_wtxid rest fun t ht => hda t (by rw [ea]; exact List.mem_cons_of_mem _ ht)] at wtx
        exact (Option.some.inj wtx).symm
      have hwb : wids' = rest'.map fun t => H (fullBytes t) := by
        rw [mapM_wtxid rest' fun t ht => hdb t (by rw [eb]; exact List.mem_cons_of_mem _ ht)] at wtx'
        exact (Option.some.inj wtx').symm
      have la : (⟨List.replicate 32 0, List.length_replicate⟩ :: wids : List (Arr 32)) = witnessLeaves H a := by
        unfold witnessLeaves; rw [hra, hwa]; rfl
      have lb : (⟨List.replicate 32 0, List.length_replicate⟩ :: wids' : List (Arr 32)) = witnessLeaves H b := by
        unfold witnessLeaves; rw [hrb, hwb]; rfl
      rw [la] at tree
      rw [lb] at tree'
      by_cases hrr : root.1 ++ res = root'.1 ++ res'
      · obtain ⟨e1, e2⟩ := List.append_inj hrr (by rw [root.2, root'.2])
        have e1 : root = root' := Subtype.ext e1
        subst e1
        subst e2
        have hwl : (witnessLeaves H a).length = (witnessLeaves H b).length := by
          unfold witnessLeaves
          simp only [List.length_cons, List.length_map, List.length_drop, hlen]
        obtain ⟨h, h1, h2⟩ := Merkle.exists_height (witnessLeaves H a).length (by simp [witnessLeaves])
        rcases C21_commits H h _ _ root ⟨h1, h2⟩ ⟨hwl ▸ h1, hwl ▸ h2⟩ ((merkleRootOf_iff _ _ _).2 tree)
            ((merkleRootOf_iff _ _ _).2 tree') with he | hc
        · unfold witnessLeaves at he
          rw [List.cons.injEq, hra, hrb] at he
          rcases pointwise (H := H) fullBytes (· = ·) Decodable
              (fun x y hx hy h => tx_wire.inj ((decodable_iff x).mp hx) ((decodable_iff y).mp hy) h) rest rest'
              (fun t ht => hda t (by rw [ea]; exact List.mem_cons_of_mem _ ht))
              (fun t ht => hdb t (by rw [eb]; exact List.mem_cons_of_mem _ ht)) he.2 with ⟨e3, e4⟩ | hc
          · refine .inl ?_
            rw [ea, eb, zip_eq rest rest' e3 e4]
            congr 1
            refine same_of_witness hcbs ?_
            rw [ci.1, ci'.1]
            rw [value] at value'
            simp only [List.map_cons, List.map_nil, Option.some.inj value']
          · refine .inr (hc.mono fun x hx => ?_)
            rcases List.mem_append.1 hx with hx | hx
            · exact memA x (parts a x (.inr (.inr (.inr (.inl (by rw [ea]; simp only [List.map_cons]; exact List.mem_cons_of_mem _ hx))))))
            · exact memB x (parts b x (.inr (.inr (.inr (.inl (by rw [eb]; simp only [List.map_cons]; exact List.mem_cons_of_mem _ hx))))))
        · refine .inr (hc.mono fun x hx => ?_)
          rcases List.mem_append.1 hx with hx | hx
          · exact memA x (parts a x (.inr (.inr (.inl hx))))
          · exact memB x (parts b x (.inr (.inr (.inl hx))))
      · refine .inr ⟨root.1 ++ res, memA _ (parts a _ (.inr (.inr (.inr (.inr ?_))))), root'.1 ++ res',
          memB _ (parts b _ (.inr (.inr (.inr (.inr ?_))))), hrr, Subtype.ext (hash.trans hash'.symm)⟩
        · unfold commitmentInputs
          rw [tree.1, ea]
          simp only [ci.1, List.map_cons, List.map_nil, List.flatten_cons, List.flatten_nil, List.append_nil,
            toVec_single len value, Option.getD_some, List.mem_singleton]
        · unfold commitmentInputs
          rw [tree'.1, eb]
          simp only [ci'.1, List.map_cons, List.map_nil, List.flatten_cons, List.flatten_nil, List.append_nil,
            toVec_single len' value', Option.getD_some, List.mem_singleton]
  | absent missing free =>
    cases wb with
    | committed c res wids root found value len wtx tree hash => exact absurd (hout ▸ found) (missing c)
    | absent missing' free' =>
      refine .inl (zip_eq _ _ hlen fun p hp => free_same (hsame p hp) (free p.1 ?_) (free' p.2 ?_))
      · rw [← ea]; exact (List.of_mem_zip hp).1
      · rw [← eb]; exact (List.of_mem_zip hp).2

/-- A block hash identifies one valid block. -/
theorem C101_block (H : Bytes → Arr 32) (a b : Block) (ra rb : Option (Arr 32))
    (ha : a.validate H = some (.ok ra)) (hb : b.validate H = some (.ok rb))
    (hh : a.header.blockHash H = b.header.blockHash H)
    (hd : ∀ t ∈ a.txs ++ b.txs, Decodable t ∧ WitnessesFit t) (h64 : ∀ t ∈ a.txs ++ b.txs, (txBytes false t).length ≠ 64) :
    a = b ∨ Collision H (blockInputs H a ++ blockInputs H b) := by
  by_cases he : headerBytes a.header = headerBytes b.header
  · have e : a.header = b.header := by
      have h1 := (headerDec_ok_iff (headerBytes a.header) a.header).2 rfl
      rw [(headerDec_ok_iff (headerBytes a.header) b.header).2 he] at h1
      injection h1 with h1
      exact h1.symm
    refine (C101_transactions H a b ra rb ha hb (by rw [e]) hd h64).imp (fun ht => ?_) id
    cases a; cases b
    simp_all
  · refine .inr ⟨headerBytes a.header, by simp [blockInputs], headerBytes b.header, by simp [blockInputs], he, hh⟩

/-! ### The exception is real -/

namespace Unique

/-- A coinbase of 64 bytes. -/
def cbA : Tx :=
  { version := 1, lockTime := 0
    inputs := [{ prev := OutPoint.null, scriptSig := [1, 2, 3], sequence := 0xFFFFFFFF, witness := Wit.ofList [] }]
    outputs := [{ amount := ⟨5000000000, by decide⟩, spk := [0x51] }] }

/-- Four transactions whose ids are planted: the halves of `cbA` and of `tx64`. -/
def b0 : Tx := { cb64 with version := 50 }
def b1 : Tx := { tx64 with version := 51, outputs := [{ amount := ⟨7, by decide⟩, spk := [0x51] }] }
def b2 : Tx := { b1 with version := 52 }
def b3 : Tx := { b1 with version := 53 }

def cbA1 : Arr 32 := ⟨(txBytes false cbA).take 32, by decide +kernel⟩
def cbA2 : Arr 32 := ⟨(txBytes false cbA).drop 32, by decide +kernel⟩

/-- `sha256d` with four planted preimages. -/
def planted4 (b : Bytes) : Arr 32 :=
  if b = txBytes false b0 then cbA1 else if b = txBytes false b1 then cbA2
  else if b = txBytes false b2 then half1 else if b = txBytes false b3 then half2 else Genesis.sha256d b

def header4 : Header :=
  { sampleHeader with merkleRoot := combineH Genesis.sha256d (Genesis.sha256d (txBytes false cbA)) (Genesis.sha256d (txBytes false tx64)) }
def blockA : Block := ⟨header4, [cbA, tx64]⟩
def blockB : Block := ⟨header4, [b0, b1, b2, b3]⟩

theorem plain {t : Tx} (h1 : t.outputs ≠ []) (h2 : (t.inputs.map (·.prev)).Nodup)
    (h3 : ∀ i ∈ t.inputs, i.prev = OutPoint.null → t.inputs = [i] ∧ 2 ≤ i.scriptSig.length ∧ i.scriptSig.length ≤ 100)
    (h4 : (t.outputs.map fun o => o.amount.1).sum ≤ 2100000000000000)
    (h5 : t.inputs.length ≤ 4000000 ∧ t.outputs.length ≤ 4000000)
    (h6 : (∀ i ∈ t.inputs, i.scriptSig.length ≤ 4000000) ∧ ∀ o ∈ t.outputs, o.spk.length ≤ 4000000)
    (h7 : ∀ i ∈ t.inputs, i.witness = Wit.ofList []) : Decodable t ∧ WitnessesFit t := by
  have hw : ∀ i ∈ t.inputs, Wit.fromSlice [] = some i.witness := fun i hi => by rw [h7 i hi]; rfl
  exact ⟨⟨h1, h2, h3, h4, h5, h6, fun i hi => ⟨[], ⟨by simp, by simp, by intro a x b h; simp at h⟩, hw i hi⟩⟩,
    fun i hi => ⟨[], ⟨by simp, by simp [elemsSize]⟩, hw i hi⟩⟩

theorem six_plain : ∀ t ∈ blockA.txs ++ blockB.txs, Decodable t ∧ WitnessesFit t := by
  intro t ht
  simp only [blockA, blockB, List.mem_append, List.mem_cons, List.not_mem_nil, or_false] at ht
  rcases ht with (rfl | rfl) | (rfl | rfl | rfl | rfl) <;>
    exact plain (by decide) (by decide) (by decide) (by decide) (by decide) (by decide) (by decide)

end Unique

open Unique in
/-- Without the condition on 64 bytes `C101_block` is false: two valid blocks of 2 and of 4 transactions with one
header, where no two of the strings hashed collide. -/
theorem C101_forged :
    blockA.validate planted4 = some (.ok none) ∧ blockB.validate planted4 = some (.ok none) ∧
    blockA.header = blockB.header ∧ blockA.txs.length = 2 ∧ blockB.txs.length = 4 ∧
    (∀ t ∈ blockA.txs ++ blockB.txs, Decodable t ∧ WitnessesFit t) ∧
    ¬ Collision planted4 (blockInputs planted4 blockA ++ blockInputs planted4 blockB) := by
  refine ⟨by decide +kernel, by decide +kernel, rfl, rfl, rfl, six_plain, ?_⟩
  rintro ⟨x, hx, y, hy, hne, he⟩
  have key : ∀ x ∈ (blockInputs planted4 blockA ++ blockInputs planted4 blockB).eraseDups,
      ∀ y ∈ (blockInputs planted4 blockA ++ blockInputs planted4 blockB).eraseDups, x = y ∨ planted4 x ≠ planted4 y := by
    decide +kernel
  rcases key x (List.mem_eraseDups.2 hx) y (List.mem_eraseDups.2 hy) with h | h
  · exact hne h
  · exact h he

/-! ### Examples -/

open Unique in
theorem two_plain : ∀ t ∈ twoBlock.txs ++ twoBlock.txs, Decodable t ∧ WitnessesFit t := by
  intro t ht
  simp only [twoBlock, List.mem_append, List.mem_cons, List.not_mem_nil, or_false, or_self] at ht
  rcases ht with rfl | rfl <;>
    exact plain (by decide) (by decide) (by decide) (by decide) (by decide) (by decide) (by decide)

/-- Any valid block with the hash of `twoBlock` is `twoBlock`. -/
example (b : Block) (r : Option (Arr 32)) (hb : b.validate Genesis.sha256d = some (.ok r))
    (hh : twoBlock.header.blockHash Genesis.sha256d = b.header.blockHash Genesis.sha256d)
    (hd : ∀ t ∈ b.txs, Decodable t ∧ WitnessesFit t) (h64 : ∀ t ∈ b.txs, (txBytes false t).length ≠ 64) :
    twoBlock = b ∨ Collision Genesis.sha256d (blockInputs Genesis.sha256d twoBlock ++ blockInputs Genesis.sha256d b) := by
  refine C101_block _ _ _ _ _ twoBlock_valid hb hh (fun t ht => ?_) (fun t ht => ?_) <;> rcases List.mem_append.1 ht with ht | ht
  · exact two_plain t (List.mem_append_left _ ht)
  · exact hd t ht
  · have : ∀ t ∈ twoBlock.txs, (txBytes false t).length ≠ 64 := by decide +kernel
    exact this t ht
  · exact h64 t ht

end Btc
