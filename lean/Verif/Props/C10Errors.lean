import Verif.Props.C08_C12
/-!
# C10: which error a rejected transaction gets
-/
namespace Btc

/-- The format limits, without the rules for the contents. -/
structure TxFormat (tx : Tx) : Prop where
  counts : tx.inputs.length ≤ 4000000 ∧ tx.outputs.length ≤ 4000000
  scripts : (∀ i ∈ tx.inputs, i.scriptSig.length ≤ 4000000) ∧ ∀ o ∈ tx.outputs, o.spk.length ≤ 4000000
  witnesses : ∀ i ∈ tx.inputs, BuiltWitness i.witness

/-- The rules in the order of the code, each with the error of its violation when the rules before it hold. -/
inductive Rejected (tx : Tx) : DErr → Prop
  /-- No outputs. -/
  | noOutputs : tx.outputs = [] → Rejected tx (.custom 13 0)
  /-- Of several inputs, the one at `i` is the first that spends the null out point. -/
  | nullPrev (a : List TxIn) (x : TxIn) (b : List TxIn) : tx.outputs ≠ [] → tx.inputs = a ++ x :: b → 1 < tx.inputs.length →
      x.prev = OutPoint.null → (∀ y ∈ a, y.prev ≠ OutPoint.null) → Rejected tx (.custom 14 a.length)
  | coinbaseShort (x : TxIn) : tx.outputs ≠ [] → tx.inputs = [x] → x.prev = OutPoint.null → x.scriptSig.length < 2 →
      Rejected tx (.custom 15 x.scriptSig.length)
  | coinbaseLong (x : TxIn) : tx.outputs ≠ [] → tx.inputs = [x] → x.prev = OutPoint.null → 100 < x.scriptSig.length →
      Rejected tx (.custom 16 x.scriptSig.length)
  /-- `o` is the least out point spent twice. -/
  | duplicate (o : OutPoint) : tx.outputs ≠ [] → (∀ y ∈ tx.inputs, y.prev ≠ OutPoint.null) → 2 ≤ (tx.inputs.map (·.prev)).count o →
      (∀ o', 2 ≤ (tx.inputs.map (·.prev)).count o' → o.key ≤ o'.key) → Rejected tx (.custom 17 o.key)
  /-- With the output `x` the sum of the values passes 21 million bitcoin. -/
  | value (a : List TxOut) (x : TxOut) (b : List TxOut) : tx.outputs = a ++ x :: b → (tx.inputs.map (·.prev)).Nodup →
      (∀ i ∈ tx.inputs, i.prev = OutPoint.null → tx.inputs = [i] ∧ 2 ≤ i.scriptSig.length ∧ i.scriptSig.length ≤ 100) →
      (a.map fun o => o.amount.1).sum ≤ 2100000000000000 → 2100000000000000 < (a.map fun o => o.amount.1).sum + x.amount.1 →
      Rejected tx (.custom 18 ((a.map fun o => o.amount.1).sum + x.amount.1))

theorem firstNull_some (l : List TxIn) : ∀ k n, firstNull k l = some n →
    ∃ a x b, l = a ++ x :: b ∧ n = k + a.length ∧ x.prev = OutPoint.null ∧ ∀ y ∈ a, y.prev ≠ OutPoint.null := by
  induction l with
  | nil => intro k n h; cases h
  | cons i t ih =>
    intro k n h
    unfold firstNull at h
    by_cases hi : i.prev = OutPoint.null
    · rw [if_pos hi] at h; cases h
      exact ⟨[], i, t, rfl, rfl, hi, by simp⟩
    · rw [if_neg hi] at h
      obtain ⟨a, x, b, rfl, rfl, h3, h4⟩ := ih _ _ h
      refine ⟨i :: a, x, b, rfl, by simp only [List.length_cons]; omega, h3, fun y hy => ?_⟩
      rcases List.mem_cons.mp hy with rfl | hy
      · exact hi
      · exact h4 y hy

theorem firstPair_some : ∀ l : List OutPoint, l.Pairwise (fun a b => a.key ≤ b.key) → ∀ o, firstPair l = some o →
    2 ≤ l.count o ∧ ∀ o', 2 ≤ l.count o' → o.key ≤ o'.key
  | [], _, _, h => by cases h
  | [_], _, _, h => by cases h
  | a :: b :: t, hp, o, h => by
    unfold firstPair at h
    have h1 := (List.pairwise_cons.mp hp).1
    by_cases hab : a = b
    · rw [if_pos hab] at h; cases h; subst hab
      refine ⟨by simp only [List.count_cons_self]; omega, fun o' ho => ?_⟩
      have : o' ∈ a :: a :: t := List.count_pos_iff.mp (by omega)
      rcases List.mem_cons.mp this with rfl | hm
      · exact Nat.le_refl _
      · exact h1 _ hm
    · rw [if_neg hab] at h
      obtain ⟨g1, g2⟩ := firstPair_some (b :: t) (List.pairwise_cons.mp hp).2 o h
      refine ⟨Nat.le_trans g1 List.count_le_count_cons, fun o' ho => ?_⟩
      by_cases hoa : o' = a
      · subst hoa
        rw [List.count_cons_self] at ho
        have hm : o' ∈ b :: t := List.count_pos_iff.mp (by omega)
        rcases List.mem_cons.mp hm with rfl | hm
        · exact absurd rfl hab
        · have e1 := h1 b (by simp)
          have e2 := (List.pairwise_cons.mp (List.pairwise_cons.mp hp).2).1 _ hm
          exact absurd (OutPoint.key_inj (Nat.le_antisymm e1 e2)) hab
      · rw [List.count_cons_of_ne (fun e => hoa e.symm)] at ho
        exact g2 _ ho

theorem sumCheck_some (l : List TxOut) : ∀ acc s, acc ≤ MAX_MONEY → sumCheck acc l = some s →
    ∃ a x b, l = a ++ x :: b ∧ acc + (a.map fun o => o.amount.1).sum ≤ MAX_MONEY ∧
      MAX_MONEY < acc + (a.map fun o => o.amount.1).sum + x.amount.1 ∧ s = acc + (a.map fun o => o.amount.1).sum + x.amount.1 := by
  induction l with
  | nil => intro acc s _ h; cases h
  | cons o t ih =>
    intro acc s ha h
    have ho := o.amount.2
    have hm : MAX_MONEY + MAX_MONEY < 2 ^ 64 - 1 := by decide
    have hmin : min (acc + o.amount.1) (2 ^ 64 - 1) = acc + o.amount.1 := Nat.min_eq_left (by omega)
    simp only [sumCheck, hmin] at h
    by_cases hs : acc + o.amount.1 > MAX_MONEY
    · rw [if_pos hs] at h; cases h
      exact ⟨[], o, t, rfl, by simpa using ha, by simpa using hs, by simp⟩
    · rw [if_neg hs] at h
      obtain ⟨a, x, b, rfl, h2, h3, h4⟩ := ih _ _ (by omega) h
      refine ⟨o :: a, x, b, rfl, ?_, ?_, ?_⟩ <;> simp only [List.map_cons, List.sum_cons] <;> omega

theorem coinbaseCheck_some (tx : Tx) (e : DErr) (h : coinbaseCheck tx = some e) : ∃ x, tx.inputs = [x] ∧ x.prev = OutPoint.null ∧
    ((x.scriptSig.length < 2 ∧ e = .custom 15 x.scriptSig.length) ∨ (100 < x.scriptSig.length ∧ e = .custom 16 x.scriptSig.length)) := by
  unfold coinbaseCheck Tx.isCoinbase at h
  match hi : tx.inputs with
  | [] => rw [hi] at h; cases h
  | [x] =>
    rw [hi] at h
    by_cases hn : x.prev = OutPoint.null
    · simp only [hn, beq_self_eq_true] at h
      refine ⟨x, rfl, hn, ?_⟩
      split at h
      · rename_i h1; cases h; exact .inl ⟨h1, rfl⟩
      · split at h
        · rename_i h1; cases h; exact .inr ⟨h1, rfl⟩
        · cases h
    · have : (x.prev == OutPoint.null) = false := by simpa using hn
      simp [this] at h
  | _ :: _ :: _ => rw [hi] at h; simp at h

/-- What the check reports is a violated rule, the rules before it being kept. -/
theorem txCheck_rejected (tx : Tx) (e : DErr) (h : txCheck tx = .error e) : Rejected tx e := by
  unfold txCheck at h
  by_cases h0 : tx.outputs = []
  · rw [if_pos (by simp [h0])] at h; cases h; exact .noOutputs h0
  rw [if_neg (by simpa using h0)] at h
  generalize hn : (if tx.inputs.length > 1 then firstNull 0 tx.inputs else none) = r at h
  cases r with
  | some i =>
    cases h
    by_cases hl : tx.inputs.length > 1
    · rw [if_pos hl] at hn
      obtain ⟨a, x, b, h1, rfl, h3, h4⟩ := firstNull_some _ _ _ hn
      rw [Nat.zero_add]
      exact .nullPrev a x b h0 h1 hl h3 h4
    · rw [if_neg hl] at hn; cases hn
  | none =>
    simp only at h
    have hnull : tx.inputs.length > 1 → ∀ i ∈ tx.inputs, i.prev ≠ OutPoint.null := by
      intro hl; rw [if_pos hl] at hn; exact (firstNull_none _ _).mp hn
    cases hc : coinbaseCheck tx with
    | some e' =>
      rw [hc] at h; cases h
      obtain ⟨x, h1, h2, h3 | h3⟩ := coinbaseCheck_some tx _ hc
      · rw [h3.2]; exact .coinbaseShort x h0 h1 h2 h3.1
      · rw [h3.2]; exact .coinbaseLong x h0 h1 h2 h3.1
    | none =>
      rw [hc] at h
      simp only at h
      have hcb := (coinbaseCheck_none tx).mp hc
      cases hd : firstPair (sortOutpoints (tx.inputs.map (·.prev))) with
      | some o =>
        rw [hd] at h; cases h
        obtain ⟨g1, g2⟩ := firstPair_some _ (sort_sorted _) o hd
        have hcount : ∀ o', (sortOutpoints (tx.inputs.map (·.prev))).count o' = (tx.inputs.map (·.prev)).count o' :=
          fun o' => (List.mergeSort_perm _ _).count_eq o'
        rw [hcount] at g1
        refine .duplicate o h0 (hnull ?_) g1 fun o' ho => g2 o' (by rw [hcount]; exact ho)
        have := Nat.le_trans g1 List.count_le_length
        rw [List.length_map] at this
        omega
      | none =>
        rw [hd] at h
        simp only at h
        cases hs : sumCheck 0 tx.outputs with
        | none => rw [hs] at h; cases h
        | some s =>
          rw [hs] at h; cases h
          obtain ⟨a, x, b, h1, h2, h3, rfl⟩ := sumCheck_some _ _ _ (Nat.zero_le _) hs
          rw [Nat.zero_add] at h2 h3 ⊢
          refine .value a x b h1 ((firstPair_sort _).mp hd) (fun i hi hp => ?_) h2 h3
          match hin : tx.inputs with
          | [] => rw [hin] at hi; cases hi
          | [j] =>
            rw [hin] at hi
            obtain rfl : i = j := by simpa using hi
            exact ⟨rfl, hcb i hin hp⟩
          | _ :: _ :: _ => exact absurd hp (hnull (by rw [hin]; simp) i hi)

theorem firstNull_eq (x : TxIn) (b : List TxIn) (hx : x.prev = OutPoint.null) : ∀ (a : List TxIn) (k : Nat),
    (∀ y ∈ a, y.prev ≠ OutPoint.null) → firstNull k (a ++ x :: b) = some (k + a.length)
  | [], k, _ => if_pos hx
  | i :: t, k, h => by
    rw [List.cons_append]
    unfold firstNull
    rw [if_neg (h i (by simp)), firstNull_eq x b hx t (k + 1) fun y hy => h y (by simp [hy])]
    simp only [List.length_cons, Option.some.injEq]; omega

theorem sumCheck_eq (x : TxOut) (b : List TxOut) : ∀ (a : List TxOut) (acc : Nat), acc + (a.map fun o => o.amount.1).sum ≤ MAX_MONEY →
    MAX_MONEY < acc + (a.map fun o => o.amount.1).sum + x.amount.1 →
    sumCheck acc (a ++ x :: b) = some (acc + (a.map fun o => o.amount.1).sum + x.amount.1)
  | [], acc, h, hx => by
    have ho := x.amount.2
    have hm : MAX_MONEY + MAX_MONEY < 2 ^ 64 - 1 := by decide
    simp only [List.map_nil, List.sum_nil, Nat.add_zero] at h hx ⊢
    have hmin : min (acc + x.amount.1) (2 ^ 64 - 1) = acc + x.amount.1 := Nat.min_eq_left (by omega)
    simp only [List.nil_append, sumCheck, hmin]
    exact if_pos hx
  | o :: t, acc, h, hx => by
    have ho := o.amount.2
    have hm : MAX_MONEY + MAX_MONEY < 2 ^ 64 - 1 := by decide
    simp only [List.map_cons, List.sum_cons] at h hx ⊢
    have hmin : min (acc + o.amount.1) (2 ^ 64 - 1) = acc + o.amount.1 := Nat.min_eq_left (by omega)
    simp only [List.cons_append, sumCheck, hmin]
    rw [if_neg (by omega), sumCheck_eq x b t (acc + o.amount.1) (by omega) (by omega)]
    simp only [Option.some.injEq]; omega

/-- A violated rule is reported, if the rules before it are kept. -/
theorem rejected_check (tx : Tx) (e : DErr) (h : Rejected tx e) : txCheck tx = .error e := by
  have hnone : (∀ y ∈ tx.inputs, y.prev ≠ OutPoint.null) → (if tx.inputs.length > 1 then firstNull 0 tx.inputs else none) = none := by
    intro hy
    split
    · exact (firstNull_none _ _).mpr hy
    · rfl
  have hcb : (∀ y ∈ tx.inputs, y.prev ≠ OutPoint.null) → coinbaseCheck tx = none := by
    intro hy
    exact (coinbaseCheck_none tx).mpr fun i hi hn => absurd hn (hy i (by rw [hi]; simp))
  unfold txCheck
  cases h with
  | noOutputs h0 => rw [if_pos (by simp [h0])]
  | nullPrev a x b h0 h1 h2 h3 h4 =>
    rw [if_neg (by simpa using h0), if_pos h2]
    rw [h1, firstNull_eq x b h3 a 0 h4, Nat.zero_add]
  | coinbaseShort x h0 h1 h2 h3 =>
    rw [if_neg (by simpa using h0), if_neg (by rw [h1]; simp)]
    simp only [coinbaseCheck, Tx.isCoinbase, h1, h2, beq_self_eq_true, if_pos h3]
  | coinbaseLong x h0 h1 h2 h3 =>
    rw [if_neg (by simpa using h0), if_neg (by rw [h1]; simp)]
    simp only [coinbaseCheck, Tx.isCoinbase, h1, h2, beq_self_eq_true, if_pos h3, if_neg (show ¬ x.scriptSig.length < 2 by omega)]
  | duplicate o h0 h1 h2 h3 =>
    rw [if_neg (by simpa using h0), hnone h1]
    simp only [hcb h1]
    have hcount : ∀ o', (sortOutpoints (tx.inputs.map (·.prev))).count o' = (tx.inputs.map (·.prev)).count o' :=
      fun o' => (List.mergeSort_perm _ _).count_eq o'
    cases hd : firstPair (sortOutpoints (tx.inputs.map (·.prev))) with
    | none =>
      have := List.nodup_iff_count.mp ((firstPair_sort _).mp hd) o
      omega
    | some o' =>
      obtain ⟨g1, g2⟩ := firstPair_some _ (sort_sorted _) o' hd
      rw [hcount] at g1
      have e1 := h3 o' g1
      have e2 := g2 o (by rw [hcount]; exact h2)
      rw [Nat.le_antisymm e1 e2]
  | value a x b h1 h2 h3 h4 h5 =>
    rw [if_neg (by rw [h1]; simp)]
    have e1 : (if tx.inputs.length > 1 then firstNull 0 tx.inputs else none) = none := by
      split
      · rename_i hl
        refine (firstNull_none _ _).mpr fun i hi hn => ?_
        rw [(h3 i hi hn).1] at hl
        simp at hl
      · rfl
    have e2 : coinbaseCheck tx = none := (coinbaseCheck_none tx).mpr fun i hi hn => (h3 i (by rw [hi]; simp) hn).2
    rw [e1]
    simp only [e2, (firstPair_sort _).mpr h2]
    rw [h1, sumCheck_eq x b a 0 (by rw [Nat.zero_add]; exact h4) (by rw [Nat.zero_add]; exact h5), Nat.zero_add]

theorem andThen_eq {α β : Type} {P : Parser α} {g : DErr → DErr} {m : DErr} {k : α → Parser β} {bs : Bytes} {a : α} {r : Bytes}
    (h : P bs = .done a r) : P.andThen g m k bs = k a r := by
  unfold Parser.andThen; rw [h]

theorem lockP_eq (v lt : UInt32) (ins : List TxIn) (outs : List TxOut) (rest : Bytes) :
    lockP v ins outs u32Parser (u32le lt ++ rest) = .ofEnd (txCheck ⟨v, lt, ins, outs⟩) rest :=
  andThen_eq ((u32_wire _ _ _).mpr ⟨trivial, rfl⟩)

theorem witP_eq (v lt : UInt32) (outs : List TxOut) (rest : Bytes) : ∀ (todo : List TxIn) (done : List TxIn) (i : TxIn),
    (∀ j ∈ i :: todo, WitGood j.witness) → (∃ j ∈ done ++ i :: todo, j.witness.isEmpty = false) →
    witP u32Parser witParser v outs (todo.map TxIn.strip) done i.strip witParser
      (((i :: todo).map fun j => witBytes j.witness).flatten ++ u32le lt ++ rest) = .ofEnd (txCheck ⟨v, lt, done ++ i :: todo, outs⟩) rest
  | [], done, i, hw, hj => by
    have hi : ({ i.strip with witness := i.witness } : TxIn) = i := rfl
    simp only [List.map_nil, witP, List.map_cons, List.flatten_cons, List.flatten_nil, List.append_nil, List.append_assoc]
    rw [andThen_eq ((wit_wire _ _ _).mpr ⟨hw i (by simp), rfl⟩)]
    rw [hi, if_neg, lockP_eq]
    obtain ⟨j, hj, he⟩ := hj
    intro hall
    have := List.all_eq_true.mp hall j hj
    rw [he] at this; cases this
  | n :: todo, done, i, hw, hj => by
    have hi : ({ i.strip with witness := i.witness } : TxIn) = i := rfl
    simp only [witP, List.map_cons, List.flatten_cons, List.append_assoc]
    rw [andThen_eq ((wit_wire _ _ _).mpr ⟨hw i (by simp), rfl⟩), hi]
    have := witP_eq v lt outs rest todo (done ++ [i]) n (fun j h => hw j (by simp [h])) (by simpa using hj)
    simp only [List.map_cons, List.flatten_cons, List.append_assoc, List.cons_append, List.nil_append] at this
    exact this

theorem txParser_format (tx : Tx) (hf : TxFormat tx) (rest : Bytes) :
    txParser (txBytes tx.usesSegwit tx ++ rest) = .ofEnd (txCheck tx) rest := by
  have hI := vec_wire txIn_wire
  have hw : ∀ i ∈ tx.inputs, WitGood i.witness := fun i hi => (builtWitness_iff _).mp (hf.witnesses i hi)
  have ho : (vecParser txOutParser MAX_VEC_SIZE) ((csEncode tx.outputs.length ++ (tx.outputs.map txOutBytes).flatten) ++
      ((if tx.usesSegwit then (tx.inputs.map fun i => witBytes i.witness).flatten else []) ++ u32le tx.lockTime ++ rest)) = .done tx.outputs
      ((if tx.usesSegwit then (tx.inputs.map fun i => witBytes i.witness).flatten else []) ++ u32le tx.lockTime ++ rest) :=
    (vec_wire txOut_wire _ _ _).mpr ⟨⟨hf.counts.2, hf.scripts.2⟩, by simp⟩
  unfold txParser verP
  cases hsw : tx.usesSegwit with
  | true =>
    rw [hsw, if_pos rfl] at ho
    have hb : txBytes true tx ++ rest = u32le tx.version ++ (csEncode 0 ++ ([1] ++
        ((csEncode tx.inputs.length ++ (tx.inputs.map txInBytes).flatten) ++
        ((csEncode tx.outputs.length ++ (tx.outputs.map txOutBytes).flatten) ++
        ((tx.inputs.map fun i => witBytes i.witness).flatten ++ u32le tx.lockTime ++ rest))))) := by
      simp [txBytes, csEncode_zero]
    rw [hb, andThen_eq ((u32_wire _ _ _).mpr ⟨trivial, rfl⟩)]
    unfold in1P
    have hz : ∀ r, vecParser txInParser MAX_VEC_SIZE (csEncode 0 ++ r) = .done [] r := fun r =>
      (hI _ _ _).mpr ⟨⟨Nat.zero_le _, by simp⟩, by simp⟩
    rw [andThen_eq (hz _)]
    rw [if_pos (show ([] : List TxIn).isEmpty = true from rfl)]
    simp only [List.cons_append, List.nil_append, flagP]
    rw [if_neg (by simp)]
    unfold in2P
    have hs : ∀ r, vecParser txInParser MAX_VEC_SIZE ((csEncode tx.inputs.length ++ (tx.inputs.map txInBytes).flatten) ++ r) =
        .done (tx.inputs.map TxIn.strip) r := fun r => by
      refine (hI _ _ _).mpr ⟨⟨by rw [List.length_map]; exact hf.counts.1, fun i hi => ?_⟩, ?_⟩
      · obtain ⟨j, hj, rfl⟩ := List.mem_map.mp hi
        exact ⟨hf.scripts.1 j hj, rfl⟩
      · simp only [ins_wire_strip, List.length_map]
    rw [andThen_eq (hs _)]
    unfold outP
    rw [andThen_eq ho]
    match hin : tx.inputs with
    | [] =>
      simp only [List.map_nil, afterOutP, List.flatten_nil, List.nil_append]
      rw [lockP_eq]
      obtain ⟨v, lt, ins, outs⟩ := tx
      cases hin; rfl
    | i :: t =>
      simp only [List.map_cons, afterOutP]
      have := witP_eq tx.version tx.lockTime tx.outputs rest t [] i (fun j hj => hw j (by rw [hin]; exact hj)) (by
        rcases (usesSegwit_iff tx).mp hsw with h | h
        · rw [hin] at h; cases h
        · rw [hin] at h; exact h)
      simp only [List.map_cons, List.nil_append] at this
      rw [this]
      obtain ⟨v, lt, ins, outs⟩ := tx
      simp only at hin
      subst hin; rfl
  | false =>
    rw [hsw, if_neg (by simp)] at ho
    have hne : ∀ i ∈ tx.inputs, i.witness = Wit.empty := by
      intro i hi
      apply witGood_isEmpty (hw i hi)
      cases he : i.witness.isEmpty with
      | true => rfl
      | false =>
        have := (usesSegwit_iff tx).mpr (.inr ⟨i, hi, he⟩)
        rw [hsw] at this; cases this
    have hne2 : tx.inputs ≠ [] := fun h0 => by
      have := (usesSegwit_iff tx).mpr (.inl h0)
      rw [hsw] at this; cases this
    have hb : txBytes false tx ++ rest = u32le tx.version ++
        ((csEncode tx.inputs.length ++ (tx.inputs.map txInBytes).flatten) ++
        ((csEncode tx.outputs.length ++ (tx.outputs.map txOutBytes).flatten) ++
        ([] ++ u32le tx.lockTime ++ rest))) := by
      simp [txBytes]
    rw [hb, andThen_eq ((u32_wire _ _ _).mpr ⟨trivial, rfl⟩)]
    unfold in1P
    rw [andThen_eq ((hI _ _ _).mpr ⟨⟨hf.counts.1, fun i hi => ⟨hf.scripts.1 i hi, hne i hi⟩⟩, rfl⟩), if_neg (by simpa using hne2)]
    unfold outP
    rw [andThen_eq ho]
    exact lockP_eq _ _ _ _ _

/-- A transaction within the limits of the format, encoded and decoded with any bytes behind: it comes back, or the error is that of the first
violated rule, in the order above. -/
theorem C10_errors (tx : Tx) (hf : TxFormat tx) : ∃ bs, Drains txEnc tx.encoder bs ∧ ∀ rest,
    (∀ e, txDec.decodeSliceUnbounded (bs ++ rest) = .err e ↔ Rejected tx e) ∧
    ((∀ e, ¬ Rejected tx e) → txDec.decodeSliceUnbounded (bs ++ rest) = .ok tx rest) := by
  refine ⟨_, txEnc_drains tx, fun rest => ?_⟩
  obtain ⟨inv, den, L, hP⟩ := txDec_lawful
  rw [L.decodeSliceUnbounded_spec, hP, txParser_format tx hf]
  constructor
  · intro e
    constructor
    · intro h
      refine txCheck_rejected tx e ?_
      cases hk : txCheck tx with
      | ok t => rw [hk] at h; cases h
      | error e' => rw [hk] at h; cases h; rfl
    · intro h
      rw [rejected_check tx e h]; rfl
  · intro h
    cases hk : txCheck tx with
    | error e => exact absurd (txCheck_rejected tx e hk) (h e)
    | ok t => obtain ⟨-, rfl⟩ := (txCheck_ok _ _).mp hk; rfl

/-- The rules together are `Decodable`. -/
theorem C10_rules (tx : Tx) : Decodable tx ↔ TxFormat tx ∧ ∀ e, ¬ Rejected tx e := by
  rw [decodable_iff]
  constructor
  · intro h
    refine ⟨⟨⟨h.nIn, h.nOut⟩, ⟨h.scriptSigs, h.spks⟩, fun i hi => (builtWitness_iff _).mpr (h.witnesses i hi)⟩, fun e he => ?_⟩
    have := (txCheck_ok tx tx).mpr ⟨h.sane, rfl⟩
    rw [rejected_check tx e he] at this; cases this
  · rintro ⟨hf, h⟩
    cases hk : txCheck tx with
    | error e => exact absurd (txCheck_rejected tx e hk) (h e)
    | ok t =>
      exact ⟨((txCheck_ok _ _).mp hk).1, hf.counts.1, hf.counts.2, hf.scripts.1, hf.scripts.2, fun i hi => (builtWitness_iff _).mp (hf.witnesses i hi)⟩

/-- The sample transaction without outputs, and with its first input twice. -/
example : TxFormat { sampleTx with outputs := [] } ∧ Rejected { sampleTx with outputs := [] } (.custom 13 0) :=
  ⟨⟨⟨by decide, by decide⟩, ⟨sampleTx_decodable.scripts.1, by simp⟩, sampleTx_decodable.witnesses⟩, .noOutputs rfl⟩
example : Rejected { sampleTx with inputs := sampleTx.inputs ++ sampleTx.inputs.take 1 } (.custom 17 (sampleTx.inputs.map (·.prev.key)).head!) := by
  refine .duplicate ⟨⟨List.replicate 32 7, by simp⟩, 1⟩ (by simp [sampleTx]) (by decide) (by decide) fun o' ho => ?_
  have h1 : o' ∈ [(⟨⟨List.replicate 32 7, by simp⟩, 1⟩ : OutPoint), ⟨⟨List.replicate 32 9, by simp⟩, 0⟩, ⟨⟨List.replicate 32 7, by simp⟩, 1⟩] :=
    List.count_pos_iff.mp (Nat.lt_of_lt_of_le (by decide) ho)
  simp only [List.mem_cons, List.not_mem_nil, or_false] at h1
  rcases h1 with rfl | rfl | rfl <;> revert ho <;> decide

end Btc
