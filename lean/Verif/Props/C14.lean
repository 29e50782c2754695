import Verif.Bitcoin.PredictWeight
import Verif.Props.C13_C17
/-!
# C14: predicted weight equals real weight
-/
namespace Btc
open InputPrediction

theorem encSize_eq (v : Nat) : encSize v = csSize v := by
  unfold encSize csSize; rfl

/-- Weight of the input's script and witness, as sums of lengths. -/
def scriptBytes (n : Nat) : Nat := csSize n + n
def witnessBytes (elems : List Nat) : Nat :=
  if elems = [] then 0 else csSize elems.length + (elems.map scriptBytes).sum

theorem satAdd_eq {a b : Nat} (h : a + b < 2 ^ 32) : satAdd a b = a + b := by
  unfold satAdd u32Max; rw [if_neg (by omega)]

theorem sat_eq {a : Nat} (h : a < 2 ^ 32) : sat a = a := by
  unfold sat u32Max; rw [if_neg (by omega)]

theorem elemSize_eq (n : Nat) (h : scriptBytes n < 2 ^ 32) : satAdd (sat n) (encSize n) = scriptBytes n := by
  unfold scriptBytes at *
  rw [sat_eq (by omega), encSize_eq, satAdd_eq (by omega)]
  omega

theorem newLoop_eq : ∀ (elems : List Nat) (c t : Nat), t + (elems.map scriptBytes).sum < 2 ^ 32 →
    elems.foldl (fun (st : Nat × Nat) n => (st.1 + 1, satAdd st.2 (satAdd (sat n) (encSize n)))) (c, t) =
      (c + elems.length, t + (elems.map scriptBytes).sum) := by
  intro elems
  induction elems with
  | nil => intros; rfl
  | cons n l ih =>
    intro c t h
    simp only [List.map_cons, List.sum_cons] at h
    rw [List.foldl_cons, elemSize_eq n (by omega), satAdd_eq (by omega), ih _ _ (by omega)]
    simp only [List.length_cons, List.map_cons, List.sum_cons, Prod.mk.injEq]
    omega

theorem sliceLoop_eq (elems : List Nat) : ∀ (fuel i t : Nat), i + fuel = elems.length →
    t + ((elems.drop i).map scriptBytes).sum < 2 ^ 32 →
    sliceLoop elems fuel i t = t + ((elems.drop i).map scriptBytes).sum := by
  intro fuel
  induction fuel with
  | zero =>
    intro i t hi h
    rw [List.drop_of_length_le (by omega)]
    rfl
  | succ fuel ih =>
    intro i t hi h
    have hlt : i < elems.length := by omega
    rw [List.drop_eq_getElem_cons hlt] at h ⊢
    simp only [List.map_cons, List.sum_cons] at h ⊢
    unfold sliceLoop
    rw [List.getElem?_eq_getElem hlt]
    simp only
    rw [elemSize_eq _ (by omega), satAdd_eq (by omega), ih _ _ (by omega) (by omega)]
    omega

/-- The prediction for these lengths fits `u32`. -/
def PredictionFits (scriptLen : Nat) (elems : List Nat) : Prop :=
  4 * scriptBytes scriptLen + witnessBytes elems < 2 ^ 32

theorem elems_sum_le (elems : List Nat) : (elems.map scriptBytes).sum ≤ witnessBytes elems := by
  unfold witnessBytes
  split
  · rename_i h; subst h; simp
  · omega

theorem fromSlice_spec (n : Nat) (elems : List Nat) (h : PredictionFits n elems) :
    InputPrediction.fromSlice n elems = ⟨scriptBytes n, witnessBytes elems⟩ := by
  unfold PredictionFits at h
  have hs := elems_sum_le elems
  have hb : scriptBytes n < 2 ^ 32 := by omega
  unfold InputPrediction.fromSlice
  rw [elemSize_eq n hb, sliceLoop_eq elems elems.length 0 0 (by omega) (by simp; omega)]
  congr 1
  unfold witnessBytes at h ⊢
  cases elems with
  | nil => simp
  | cons a l =>
    rw [if_neg (by simp)] at h ⊢
    rw [if_neg (by simp), encSize_eq, satAdd_eq (by simp only [List.drop_zero]; omega)]
    simp only [List.drop_zero]
    omega

theorem new_spec (n : Nat) (elems : List Nat) (h : PredictionFits n elems) :
    InputPrediction.new n elems = some ⟨scriptBytes n, witnessBytes elems⟩ := by
  unfold PredictionFits at h
  have hs := elems_sum_le elems
  have hb : scriptBytes n < 2 ^ 32 := by omega
  have h1 : addU32 (sat n) (encSize n) = some (scriptBytes n) := by
    unfold scriptBytes at *
    rw [sat_eq (by omega), encSize_eq]
    unfold addU32 u32Max
    rw [if_neg (by omega), Nat.add_comm]
  unfold InputPrediction.new
  rw [newLoop_eq elems 0 0 (by omega), h1]
  unfold witnessBytes at h ⊢
  cases elems with
  | nil => simp
  | cons a l =>
    rw [if_neg (by simp)] at h ⊢
    simp only [Nat.zero_add]
    rw [if_pos (by simp), encSize_eq]
    unfold addU32 u32Max
    rw [if_neg (by omega)]
    simp only
    rw [Nat.add_comm]

/-- `new` and `from_slice` agree. -/
theorem C14_constructors_agree (n : Nat) (elems : List Nat) (h : PredictionFits n elems) :
    InputPrediction.new n elems = some (InputPrediction.fromSlice n elems) := by
  rw [new_spec n elems h, fromSlice_spec n elems h]

theorem foldIn_eq : ∀ (l : List InputPrediction) (c w k : Nat),
    l.foldl (fun (st : Option (Nat × Nat × Nat)) p => st.bind fun (count, weight, w) =>
      p.totalWeight.map fun t => (count + 1, weight + t, w + if p.witnessSize > 0 then 1 else 0))
      (some (c, w, k)) =
    (l.mapM totalWeight).map fun ts => (c + l.length, w + ts.sum, k + l.countP fun p => p.witnessSize > 0) := by
  intro l
  induction l with
  | nil => intros; rfl
  | cons p l ih =>
    intro c w k
    rw [List.foldl_cons, List.mapM_cons]
    cases hp : p.totalWeight with
    | none =>
      simp only [Option.bind_some, Option.map_none]
      have : ∀ l : List InputPrediction, l.foldl (fun (st : Option (Nat × Nat × Nat)) p =>
        st.bind fun (count, weight, w) => p.totalWeight.map fun t =>
          (count + 1, weight + t, w + if p.witnessSize > 0 then 1 else 0)) none = none := by
        intro l; induction l <;> simp_all
      rw [this]; rfl
    | some t =>
      simp only [Option.bind_some, Option.map_some]
      rw [ih]
      cases l.mapM totalWeight with
      | none => rfl
      | some ts =>
        simp only [Option.map_some, List.length_cons, List.countP_cons, Option.bind_eq_bind,
          Option.bind_some, Option.pure_def, List.sum_cons]
        simp only [decide_eq_true_eq, Option.some.injEq, Prod.mk.injEq]
        omega

theorem foldOut_eq : ∀ (l : List Nat) (c s : Nat),
    l.foldl (fun (st : Nat × Nat) n => (st.1 + 1, st.2 + n + csSize n)) (c, s) =
      (c + l.length, s + (l.map scriptBytes).sum) := by
  intro l
  induction l with
  | nil => intros; rfl
  | cons n l ih =>
    intro c s
    rw [List.foldl_cons, ih]
    simp only [List.length_cons, List.map_cons, List.sum_cons, scriptBytes, Prod.mk.injEq]
    omega

theorem inLoop_eq (l : List InputPrediction) : ∀ (fuel i w k : Nat), i + fuel = l.length →
    predictInLoop l fuel i w k = ((l.drop i).mapM totalWeight).map fun ts =>
      (w + ts.sum, k + (l.drop i).countP fun p => p.witnessSize > 0) := by
  intro fuel
  induction fuel with
  | zero =>
    intro i w k hi
    rw [List.drop_of_length_le (by omega)]
    rfl
  | succ fuel ih =>
    intro i w k hi
    have hlt : i < l.length := by omega
    rw [List.drop_eq_getElem_cons hlt, List.mapM_cons]
    unfold predictInLoop
    rw [List.getElem?_eq_getElem hlt]
    simp only
    cases l[i].totalWeight with
    | none => rfl
    | some t =>
      simp only [Option.bind_some]
      rw [ih _ _ _ (by omega)]
      cases (l.drop (i + 1)).mapM totalWeight with
      | none => rfl
      | some ts =>
        simp only [Option.map_some, List.countP_cons, Option.bind_eq_bind,
          Option.bind_some, Option.pure_def, List.sum_cons]
        simp only [decide_eq_true_eq, Option.some.injEq, Prod.mk.injEq]
        omega

theorem outLoop_eq (l : List Nat) : ∀ (fuel i s : Nat), i + fuel = l.length →
    predictOutLoop l fuel i s = s + ((l.drop i).map scriptBytes).sum := by
  intro fuel
  induction fuel with
  | zero =>
    intro i s hi
    rw [List.drop_of_length_le (by omega)]
    rfl
  | succ fuel ih =>
    intro i s hi
    have hlt : i < l.length := by omega
    rw [List.drop_eq_getElem_cons hlt]
    unfold predictOutLoop
    rw [List.getElem?_eq_getElem hlt]
    simp only
    rw [ih _ _ (by omega)]
    simp only [List.map_cons, List.sum_cons, scriptBytes]
    omega

/-- The two functions agree on all arguments. -/
theorem C14_functions_agree (inputs : List InputPrediction) (lens : List Nat) :
    predictWeight inputs lens = predictWeightFromSlices inputs lens := by
  unfold predictWeight predictWeightFromSlices
  rw [foldIn_eq, foldOut_eq, inLoop_eq _ _ _ _ _ (by omega), outLoop_eq _ _ _ _ (by omega)]
  simp only [List.drop_zero, Option.map_map, Nat.zero_add]
  rfl

/-- The predictions for the inputs of a transaction, from element lengths only. -/
def predictionsFor (lens : List (Nat × List Nat)) : List InputPrediction :=
  lens.map fun x => InputPrediction.fromSlice x.1 x.2

theorem predict_sum : ∀ (lens : List (Nat × List Nat)), (∀ x ∈ lens, PredictionFits x.1 x.2) →
    (predictionsFor lens).mapM totalWeight =
      some (lens.map fun x => 160 + 4 * scriptBytes x.1 + witnessBytes x.2) := by
  intro lens h
  unfold predictionsFor
  rw [List.mapM_map]
  apply mapM_some
  intro x hx
  have hf := h x hx
  show totalWeight (InputPrediction.fromSlice x.1 x.2) = _
  rw [fromSlice_spec _ _ hf]
  unfold totalWeight witnessWeight addU32 u32Max
  unfold PredictionFits at hf
  simp only
  rw [if_neg (by omega), if_neg (by omega)]
  simp only [Option.map_some, Option.some.injEq]
  omega

/-- The lengths of an input: script and witness elements. -/
def inputLens (i : TxIn) (l : List Bytes) : Nat × List Nat := (i.scriptSig.length, l.map List.length)

/-- `ws` are the witness stacks of the inputs of `tx`. -/
inductive Stacks : List TxIn → List (List Bytes) → Prop
  | nil : Stacks [] []
  | cons {i : TxIn} {ins : List TxIn} {l : List Bytes} {ls : List (List Bytes)} :
      WitFits l → Wit.fromSlice l = some i.witness → Stacks ins ls → Stacks (i :: ins) (l :: ls)

theorem witnessBytes_eq (l : List Bytes) : witnessBytes (l.map List.length) =
    if l = [] then 0 else csSize l.length + elemsSize l := by
  unfold witnessBytes
  cases l with
  | nil => simp
  | cons x l =>
    rw [if_neg (by simp), if_neg (by simp), List.map_map, List.length_map]
    rfl

theorem stacks_sum {ins : List TxIn} {ls : List (List Bytes)} (h : Stacks ins ls) :
    let lens := List.zipWith inputLens ins ls
    lens.length = ins.length ∧
    (lens.map fun x => 160 + 4 * scriptBytes x.1 + witnessBytes x.2).sum + lens.length =
      (ins.map fun i => 4 * i.baseSize + (witBytes i.witness).length).sum +
        lens.countP (fun x => 0 < witnessBytes x.2) ∧
    ((lens.countP fun x => 0 < witnessBytes x.2) = 0 ↔ ins.any (fun i => !i.witness.isEmpty) = false) ∧
    lens.countP (fun x => 0 < witnessBytes x.2) ≤ lens.length ∧
    (ins.any (fun i => !i.witness.isEmpty) = false →
      (ins.map fun i => (witBytes i.witness).length).sum = ins.length) := by
  induction h with
  | nil => simp
  | @cons i ins l ls hf hw _ ih =>
    simp only [] at ih ⊢
    obtain ⟨h1, h2, h3, h4, h5⟩ := ih
    have hw' := hw
    rw [Wit.fromSlice_eq l hf.offsets] at hw'
    have hwl : i.witness = Wit.ofList l := (Option.some.inj hw').symm
    have hlen : (witBytes i.witness).length = csSize l.length + elemsSize l := by
      rw [hwl, witBytes_ofList, elemsSize_eq]
      simp [csEncode_length]
    have hb : i.baseSize = 40 + scriptBytes i.scriptSig.length := by
      unfold TxIn.baseSize scriptBytes; omega
    have hwb := witnessBytes_eq l
    have hpos := csSize_pos l.length
    have he : i.witness.isEmpty = decide (l = []) := by
      rw [hwl]; cases l <;> simp [Wit.ofList, Wit.isEmpty]
    rw [List.zipWith_cons_cons]
    generalize List.zipWith inputLens ins ls = lens at h1 h2 h3 h4
    simp only [List.length_cons, List.map_cons, List.sum_cons,
      List.countP_cons, List.any_cons, inputLens, he, hwb, hlen, hb]
    by_cases hl : l = []
    · subst hl
      have hc : csSize 0 = 1 := rfl
      have hz : elemsSize [] = 0 := rfl
      simp only [List.length_nil, hc, hz, decide_true, Bool.not_true, Bool.false_or, if_true,
        Nat.lt_irrefl, decide_false, Bool.false_eq_true, if_false, Nat.add_zero]
      refine ⟨by omega, by omega, h3, by omega, fun h => ?_⟩
      have := h5 h; omega
    · have hp : 0 < csSize l.length + elemsSize l := by omega
      simp only [hl, hp, decide_true, decide_false, if_true, if_false, Bool.not_false, Bool.true_or]
      refine ⟨by omega, by omega, by simp, by omega, by simp⟩

/-- Predicting from the script and witness element lengths gives the weight of the transaction. -/
theorem C14_predict (tx : Tx) (ls : List (List Bytes)) (hne : tx.inputs ≠ [])
    (hs : Stacks tx.inputs ls)
    (hf : ∀ x ∈ List.zipWith inputLens tx.inputs ls, PredictionFits x.1 x.2) :
    predictWeight (predictionsFor (List.zipWith inputLens tx.inputs ls))
      (tx.outputs.map fun o => o.spk.length) = tx.weight := by
  obtain ⟨h1, h2, h3, h4, h5⟩ := stacks_sum hs
  have hfits : ∀ i ∈ tx.inputs, SizeOk i.witness := by
    clear hne hf h1 h2 h3 h4 h5
    generalize tx.inputs = ins at hs
    induction hs with
    | nil => simp
    | cons a b _ ih =>
      intro i hi
      rcases List.mem_cons.mp hi with rfl | hi
      · exact sizeOk_fits a b
      · exact ih i hi
  generalize hlens : List.zipWith inputLens tx.inputs ls = lens at *
  have hcount : (predictionsFor lens).countP (fun p => p.witnessSize > 0) =
      lens.countP fun x => 0 < witnessBytes x.2 := by
    unfold predictionsFor
    rw [List.countP_map]
    apply List.countP_congr
    intro x hx
    simp [fromSlice_spec _ _ (hf x hx)]
  unfold predictWeight
  rw [foldIn_eq, foldOut_eq, predict_sum lens hf, hcount]
  unfold Tx.weight
  rw [totalSize_eq tx hfits, baseSize_eq tx]
  simp only [Option.map_some, Nat.zero_add, List.length_map, Option.some.injEq, List.map_map]
  have hlen2 : (predictionsFor lens).length = lens.length := by simp [predictionsFor]
  have hout : (tx.outputs.map TxOut.size).sum =
      8 * tx.outputs.length + (tx.outputs.map (scriptBytes ∘ fun o => o.spk.length)).sum := by
    generalize tx.outputs = os
    induction os with
    | nil => rfl
    | cons o os ih =>
      simp only [List.map_cons, List.sum_cons, List.length_cons, ih, TxOut.size, scriptBytes,
        Function.comp]
      omega
  have hin : ∀ l : List TxIn, (l.map fun i => 4 * i.baseSize + (witBytes i.witness).length).sum =
      4 * (l.map TxIn.baseSize).sum + (l.map fun i => (witBytes i.witness).length).sum := by
    intro l
    induction l with
    | nil => rfl
    | cons i l ih => simp only [List.map_cons, List.sum_cons, ih]; omega
  rw [hin] at h2
  rw [hlen2, h1]
  rw [h1] at h2 h4
  have hbase : (txBytes false tx).length = 4 + csSize tx.inputs.length +
      (tx.inputs.map TxIn.baseSize).sum + csSize tx.outputs.length +
      (tx.outputs.map TxOut.size).sum + 4 := by
    rw [← baseSize_eq]; rfl
  unfold predictInternal
  by_cases hz : (lens.countP fun x => 0 < witnessBytes x.2) = 0
  · rw [if_pos hz]
    have hany := h3.mp hz
    have hsw : tx.usesSegwit = false := by
      unfold Tx.usesSegwit
      rw [hany]
      simp [hne]
    rw [hsw, hbase]
    have := h5 hany
    omega
  · rw [if_neg hz]
    have hany : tx.inputs.any (fun i => !i.witness.isEmpty) = true := by
      cases h : tx.inputs.any (fun i => !i.witness.isEmpty) with
      | true => rfl
      | false => exact absurd (h3.mpr h) hz
    have hsw : tx.usesSegwit = true := by
      unfold Tx.usesSegwit
      rw [if_pos hany]
    have htot : (txBytes true tx).length = (txBytes false tx).length + 2 +
        (tx.inputs.map fun i => (witBytes i.witness).length).sum := by
      simp [txBytes, Function.comp_def]
      omega
    rw [hsw, htot, hbase]
    omega

/-- Beyond the `u32` range `new` panics although `from_slice` saturates. -/
theorem C14_new_panics (n : Nat) (h : 2 ^ 32 - 1 ≤ n) (elems : List Nat) :
    InputPrediction.new n elems = none := by
  have h1 : addU32 (sat n) (encSize n) = none := by
    have := csSize_pos n
    rw [encSize_eq]
    unfold addU32 sat u32Max
    rw [if_pos]
    split <;> omega
  unfold InputPrediction.new
  rw [h1]
  split
  simp

example : predictWeight (predictionsFor (List.zipWith inputLens sampleTx.inputs [[[1, 2, 3], []], []]))
    (sampleTx.outputs.map fun o => o.spk.length) = sampleTx.weight := by
  refine C14_predict sampleTx _ (by simp [sampleTx]) ?_ ?_
  · refine .cons ⟨by simp, by simp [elemsSize, csSize]⟩ (by decide)
      (.cons ⟨by simp, by simp [elemsSize]⟩ (by decide) .nil)
  · intro x hx
    simp [sampleTx, inputLens] at hx
    rcases hx with rfl | rfl <;> simp [PredictionFits, scriptBytes, witnessBytes, csSize]
example : predictWeight (predictionsFor [(0, [72, 33]), (107, [])]) [22, 34] = some 1203 := by decide

end Btc
