import Verif.Bitcoin.FeePlan
import Verif.Props.C14
import Verif.Props.C42
import Verif.Props.C98
/-!
# C108: a fee planned before signing suffices for the transaction that is signed
-/
namespace Btc
open InputPrediction

/-! ### Larger parts, larger prediction -/

theorem csSize_mono {a b : Nat} (h : a ≤ b) : csSize a ≤ csSize b := by
  unfold csSize
  repeat' split
  all_goals omega

theorem scriptBytes_mono {a b : Nat} (h : a ≤ b) : scriptBytes a ≤ scriptBytes b := by
  have := csSize_mono h
  unfold scriptBytes; omega

/-- Lists of the same length, each element at most its counterpart. -/
inductive AllLe : List Nat → List Nat → Prop
  | nil : AllLe [] []
  | cons {a b : Nat} {l m : List Nat} : a ≤ b → AllLe l m → AllLe (a :: l) (b :: m)

theorem AllLe.refl : ∀ l : List Nat, AllLe l l
  | [] => .nil
  | _ :: l => .cons (Nat.le_refl _) (AllLe.refl l)

theorem AllLe.append {a b c d : List Nat} (h : AllLe a b) (h' : AllLe c d) : AllLe (a ++ c) (b ++ d) := by
  induction h with
  | nil => exact h'
  | cons h _ ih => exact .cons h ih

theorem AllLe.length {a b : List Nat} (h : AllLe a b) : a.length = b.length := by
  induction h with
  | nil => rfl
  | cons _ _ ih => simp [ih]

theorem AllLe.sum {a b : List Nat} (h : AllLe a b) : a.sum ≤ b.sum := by
  induction h with
  | nil => simp
  | cons h _ ih => simp only [List.sum_cons]; omega

theorem AllLe.replicate (n : Nat) : ∀ d : List Nat, (∀ x ∈ d, x ≤ n) → AllLe d (List.replicate d.length n)
  | [], _ => .nil
  | x :: d, h => .cons (h x List.mem_cons_self) (AllLe.replicate n d fun y hy => h y (List.mem_cons_of_mem _ hy))

theorem AllLe.bytes {a b : List Nat} (h : AllLe a b) : AllLe (a.map scriptBytes) (b.map scriptBytes) := by
  induction h with
  | nil => exact .nil
  | cons h _ ih => exact .cons (scriptBytes_mono h) ih

theorem witnessBytes_mono {a b : List Nat} (h : AllLe a b) : witnessBytes a ≤ witnessBytes b ∧ (0 < witnessBytes a ↔ 0 < witnessBytes b) := by
  have hs := h.bytes.sum
  have hl := h.length
  unfold witnessBytes
  cases h with
  | nil => exact ⟨Nat.le_refl _, Iff.rfl⟩
  | @cons x y a b _ _ =>
    rw [if_neg (by simp), if_neg (by simp), ← hl]
    have := csSize_pos (x :: a).length
    omega

theorem witnessBytes_cons (x : Nat) (l : List Nat) : witnessBytes (x :: l) = csSize (x :: l).length + ((x :: l).map scriptBytes).sum :=
  if_neg (by simp)

/-- One input is at most another in every length. -/
def LensLe (x y : Nat × List Nat) : Prop := x.1 ≤ y.1 ∧ AllLe x.2 y.2

inductive AllLens : List (Nat × List Nat) → List (Nat × List Nat) → Prop
  | nil : AllLens [] []
  | cons {x y : Nat × List Nat} {l m : List (Nat × List Nat)} : LensLe x y → AllLens l m → AllLens (x :: l) (y :: m)

theorem allLens_sums {l m : List (Nat × List Nat)} (h : AllLens l m) :
    l.length = m.length ∧
    (l.map fun x => 160 + 4 * scriptBytes x.1 + witnessBytes x.2).sum ≤ (m.map fun x => 160 + 4 * scriptBytes x.1 + witnessBytes x.2).sum ∧
    (l.countP fun x => 0 < witnessBytes x.2) = m.countP fun x => 0 < witnessBytes x.2 := by
  induction h with
  | nil => simp
  | cons h _ ih =>
    obtain ⟨h1, h2, h3⟩ := ih
    have a := scriptBytes_mono h.1
    obtain ⟨b, c⟩ := witnessBytes_mono h.2
    simp only [List.length_cons, List.map_cons, List.sum_cons, List.countP_cons, h1, h3, c]
    refine ⟨trivial, by omega, trivial⟩

theorem fits_mono {x y : Nat × List Nat} (h : LensLe x y) (hy : PredictionFits y.1 y.2) : PredictionFits x.1 x.2 := by
  have a := scriptBytes_mono h.1
  obtain ⟨b, c⟩ := witnessBytes_mono h.2
  unfold PredictionFits at *
  omega

/-- The prediction as a sum of lengths. -/
theorem predict_formula (lens : List (Nat × List Nat)) (outs : List Nat) (hf : ∀ x ∈ lens, PredictionFits x.1 x.2) :
    predictWeight (predictionsFor lens) outs = some (predictInternal lens.length
      (lens.map fun x => 160 + 4 * scriptBytes x.1 + witnessBytes x.2).sum (lens.countP fun x => 0 < witnessBytes x.2)
      outs.length (outs.map scriptBytes).sum) := by
  have hcount : (predictionsFor lens).countP (fun p => p.witnessSize > 0) = lens.countP fun x => 0 < witnessBytes x.2 := by
    unfold predictionsFor
    rw [List.countP_map]
    apply List.countP_congr
    intro x hx
    simp [fromSlice_spec _ _ (hf x hx)]
  unfold predictWeight
  rw [foldIn_eq, foldOut_eq, predict_sum lens hf, hcount]
  simp only [Option.map_some, Nat.zero_add]
  have hlen2 : (predictionsFor lens).length = lens.length := by simp [predictionsFor]
  rw [hlen2]

theorem allLens_fits {l m : List (Nat × List Nat)} (h : AllLens l m) (hm : ∀ x ∈ m, PredictionFits x.1 x.2) : ∀ x ∈ l, PredictionFits x.1 x.2 := by
  induction h with
  | nil => simp
  | cons h _ ih =>
    intro x hx
    rcases List.mem_cons.mp hx with rfl | hx
    · exact fits_mono h (hm _ List.mem_cons_self)
    · exact ih (fun y hy => hm y (List.mem_cons_of_mem _ hy)) x hx

theorem predict_mono {l m : List (Nat × List Nat)} (h : AllLens l m) (outs : List Nat) (hm : ∀ x ∈ m, PredictionFits x.1 x.2) :
    ∃ a b, predictWeight (predictionsFor l) outs = some a ∧ predictWeight (predictionsFor m) outs = some b ∧ a ≤ b := by
  have hl := allLens_fits h hm
  refine ⟨_, _, predict_formula l outs hl, predict_formula m outs hm, ?_⟩
  obtain ⟨h1, h2, h3⟩ := allLens_sums h
  have h4 : (m.countP fun x => 0 < witnessBytes x.2) ≤ m.length := List.countP_le_length
  unfold predictInternal
  rw [h1, h3]
  simp only []
  split <;> omega

namespace SignTx
open Crypto
open Taproot (Hash)
open Sighash (Cache SameSigned Good good_new)

variable {S : Secp} {D : Der}

/-! ### The plan of an input -/

/-- The lengths the plan is made with: every ECDSA signature has 72 bytes. -/
def Lock.planned (H : Bytes → Hash) {C : Curve S D} (l : Lock C) : Nat × List Nat := l.lens H (List.replicate l.sigs 72)

theorem lens_mono (H : Bytes → Hash) {C : Curve S D} (l : Lock C) (d : List Nat) (hd : d.length = l.sigs) (h : ∀ x ∈ d, x ≤ 72) :
    LensLe (l.lens H d) (l.planned H) := by
  have ha : AllLe d (List.replicate l.sigs 72) := by rw [← hd]; exact AllLe.replicate 72 d h
  unfold Lock.planned
  cases l with
  | p2pkh k ty => exact ⟨by have := ha.sum; simp only [Lock.lens]; omega, .nil⟩
  | p2wpkh k ty => exact ⟨Nat.le_refl _, ha.append (.refl _)⟩
  | p2shP2wpkh k ty => exact ⟨Nat.le_refl _, ha.append (.refl _)⟩
  | p2wshMultisig keys signers ty => exact ⟨Nat.le_refl _, AllLe.append (.cons (Nat.le_refl 0) ha) (.refl _)⟩
  | p2trKey kp tree ty => exact ⟨Nat.le_refl _, .refl _⟩
  | p2trScript internal tree k ty => exact ⟨Nat.le_refl _, .refl _⟩

theorem leafScript_length {C : Curve S D} (k : XOnlyKey C) : (leafScript k).length = 34 := by
  have hkl := (C.serX k.inner).2
  show (Scr.pushOpcode (Scr.pushSlice [] (C.serX k.inner).1) _).length = _
  rw [pushSlice_pushed _ _ (by omega) (by omega)]
  simp [Scr.pushOpcode, pushed, hkl]

theorem planned_prediction (H : Bytes → Hash) (H160 : Bytes → Arr 20) {C : Curve S D} (kind : NetworkKind) (hrp : Addr.KnownHrp) (tx : Tx) (i : Nat)
    (l : Lock C) (hu : l.Usable tx i) (ha : (l.address H H160 kind hrp).isSome) :
    PredictionFits (l.planned H).1 (l.planned H).2 ∧
      l.prediction H = some (InputPrediction.fromSlice (l.planned H).1 (l.planned H).2) := by
  cases l with
  | p2pkh k ty =>
    obtain ⟨c, x⟩ := k
    cases c
    · exact ⟨(by decide : 4 * scriptBytes (2 + [72].sum + 65) + witnessBytes [] < 2 ^ 32), rfl⟩
    · exact ⟨(by decide : 4 * scriptBytes (2 + [72].sum + 33) + witnessBytes [] < 2 ^ 32), rfl⟩
  | p2wpkh k ty => exact ⟨(by decide : 4 * scriptBytes 0 + witnessBytes [72, 33] < 2 ^ 32), rfl⟩
  | p2shP2wpkh k ty => exact ⟨(by decide : 4 * scriptBytes 23 + witnessBytes [72, 33] < 2 ^ 32), rfl⟩
  | p2wshMultisig keys signers ty =>
    obtain ⟨u1, u2, u3⟩ := hu
    have hmn : signers.length ≤ keys.length := by
      have := u3.length_le
      rwa [List.length_map] at this
    have hscript := multisigScript_eq signers.length keys u1 hmn u2
    have hlen : ([UInt8.ofNat (0x50 + signers.length)] ++ (keys.map (·.toBytes)).flatMap pushed ++ [UInt8.ofNat (0x50 + keys.length), 0xae]).length =
        3 + 34 * keys.length := by
      have : ∀ l : List (FullPublicKey S), ((l.map (·.toBytes)).flatMap pushed).length = 34 * l.length := by
        intro l
        induction l with
        | nil => rfl
        | cons k l ih =>
          have hk : k.toBytes.length = 33 := (S.ser k.inner).2
          simp only [List.map_cons, List.flatMap_cons, List.length_append, ih, pushed, List.length_cons, hk]; omega
      simp only [List.length_append, List.length_cons, List.length_nil, this]; omega
    have hfit : PredictionFits ((Lock.p2wshMultisig (C := C) keys signers ty).planned H).1 ((Lock.p2wshMultisig (C := C) keys signers ty).planned H).2 := by
      simp only [Lock.planned, Lock.lens, Lock.sigs, PredictionFits, List.cons_append, witnessBytes_cons]
      simp only [List.map_cons, List.map_append, List.map_replicate, List.map_nil, List.sum_cons, List.sum_append, List.sum_nil,
        List.sum_replicate_nat, List.length_cons, List.length_append, List.length_replicate, List.length_nil]
      have h9 : ∀ n, csSize n ≤ 9 := by intro n; unfold csSize; repeat' split
                                        all_goals omega
      have e72 : scriptBytes 72 = 73 := rfl
      have e0 : scriptBytes 0 = 1 := rfl
      have := h9 (signers.length + (0 + 1) + 1)
      have := h9 (3 + 34 * keys.length)
      simp only [e72, e0]
      unfold scriptBytes
      omega
    refine ⟨hfit, ?_⟩
    simp only [Lock.prediction, hscript, Option.bind_some, hlen]
    exact new_spec _ _ hfit |>.trans (by rw [← fromSlice_spec _ _ hfit])
  | p2trKey kp tree ty =>
    by_cases ht : ty = .default
    · subst ht; exact ⟨(by decide : 4 * scriptBytes 0 + witnessBytes [64] < 2 ^ 32), rfl⟩
    · simp only [Lock.planned, Lock.lens, Lock.prediction, if_neg ht]
      exact ⟨(by decide : 4 * scriptBytes 0 + witnessBytes [65] < 2 ^ 32), rfl⟩
  | p2trScript internal tree k ty =>
    obtain ⟨u1, u2, u3⟩ := hu
    obtain ⟨st, a0, a3⟩ := Taproot.C50_control_block H C.taproot internal tree u1
    cases hq : Taproot.tapTweak H internal (some (tree.root H)) with
    | none =>
      rw [hq] at a3
      simp only at a3
      simp [Lock.address, spendInfo, a0, a3] at ha
    | some q =>
      rw [hq] at a3
      obtain ⟨info, b1, b2, b3, b4, -⟩ := a3
      obtain ⟨cb, c1, c2, c3, -, -, -, -, c8⟩ := b4 _ .tapScript u2
      have hinfo : spendInfo H internal (some tree) = some info := by
        unfold spendInfo
        simp only [a0, b1]
      have hcs : (Lock.p2trScript internal tree k ty).controlSize H = cb.size := by
        simp only [Lock.controlSize, hinfo, Option.bind_some, c1]
      have hsz : cb.size ≤ 4129 := by unfold Taproot.ControlBlock.size; omega
      have hfit : PredictionFits ((Lock.p2trScript internal tree k ty).planned H).1 ((Lock.p2trScript internal tree k ty).planned H).2 := by
        simp only [Lock.planned, Lock.lens, hcs]
        generalize cb.size = n at hsz
        have h9 : ∀ n, csSize n ≤ 9 := by intro n; unfold csSize; repeat' split
                                          all_goals omega
        have h0 := h9 0
        have h3 := h9 (0 + 1 + 1 + 1)
        have h34 := h9 34
        have hn := h9 n
        have ht := h9 (if ty = .default then 64 else 65)
        have ht2 : (if ty = .default then 64 else 65) ≤ 65 := by split <;> omega
        generalize (if ty = .default then 64 else 65) = t at ht ht2
        simp only [PredictionFits, witnessBytes_cons, scriptBytes, List.map_cons, List.map_nil, List.sum_cons, List.sum_nil, List.length_cons, List.length_nil]
        omega
      refine ⟨hfit, ?_⟩
      have hp : (Lock.p2trScript internal tree k ty).prediction H =
          InputPrediction.new ((Lock.p2trScript internal tree k ty).planned H).1 ((Lock.p2trScript internal tree k ty).planned H).2 := by
        simp only [Lock.prediction, hinfo, c1, Lock.planned, Lock.lens, hcs, leafScript_length]
      rw [hp, new_spec _ _ hfit, fromSlice_spec _ _ hfit]

/-- Signed inputs and their locks, side by side: the witness stacks, the lengths against those of the plan. -/
theorem signed_lists (H : Bytes → Hash) {C : Curve S D} (hlow : ∀ h k, (D.serialize (C.signEcdsa h k)).length ≤ 71) :
    ∀ (ins : List TxIn) (locks : List (Lock C)), ins.length = locks.length →
      (∀ (k : Nat) (x : TxIn) (l : Lock C), ins[k]? = some x → locks[k]? = some l → Sized H l (some x.scriptSig, some x.witness)) →
      ∃ ls, Stacks ins ls ∧ AllLens (List.zipWith inputLens ins ls) (locks.map (Lock.planned H)) ∧
        ((∀ h k, (D.serialize (C.signEcdsa h k)).length = 71) → List.zipWith inputLens ins ls = locks.map (Lock.planned H))
  | [], [], _, _ => ⟨[], .nil, .nil, fun _ => rfl⟩
  | [], _ :: _, h, _ => by cases h
  | _ :: _, [], h, _ => by cases h
  | x :: ins, l :: locks, h, hs => by
    obtain ⟨ls, a1, a2, a3⟩ := signed_lists H hlow ins locks (by simpa using h) fun k y m hy hm => hs (k + 1) y m (by simpa using hy) (by simpa using hm)
    obtain ⟨d, st, b1, b2, b3, b4, b5, b6⟩ := hs 0 x l rfl rfl
    simp only [Option.getD_some] at b3 b4
    have hlens : inputLens x st = l.lens H d := by
      unfold inputLens
      rw [b3, b6]
    have hw : Wit.fromSlice st = some x.witness := by rw [b4]; exact Wit.fromSlice_eq _ b5.offsets
    refine ⟨st :: ls, .cons b5 hw a1, ?_, ?_⟩
    · simp only [List.zipWith_cons_cons, List.map_cons, hlens]
      refine .cons (lens_mono H l d b1 ?_) a2
      intro n hn
      obtain ⟨h, k, rfl⟩ := b2 n hn
      have := hlow h k
      omega
    · intro heq
      have hd : d = List.replicate l.sigs 72 := by
        rw [List.eq_replicate_iff]
        refine ⟨b1, fun n hn => ?_⟩
        obtain ⟨h, k, rfl⟩ := b2 n hn
        rw [heq]
      simp only [List.zipWith_cons_cons, List.map_cons, hlens, a3 heq]
      rw [hd]; rfl

theorem mapM_some {α β : Type} (f : α → Option β) (g : α → β) : ∀ l : List α, (∀ x ∈ l, f x = some (g x)) → l.mapM f = some (l.map g)
  | [], _ => rfl
  | x :: l, h => by
    rw [List.mapM_cons, h x List.mem_cons_self, mapM_some f g l fun y hy => h y (List.mem_cons_of_mem _ hy)]
    rfl

/-- **C108.** A wallet with its outputs of the six kinds plans the weight of the transaction before any signature exists, from the
constants and from the lengths it knows, and signs. The plan never fails; the weight of what is signed, counted over its bytes, is at
most the planned one, and is the planned one when every signature has the greatest length; and if what is spent covers the outputs
and the fee for the planned weight, then the signed transaction pays the rate. -/
theorem C108_fee (H : Bytes → Hash) (H160 : Bytes → Arr 20) (C : Curve S D) (kind : NetworkKind) (hrp : Addr.KnownHrp)
    (hD : ∀ s, D.serialize s ≠ []) (hlow : ∀ h k, (D.serialize (C.signEcdsa h k)).length ≤ 71)
    (tx : Tx) (P : List TxOut) (locks : List (Lock C)) (hu : Unsigned tx) (hne : tx.inputs ≠ []) (h32 : tx.inputs.length ≤ 2 ^ 32)
    (hl : P.length = tx.inputs.length) (hown : Owns H H160 kind hrp P locks) (husable : ∀ (i : Nat) (l : Lock C), locks[i]? = some l → l.Usable tx i) :
    ∃ tx' W w, planWeight H tx locks = some W ∧ signTx H H160 tx P locks = some tx' ∧ tx'.weight = some w ∧ w ≤ W ∧
      ((∀ h k, (D.serialize (C.signEcdsa h k)).length = 71) → w = W) ∧
      (∀ rate, planFee H rate tx locks = if Amt.Valid (Amt.feeOf rate W) then some (Amt.feeOf rate W) else none) ∧
      ∀ rate fee, planFee H rate tx locks = some fee →
        (tx'.outputs.map fun o => o.amount.1).sum + fee ≤ (P.map fun o => o.amount.1).sum →
        rate * w ≤ 4000000 * ((P.map fun o => o.amount.1).sum - (tx'.outputs.map fun o => o.amount.1).sum) := by
  obtain ⟨tx', a1, a2, -, -, -, f, a6⟩ := signed_core H H160 C kind hrp hD tx P locks hu h32 hl hown husable
  have hll : locks.length = P.length := by simpa using congrArg List.length hown
  have hlen := a2.length
  have hout := a2.2.2.2
  obtain ⟨ls, b1, b2, b3⟩ := signed_lists H hlow tx'.inputs locks (by omega) (by
    intro k x l hx hk
    have hkl : k < tx.inputs.length := by rw [← hlen]; exact (List.getElem?_eq_some_iff.mp hx).1
    obtain ⟨c1, c2⟩ := a6 k hkl
    obtain ⟨d, st, d1, d2, d3, d4, d5⟩ := c2 l hk
    obtain ⟨u1, u2⟩ := hu tx.inputs[k] (List.getElem_mem hkl)
    rw [hx] at c1
    cases c1
    refine ⟨d, st, d1, d2, ?_, ?_, d5⟩
    · simpa only [fillIn, u1, Option.getD_some] using d3
    · simpa only [fillIn, u2, Option.getD_some] using d4)
  have hspk : ∀ l ∈ locks, (∃ i, l.Usable tx i) ∧ (l.address H H160 kind hrp).isSome := by
    intro l hm
    obtain ⟨i, hi, rfl⟩ := List.getElem_of_mem hm
    refine ⟨⟨i, husable i _ (List.getElem?_eq_getElem hi)⟩, ?_⟩
    have := congrArg (fun x => x[i]?) hown
    have h2 : P[i]? = some P[i] := List.getElem?_eq_getElem (by omega)
    simp only [List.getElem?_map, h2, List.getElem?_eq_getElem hi, Option.map_some, Option.some.injEq] at this
    cases h : (locks[i]).address H H160 kind hrp with
    | none => rw [h] at this; cases this
    | some _ => rfl
  have hplan : ∀ l ∈ locks, PredictionFits (l.planned H).1 (l.planned H).2 ∧
      l.prediction H = some (InputPrediction.fromSlice (l.planned H).1 (l.planned H).2) := by
    intro l hm
    obtain ⟨⟨i, h1⟩, h2⟩ := hspk l hm
    exact planned_prediction H H160 kind hrp tx i l h1 h2
  have hfit : ∀ x ∈ locks.map (Lock.planned H), PredictionFits x.1 x.2 := by
    intro x hx
    obtain ⟨l, hm, rfl⟩ := List.mem_map.mp hx
    exact (hplan l hm).1
  obtain ⟨w, W, e1, e2, e3⟩ := predict_mono b2 tx.scriptPubkeyLens hfit
  have hW : planWeight H tx locks = some W := by
    unfold planWeight
    rw [mapM_some _ (fun l => InputPrediction.fromSlice (l.planned H).1 (l.planned H).2) locks fun l hm => (hplan l hm).2, ← e2]
    simp only [Option.bind_some, predictionsFor, List.map_map]
    rfl
  have hw : tx'.weight = some w := by
    rw [← e1, ← C14_predict tx' ls (by intro h; rw [h] at hlen; exact hne (List.length_eq_zero_iff.mp hlen.symm)) b1 (allLens_fits b2 hfit), hout]
    rfl
  have hfee : ∀ rate, planFee H rate tx locks = if Amt.Valid (Amt.feeOf rate W) then some (Amt.feeOf rate W) else none := by
    intro rate
    unfold planFee
    rw [hW]
    simp only [Option.bind_some, Amt.C42_mul_by_weight]
    by_cases hv : Amt.Valid (Amt.feeOf rate W)
    · rw [if_pos hv, if_pos hv]
    · rw [if_neg hv, if_neg hv]
  refine ⟨tx', W, w, hW, a1, hw, e3, ?_, hfee, ?_⟩
  · intro heq
    rw [b3 heq, e2] at e1
    exact (Option.some.inj e1).symm
  · intro rate fee h1 h2
    rw [hfee] at h1
    split at h1
    · cases h1
      have h3 := (Amt.C42_enough rate W).1
      have h4 : rate * w ≤ rate * W := Nat.mul_le_mul_left _ e3
      omega
    · cases h1

/-- One input of each kind: the plan, the weight of what is signed (the toy signatures are shorter than real ones), a fee. -/
example : (∀ h k, (toyDer.serialize (toyCurve.signEcdsa h k)).length ≤ 71) ∧ toyTx.inputs ≠ [] ∧
    planWeight toyH toyTx toyLocks = some 2643 ∧ (signTx toyH toyH160 toyTx toySpent toyLocks).bind (·.weight) = some 2083 ∧
    planFee toyH 1000000 toyTx toyLocks = some 661 := by
  refine ⟨fun h k => by simp [toyDer], by decide, by decide +kernel, by decide +kernel, by decide +kernel⟩

end SignTx
end Btc
