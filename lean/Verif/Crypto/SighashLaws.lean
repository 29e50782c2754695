import Verif.Crypto.Sighash
/-!
# What the encoding functions write
-/
namespace Btc
namespace Sighash
open Crypto
open Taproot (Hash)

variable {ε : Type}

/-- A list of writes, and how it ends. -/
abbrev Prog (ε : Type) := List Bytes × Option (SErr ε)
def Prog.write (b : Bytes) : Prog ε := ([b], none)
def Prog.done : Prog ε := ([], none)
def Prog.fail (e : ε) : Prog ε := ([], some (.sighash e))
def Prog.panic : Prog ε := ([], some .panic)
def Prog.seq (p q : Prog ε) : Prog ε :=
  match p.2 with
  | none => (p.1 ++ q.1, q.2)
  | some e => (p.1, some e)
scoped infixr:60 " ⊳ " => Prog.seq
def Prog.try {α : Type} (r : Except ε α) (k : α → Prog ε) : Prog ε :=
  match r with
  | .ok a => k a
  | .error e => .fail e

/-- Perform the writes until one is refused. -/
def exec (sink : Sink) : Bytes → List Bytes → Option (SErr ε) → Bytes × Except (SErr ε) Unit
  | out, [], none => (out, .ok ())
  | out, [], some e => (out, .error e)
  | out, b :: bs, e => if sink out b then exec sink (out ++ b) bs e else (out, .error .io)

theorem exec_append (sink : Sink) (bs cs : List Bytes) (e : Option (SErr ε)) : ∀ out,
    exec sink out (bs ++ cs) e = match exec sink out bs (none : Option (SErr ε)) with
      | (o, .ok ()) => exec sink o cs e
      | (o, .error x) => (o, .error x) := by
  induction bs with
  | nil => intro out; rfl
  | cons b bs ih =>
    intro out
    simp only [List.cons_append, exec]
    by_cases h : sink out b = true
    · rw [if_pos h, if_pos h, ih]
    · rw [if_neg h, if_neg h]

theorem exec_some (sink : Sink) (bs : List Bytes) (e : SErr ε) : ∀ out,
    exec sink out bs (some e) = match exec sink out bs (none : Option (SErr ε)) with
      | (o, .ok ()) => (o, .error e)
      | (o, .error x) => (o, .error x) := by
  induction bs with
  | nil => intro out; rfl
  | cons b bs ih =>
    intro out
    simp only [exec]
    by_cases h : sink out b = true
    · rw [if_pos h, if_pos h, ih]
    · rw [if_neg h, if_neg h]

/-- With a writer that accepts everything. -/
theorem exec_vec (bs : List Bytes) (e : Option (SErr ε)) : ∀ out,
    exec vecSink out bs e = (out ++ bs.flatten, match e with | none => .ok () | some x => .error x) := by
  induction bs with
  | nil => intro out; cases e <;> simp [exec]
  | cons b bs ih => intro out; simp only [exec, vecSink, if_true]; rw [ih]; simp

/-- `m` keeps `I` and behaves like the writes `p`, whatever the writer. -/
def Denotes (I : Cache → Prop) (sink : Sink) (m : M ε) (p : Prog ε) : Prop :=
  ∀ w, I w.cache → I (m w).1.cache ∧ ((m w).1.out, (m w).2) = exec sink w.out p.1 p.2

variable {I : Cache → Prop} {sink : Sink}

theorem Denotes.done : Denotes I sink (M.done : M ε) Prog.done := fun _ h => ⟨h, rfl⟩
theorem Denotes.fail (e : ε) : Denotes I sink (M.fail e) (Prog.fail e) := fun _ h => ⟨h, rfl⟩
theorem Denotes.panic : Denotes I sink (M.panic : M ε) Prog.panic := fun _ h => ⟨h, rfl⟩
theorem Denotes.write (b : Bytes) : Denotes I sink (M.write sink b : M ε) (Prog.write b) := by
  intro w h
  unfold M.write Prog.write
  simp only [exec]
  by_cases hs : sink w.out b = true
  · rw [if_pos hs, if_pos hs]; exact ⟨h, rfl⟩
  · rw [if_neg hs, if_neg hs]; exact ⟨h, rfl⟩

theorem Denotes.seq {m k : M ε} {p q : Prog ε} (hm : Denotes I sink m p) (hk : Denotes I sink k q) :
    Denotes I sink (m ;; k) (p ⊳ q) := by
  intro w h
  obtain ⟨h1, h2⟩ := hm w h
  unfold M.seq
  cases hmw : m w with
  | mk w' r =>
    rw [hmw] at h1 h2
    unfold Prog.seq
    obtain ⟨ps, pe⟩ := p
    obtain ⟨qs, qe⟩ := q
    cases pe with
    | none =>
      simp only at h1 h2 ⊢
      rw [exec_append, ← h2]
      cases r with
      | ok u => exact hk w' h1
      | error e => exact ⟨h1, rfl⟩
    | some x =>
      simp only at h1 h2 ⊢
      rw [exec_some] at h2
      rw [exec_some]
      cases hx : exec sink w.out ps (none : Option (SErr ε)) with
      | mk o r' =>
        rw [hx] at h2
        cases r' with
        | ok u => simp only at h2 ⊢; cases h2; exact ⟨h1, rfl⟩
        | error e => simp only at h2 ⊢; cases h2; exact ⟨h1, rfl⟩

theorem Denotes.try {α : Type} (r : Except ε α) {k : α → M ε} {k' : α → Prog ε} (h : ∀ a, r = .ok a → Denotes I sink (k a) (k' a)) :
    Denotes I sink (M.try r k) (Prog.try r k') := by
  cases r with
  | ok a => exact h a rfl
  | error e => exact Denotes.fail e

theorem Denotes.ite {c : Prop} [Decidable c] {m k : M ε} {p q : Prog ε} (hm : c → Denotes I sink m p) (hk : ¬ c → Denotes I sink k q) :
    Denotes I sink (if c then m else k) (if c then p else q) := by
  by_cases h : c
  · rw [if_pos h, if_pos h]; exact hm h
  · rw [if_neg h, if_neg h]; exact hk h

/-! ## The cache invariant -/

/-- What a cache may hold for the transaction `tx` and, for taproot, the spent outputs `P`. -/
structure Good (H : Bytes → Hash) (tx : Tx) (P : List TxOut) (c : Cache) : Prop where
  same : c.tx = tx
  common : c.common = none ∨ c.common = some (computeCommon H tx)
  segwit : c.segwit = none ∨ c.segwit = some ⟨H (computeCommon H tx).prevouts.1, H (computeCommon H tx).sequences.1, H (computeCommon H tx).outputs.1⟩
  taproot : c.taproot = none ∨ c.taproot = some (computeTap H P)

theorem good_new (H : Bytes → Hash) (tx : Tx) (P : List TxOut) : Good H tx P (Cache.new tx) :=
  ⟨rfl, .inl rfl, .inl rfl, .inl rfl⟩

variable {H : Bytes → Hash} {tx : Tx} {P : List TxOut}

theorem commonCache_good {c : Cache} (h : Good H tx P c) :
    Good H tx P (commonCache H c).1 ∧ (commonCache H c).2 = computeCommon H tx := by
  unfold commonCache
  cases hc : c.common with
  | none => exact ⟨⟨h.same, .inr (by rw [← h.same]), h.segwit, h.taproot⟩, by rw [← h.same]⟩
  | some x =>
    rcases h.common with h' | h'
    · rw [hc] at h'; cases h'
    · rw [hc] at h'; cases h'; exact ⟨h, rfl⟩

theorem segwitCache_good {c : Cache} (h : Good H tx P c) : Good H tx P (segwitCache H c).1 ∧
    (segwitCache H c).2 = ⟨H (computeCommon H tx).prevouts.1, H (computeCommon H tx).sequences.1, H (computeCommon H tx).outputs.1⟩ := by
  unfold segwitCache
  cases hc : c.segwit with
  | none =>
    have ⟨h1, h2⟩ := commonCache_good h
    simp only [h2]
    exact ⟨⟨h1.same, h1.common, .inr rfl, h1.taproot⟩, trivial⟩
  | some x =>
    rcases h.segwit with h' | h'
    · rw [hc] at h'; cases h'
    · rw [hc] at h'; cases h'; exact ⟨h, rfl⟩

theorem taprootCache_good {c : Cache} (h : Good H tx P c) :
    Good H tx P (taprootCache H c P).1 ∧ (taprootCache H c P).2 = computeTap H P := by
  unfold taprootCache
  cases hc : c.taproot with
  | none => exact ⟨⟨h.same, h.common, h.segwit, .inr rfl⟩, rfl⟩
  | some x =>
    rcases h.taproot with h' | h'
    · rw [hc] at h'; cases h'
    · rw [hc] at h'; cases h'; exact ⟨h, rfl⟩

theorem Denotes.common {k : Common → M ε} {p : Prog ε} (h : Denotes (Good H tx P) sink (k (computeCommon H tx)) p) :
    Denotes (Good H tx P) sink (M.common H k) p := by
  intro w hw
  have ⟨h1, h2⟩ := commonCache_good hw
  unfold M.common
  simp only [h2]
  exact h ⟨(commonCache H w.cache).1, w.out⟩ h1
theorem Denotes.segwit {k : Segwit → M ε} {p : Prog ε}
    (h : Denotes (Good H tx P) sink (k ⟨H (computeCommon H tx).prevouts.1, H (computeCommon H tx).sequences.1, H (computeCommon H tx).outputs.1⟩) p) :
    Denotes (Good H tx P) sink (M.segwit H k) p := by
  intro w hw
  have ⟨h1, h2⟩ := segwitCache_good hw
  unfold M.segwit
  simp only [h2]
  exact h ⟨(segwitCache H w.cache).1, w.out⟩ h1
theorem Denotes.taproot {k : TapC → M ε} {p : Prog ε} (h : Denotes (Good H tx P) sink (k (computeTap H P)) p) :
    Denotes (Good H tx P) sink (M.taproot H P k) p := by
  intro w hw
  have ⟨h1, h2⟩ := taprootCache_good hw
  unfold M.taproot
  simp only [h2]
  exact h ⟨(taprootCache H w.cache P).1, w.out⟩ h1
theorem Denotes.withTx {k : Tx → M ε} {p : Prog ε} (h : Denotes (Good H tx P) sink (k tx) p) :
    Denotes (Good H tx P) sink (M.tx k) p := by
  intro w hw
  unfold M.tx
  have := hw.same
  rw [this]
  exact h w hw

/-! ## The writes of the three functions -/

def tapProg (H : Bytes → Hash) (tx : Tx) (i : Nat) (prevouts : Prevouts) (annex : Option Annex) (leaf : Option (Hash × UInt32)) (ty : Tap) :
    Prog TapErr :=
  .try (prevouts.checkAll tx) fun _ =>
  .write [0] ⊳
  .write [ty.toU8] ⊳
  .write (u32le tx.version) ⊳
  .write (u32le tx.lockTime) ⊳
  (if !ty.splitAcp.2 then
    .write (computeCommon H tx).prevouts.1 ⊳
    .try prevouts.getAll (fun ps => .write (computeTap H ps).amounts.1) ⊳
    .try prevouts.getAll (fun ps => .write (computeTap H ps).spks.1) ⊳
    .write (computeCommon H tx).sequences.1
  else .done) ⊳
  (if ty.splitAcp.1 ≠ .none ∧ ty.splitAcp.1 ≠ .single then .write (computeCommon H tx).outputs.1 else .done) ⊳
  .write [if leaf.isSome then (if annex.isSome then (0 : UInt8) ||| 1 else 0) ||| 2 else (if annex.isSome then (0 : UInt8) ||| 1 else 0)] ⊳
  (if ty.splitAcp.2 then
    .try ((txIn tx i).mapError .inputsIndex) fun txin =>
    .try (prevouts.get i) fun prev =>
    .write (outPointB txin.prev) ⊳
    .write (amountB prev.amount) ⊳
    .write (scriptB prev.spk) ⊳
    .write (u32le txin.sequence)
  else .write (u32le (UInt32.ofNat i))) ⊳
  (match annex with
   | some a => .write (H (csEncode a.1.length ++ a.1)).1
   | none => .done) ⊳
  (if ty.splitAcp.1 = .single then
    match tx.outputs[i]? with
    | some o => .write (H (txOutB o)).1
    | none => .fail (.singleMissing i tx.outputs.length)
  else .done) ⊳
  (match leaf with
   | some (h, pos) => .write h.1 ⊳ .write [0] ⊳ .write (u32le pos)
   | none => .done)

theorem tapEncode_denotes (i : Nat) (prevouts : Prevouts) (annex : Option Annex) (leaf : Option (Hash × UInt32)) (ty : Tap)
    (hP : ty.splitAcp.2 = false → ∀ l, prevouts = .all l → l.length = tx.inputs.length → l = P) :
    Denotes (Good H tx P) sink (tapEncode H sink i prevouts annex leaf ty) (tapProg H tx i prevouts annex leaf ty) := by
  unfold tapEncode tapProg
  apply Denotes.withTx
  apply Denotes.try
  intro _ hcheck
  have hall : ty.splitAcp.2 = false → ∀ l, prevouts.getAll = .ok l → l = P := by
    intro hacp l hl
    cases prevouts with
    | one j o => cases hl
    | all l' =>
      cases hl
      refine hP hacp l rfl ?_
      unfold Prevouts.checkAll at hcheck
      simp only at hcheck
      apply Classical.byContradiction
      intro hne
      rw [if_pos hne] at hcheck; cases hcheck
  generalize hsp : ty.splitAcp = sp at *
  obtain ⟨sh, acp⟩ := sp
  simp only at hall ⊢
  refine (Denotes.write _).seq ((Denotes.write _).seq ((Denotes.write _).seq ((Denotes.write _).seq (.seq ?_ (.seq ?_ (.seq (Denotes.write _)
    (.seq ?_ (.seq ?_ (.seq ?_ ?_)))))))))
  · refine .ite ?_ (fun _ => .done)
    intro hacp
    have hall' := hall (by simpa using hacp)
    refine .seq (.common (.write _)) (.seq ?_ (.seq ?_ (.common (.write _))))
    · apply Denotes.try
      intro l hl
      rw [hall' l hl]
      exact .taproot (.write _)
    · apply Denotes.try
      intro l hl
      rw [hall' l hl]
      exact .taproot (.write _)
  · exact .ite (fun _ => .common (.write _)) (fun _ => .done)
  · refine .ite (fun _ => ?_) (fun _ => .write _)
    exact .try _ fun _ _ => .try _ fun _ _ => .seq (.write _) (.seq (.write _) (.seq (.write _) (.write _)))
  · cases annex with
    | none => exact .done
    | some a => exact .write _
  · refine .ite (fun _ => ?_) (fun _ => .done)
    cases tx.outputs[i]? with
    | none => exact .fail _
    | some o => exact .write _
  · cases leaf with
    | none => exact .done
    | some l => exact .seq (.write _) (.seq (.write _) (.write _))

def segwitProg (H : Bytes → Hash) (tx : Tx) (i : Nat) (scriptCode : Bytes) (amount : Amount) (ty : Ecdsa) : Prog InputsIndexError :=
  .write (u32le tx.version) ⊳
  (if !ty.splitAcp.2 then .write (H (computeCommon H tx).prevouts.1).1 else .write (List.replicate 32 0)) ⊳
  (if !ty.splitAcp.2 && ty.splitAcp.1 ≠ .single && ty.splitAcp.1 ≠ .none then .write (H (computeCommon H tx).sequences.1).1
   else .write (List.replicate 32 0)) ⊳
  (.try (txIn tx i) fun txin =>
    .write (outPointB txin.prev) ⊳ .write (scriptB scriptCode) ⊳ .write (amountB amount) ⊳ .write (u32le txin.sequence)) ⊳
  (if ty.splitAcp.1 ≠ .single && ty.splitAcp.1 ≠ .none then .write (H (computeCommon H tx).outputs.1).1
   else if h : ty.splitAcp.1 = .single ∧ i < tx.outputs.length then .write (H (H (txOutB tx.outputs[i])).1).1
   else .write (List.replicate 32 0)) ⊳
  .write (u32le tx.lockTime) ⊳
  .write (u32le ty.toU32)

theorem segwitEncode_denotes (i : Nat) (scriptCode : Bytes) (amount : Amount) (ty : Ecdsa) :
    Denotes (Good H tx P) sink (segwitEncode H sink i scriptCode amount ty) (segwitProg H tx i scriptCode amount ty) := by
  unfold segwitEncode segwitProg
  obtain ⟨sh, acp, hsp⟩ : ∃ a b, ty.splitAcp = (a, b) := ⟨_, _, rfl⟩
  simp only [hsp]
  apply Denotes.withTx
  refine (Denotes.write _).seq (.seq ?_ (.seq ?_ (.seq ?_ (.seq ?_ (.seq (.write _) (.write _))))))
  · exact .ite (fun _ => .segwit (.write _)) (fun _ => .write _)
  · exact .ite (fun _ => .segwit (.write _)) (fun _ => .write _)
  · exact .try _ fun _ _ => .seq (.write _) (.seq (.write _) (.seq (.write _) (.write _)))
  · refine .ite (fun _ => .segwit (.write _)) (fun _ => ?_)
    by_cases h : sh = .single ∧ i < tx.outputs.length
    · rw [dif_pos h, dif_pos h]; exact .write _
    · rw [dif_neg h, dif_neg h]; exact .write _

def legacyInputsProg (i : Nat) (spk : Bytes) (sighash : Ecdsa) : Nat → List TxIn → Prog InputsIndexError
  | _, [] => .done
  | n, input :: rest =>
    .write (outPointB input.prev) ⊳
    (if n = i then .write (scriptB spk) else .write (scriptB [])) ⊳
    (if n ≠ i ∧ (sighash = .single ∨ sighash = .none) then .write (u32le 0) else .write (u32le input.sequence)) ⊳
    legacyInputsProg i spk sighash (n + 1) rest
def nullOutputsProg : Nat → Prog InputsIndexError
  | 0 => .done
  | n + 1 => .write [0xFF, 0xFF, 0xFF, 0xFF, 0xFF, 0xFF, 0xFF, 0xFF, 0x00] ⊳ nullOutputsProg n
def legacyInsProg (tx : Tx) (i : Nat) (spk : Bytes) (sh : Ecdsa) (acp : Bool) : Prog InputsIndexError :=
  if acp then
    .write (csEncode 1) ⊳
    (match tx.inputs[i]? with
     | none => .panic
     | some input => .write (outPointB input.prev) ⊳ .write (scriptB spk) ⊳ .write (u32le input.sequence))
  else
    .write (csEncode tx.inputs.length) ⊳ legacyInputsProg i spk sh 0 tx.inputs
def legacyOutsProg (tx : Tx) (i : Nat) (sh : Ecdsa) : Prog InputsIndexError :=
  match sh with
  | .all => .write (csEncode tx.outputs.length ++ (tx.outputs.map txOutB).flatten)
  | .single =>
    if tx.outputs.length = 0 then .panic
    else .write (csEncode (min i (tx.outputs.length - 1) + 1)) ⊳ nullOutputsProg (min i (tx.outputs.length - 1)) ⊳
      (match tx.outputs[min i (tx.outputs.length - 1)]? with
       | none => .panic
       | some o => .write (txOutB o))
  | .none => .write (csEncode 0)
  | _ => .panic
def legacyProg (tx : Tx) (i : Nat) (spk : Bytes) (n : UInt32) : Prog InputsIndexError :=
  .write (u32le tx.version) ⊳
  legacyInsProg tx i spk (Ecdsa.fromConsensus n).splitAcp.1 (Ecdsa.fromConsensus n).splitAcp.2 ⊳
  legacyOutsProg tx i (Ecdsa.fromConsensus n).splitAcp.1 ⊳
  .write (u32le tx.lockTime) ⊳
  .write (u32le n)

theorem legacyInputs_denotes (i : Nat) (spk : Bytes) (sighash : Ecdsa) : ∀ (l : List TxIn) (n : Nat),
    Denotes I sink (legacyInputs sink i spk sighash n l) (legacyInputsProg i spk sighash n l)
  | [], _ => .done
  | x :: l, n => .seq (.write _) (.seq (.ite (fun _ => .write _) (fun _ => .write _)) (.seq (.ite (fun _ => .write _) (fun _ => .write _))
      (legacyInputs_denotes i spk sighash l (n + 1))))
theorem nullOutputs_denotes : ∀ n, Denotes I sink (nullOutputs sink n) (nullOutputsProg n)
  | 0 => .done
  | n + 1 => .seq (.write _) (nullOutputs_denotes n)

theorem legacyInner_denotes (tx : Tx) (i : Nat) (spk : Bytes) (n : UInt32) :
    Denotes I sink (legacyInner sink tx i spk n) (legacyProg tx i spk n) := by
  unfold legacyInner legacyProg
  generalize (Ecdsa.fromConsensus n).splitAcp = sp
  obtain ⟨sh, acp⟩ := sp
  simp only
  refine (Denotes.write _).seq (.seq ?_ (.seq ?_ (.seq (.write _) (.write _))))
  · unfold legacyInsProg
    refine .ite (fun _ => .seq (.write _) ?_) (fun _ => .seq (.write _) (legacyInputs_denotes _ _ _ _ _))
    cases tx.inputs[i]? with
    | none => exact .panic
    | some x => exact .seq (.write _) (.seq (.write _) (.write _))
  · unfold legacyOutsProg
    cases sh with
    | all => exact .write _
    | none => exact .write _
    | single =>
      refine .ite (fun _ => .panic) (fun _ => .seq (.write _) (.seq (nullOutputs_denotes _) ?_))
      cases tx.outputs[min i (tx.outputs.length - 1)]? with
      | none => exact .panic
      | some o => exact .write _
    | allAcp => exact .panic
    | noneAcp => exact .panic
    | singleAcp => exact .panic

end Sighash
end Btc
