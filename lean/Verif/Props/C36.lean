import Verif.Script.SigOps
import Verif.Props.C35
import Verif.Props.C18_C19
/-!
# C36: signature operation counting
-/
namespace Btc
namespace Scr

/-! ### Specification -/

/-- What one instruction adds, given the instruction before it. -/
def sigWeight (accurate : Bool) (before : Option Instr) : Instr → Nat
  | .op 0xac => 1
  | .op 0xad => 1
  | .op o =>
    if o = 0xae ∨ o = 0xaf then
      match before with
      | some (.op k) => if accurate = true ∧ 0x51 ≤ k.toNat ∧ k.toNat ≤ 0x60 then k.toNat - 0x50 else 20
      | _ => 20
    else 0
  | .push _ => 0

/-- The sum over all instructions, each with its predecessor. -/
def sigSpec (accurate : Bool) (is : List Instr) : Nat :=
  (((none :: is.map some).zip is).map fun x => sigWeight accurate x.1 x.2).sum

/-- `ps` is the longest parseable prefix of `s`: pieces that each encode an instruction, followed by nothing or by bytes
that begin no instruction. -/
def Parse (s : Bytes) (is : List Instr) : Prop :=
  ∃ (ps : List (Bytes × Instr)) (rest : Bytes), s = (ps.map Prod.fst).flatten ++ rest ∧ (∀ x ∈ ps, Enc x.1 x.2) ∧
    is = ps.map Prod.snd ∧ (rest = [] ∨ ∀ p i t, rest = p ++ t → ¬ Enc p i)

theorem parse_walk {s : Bytes} {is : List Instr} (h : Parse s is) :
    instructions s = is.map .ok ∨ ∃ e, instructions s = is.map .ok ++ [.error e] := by
  obtain ⟨ps, rest, rfl, hp, rfl, hr⟩ := h
  have hw := walk_append false ps (fun x hx => ⟨hp x hx, fun h => by cases h⟩) rest rest.length
  have hpl : ps.length ≤ (ps.map Prod.fst).flatten.length := by
    clear hw
    induction ps with
    | nil => simp
    | cons x ps ih =>
      have := (hp x (by simp)).length_pos
      have := ih (fun y hy => hp y (by simp [hy]))
      simp only [List.map_cons, List.flatten_cons, List.length_append, List.length_cons] at this ⊢
      omega
  have hmap : ps.map (fun x => (.ok x.2 : Except ScrErr Instr)) = (ps.map Prod.snd).map .ok := by simp
  rcases hr with rfl | hr
  · left
    unfold instructions
    rw [walk_nil, List.append_nil, List.append_nil] at hw
    rw [List.append_nil]
    have h2 := walk_append false ps (fun x hx => ⟨hp x hx, fun h => by cases h⟩) []
      ((ps.map Prod.fst).flatten.length - ps.length)
    rw [walk_nil, List.append_nil, List.append_nil, show ps.length + ((ps.map Prod.fst).flatten.length - ps.length) = (ps.map Prod.fst).flatten.length by omega] at h2
    rw [h2, hmap]
  · by_cases hnil : rest = []
    · subst hnil
      left
      unfold instructions
      rw [List.append_nil]
      have h2 := walk_append false ps (fun x hx => ⟨hp x hx, fun h => by cases h⟩) []
        ((ps.map Prod.fst).flatten.length - ps.length)
      rw [walk_nil, List.append_nil, List.append_nil, show ps.length + ((ps.map Prod.fst).flatten.length - ps.length) = (ps.map Prod.fst).flatten.length by omega] at h2
      rw [h2, hmap]
    · right
      have h2 := walk_append false ps (fun x hx => ⟨hp x hx, fun h => by cases h⟩) rest
        ((ps.map Prod.fst).flatten.length + rest.length - ps.length)
      rw [show ps.length + ((ps.map Prod.fst).flatten.length + rest.length - ps.length) =
        ((ps.map Prod.fst).flatten ++ rest).length by rw [List.length_append]; omega] at h2
      obtain ⟨g, hg⟩ : ∃ g, (ps.map Prod.fst).flatten.length + rest.length - ps.length = g + 1 :=
        ⟨(ps.map Prod.fst).flatten.length + rest.length - ps.length - 1, by
          have := List.length_pos_iff.2 hnil; omega⟩
      rw [hg] at h2
      rcases next_cases false rest hnil with ⟨p, i, t, e, he, _, _⟩ | ⟨hm, _⟩ | ⟨hn, _⟩
      · exact absurd he (hr p i t e)
      · cases hm
      · refine ⟨.earlyEndOfScript, ?_⟩
        unfold instructions
        rw [h2, walk_succ_some hn, walk_nil, hmap]

/-- Every script has a parse. -/
theorem C36_parse_exists (s : Bytes) : ∃ is, Parse s is := by
  obtain ⟨ps, rest, e, hp, hend⟩ := C33_tiles false s
  refine ⟨ps.map Prod.snd, ps, rest, e, fun x hx => (hp x hx).1, rfl, ?_⟩
  rcases hend with ⟨h, _⟩ | ⟨_, hs, _⟩
  · exact .inl h
  · rcases hs.2 with ⟨_, h⟩ | ⟨_, hm, _⟩ | ⟨_, hm, _⟩
    · exact .inr h
    · cases hm
    · cases hm

def cacheOf : Option Instr → Option UInt8
  | some (.op k) => decodePushnum k
  | _ => none

set_option maxRecDepth 8000 in
theorem pushnum_cache : ∀ k : UInt8,
    (match decodePushnum k with
     | some m => decide (0x51 ≤ k.toNat) && decide (k.toNat ≤ 0x60) && (m.toNat == k.toNat - 0x50)
     | none => !(decide (0x51 ≤ k.toNat) && decide (k.toNat ≤ 0x60))) = true := by
  apply forall_u8; decide

theorem sigopsLoop_op (acc : Bool) (o : UInt8) (rest : List (Except ScrErr Instr)) (n : Nat) (cache : Option UInt8) :
    sigopsLoop acc (.ok (.op o) :: rest) n cache =
      if o = OP_CHECKSIG ∨ o = OP_CHECKSIGVERIFY then sigopsLoop acc rest (n + 1) none
      else if o = OP_CHECKMULTISIG ∨ o = OP_CHECKMULTISIGVERIFY then
        sigopsLoop acc rest (n + (if acc = true then (cache.map UInt8.toNat).getD 20 else 20)) none
      else sigopsLoop acc rest n (decodePushnum o) := by
  cases acc <;> cases cache <;> simp [sigopsLoop]

theorem loop_spec (acc : Bool) (is : List Instr) (tl : List (Except ScrErr Instr)) (htl : tl = [] ∨ ∃ e, tl = [.error e]) :
    ∀ (n : Nat) (before : Option Instr),
    sigopsLoop acc (is.map .ok ++ tl) n (cacheOf before) =
      n + (((before :: is.map some).zip is).map fun x => sigWeight acc x.1 x.2).sum := by
  induction is with
  | nil =>
    intro n before
    rcases htl with rfl | ⟨e, rfl⟩ <;> simp [sigopsLoop]
  | cons i is ih =>
    intro n before
    simp only [List.map_cons, List.cons_append, List.zip_cons_cons, List.sum_cons]
    cases i with
    | push b =>
      rw [sigopsLoop]
      have := ih n (some (.push b))
      simp only [cacheOf] at this
      rw [this]
      simp [sigWeight]
    | op o =>
      rw [sigopsLoop_op]
      by_cases h1 : o = OP_CHECKSIG ∨ o = OP_CHECKSIGVERIFY
      · rw [if_pos h1]
        have hw : sigWeight acc before (.op o) = 1 := by rcases h1 with rfl | rfl <;> rfl
        have := ih (n + 1) (some (.op o))
        have hc : cacheOf (some (.op o)) = none := by rcases h1 with rfl | rfl <;> rfl
        rw [hc] at this
        rw [this, hw]; omega
      · rw [if_neg h1]
        have e1 : o ≠ 0xac := fun e => h1 (.inl e)
        have e2 : o ≠ 0xad := fun e => h1 (.inr e)
        have hsw : sigWeight acc before (.op o) =
            if o = 0xae ∨ o = 0xaf then
              match before with
              | some (.op k) => if acc = true ∧ 0x51 ≤ k.toNat ∧ k.toNat ≤ 0x60 then k.toNat - 0x50 else 20
              | _ => 20
            else 0 := by
          unfold sigWeight
          split
          · rename_i h; exact absurd (by simpa using h) e1
          · rename_i h; exact absurd (by simpa using h) e2
          · rename_i h
            cases h; rfl
          · rename_i h; cases h
        rw [hsw]
        by_cases h2 : o = OP_CHECKMULTISIG ∨ o = OP_CHECKMULTISIGVERIFY
        · rw [if_pos h2, if_pos (show o = 0xae ∨ o = 0xaf from h2)]
          have hc : cacheOf (some (.op o)) = none := by rcases h2 with rfl | rfl <;> rfl
          have key : ∀ k, sigopsLoop acc (is.map .ok ++ tl) (n + k) none =
              n + (k + (((some (.op o) :: is.map some).zip is).map fun x => sigWeight acc x.1 x.2).sum) := by
            intro k
            have := ih (n + k) (some (.op o))
            rw [hc] at this
            rw [this]; omega
          rw [key]
          refine congrArg (n + ·) (congrArg (· + _) ?_)
          cases acc with
          | false =>
            cases before with
            | none => rfl
            | some j => cases j <;> simp
          | true =>
            cases before with
            | none => rfl
            | some j =>
              cases j with
              | push b => rfl
              | op k =>
                have hk := pushnum_cache k
                simp only [cacheOf, if_true]
                cases hd : decodePushnum k with
                | none =>
                  rw [hd] at hk
                  simp only [Bool.not_eq_true', Bool.and_eq_false_iff, decide_eq_false_iff_not] at hk
                  rw [if_neg (by omega)]; rfl
                | some m =>
                  rw [hd] at hk
                  simp only [Bool.and_eq_true, decide_eq_true_iff, beq_iff_eq] at hk
                  rw [if_pos ⟨trivial, hk.1.1, hk.1.2⟩, ← hk.2]; rfl
        · rw [if_neg h2, if_neg (show ¬ (o = 0xae ∨ o = 0xaf) from h2)]
          have := ih n (some (.op o))
          simp only [cacheOf] at this
          rw [this]; omega

/-- **C36 (scripts).** `count_sigops` and `count_sigops_legacy` are the sums of the consensus weights over the
instructions before the first malformed push. -/
theorem C36_scripts (s : Bytes) (is : List Instr) (h : Parse s is) :
    countSigops s = sigSpec true is ∧ countSigopsLegacy s = sigSpec false is := by
  have key : ∀ acc, sigopsLoop acc (instructions s) 0 none = sigSpec acc is := by
    intro acc
    rcases parse_walk h with hw | ⟨e, hw⟩
    · have := loop_spec acc is [] (.inl rfl) 0 none
      rw [List.append_nil, Nat.zero_add] at this
      rw [hw]; exact this
    · have := loop_spec acc is [.error e] (.inr ⟨e, rfl⟩) 0 none
      rw [Nat.zero_add] at this
      rw [hw]; exact this
  exact ⟨key true, key false⟩

/-- The recursive definition: reading the next instruction first. -/
theorem C36_recursive (acc : Bool) (is : List Instr) (i : Instr) :
    sigSpec acc (is ++ [i]) = sigSpec acc is + sigWeight acc is.getLast? i := by
  have gen : ∀ (is : List Instr) (b : Option Instr),
      (((b :: (is ++ [i]).map some).zip (is ++ [i])).map fun x => sigWeight acc x.1 x.2).sum =
      (((b :: is.map some).zip is).map fun x => sigWeight acc x.1 x.2).sum + sigWeight acc (is.getLast?.or b) i := by
    intro is
    induction is with
    | nil => intro b; simp
    | cons j js ih =>
      intro b
      simp only [List.cons_append, List.map_cons, List.zip_cons_cons, List.sum_cons]
      rw [ih (some j)]
      have : (js.getLast?.or (some j)) = ((j :: js).getLast?.or b) := by
        cases js with
        | nil => rfl
        | cons k ks =>
          rw [List.getLast?_cons_cons]
          have : ∃ z, (k :: ks).getLast? = some z := ⟨_, List.getLast?_eq_some_getLast (by simp)⟩
          obtain ⟨z, hz⟩ := this
          rw [hz]; rfl
      rw [this]; omega
  have := gen is none
  simpa [sigSpec] using this

/-- The accurate count never exceeds the legacy count, and no script counts more than 20 per instruction. -/
theorem C36_bounds (s : Bytes) : countSigops s ≤ countSigopsLegacy s ∧ countSigopsLegacy s ≤ 20 * s.length := by
  obtain ⟨is, hp⟩ := C36_parse_exists s
  obtain ⟨h1, h2⟩ := C36_scripts s is hp
  have hlen : is.length ≤ s.length := by
    have := (C33_terminates false s 0).2
    rcases parse_walk hp with hw | ⟨e, hw⟩
    · rw [show walk false s.length s = _ from hw] at this; simpa using this
    · rw [show walk false s.length s = _ from hw] at this; simp at this; omega
  have w1 : ∀ b i, sigWeight true b i ≤ sigWeight false b i ∧ sigWeight false b i ≤ 20 := by
    intro b i
    unfold sigWeight
    split
    · simp
    · simp
    · split
      · split
        · simp only [Bool.false_eq_true, false_and, if_false, true_and]
          split <;> omega
        · omega
      · omega
    · simp
  have w2 : ∀ (is : List Instr) (b : Option Instr),
      (((b :: is.map some).zip is).map fun x => sigWeight true x.1 x.2).sum ≤
        (((b :: is.map some).zip is).map fun x => sigWeight false x.1 x.2).sum ∧
      (((b :: is.map some).zip is).map fun x => sigWeight false x.1 x.2).sum ≤ 20 * is.length := by
    intro is
    induction is with
    | nil => intro b; simp
    | cons j js ih =>
      intro b
      simp only [List.map_cons, List.zip_cons_cons, List.sum_cons, List.length_cons]
      have := ih (some j)
      have := w1 b j
      omega
  have := w2 is none
  rw [h1, h2]
  exact ⟨this.1, by have := this.2; unfold sigSpec; omega⟩

/-! ### Transactions -/

/-- The redeem script of an input: the data of the last instruction, if the script parses and ends with a push. -/
def lastPush (scriptSig : Bytes) : Option Bytes :=
  match (instructions scriptSig).getLast? with
  | some (.ok (.push d)) => some d
  | _ => none

/-- BIP-16 cost of one input, as the library counts it. -/
def p2shCost (spk scriptSig : Bytes) : Nat :=
  if recognises .p2sh spk then ((lastPush scriptSig).map countSigops).getD 0 else 0

/-- BIP-141 cost of a program: 1 for P2WPKH, the accurate count of the last witness item for P2WSH. -/
def programCost (wit : List Bytes) (program : Bytes) : Nat :=
  if recognises .p2wpkh program then 1
  else if recognises .p2wsh program then ((wit.reverse[0]?).map countSigops).getD 0 else 0

/-- BIP-141 cost of one input: of the spent script if it is a witness program, or of the redeem script of a P2SH output
if the input script only pushes. -/
def witCost (spk scriptSig : Bytes) (wit : List Bytes) : Nat :=
  if (witnessVersion spk).isSome then programCost wit spk
  else if (recognises .p2sh spk && isPushOnly scriptSig) = true then ((lastPush scriptSig).map (programCost wit)).getD 0
  else 0

theorem satAdd_le (a b : Nat) : satAdd a b ≤ 2 ^ 64 - 1 := Nat.min_le_left _ _

theorem satAdd_foldl {α : Type} (f : α → Nat) (l : List α) : ∀ c, c ≤ 2 ^ 64 - 1 →
    l.foldl (fun c x => satAdd c (f x)) c = min (2 ^ 64 - 1) (c + (l.map f).sum) := by
  induction l with
  | nil => intro c hc; simp; omega
  | cons x l ih =>
    intro c hc
    rw [List.foldl_cons, ih _ (satAdd_le _ _), List.map_cons, List.sum_cons]
    unfold satAdd
    generalize 2 ^ 64 - 1 = M at *
    omega

/-- The inputs whose spent output is known, with the script of that output. -/
def known (spent : OutPoint → Option TxOut) (ins : List TxIn) : List (Bytes × TxIn) :=
  ins.filterMap fun i => (spent i.prev).map fun o => (o.spk, i)

/-- `usize::MAX`. -/
def usizeMax : Nat := 2 ^ 64 - 1

theorem p2sh_eq (spk ss : Bytes) (h : countSigops ((lastPush ss).getD []) ≤ usizeMax) : inputP2shSigops spk ss = p2shCost spk ss := by
  unfold inputP2shSigops p2shCost
  show (if isP2sh spk = true then _ else _) = (if isP2sh spk = true then _ else _)
  by_cases hs : isP2sh spk = true
  · rw [if_pos hs, if_pos hs]
    show (match lastPush ss with | some r => satAdd 0 (countSigops r) | none => 0) = _
    cases hl : lastPush ss with
    | none => rfl
    | some r =>
      rw [hl] at h
      simp only [Option.getD_some] at h
      simp only [Option.map_some, Option.getD_some, satAdd]
      unfold usizeMax at h
      omega
  · rw [if_neg hs, if_neg hs]

theorem p2sh_fold (spent : OutPoint → Option TxOut) (ins : List TxIn) : ∀ c, c ≤ usizeMax →
    ins.foldl (fun c i => match spent i.prev with | some o => satAdd c (inputP2shSigops o.spk i.scriptSig) | none => c) c =
      min usizeMax (c + ((known spent ins).map fun x => p2shCost x.1 x.2.scriptSig).sum) := by
  induction ins with
  | nil => intro c hc; simp [known]; omega
  | cons i ins ih =>
    intro c hc
    rw [List.foldl_cons]
    cases hs : spent i.prev with
    | none =>
      rw [ih c hc]
      simp [known, hs]
    | some o =>
      have hk : known spent (i :: ins) = (o.spk, i) :: known spent ins := by simp [known, hs]
      rw [hk, List.map_cons, List.sum_cons]
      simp only []
      rw [ih _ (satAdd_le _ _)]
      by_cases hb : countSigops ((lastPush i.scriptSig).getD []) ≤ usizeMax
      · rw [p2sh_eq _ _ hb]
        unfold satAdd usizeMax
        generalize 2 ^ 64 - 1 = M at *
        omega
      · -- a saturated single input
        unfold inputP2shSigops p2shCost
        show min usizeMax (satAdd c (if isP2sh o.spk = true then
            (match lastPush i.scriptSig with | some r => satAdd 0 (countSigops r) | none => 0) else 0) + _) =
          min usizeMax (c + ((if isP2sh o.spk = true then _ else _) + _))
        by_cases hp : isP2sh o.spk = true
        · rw [if_pos hp, if_pos hp]
          cases hl : lastPush i.scriptSig with
          | none =>
            simp only [Option.map_none, Option.getD_none, satAdd]
            unfold usizeMax at *
            generalize 2 ^ 64 - 1 = M at *
            omega
          | some r =>
            simp only [Option.map_some, Option.getD_some, satAdd]
            unfold usizeMax at *
            generalize 2 ^ 64 - 1 = M at *
            omega
        · rw [if_neg hp, if_neg hp]
          unfold satAdd usizeMax at *
          generalize 2 ^ 64 - 1 = M at *
          omega

/-- A witness that the library can have built, holding the items `l`. -/
def Holds (w : Wit) (l : List Bytes) : Prop := w = Wit.ofList l ∧ OffsetsFit l ∧ ∀ x ∈ l, x.length ≤ 4000000

theorem program_eq {w : Wit} {l : List Bytes} (h : Holds w l) (p : Bytes) : witnessProgramSigops w p = some (programCost l p) := by
  unfold witnessProgramSigops programCost
  show _ = some (if isP2wpkh p = true then 1 else if isP2wsh p = true then _ else 0)
  by_cases h1 : isP2wpkh p = true
  · rw [if_pos h1, if_pos h1]
  · rw [if_neg h1, if_neg h1]
    by_cases h2 : isP2wsh p = true
    · rw [if_pos h2, if_pos h2, h.1, Wit.getBack_ofList l h.2.1 h.2.2]
      cases l.reverse[0]? <;> rfl
    · rw [if_neg h2, if_neg h2]

theorem wit_eq {w : Wit} {l : List Bytes} (h : Holds w l) (spk ss : Bytes) :
    inputWitnessSigops spk ss w = some (witCost spk ss l) := by
  unfold inputWitnessSigops witCost
  show _ = some (if isWitnessProgram spk = true then _ else if (isP2sh spk && isPushOnly ss) = true then _ else 0)
  by_cases h1 : isWitnessProgram spk = true
  · rw [if_pos h1, if_pos h1]; exact program_eq h spk
  · rw [if_neg h1, if_neg h1]
    by_cases h2 : (isP2sh spk && isPushOnly ss) = true
    · rw [if_pos h2, if_pos h2]
      show (match lastPush ss with | some p => witnessProgramSigops w p | none => some 0) = _
      cases lastPush ss with
      | none => rfl
      | some p => exact program_eq h p
    · rw [if_neg h2, if_neg h2]

theorem wit_fold (spent : OutPoint → Option TxOut) (wits : TxIn → List Bytes) (ins : List TxIn)
    (hw : ∀ i ∈ ins, Holds i.witness (wits i)) : ∀ c, c ≤ usizeMax →
    txWitnessSigops spent ins c =
      some (min usizeMax (c + ((known spent ins).map fun x => witCost x.1 x.2.scriptSig (wits x.2)).sum)) := by
  induction ins with
  | nil => intro c hc; simp [known, txWitnessSigops]; omega
  | cons i ins ih =>
    intro c hc
    have ih := ih (fun j hj => hw j (by simp [hj]))
    rw [txWitnessSigops]
    cases hs : spent i.prev with
    | none =>
      simp only []
      rw [ih c hc]; simp [known, hs]
    | some o =>
      have hk : known spent (i :: ins) = (o.spk, i) :: known spent ins := by simp [known, hs]
      rw [hk, List.map_cons, List.sum_cons]
      simp only []
      rw [wit_eq (hw i (by simp))]
      simp only []
      rw [ih _ (satAdd_le _ _)]
      unfold satAdd usizeMax at *
      generalize 2 ^ 64 - 1 = M at *
      congr 1
      omega

/-- **C36 (transactions).** `total_sigop_cost` is four times the legacy count of all scripts, plus four times the
accurate count of the redeem scripts, plus the witness count, saturating at `usize::MAX`; inputs whose spent output is
unknown contribute only to the legacy part. -/
theorem C36_total (spent : OutPoint → Option TxOut) (wits : TxIn → List Bytes) (tx : Tx)
    (hw : ∀ i ∈ tx.inputs, Holds i.witness (wits i)) :
    totalSigopCost spent tx = some (min usizeMax (
      4 * ((tx.inputs.map fun i => countSigopsLegacy i.scriptSig).sum + (tx.outputs.map fun o => countSigopsLegacy o.spk).sum) +
      4 * ((known spent tx.inputs).map fun x => p2shCost x.1 x.2.scriptSig).sum +
      ((known spent tx.inputs).map fun x => witCost x.1 x.2.scriptSig (wits x.2)).sum)) := by
  unfold totalSigopCost
  simp only []
  rw [wit_fold spent wits tx.inputs hw 0 (Nat.zero_le _)]
  rw [show txP2shSigops spent tx = _ from p2sh_fold spent tx.inputs 0 (Nat.zero_le _)]
  unfold txLegacySigops
  rw [satAdd_foldl (fun i : TxIn => countSigopsLegacy i.scriptSig) tx.inputs 0 (Nat.zero_le _),
    satAdd_foldl (fun o : TxOut => countSigopsLegacy o.spk) tx.outputs _ (Nat.min_le_left _ _)]
  unfold satAdd satMul usizeMax
  simp only [Option.map_some, Nat.zero_add]
  generalize (2 ^ 64 - 1) = M
  congr 1
  omega

/-- Finding: BIP-16 counts nothing if the input script does more than push (Bitcoin Core returns 0 there); this library
counts the last push anyway.  Such inputs are invalid, so only the count of an invalid transaction differs. -/
theorem C36_p2sh_not_push_only : ∃ spk scriptSig,
    recognises .p2sh spk = true ∧ isPushOnly scriptSig = false ∧ inputP2shSigops spk scriptSig = 1 :=
  ⟨newP2sh ⟨List.replicate 20 7, rfl⟩, [0x76, 1, 0xac], by decide, by decide, by decide⟩

/-! ### Examples -/

example : countSigops [0x52, 1, 9, 1, 8, 1, 7, 0x53, 0xae, 0xac] = 4 := by decide
example : countSigopsLegacy [0x52, 1, 9, 1, 8, 1, 7, 0x53, 0xae, 0xac] = 21 := by decide
example : countSigops [0xac, 0x4c, 9, 0xac] = 1 := by decide
example : Parse [0xac, 0x4c, 9, 0xac] [.op 0xac] :=
  ⟨[([0xac], .op 0xac)], [0x4c, 9, 0xac], rfl, by
    intro x hx
    rcases List.mem_singleton.1 hx with rfl
    exact .op 0xac (by decide), rfl, .inr (by
    intro p i t e he
    have h := next_of_enc he t
    rw [← e] at h
    cases h)⟩
example : Holds (Wit.ofList [[1, 2], [0xac]]) [[1, 2], [0xac]] := ⟨rfl, WitFits.offsets (by unfold WitFits; decide), by decide⟩
example : programCost [[1, 2], [0xac, 0xac]] (newP2wsh ⟨List.replicate 32 7, rfl⟩) = 2 := by decide

end Scr
end Btc
