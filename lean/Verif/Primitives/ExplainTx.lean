import Verif.Primitives.Explain
/-!
# What the errors of decoding whole transactions and blocks say of the bytes
-/
namespace Btc
namespace Why

/-! ### The description -/

/-- Counted inputs (without witnesses) and outputs. -/
def insBytes (ins : List TxIn) : Bytes := csEncode ins.length ++ (ins.map txInBytes).flatten
def outsBytes (outs : List TxOut) : Bytes := csEncode outs.length ++ (outs.map txOutBytes).flatten

/-- What can be an input before the witnesses are read. -/
def PlainIn (i : TxIn) : Prop := i.scriptSig.length ≤ 4000000 ∧ i.witness = Wit.empty
def PlainOut (o : TxOut) : Prop := o.spk.length ≤ 4000000

/-- A transaction up to its lock time. -/
def txBody (tx : Tx) : Bytes :=
  u32le tx.version ++ (if tx.usesSegwit then [0, 1] else []) ++ insBytes tx.inputs ++ outsBytes tx.outputs ++
    (if tx.usesSegwit then (tx.inputs.map fun i => witBytes i.witness).flatten else [])

/-- The bytes begin with version and inputs, in the segwit form or in the other; `r` follows. -/
inductive AfterIns (bs : Bytes) : Bool → UInt32 → List TxIn → Bytes → Prop
  | plain (v : UInt32) (ins : List TxIn) (r : Bytes) : ins ≠ [] → ins.length ≤ 4000000 → (∀ i ∈ ins, PlainIn i) →
      bs = u32le v ++ insBytes ins ++ r → AfterIns bs false v ins r
  | segwit (v : UInt32) (ins : List TxIn) (r : Bytes) : ins.length ≤ 4000000 → (∀ i ∈ ins, PlainIn i) →
      bs = u32le v ++ [0, 1] ++ insBytes ins ++ r → AfterIns bs true v ins r

/-- Something which cannot be decoded is where the description says. -/
inductive TxBad (bs : Bytes) : DErr → Prop
  /-- After the version. -/
  | inputs (v : UInt32) (r : Bytes) (e : DErr) : bs = u32le v ++ r → VecBad txInBytes PlainIn TxInBad 4000000 r e → TxBad bs (.tag 2 e)
  /-- After the version, a zero where the number of inputs is expected, and not a one. -/
  | flag (v : UInt32) (f : UInt8) (r : Bytes) : bs = u32le v ++ 0 :: f :: r → f ≠ 1 → TxBad bs (.custom 10 f.toNat)
  /-- After version, marker and flag. -/
  | segwitInputs (v : UInt32) (r : Bytes) (e : DErr) : bs = u32le v ++ [0, 1] ++ r → VecBad txInBytes PlainIn TxInBad 4000000 r e →
      TxBad bs (.tag 2 e)
  /-- After the inputs. -/
  | outputs (sw : Bool) (v : UInt32) (ins : List TxIn) (r : Bytes) (e : DErr) : AfterIns bs sw v ins r →
      VecBad txOutBytes PlainOut TxOutBad 4000000 r e → TxBad bs (.tag 3 e)
  /-- After the outputs and the witnesses of some but not all inputs. -/
  | witness (v : UInt32) (ins : List TxIn) (outs : List TxOut) (ws : List Wit) (r : Bytes) (e : DErr) : outs.length ≤ 4000000 →
      (∀ o ∈ outs, PlainOut o) → ws.length < ins.length → (∀ w ∈ ws, WitGood w) →
      AfterIns bs true v ins (outsBytes outs ++ (ws.map witBytes).flatten ++ r) → WitBad r e → TxBad bs (.tag 4 e)
  /-- There are inputs in segwit form, and for each an empty witness. -/
  | noWitnesses (v : UInt32) (ins : List TxIn) (outs : List TxOut) (r : Bytes) : outs.length ≤ 4000000 → (∀ o ∈ outs, PlainOut o) →
      ins ≠ [] → AfterIns bs true v ins (outsBytes outs ++ List.replicate ins.length 0 ++ r) → TxBad bs (.custom 11 0)
  /-- The transaction is all there and breaks a rule. -/
  | rule (tx : Tx) (r : Bytes) (e : DErr) : TxFormat tx → bs = txBody tx ++ u32le tx.lockTime ++ r → Rejected tx e → TxBad bs e

/-- The bytes end in the part that is named, the parts before it being there. -/
inductive TxShort (bs : Bytes) : DErr → Prop
  | version : bs.length < 4 → TxShort bs (.custom 12 0)
  | inputs (v : UInt32) (r : Bytes) (e : DErr) : bs = u32le v ++ r → VecShort txInBytes PlainIn TxInShort 4000000 r e →
      TxShort bs (.custom 12 1)
  | segwitInputs (v : UInt32) (r : Bytes) (e : DErr) : bs = u32le v ++ [0, 1] ++ r → VecShort txInBytes PlainIn TxInShort 4000000 r e →
      TxShort bs (.custom 12 1)
  | flag (v : UInt32) : bs = u32le v ++ [0] → TxShort bs (.custom 12 2)
  | outputs (sw : Bool) (v : UInt32) (ins : List TxIn) (r : Bytes) (e : DErr) : AfterIns bs sw v ins r →
      VecShort txOutBytes PlainOut TxOutShort 4000000 r e → TxShort bs (.custom 12 3)
  | witness (v : UInt32) (ins : List TxIn) (outs : List TxOut) (ws : List Wit) (r : Bytes) (e : DErr) : outs.length ≤ 4000000 →
      (∀ o ∈ outs, PlainOut o) → ws.length < ins.length → (∀ w ∈ ws, WitGood w) →
      AfterIns bs true v ins (outsBytes outs ++ (ws.map witBytes).flatten ++ r) → WitShort r e → TxShort bs (.custom 12 4)
  | lockTime (tx : Tx) (r : Bytes) : TxFormat tx → bs = txBody tx ++ r → r.length < 4 → TxShort bs (.custom 12 5)

/-! ### Everything falls under it -/

theorem insWire : Wire (vecParser txInParser MAX_VEC_SIZE) insBytes (fun l => l.length ≤ 4000000 ∧ ∀ a ∈ l, PlainIn a) := vec_wire txIn_wire
theorem outsWire : Wire (vecParser txOutParser MAX_VEC_SIZE) outsBytes (fun l => l.length ≤ 4000000 ∧ ∀ a ∈ l, PlainOut a) :=
  vec_wire txOut_wire
theorem tellsIns : Tells (vecParser txInParser MAX_VEC_SIZE) (VecBad txInBytes PlainIn TxInBad 4000000)
    (VecShort txInBytes PlainIn TxInShort 4000000) := tells_vec lim64 txIn_wire tells_txIn
theorem tellsOuts : Tells (vecParser txOutParser MAX_VEC_SIZE) (VecBad txOutBytes PlainOut TxOutBad 4000000)
    (VecShort txOutBytes PlainOut TxOutShort 4000000) := tells_vec lim64 txOut_wire tells_txOut

theorem parse_cases {α : Type} {P : Parser α} {enc : α → Bytes} {ok : α → Prop} {bad short : Bytes → DErr → Prop} (W : Wire P enc ok)
    (T : Tells P bad short) (bs : Bytes) : (∃ a r, ok a ∧ bs = enc a ++ r) ∨ (∃ e, bad bs e) ∨ ∃ e, short bs e := by
  cases h : P bs with
  | done a r => exact .inl ⟨a, r, (W _ _ _).mp h⟩
  | fail e => exact .inr (.inl ⟨e, (T.fail _ _).mp h⟩)
  | more e => exact .inr (.inr ⟨e, (T.more _ _).mp h⟩)

theorem u32_cases (bs : Bytes) : (∃ v r, bs = u32le v ++ r) ∨ bs.length < 4 := by
  rcases parse_cases u32_wire tells_u32 bs with ⟨v, r, _, h⟩ | ⟨e, h⟩ | ⟨_, ⟨m, h1, h2⟩⟩
  · exact .inl ⟨v, r, h⟩
  · cases h
  · exact .inr (by omega)

/-- Witnesses are all there, or one is bad, or the bytes end in one. -/
theorem wits_cases : ∀ (n : Nat) (bs : Bytes),
    (∃ (ws : List Wit) (r : Bytes), ws.length = n ∧ (∀ w ∈ ws, WitGood w) ∧ bs = (ws.map witBytes).flatten ++ r) ∨
    ∃ (ws : List Wit) (r : Bytes), ws.length < n ∧ (∀ w ∈ ws, WitGood w) ∧ bs = (ws.map witBytes).flatten ++ r ∧
      ((∃ e, WitBad r e) ∨ ∃ e, WitShort r e)
  | 0, bs => .inl ⟨[], bs, rfl, by simp, by simp⟩
  | n + 1, bs => by
    rcases wit_cases bs with ⟨w, r, h1, rfl⟩ | h | h
    · have hall : ∀ {l : List Wit}, (∀ w ∈ l, WitGood w) → ∀ x ∈ w :: l, WitGood x := by
        intro l hl x hx
        rcases List.mem_cons.mp hx with rfl | hx
        · exact h1
        · exact hl x hx
      rcases wits_cases n r with ⟨ws, r', g1, g2, rfl⟩ | ⟨ws, r', g1, g2, rfl, g4⟩
      · exact .inl ⟨w :: ws, r', by simp [g1], hall g2, by simp⟩
      · exact .inr ⟨w :: ws, r', by simp only [List.length_cons]; omega, hall g2, by simp, g4⟩
    · exact .inr ⟨[], bs, by simp, by simp, by simp, .inl h⟩
    · exact .inr ⟨[], bs, by simp, by simp, by simp, .inr h⟩

/-- Inputs with their witnesses. -/
def attach (ins : List TxIn) (ws : List Wit) : List TxIn := List.zipWith (fun i w => { i with witness := w }) ins ws

theorem attach_length (ins : List TxIn) (ws : List Wit) (h : ws.length = ins.length) : (attach ins ws).length = ins.length := by
  simp [attach, h]

theorem attach_bytes : ∀ (ins : List TxIn) (ws : List Wit), ws.length = ins.length →
    (attach ins ws).map txInBytes = ins.map txInBytes ∧ (attach ins ws).map (fun i => witBytes i.witness) = ws.map witBytes ∧
    (∀ j ∈ attach ins ws, (∃ i ∈ ins, j.scriptSig = i.scriptSig) ∧ j.witness ∈ ws) ∧
    (∀ w ∈ ws, ∃ j ∈ attach ins ws, j.witness = w)
  | [], [], _ => by simp [attach]
  | [], _ :: _, h => by simp at h
  | _ :: _, [], h => by simp at h
  | i :: ins, w :: ws, h => by
    obtain ⟨h1, h2, h3, h4⟩ := attach_bytes ins ws (by simpa using h)
    have e : attach (i :: ins) (w :: ws) = { i with witness := w } :: attach ins ws := rfl
    rw [e]
    refine ⟨by simp only [List.map_cons, h1]; rfl, by simp only [List.map_cons, h2], ?_, ?_⟩
    · intro j hj
      rcases List.mem_cons.mp hj with rfl | hj
      · exact ⟨⟨i, by simp, rfl⟩, by simp⟩
      · obtain ⟨⟨x, hx, hs⟩, hw⟩ := h3 j hj
        exact ⟨⟨x, by simp [hx], hs⟩, by simp [hw]⟩
    · intro x hx
      rcases List.mem_cons.mp hx with rfl | hx
      · exact ⟨_, List.mem_cons_self, rfl⟩
      · obtain ⟨j, hj, h⟩ := h4 x hx
        exact ⟨j, by simp [hj], h⟩

theorem good_isEmpty {w : Wit} (h : WitGood w) (he : w.isEmpty = true) : w = Wit.empty := by
  obtain ⟨l, _, rfl⟩ := h
  have : l.length = 0 := by simpa [Wit.isEmpty, Wit.ofList] using he
  rw [List.length_eq_zero_iff.mp this]; rfl

theorem empty_bytes : witBytes Wit.empty = [0] := rfl

theorem flatten_empties : ∀ (ws : List Wit), (∀ w ∈ ws, w = Wit.empty) → (ws.map witBytes).flatten = List.replicate ws.length 0
  | [], _ => rfl
  | w :: ws, h => by
    rw [h w (by simp)]
    simp only [List.map_cons, List.flatten_cons, empty_bytes, flatten_empties ws (fun x hx => h x (by simp [hx])), List.length_cons,
      List.replicate_succ]
    rfl

theorem insBytes_nil (r : Bytes) : insBytes [] ++ r = 0 :: r := rfl

/-- Before the lock time. -/
theorem last_cases (bs : Bytes) (v : UInt32) (ins : List TxIn) (outs : List TxOut) (r : Bytes)
    (hf : ∀ lt, TxFormat ⟨v, lt, ins, outs⟩) (hb : ∀ lt, bs = txBody ⟨v, lt, ins, outs⟩ ++ r) :
    (∃ tx r, TxFormat tx ∧ bs = txBody tx ++ u32le tx.lockTime ++ r) ∨ ∃ e, TxShort bs e := by
  rcases u32_cases r with ⟨lt, r', rfl⟩ | h
  · exact .inl ⟨⟨v, lt, ins, outs⟩, r', hf lt, by rw [hb lt, ← List.append_assoc]⟩
  · exact .inr ⟨_, .lockTime ⟨v, 0, ins, outs⟩ r (hf 0) (hb 0) h⟩

theorem after_cases {bs : Bytes} {sw : Bool} {v : UInt32} {ins : List TxIn} {r : Bytes} (h : AfterIns bs sw v ins r) :
    (∃ tx r, TxFormat tx ∧ bs = txBody tx ++ u32le tx.lockTime ++ r) ∨ (∃ e, TxBad bs e) ∨ ∃ e, TxShort bs e := by
  have gE : BuiltWitness Wit.empty := (builtWitness_iff _).mpr witGood_empty
  rcases parse_cases outsWire tellsOuts r with ⟨outs, r', ⟨ho1, ho2⟩, rfl⟩ | ⟨e, he⟩ | ⟨e, he⟩
  · cases h with
    | plain v ins r h1 h2 h3 h4 =>
      have hsw : ∀ lt, (⟨v, lt, ins, outs⟩ : Tx).usesSegwit = false := by
        intro lt
        rw [← Bool.not_eq_true, usesSegwit_iff]
        rintro (h | ⟨i, hi, h⟩)
        · exact h1 h
        · rw [(h3 i hi).2] at h; cases h
      rcases last_cases bs v ins outs r' (fun lt => ⟨⟨h2, ho1⟩, ⟨fun i hi => (h3 i hi).1, ho2⟩, fun i hi => by
          rw [(h3 i hi).2]; exact gE⟩) (fun lt => by rw [h4, txBody, hsw lt]; simp) with h | h
      · exact .inl h
      · exact .inr (.inr h)
    | segwit v ins r h2 h3 h4 =>
      by_cases hi : ins = []
      · subst hi
        have hsw : ∀ lt, (⟨v, lt, [], outs⟩ : Tx).usesSegwit = true := fun lt => (usesSegwit_iff _).mpr (.inl rfl)
        rcases last_cases bs v [] outs r' (fun lt => ⟨⟨h2, ho1⟩, ⟨by simp, ho2⟩, by simp⟩)
          (fun lt => by rw [h4, txBody, hsw lt]; simp) with h | h
        · exact .inl h
        · exact .inr (.inr h)
      · rcases wits_cases ins.length r' with ⟨ws, r'', g1, g2, rfl⟩ | ⟨ws, r'', g1, g2, rfl, ⟨e, g4⟩ | ⟨e, g4⟩⟩
        · by_cases hall : ∀ w ∈ ws, w = Wit.empty
          · rw [flatten_empties ws hall, g1, ← List.append_assoc] at h4
            exact .inr (.inl ⟨_, .noWitnesses v ins outs r'' ho1 ho2 hi (.segwit v ins _ h2 h3 (by rw [h4]; simp))⟩)
          · obtain ⟨a1, a2, a3, a4⟩ := attach_bytes ins ws g1
            have hne : ∃ w ∈ ws, w ≠ Wit.empty := by
              refine Classical.byContradiction fun hn => hall fun w hw => Classical.byContradiction fun h => hn ⟨w, hw, h⟩
            obtain ⟨w, hw, hwe⟩ := hne
            have hsw : ∀ lt, (⟨v, lt, attach ins ws, outs⟩ : Tx).usesSegwit = true := by
              intro lt
              obtain ⟨j, hj, hjw⟩ := a4 w hw
              refine (usesSegwit_iff _).mpr (.inr ⟨j, hj, ?_⟩)
              rw [hjw, ← Bool.not_eq_true]
              exact fun h => hwe (good_isEmpty (g2 w hw) h)
            rcases last_cases bs v (attach ins ws) outs r'' (fun lt => ⟨⟨by simpa only [attach_length ins ws g1] using h2, ho1⟩,
              ⟨fun j hj => by obtain ⟨⟨x, hx, hs⟩, _⟩ := a3 j hj
                              show j.scriptSig.length ≤ 4000000
                              rw [hs]; exact (h3 x hx).1, ho2⟩, fun j hj => (builtWitness_iff _).mpr (g2 _ (a3 j hj).2)⟩)
              (fun lt => by
                rw [h4, txBody, hsw lt]
                simp only [insBytes, attach_length ins ws g1, a1, a2, if_true, List.append_assoc]) with h | h
            · exact .inl h
            · exact .inr (.inr h)
        · exact .inr (.inl ⟨_, .witness v ins outs ws r'' e ho1 ho2 g1 g2 (.segwit v ins _ h2 h3 (by rw [h4]; simp)) g4⟩)
        · exact .inr (.inr ⟨_, .witness v ins outs ws r'' e ho1 ho2 g1 g2 (.segwit v ins _ h2 h3 (by rw [h4]; simp)) g4⟩)
  · exact .inr (.inl ⟨_, .outputs sw v ins r e h he⟩)
  · exact .inr (.inr ⟨_, .outputs sw v ins r e h he⟩)

theorem tx_cases (bs : Bytes) :
    (∃ tx r, TxFormat tx ∧ bs = txBody tx ++ u32le tx.lockTime ++ r) ∨ (∃ e, TxBad bs e) ∨ ∃ e, TxShort bs e := by
  rcases u32_cases bs with ⟨v, r, rfl⟩ | h
  · rcases parse_cases insWire tellsIns r with ⟨ins, r', ⟨h1, h2⟩, rfl⟩ | ⟨e, he⟩ | ⟨e, he⟩
    · by_cases hi : ins = []
      · subst hi
        rw [insBytes_nil]
        match r' with
        | [] => exact .inr (.inr ⟨_, .flag v rfl⟩)
        | f :: r2 =>
          by_cases hf : f = 1
          · subst hf
            rcases parse_cases insWire tellsIns r2 with ⟨ins, r3, ⟨h1, h2⟩, rfl⟩ | ⟨e, he⟩ | ⟨e, he⟩
            · exact after_cases (.segwit v ins r3 h1 h2 (by simp))
            · exact .inr (.inl ⟨_, .segwitInputs v r2 e (by simp) he⟩)
            · exact .inr (.inr ⟨_, .segwitInputs v r2 e (by simp) he⟩)
          · exact .inr (.inl ⟨_, .flag v f r2 rfl hf⟩)
      · exact after_cases (.plain v ins r' hi h1 h2 (by simp))
    · exact .inr (.inl ⟨_, .inputs v r e rfl he⟩)
    · exact .inr (.inr ⟨_, .inputs v r e rfl he⟩)
  · exact .inr (.inr ⟨_, .version h⟩)

/-! ### What the parser does in each case -/

theorem andThen_fail {α β : Type} {P : Parser α} {g : DErr → DErr} {m : DErr} {k : α → Parser β} {bs : Bytes} {e : DErr}
    (h : P bs = .fail e) : P.andThen g m k bs = .fail (g e) := by unfold Parser.andThen; rw [h]
theorem andThen_more {α β : Type} {P : Parser α} {g : DErr → DErr} {m : DErr} {k : α → Parser β} {bs : Bytes} {e : DErr}
    (h : P bs = .more e) : P.andThen g m k bs = .more m := by unfold Parser.andThen; rw [h]

theorem run_version (v : UInt32) (r : Bytes) : txParser (u32le v ++ r) =
    in1P u32Parser (vecParser txInParser MAX_VEC_SIZE) (vecParser txOutParser MAX_VEC_SIZE) witParser v (vecParser txInParser MAX_VEC_SIZE) r := by
  rw [txParser, verP, andThen_eq ((u32_wire _ v r).mpr ⟨trivial, rfl⟩)]

theorem run_marker (v : UInt32) (r : Bytes) : txParser (u32le v ++ 0 :: r) =
    flagP u32Parser (vecParser txInParser MAX_VEC_SIZE) (vecParser txOutParser MAX_VEC_SIZE) witParser v r := by
  rw [run_version, in1P, andThen_eq (bs := 0 :: r) ((insWire _ [] r).mpr ⟨⟨by simp, by simp⟩, rfl⟩),
    if_pos (show ([] : List TxIn).isEmpty = true from rfl)]

theorem run_flag (v : UInt32) (r : Bytes) : txParser (u32le v ++ [0, 1] ++ r) =
    in2P u32Parser (vecParser txOutParser MAX_VEC_SIZE) witParser v (vecParser txInParser MAX_VEC_SIZE) r := by
  rw [List.append_assoc, show ([0, 1] : Bytes) ++ r = 0 :: 1 :: r from rfl, run_marker, flagP, if_neg (by simp)]

theorem run_ins {bs : Bytes} {sw : Bool} {v : UInt32} {ins : List TxIn} {r : Bytes} (h : AfterIns bs sw v ins r) :
    txParser bs = outP u32Parser witParser v ins sw (vecParser txOutParser MAX_VEC_SIZE) r := by
  cases h with
  | plain v ins r h1 h2 h3 h4 =>
    rw [h4, List.append_assoc, run_version, in1P, andThen_eq ((insWire _ ins r).mpr ⟨⟨h2, h3⟩, rfl⟩), if_neg (by simpa using h1)]
  | segwit v ins r h2 h3 h4 =>
    rw [h4, List.append_assoc _ (insBytes ins) r, run_flag, in2P, andThen_eq ((insWire _ ins r).mpr ⟨⟨h2, h3⟩, rfl⟩)]

theorem run_outs {bs : Bytes} {sw : Bool} {v : UInt32} {ins : List TxIn} {outs : List TxOut} {r : Bytes} (ho1 : outs.length ≤ 4000000)
    (ho2 : ∀ o ∈ outs, PlainOut o) (h : AfterIns bs sw v ins (outsBytes outs ++ r)) :
    txParser bs = afterOutP u32Parser witParser v ins sw outs r := by
  rw [run_ins h, outP, andThen_eq ((outsWire _ outs r).mpr ⟨⟨ho1, ho2⟩, rfl⟩)]

/-- Some of the witnesses. -/
theorem run_wits (v : UInt32) (outs : List TxOut) (r : Bytes) : ∀ (ws : List Wit) (a : List TxIn) (n : TxIn) (b donel : List TxIn) (i : TxIn)
    (todo : List TxIn), i :: todo = a ++ n :: b → a.length = ws.length → (∀ w ∈ ws, WitGood w) →
    witP u32Parser witParser v outs todo donel i witParser ((ws.map witBytes).flatten ++ r) =
      witP u32Parser witParser v outs b (donel ++ attach a ws) n witParser r
  | [], [], n, b, donel, i, todo, h, _, _ => by
    cases h
    simp [attach]
  | [], _ :: _, _, _, _, _, _, _, h, _ => by simp at h
  | _ :: _, [], _, _, _, _, _, _, h, _ => by simp at h
  | w :: ws, x :: a, n, b, donel, i, todo, h, hl, hg => by
    obtain ⟨rfl, h'⟩ := List.cons.inj h
    clear h
    match todo, h' with
    | [], h => simp at h
    | i' :: todo, h =>
      rw [show ((w :: ws).map witBytes).flatten ++ r = witBytes w ++ ((ws.map witBytes).flatten ++ r) by simp, witP,
        andThen_eq ((wit_wire _ w _).mpr ⟨hg w (by simp), rfl⟩),
        run_wits v outs r ws a n b _ i' todo h (by simpa using hl) (fun y hy => hg y (by simp [hy]))]
      simp [attach]

theorem split_at {α : Type} : ∀ (l : List α) (n : Nat), n < l.length → ∃ a x b, l = a ++ x :: b ∧ a.length = n
  | [], n, h => by simp at h
  | x :: l, 0, _ => ⟨[], x, l, rfl, rfl⟩
  | x :: l, n + 1, h => by
    obtain ⟨a, y, b, rfl, h2⟩ := split_at l n (by simpa using h)
    exact ⟨x :: a, y, b, rfl, by simp [h2]⟩

theorem afterOut_some (v : UInt32) (ins : List TxIn) (outs : List TxOut) (r : Bytes) (ws : List Wit) (hl : ws.length < ins.length)
    (hg : ∀ w ∈ ws, WitGood w) : ∃ a n b, ins = a ++ n :: b ∧ a.length = ws.length ∧
      afterOutP u32Parser witParser v ins true outs ((ws.map witBytes).flatten ++ r) =
        witP u32Parser witParser v outs b (attach a ws) n witParser r := by
  obtain ⟨a, n, b, h1, h2⟩ := split_at ins ws.length hl
  refine ⟨a, n, b, h1, h2, ?_⟩
  match ins, h1 with
  | [], h1 => simp at h1
  | i :: t, h1 =>
    have := run_wits v outs r ws a n b [] i t h1 h2 hg
    rw [List.nil_append] at this
    exact this

theorem witP_fail (v : UInt32) (outs : List TxOut) (b donel : List TxIn) (n : TxIn) (r : Bytes) (e : DErr) (h : witParser r = .fail e) :
    witP u32Parser witParser v outs b donel n witParser r = .fail (.tag 4 e) := by
  cases b <;> exact andThen_fail h

theorem witP_more (v : UInt32) (outs : List TxOut) (b donel : List TxIn) (n : TxIn) (r : Bytes) (e : DErr) (h : witParser r = .more e) :
    witP u32Parser witParser v outs b donel n witParser r = .more (.custom 12 4) := by
  cases b <;> exact andThen_more h

theorem attach_snoc (a : List TxIn) (ws : List Wit) (n : TxIn) (w : Wit) (h : a.length = ws.length) :
    attach (a ++ [n]) (ws ++ [w]) = attach a ws ++ [{ n with witness := w }] := by
  unfold attach
  rw [List.zipWith_append h]
  rfl

theorem concat_of_length {α : Type} (l : List α) (n : Nat) (h : l.length = n + 1) : ∃ a x, l = a ++ [x] ∧ a.length = n := by
  have hne : l ≠ [] := by intro h0; simp [h0] at h
  exact ⟨l.dropLast, l.getLast hne, (List.dropLast_concat_getLast hne).symm, by simp [h]⟩

/-- All the witnesses. -/
theorem run_all (v : UInt32) (ins : List TxIn) (outs : List TxOut) (r : Bytes) (ws : List Wit) (hl : ws.length = ins.length)
    (hi : ins ≠ []) (hg : ∀ w ∈ ws, WitGood w) :
    afterOutP u32Parser witParser v ins true outs ((ws.map witBytes).flatten ++ r) =
      if (attach ins ws).all fun i => i.witness.isEmpty then .fail (.custom 11 0) else lockP v (attach ins ws) outs u32Parser r := by
  obtain ⟨k, hk⟩ : ∃ k, ins.length = k + 1 := ⟨ins.length - 1, by have := List.length_pos_iff.mpr hi; omega⟩
  obtain ⟨ws', w, rfl, hw⟩ := concat_of_length ws k (by omega)
  obtain ⟨a, n, b, h1, h2, h3⟩ := afterOut_some v ins outs (witBytes w ++ r) ws' (by omega) (fun x hx => hg x (by simp [hx]))
  have hb : b = [] := by
    have : b.length = 0 := by rw [h1] at hk; simp only [List.length_append, List.length_cons] at hk; omega
    exact List.length_eq_zero_iff.mp this
  subst hb
  rw [show ((ws' ++ [w]).map witBytes).flatten ++ r = (ws'.map witBytes).flatten ++ (witBytes w ++ r) by simp, h3, witP,
    andThen_eq ((wit_wire _ w r).mpr ⟨hg w (by simp), rfl⟩), h1, attach_snoc a ws' n w h2]
  split <;> rfl

theorem txBody_after (tx : Tx) (hf : TxFormat tx) (r : Bytes) : ∃ ws, ws.length = tx.inputs.length ∧ (∀ w ∈ ws, WitGood w) ∧
    attach (tx.inputs.map TxIn.strip) ws = tx.inputs ∧
    (tx.usesSegwit = true → AfterIns (txBody tx ++ r) true tx.version (tx.inputs.map TxIn.strip) (outsBytes tx.outputs ++ ((ws.map witBytes).flatten ++ r))) ∧
    (tx.usesSegwit = false → AfterIns (txBody tx ++ r) false tx.version tx.inputs (outsBytes tx.outputs ++ r)) := by
  have hg : ∀ i ∈ tx.inputs, WitGood i.witness := fun i hi => (builtWitness_iff _).mp (hf.witnesses i hi)
  have hat : ∀ l : List TxIn, attach (l.map TxIn.strip) (l.map (·.witness)) = l := by
    intro l
    induction l with
    | nil => rfl
    | cons i l ih => exact congrArg (i :: ·) ih
  have hflat : (tx.inputs.map fun i => witBytes i.witness) = (tx.inputs.map (·.witness)).map witBytes := by rw [List.map_map]; rfl
  refine ⟨tx.inputs.map (·.witness), by simp, ?_, hat _, fun hsw => ?_, fun hsw => ?_⟩
  · intro w hw
    obtain ⟨i, hi, rfl⟩ := List.mem_map.mp hw
    exact hg i hi
  · refine .segwit _ _ _ (by simpa using hf.counts.1) ?_ ?_
    · intro i hi
      obtain ⟨j, hj, rfl⟩ := List.mem_map.mp hi
      exact ⟨hf.scripts.1 j hj, rfl⟩
    · rw [txBody, hsw]
      simp only [if_true, insBytes, List.length_map, ins_wire_strip, hflat, List.append_assoc]
  · have hns := (Bool.not_eq_true _).mpr hsw
    rw [usesSegwit_iff] at hns
    refine .plain _ _ _ (fun h => hns (.inl h)) hf.counts.1 ?_ ?_
    · intro i hi
      refine ⟨hf.scripts.1 i hi, good_isEmpty (hg i hi) ?_⟩
      refine Classical.byContradiction fun h => hns (.inr ⟨i, hi, (Bool.not_eq_true _).mp h⟩)
    · rw [txBody, hsw]
      simp

theorem run_body (tx : Tx) (hf : TxFormat tx) (r : Bytes) : txParser (txBody tx ++ r) = lockP tx.version tx.inputs tx.outputs u32Parser r := by
  obtain ⟨ws, h1, h2, h3, h4, h5⟩ := txBody_after tx hf r
  cases hsw : tx.usesSegwit with
  | false =>
    rw [run_outs hf.counts.2 hf.scripts.2 (h5 hsw)]
    rfl
  | true =>
    rw [run_outs hf.counts.2 hf.scripts.2 (h4 hsw)]
    by_cases hi : tx.inputs = []
    · have hw : ws = [] := by rw [hi] at h1; exact List.length_eq_zero_iff.mp h1
      rw [hi, hw]; rfl
    · rw [run_all _ _ _ _ _ (by simpa using h1) (by simpa using hi) h2, h3, if_neg]
      rw [usesSegwit_iff] at hsw
      rcases hsw with h | ⟨i, hi', h⟩
      · exact (hi h).elim
      · intro hall
        have := List.all_eq_true.mp hall i hi'
        rw [h] at this; cases this

theorem run_format (tx : Tx) (hf : TxFormat tx) (r : Bytes) : txParser (txBody tx ++ u32le tx.lockTime ++ r) = .ofEnd (txCheck tx) r := by
  rw [List.append_assoc, run_body tx hf, lockP_eq]

theorem tx_bad {bs : Bytes} {e : DErr} (h : TxBad bs e) : txParser bs = .fail e := by
  cases h with
  | inputs v r e h1 h2 => rw [h1, run_version]; exact andThen_fail ((tellsIns.fail _ _).mpr h2)
  | flag v f r h1 h2 => rw [h1, run_marker, flagP, if_pos h2]
  | segwitInputs v r e h1 h2 => rw [h1, run_flag]; exact andThen_fail ((tellsIns.fail _ _).mpr h2)
  | outputs sw v ins r e h1 h2 => rw [run_ins h1]; exact andThen_fail ((tellsOuts.fail _ _).mpr h2)
  | witness v ins outs ws r e ho1 ho2 h1 h2 h3 h4 =>
    rw [List.append_assoc] at h3
    obtain ⟨a, n, b, _, _, h5⟩ := afterOut_some v ins outs r ws h1 h2
    rw [run_outs ho1 ho2 h3, h5, witP_fail _ _ _ _ _ _ _ (wit_bad h4)]
  | noWitnesses v ins outs r ho1 ho2 hi h =>
    rw [List.append_assoc] at h
    have h0 : List.replicate ins.length (0 : UInt8) = ((List.replicate ins.length Wit.empty).map witBytes).flatten := by
      rw [flatten_empties _ (fun w hw => List.eq_of_mem_replicate hw)]; simp
    rw [h0] at h
    rw [run_outs ho1 ho2 h, run_all _ _ _ _ _ (by simp) hi (fun w hw => by rw [List.eq_of_mem_replicate hw]; exact witGood_empty), if_pos]
    rw [List.all_eq_true]
    intro j hj
    obtain ⟨_, _, a3, _⟩ := attach_bytes ins (List.replicate ins.length Wit.empty) (by simp)
    rw [List.eq_of_mem_replicate (a3 j hj).2]; rfl
  | rule tx r e h1 h2 h3 => rw [h2, run_format tx h1, rejected_check tx e h3]; rfl

theorem tx_short {bs : Bytes} {e : DErr} (h : TxShort bs e) : txParser bs = .more e := by
  cases h with
  | version h => exact andThen_more ((tells_u32.more bs (.eof (4 - bs.length))).mpr (.mk _ (by omega) (by omega)))
  | inputs v r e h1 h2 => rw [h1, run_version]; exact andThen_more ((tellsIns.more _ _).mpr h2)
  | segwitInputs v r e h1 h2 => rw [h1, run_flag]; exact andThen_more ((tellsIns.more _ _).mpr h2)
  | flag v h => rw [h, run_marker]; rfl
  | outputs sw v ins r e h1 h2 => rw [run_ins h1]; exact andThen_more ((tellsOuts.more _ _).mpr h2)
  | witness v ins outs ws r e ho1 ho2 h1 h2 h3 h4 =>
    rw [List.append_assoc] at h3
    obtain ⟨a, n, b, _, _, h5⟩ := afterOut_some v ins outs r ws h1 h2
    rw [run_outs ho1 ho2 h3, h5, witP_more _ _ _ _ _ _ _ (wit_short h4)]
  | lockTime tx r h1 h2 h3 =>
    rw [h2, run_body tx h1]
    exact andThen_more ((tells_u32.more r (.eof (4 - r.length))).mpr (.mk _ (by omega) (by omega)))

theorem tells_tx : Tells txParser TxBad TxShort where
  fail bs e := by
    refine ⟨fun h => ?_, tx_bad⟩
    rcases tx_cases bs with ⟨tx, r, h1, h2⟩ | ⟨e', h1⟩ | ⟨e', h1⟩
    · rw [h2, run_format tx h1] at h
      cases hc : txCheck tx with
      | ok _ => rw [hc] at h; cases h
      | error e' => rw [hc] at h; cases h; exact .rule tx r e h1 h2 (txCheck_rejected tx e hc)
    · rw [tx_bad h1] at h; cases h; exact h1
    · rw [tx_short h1] at h; cases h
  more bs e := by
    refine ⟨fun h => ?_, tx_short⟩
    rcases tx_cases bs with ⟨tx, r, h1, h2⟩ | ⟨e', h1⟩ | ⟨e', h1⟩
    · rw [h2, run_format tx h1] at h
      cases hc : txCheck tx with
      | ok _ => rw [hc] at h; cases h
      | error e' => rw [hc] at h; cases h
    · rw [tx_bad h1] at h; cases h
    · rw [tx_short h1] at h; cases h; exact h1

/-! ### Blocks -/

/-- Fields of fixed length one after the other, with what the decoder wraps around their errors: the bytes end in one. -/
def FixShort : List (Nat × (DErr → DErr)) → Bytes → DErr → Prop
  | [], _, _ => False
  | (n, w) :: fs, bs, e => (∃ m, 0 < m ∧ bs.length + m = n ∧ e = w (.eof m)) ∨ (n ≤ bs.length ∧ FixShort fs (bs.drop n) e)

def fixLen (fs : List (Nat × (DErr → DErr))) : Nat := (fs.map Prod.fst).sum
def wrap (w : DErr → DErr) (fs : List (Nat × (DErr → DErr))) : List (Nat × (DErr → DErr)) := fs.map fun x => (x.1, fun e => w (x.2 e))

theorem fixShort_lt : ∀ (fs : List (Nat × (DErr → DErr))) (bs : Bytes) (e : DErr), FixShort fs bs e → bs.length < fixLen fs
  | [], _, _, h => h.elim
  | (n, w) :: fs, bs, e, h => by
    have e1 : fixLen ((n, w) :: fs) = n + fixLen fs := by simp [fixLen]
    rcases h with ⟨m, h1, h2, _⟩ | ⟨h1, h2⟩
    · omega
    · have := fixShort_lt fs _ e h2
      simp only [List.length_drop] at this
      omega

theorem fixShort_wrap (w : DErr → DErr) : ∀ (fs : List (Nat × (DErr → DErr))) (bs : Bytes) (e : DErr),
    FixShort (wrap w fs) bs e ↔ ∃ e', e = w e' ∧ FixShort fs bs e'
  | [], bs, e => by simp [wrap, FixShort]
  | (n, v) :: fs, bs, e => by
    have ih := fixShort_wrap w fs (bs.drop n) e
    simp only [wrap, List.map_cons, FixShort] at ih ⊢
    rw [ih]
    constructor
    · rintro (⟨m, h1, h2, h3⟩ | ⟨h1, e', h2, h3⟩)
      · exact ⟨_, h3, .inl ⟨m, h1, h2, rfl⟩⟩
      · exact ⟨e', h2, .inr ⟨h1, h3⟩⟩
    · rintro ⟨e', h, ⟨m, h1, h2, h3⟩ | ⟨h1, h3⟩⟩
      · exact .inl ⟨m, h1, h2, by rw [h, h3]⟩
      · exact .inr ⟨h1, e', h, h3⟩

theorem fixShort_append : ∀ (fs gs : List (Nat × (DErr → DErr))) (bs : Bytes) (e : DErr),
    FixShort (fs ++ gs) bs e ↔ FixShort fs bs e ∨ (fixLen fs ≤ bs.length ∧ FixShort gs (bs.drop (fixLen fs)) e)
  | [], gs, bs, e => by simp [FixShort, fixLen]
  | (n, w) :: fs, gs, bs, e => by
    have e1 : fixLen ((n, w) :: fs) = n + fixLen fs := by simp [fixLen]
    have ih := fixShort_append fs gs (bs.drop n) e
    simp only [List.cons_append, FixShort]
    rw [ih, e1, List.drop_drop, List.length_drop]
    constructor
    · rintro (h | ⟨h1, h | ⟨h2, h3⟩⟩)
      · exact .inl (.inl h)
      · exact .inl (.inr ⟨h1, h⟩)
      · exact .inr ⟨by omega, h3⟩
    · rintro ((h | ⟨h1, h⟩) | ⟨h1, h2⟩)
      · exact .inl h
      · exact .inr ⟨h1, .inl h⟩
      · exact .inr ⟨by omega, .inr ⟨by omega, h2⟩⟩

theorem tells_fix1 {α : Type} {P : Parser α} {N : Nat} (T : Tells P Nev (ArrShort N)) : Tells P Nev (FixShort [(N, id)]) :=
  T.congr (fun _ _ => Iff.rfl) fun bs e => by
    constructor
    · rintro ⟨m, h1, h2⟩; exact .inl ⟨m, h1, h2, rfl⟩
    · rintro (⟨m, h1, h2, h3⟩ | ⟨_, h⟩)
      · subst h3; exact .mk m h1 h2
      · exact h.elim

theorem tells_fixSeq {α β : Type} {P : Parser α} {Q : Parser β} {enc : α → Bytes} {ok : α → Prop} {fs gs : List (Nat × (DErr → DErr))}
    (W : Wire P enc ok) (T : Tells P Nev (FixShort fs)) (T' : Tells Q Nev (FixShort gs)) (hl : ∀ a, ok a → (enc a).length = fixLen fs) :
    Tells (seqParser P Q) Nev (FixShort (wrap .fst fs ++ wrap .snd gs)) := by
  have hw : fixLen (wrap .fst fs) = fixLen fs := by simp [fixLen, wrap, Function.comp_def]
  refine (tells_seq W T T').congr (fun bs e => ?_) (fun bs e => ?_)
  · constructor
    · rintro (⟨e, h⟩ | ⟨_, _, _, _, _, h⟩) <;> cases h
    · intro h; cases h
  · rw [fixShort_append, hw, fixShort_wrap, fixShort_wrap]
    constructor
    · rintro (⟨e, h⟩ | ⟨a, r, e, h1, rfl, h3⟩)
      · exact .inl ⟨e, rfl, h⟩
      · refine .inr ⟨by rw [← hl a h1]; simp, e, rfl, ?_⟩
        rw [← hl a h1, List.drop_left' rfl]; exact h3
    · rintro (⟨e', rfl, h⟩ | ⟨h1, e', rfl, h3⟩)
      · exact .first e' h
      · rcases parse_cases W T bs with ⟨a, r, h4, rfl⟩ | ⟨_, h⟩ | ⟨e, h⟩
        · rw [← hl a h4, List.drop_left' rfl] at h3
          exact .second a r e' h4 rfl h3
        · cases h
        · have := fixShort_lt _ _ _ h; omega

/-- The fields of a header and what `Decoder6` wraps around their errors. -/
def headerFields : List (Nat × (DErr → DErr)) :=
  [(4, fun e => .fst (.fst (.fst e))), (32, fun e => .fst (.fst (.snd e))), (32, fun e => .fst (.snd e)),
   (4, fun e => .snd (.fst (.fst e))), (4, fun e => .snd (.fst (.snd e))), (4, fun e => .snd (.snd e))]

theorem tells_hash32 : Tells hash32Parser Nev (ArrShort 32) :=
  tells_map (Wire.array 32) (tells_array 32) (fun a ha => ⟨_, dif_pos ha⟩)

theorem tells_seq3 {α β γ : Type} {P : Parser α} {Q : Parser β} {R : Parser γ} {f : α → Bytes} {p : α → Prop} {g : β → Bytes} {q : β → Prop}
    {k : γ → Bytes} {s : γ → Prop} {a b c : Nat} (wP : Wire P f p) (wQ : Wire Q g q) (wR : Wire R k s)
    (tP : Tells P Nev (ArrShort a)) (tQ : Tells Q Nev (ArrShort b)) (tR : Tells R Nev (ArrShort c))
    (hf : ∀ x, p x → (f x).length = a) (hg : ∀ x, q x → (g x).length = b) :
    Tells (seq3 P Q R) Nev (FixShort [(a, fun e => .fst (.fst e)), (b, fun e => .fst (.snd e)), (c, fun e => .snd e)]) := by
  have h1 := tells_fixSeq wP (tells_fix1 tP) (tells_fix1 tQ) (fun x hx => by rw [hf x hx]; simp [fixLen])
  have h2 := tells_fixSeq (wP.seq wQ) h1 (tells_fix1 tR) (fun x hx => by
    simp only [List.length_append, hf _ hx.1, hg _ hx.2]; simp [fixLen, wrap])
  exact tells_map ((wP.seq wQ).seq wR) h2 (fun _ _ => ⟨_, rfl⟩)

theorem tells_header : Tells headerParser Nev (FixShort headerFields) := by
  have l4 : ∀ x : UInt32, True → (u32le x).length = 4 := fun x _ => u32le_length x
  have l32 : ∀ x : Arr 32, True → x.1.length = 32 := fun x _ => x.2
  have hA := tells_seq3 u32_wire hash32_wire hash32_wire tells_u32 tells_hash32 tells_hash32 l4 l32
  have hB := tells_seq3 u32_wire u32_wire (Wire.array 4) tells_u32 tells_u32 (tells_array 4) l4 l4
  have wA := u32_wire.seq3 hash32_wire hash32_wire
  have wB := u32_wire.seq3 u32_wire (Wire.array 4)
  have h := tells_fixSeq wA hA hB (fun x _ => by simp [fixLen, x.2.1.2, x.2.2.2])
  have w1 : Wire ((seqParser (seq3 u32Parser hash32Parser hash32Parser) (seq3 u32Parser u32Parser (arrayParser 4 []))).mapE
      (fun x => .ok (x.1.1, x.1.2.1, x.1.2.2, x.2.1, x.2.2.1, x.2.2.2)) id)
      (fun x => u32le x.1 ++ x.2.1.1 ++ x.2.2.1.1 ++ u32le x.2.2.2.1 ++ u32le x.2.2.2.2.1 ++ x.2.2.2.2.2) (fun x => x.2.2.2.2.2.length = 4) := by
    refine (wA.seq wB).mapE ?_ ?_
    · rintro ⟨⟨a, b, c⟩, d, e, f⟩ y ⟨_, _, _, h⟩ hy
      cases hy
      exact ⟨h, by simp⟩
    · rintro ⟨a, b, c, d, e, f⟩ h
      exact ⟨((a, b, c), (d, e, f)), ⟨⟨trivial, trivial, trivial⟩, trivial, trivial, h⟩, rfl⟩
  exact tells_map w1 (tells_map (wA.seq wB) h (fun _ _ => ⟨_, rfl⟩)) (fun _ _ => ⟨_, rfl⟩)

/-- After the header, a bad transaction count or, after some good transactions, a bad one. -/
inductive BlockBad (bs : Bytes) : DErr → Prop
  | txs (h : Header) (r : Bytes) (e : DErr) : bs = headerBytes h ++ r →
      VecBad (fun tx => txBody tx ++ u32le tx.lockTime) TxOk TxBad 4000000 r e → BlockBad bs (.snd e)

/-- The bytes end in the header, in the transaction count or in a transaction. -/
inductive BlockShort (bs : Bytes) : DErr → Prop
  | header (e : DErr) : FixShort headerFields bs e → BlockShort bs (.fst e)
  | txs (h : Header) (r : Bytes) (e : DErr) : bs = headerBytes h ++ r →
      VecShort (fun tx => txBody tx ++ u32le tx.lockTime) TxOk TxShort 4000000 r e → BlockShort bs (.snd e)

theorem tells_block : Tells blockParser BlockBad BlockShort := by
  have ht := tells_vec (lim := MAX_VEC_SIZE) lim64 tx_wire tells_tx
  refine (tells_map (header_wire.seq (vec_wire tx_wire)) (tells_seq header_wire tells_header ht) (fun _ _ => ⟨_, rfl⟩)).congr
    (fun bs e => ?_) (fun bs e => ?_)
  · constructor
    · rintro (⟨_, h⟩ | ⟨h, r, e, _, h1, h2⟩)
      · cases h
      · exact .txs h r e h1 h2
    · rintro ⟨h, r, e, h1, h2⟩
      exact .second h r e trivial h1 h2
  · constructor
    · rintro (⟨e, h⟩ | ⟨h, r, e, _, h1, h2⟩)
      · exact .header e h
      · exact .txs h r e h1 h2
    · rintro (⟨e, h⟩ | ⟨h, r, e, h1, h2⟩)
      · exact .first e h
      · exact .second h r e trivial h1 h2

end Why
end Btc
