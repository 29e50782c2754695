import Verif.Crypto.SighashLaws
import Verif.Props.C55
import Verif.Props.C35
import Verif.Props.C08_C12
import Verif.Hashes.Sha2
/-!
# C56: signature hashes
-/
namespace Btc
namespace Sighash
open Crypto
open Taproot (Hash)

/-! ## Histories of one cache -/

/-- A use of a `SighashCache`: the three encoding functions with any writer (and what it already holds), the hashing functions, and
storing a witness through `witness_mut`. -/
inductive Call where
  | tapTo (sink : Sink) (out : Bytes) (i : Nat) (prevouts : Prevouts) (annex : Option Annex) (leaf : Option (Hash × UInt32)) (ty : Tap)
  | tap (i : Nat) (prevouts : Prevouts) (annex : Option Annex) (leaf : Option (Hash × UInt32)) (ty : Tap)
  | tapKey (i : Nat) (prevouts : Prevouts) (ty : Tap)
  | tapScript (i : Nat) (prevouts : Prevouts) (leaf : Hash) (ty : Tap)
  | segwitTo (sink : Sink) (out : Bytes) (i : Nat) (code : Bytes) (amount : Amount) (ty : Ecdsa)
  | p2wpkh (i : Nat) (spk : Bytes) (amount : Amount) (ty : Ecdsa)
  | p2wsh (i : Nat) (ws : Bytes) (amount : Amount) (ty : Ecdsa)
  | legacyTo (sink : Sink) (i : Nat) (spk : Bytes) (n : UInt32)
  | legacy (i : Nat) (spk : Bytes) (n : UInt32)
  | witness (i : Nat) (w : Wit)

/-- What a call gives back: bytes written and the result, or a hash or error (`none`: a panic). -/
inductive Res where
  | tapTo (out : Bytes) (r : Except (SErr TapErr) Unit)
  | tap (r : Option (Except TapErr Hash))
  | segwitTo (out : Bytes) (r : Except (SErr InputsIndexError) Unit)
  | p2wpkh (r : Option (Except P2wpkhErr Hash))
  | p2wsh (r : Option (Except InputsIndexError Hash))
  | legacyTo (r : LegacyRes)
  | legacy (r : Option (Except InputsIndexError Hash))
  | unit

def Call.run (H : Bytes → Hash) (c : Cache) : Call → Cache × Res
  | .tapTo sink out i prevouts annex leaf ty =>
    let r := tapEncode H sink i prevouts annex leaf ty ⟨c, out⟩; (r.1.cache, .tapTo r.1.out r.2)
  | .tap i prevouts annex leaf ty => let r := tapHash H c i prevouts annex leaf ty; (r.1, .tap r.2)
  | .tapKey i prevouts ty => let r := tapKeyHash H c i prevouts ty; (r.1, .tap r.2)
  | .tapScript i prevouts leaf ty => let r := tapScriptHash H c i prevouts leaf ty; (r.1, .tap r.2)
  | .segwitTo sink out i code amount ty => let r := segwitEncode H sink i code amount ty ⟨c, out⟩; (r.1.cache, .segwitTo r.1.out r.2)
  | .p2wpkh i spk amount ty => let r := p2wpkhHash H c i spk amount ty; (r.1, .p2wpkh r.2)
  | .p2wsh i ws amount ty => let r := p2wshHash H c i ws amount ty; (r.1, .p2wsh r.2)
  | .legacyTo sink i spk n => (c, .legacyTo (legacyEncode sink c i spk n))
  | .legacy i spk n => (c, .legacy (legacyHash H c i spk n))
  | .witness i w => (witnessMut c i w, .unit)

/-- A call agrees with the list `P` of spent outputs: if it is a taproot call without ANYONECANPAY (type byte below `0x80`) given
one output per input, those outputs are `P`. -/
def Call.Spends (P : List TxOut) (inputs : Nat) : Call → Prop
  | .tapTo _ _ _ prevouts _ _ ty | .tap _ prevouts _ _ ty | .tapKey _ prevouts ty | .tapScript _ prevouts _ ty =>
    ty.toU8 < 0x80 → ∀ l, prevouts = .all l → l.length = inputs → l = P
  | _ => True

/-- The cache after some calls. -/
def history (H : Bytes → Hash) (tx : Tx) (calls : List Call) : Cache := calls.foldl (fun c call => (call.run H c).1) (Cache.new tx)

/-- The same transaction up to the script signatures and witnesses of its inputs. -/
def SameSigned (a b : Tx) : Prop :=
  a.version = b.version ∧ a.lockTime = b.lockTime ∧ a.inputs.map (fun x => (x.prev, x.sequence)) = b.inputs.map (fun x => (x.prev, x.sequence)) ∧
    a.outputs = b.outputs

theorem SameSigned.length {a b : Tx} (h : SameSigned a b) : a.inputs.length = b.inputs.length := by
  have := congrArg List.length h.2.2.1
  simpa using this

theorem foldl_inputs (l : List TxIn) : ∀ e : Bytes × Bytes,
    l.foldl (fun e txin => (e.1 ++ outPointB txin.prev, e.2 ++ u32le txin.sequence)) e =
      (e.1 ++ (l.map fun x => outPointB x.prev).flatten, e.2 ++ (l.map fun x => u32le x.sequence).flatten) := by
  induction l with
  | nil => intro e; simp
  | cons x l ih => intro e; rw [List.foldl_cons, ih]; simp
theorem foldl_outputs {α : Type} (f : α → Bytes) (l : List α) : ∀ e : Bytes, l.foldl (fun e x => e ++ f x) e = e ++ (l.map f).flatten := by
  induction l with
  | nil => intro e; simp
  | cons x l ih => intro e; rw [List.foldl_cons, ih]; simp
theorem foldl_spent (l : List TxOut) : ∀ e : Bytes × Bytes,
    l.foldl (fun e p => (e.1 ++ amountB p.amount, e.2 ++ scriptB p.spk)) e =
      (e.1 ++ (l.map fun x => amountB x.amount).flatten, e.2 ++ (l.map fun x => scriptB x.spk).flatten) := by
  induction l with
  | nil => intro e; simp
  | cons x l ih => intro e; rw [List.foldl_cons, ih]; simp
theorem computeCommon_eq (H : Bytes → Hash) (tx : Tx) : computeCommon H tx =
    ⟨H (tx.inputs.map fun x => outPointB x.prev).flatten, H (tx.inputs.map fun x => u32le x.sequence).flatten, H (tx.outputs.map txOutB).flatten⟩ := by
  unfold computeCommon
  rw [foldl_inputs, foldl_outputs]; rfl
theorem computeTap_eq (H : Bytes → Hash) (l : List TxOut) : computeTap H l =
    ⟨H (l.map fun x => amountB x.amount).flatten, H (l.map fun x => scriptB x.spk).flatten⟩ := by
  unfold computeTap
  rw [foldl_spent]; rfl

theorem SameSigned.common {a b : Tx} (h : SameSigned a b) (H : Bytes → Hash) : computeCommon H a = computeCommon H b := by
  obtain ⟨-, -, h3, h4⟩ := h
  rw [computeCommon_eq, computeCommon_eq, h4]
  have e1 : a.inputs.map (fun x => outPointB x.prev) = b.inputs.map (fun x => outPointB x.prev) := by
    have := congrArg (List.map fun p : OutPoint × UInt32 => outPointB p.1) h3
    simpa [List.map_map, Function.comp_def] using this
  have e2 : a.inputs.map (fun x => u32le x.sequence) = b.inputs.map (fun x => u32le x.sequence) := by
    have := congrArg (List.map fun p : OutPoint × UInt32 => u32le p.2) h3
    simpa [List.map_map, Function.comp_def] using this
  rw [e1, e2]

theorem SameSigned.input {a b : Tx} (h : SameSigned a b) (i : Nat) :
    (a.inputs[i]? = none ∧ b.inputs[i]? = none) ∨
    ∃ x y, a.inputs[i]? = some x ∧ b.inputs[i]? = some y ∧ x.prev = y.prev ∧ x.sequence = y.sequence := by
  have := congrArg (fun l => l[i]?) h.2.2.1
  simp only [List.getElem?_map] at this
  cases ha : a.inputs[i]? with
  | none => cases hb : b.inputs[i]? with
    | none => exact .inl ⟨rfl, rfl⟩
    | some y => rw [ha, hb] at this; cases this
  | some x => cases hb : b.inputs[i]? with
    | none => rw [ha, hb] at this; cases this
    | some y =>
      rw [ha, hb] at this
      simp only [Option.map_some, Option.some.injEq, Prod.mk.injEq] at this
      exact .inr ⟨x, y, rfl, rfl, this.1, this.2⟩

theorem SameSigned.tapProg {a b : Tx} (h : SameSigned a b) (H : Bytes → Hash) (i : Nat) (prevouts : Prevouts) (annex : Option Annex)
    (leaf : Option (Hash × UInt32)) (ty : Tap) :
    tapProg H a i prevouts annex leaf ty = tapProg H b i prevouts annex leaf ty := by
  have hc := h.common H
  have hl := h.length
  have hi := h.input i
  obtain ⟨h1, h2, -, h4⟩ := h
  unfold Sighash.tapProg
  have hcheck : prevouts.checkAll a = prevouts.checkAll b := by unfold Prevouts.checkAll; rw [hl]
  rw [hc, h1, h2, h4, hcheck]
  congr 1; funext _; congr 8
  unfold txIn
  rcases hi with ⟨e1, e2⟩ | ⟨x, y, e1, e2, e3, e4⟩
  · rw [e1, e2, hl]
  · rw [e1, e2]; simp only [Except.mapError, Prog.try, e3, e4]

theorem SameSigned.segwitProg {a b : Tx} (h : SameSigned a b) (H : Bytes → Hash) (i : Nat) (code : Bytes) (amount : Amount) (ty : Ecdsa) :
    segwitProg H a i code amount ty = segwitProg H b i code amount ty := by
  have hc := h.common H
  have hl := h.length
  have hi := h.input i
  obtain ⟨h1, h2, -, h4⟩ := h
  unfold Sighash.segwitProg
  simp only [hc, h1, h2, h4]
  congr 4
  unfold txIn
  rcases hi with ⟨e1, e2⟩ | ⟨x, y, e1, e2, e3, e4⟩
  · rw [e1, e2, hl]
  · rw [e1, e2]; simp only [Prog.try, e3, e4]

theorem legacyInputsProg_same (i : Nat) (spk : Bytes) (sh : Ecdsa) : ∀ (l m : List TxIn) (n : Nat),
    l.map (fun x => (x.prev, x.sequence)) = m.map (fun x => (x.prev, x.sequence)) → legacyInputsProg i spk sh n l = legacyInputsProg i spk sh n m
  | [], [], _, _ => rfl
  | [], _ :: _, _, h => by simp at h
  | _ :: _, [], _, h => by simp at h
  | x :: l, y :: m, n, h => by
    simp only [List.map_cons, List.cons.injEq, Prod.mk.injEq] at h
    simp only [legacyInputsProg, h.1.1, h.1.2, legacyInputsProg_same i spk sh l m (n + 1) h.2]

theorem SameSigned.legacyProg {a b : Tx} (h : SameSigned a b) (i : Nat) (spk : Bytes) (n : UInt32) :
    legacyProg a i spk n = legacyProg b i spk n := by
  have hl := h.length
  have hi := h.input i
  obtain ⟨h1, h2, h3, h4⟩ := h
  unfold Sighash.legacyProg legacyInsProg legacyOutsProg
  rw [h1, h2, h4, hl, legacyInputsProg_same i spk _ _ _ 0 h3]
  rcases hi with ⟨e1, e2⟩ | ⟨x, y, e1, e2, e3, e4⟩
  · rw [e1, e2]
  · rw [e1, e2]; simp only [e3, e4]

theorem legacyEncode_prog (sink : Sink) (c : Cache) (i : Nat) (spk : Bytes) (n : UInt32) : legacyEncode sink c i spk n =
    match txIn c.tx i with
    | .error e => .wrote [] (.error (.sighash e))
    | .ok _ => if invalidSingle n i c.tx.outputs.length then .singleBug
      else .wrote (exec sink [] (legacyProg c.tx i spk n).1 (legacyProg c.tx i spk n).2).1 (exec sink [] (legacyProg c.tx i spk n).1 (legacyProg c.tx i spk n).2).2 := by
  unfold legacyEncode
  have := (legacyInner_denotes (I := fun _ => True) (sink := sink) c.tx i spk n ⟨c, []⟩ trivial).2
  replace this : _ = exec sink [] (legacyProg c.tx i spk n).1 (legacyProg c.tx i spk n).2 := this
  rw [← this]
  cases txIn c.tx i <;> rfl

theorem SameSigned.legacyEncode {a b : Cache} (h : SameSigned a.tx b.tx) (sink : Sink) (i : Nat) (spk : Bytes) (n : UInt32) :
    legacyEncode sink a i spk n = legacyEncode sink b i spk n := by
  rw [legacyEncode_prog, legacyEncode_prog, h.legacyProg]
  have hl := h.length
  unfold txIn
  rw [h.2.2.2]
  rcases h.input i with ⟨e1, e2⟩ | ⟨x, y, e1, e2, e3, e4⟩
  · rw [e1, e2, hl]
  · rw [e1, e2]

theorem SameSigned.refl (a : Tx) : SameSigned a a := ⟨rfl, rfl, rfl, rfl⟩
theorem SameSigned.trans {a b c : Tx} (h : SameSigned a b) (k : SameSigned b c) : SameSigned a c :=
  ⟨h.1.trans k.1, h.2.1.trans k.2.1, h.2.2.1.trans k.2.2.1, h.2.2.2.trans k.2.2.2⟩
theorem SameSigned.symm {a b : Tx} (h : SameSigned a b) : SameSigned b a := ⟨h.1.symm, h.2.1.symm, h.2.2.1.symm, h.2.2.2.symm⟩

theorem sameSigned_witness (tx : Tx) (i : Nat) (w : Wit) :
    SameSigned tx { tx with inputs := tx.inputs.modify i fun x => { x with witness := w } } := by
  refine ⟨rfl, rfl, ?_, rfl⟩
  simp only
  generalize tx.inputs = l
  induction l generalizing i with
  | nil => simp
  | cons x l ih =>
    cases i with
    | zero => simp
    | succ i => simp only [List.modify_succ_cons, List.map_cons]; rw [← ih i]

theorem acp_byte (ty : Tap) : ty.splitAcp.2 = false ↔ ty.toU8 < 0x80 := by cases ty <;> decide

/-- One call, on any cache that is good: the same as on a fresh cache of any transaction with the same signed parts. -/
theorem call_good (H : Bytes → Hash) (P : List TxOut) (tx tx0 : Tx) (c : Cache) (hg : Good H tx P c) (hs : SameSigned tx tx0) (call : Call)
    (hc : call.Spends P tx0.inputs.length) :
    (∃ tx', Good H tx' P (call.run H c).1 ∧ SameSigned tx' tx0) ∧ (call.run H c).2 = (call.run H (Cache.new tx0)).2 := by
  have tapCase : ∀ (sink : Sink) (out : Bytes) i prevouts annex leaf (ty : Tap),
      (ty.toU8 < 0x80 → ∀ l, prevouts = .all l → l.length = tx0.inputs.length → l = P) →
      Good H tx P (tapEncode H sink i prevouts annex leaf ty ⟨c, out⟩).1.cache ∧
      ((tapEncode H sink i prevouts annex leaf ty ⟨c, out⟩).1.out, (tapEncode H sink i prevouts annex leaf ty ⟨c, out⟩).2) =
      ((tapEncode H sink i prevouts annex leaf ty ⟨Cache.new tx0, out⟩).1.out, (tapEncode H sink i prevouts annex leaf ty ⟨Cache.new tx0, out⟩).2) := by
    intro sink out i prevouts annex leaf ty h
    have h' : ty.splitAcp.2 = false → ∀ l, prevouts = .all l → l.length = tx0.inputs.length → l = P := fun hh => h ((acp_byte ty).mp hh)
    have d1 := tapEncode_denotes (H := H) (sink := sink) i prevouts annex leaf ty (by rw [hs.length]; exact h') ⟨c, out⟩ hg
    have d2 := tapEncode_denotes (H := H) (sink := sink) i prevouts annex leaf ty h' ⟨Cache.new tx0, out⟩ (good_new H tx0 P)
    exact ⟨d1.1, by rw [d1.2, d2.2, hs.tapProg]⟩
  have segCase : ∀ (sink : Sink) (out : Bytes) i code amount (ty : Ecdsa),
      Good H tx P (segwitEncode H sink i code amount ty ⟨c, out⟩).1.cache ∧
      ((segwitEncode H sink i code amount ty ⟨c, out⟩).1.out, (segwitEncode H sink i code amount ty ⟨c, out⟩).2) =
      ((segwitEncode H sink i code amount ty ⟨Cache.new tx0, out⟩).1.out, (segwitEncode H sink i code amount ty ⟨Cache.new tx0, out⟩).2) := by
    intro sink out i code amount ty
    have d1 := segwitEncode_denotes (H := H) (sink := sink) i code amount ty ⟨c, out⟩ hg
    have d2 := segwitEncode_denotes (H := H) (P := P) (sink := sink) i code amount ty ⟨Cache.new tx0, out⟩ (good_new H tx0 P)
    exact ⟨d1.1, by rw [d1.2, d2.2, hs.segwitProg]⟩
  have pair : ∀ {α β : Type} {a a' : α} {b b' : β}, (a, b) = (a', b') → a = a' ∧ b = b' := fun h => by cases h; exact ⟨rfl, rfl⟩
  cases call with
  | tapTo sink out i prevouts annex leaf ty =>
    obtain ⟨h1, h2⟩ := tapCase sink out i prevouts annex leaf ty hc
    obtain ⟨h2, h3⟩ := pair h2
    exact ⟨⟨tx, h1, hs⟩, by simp only [Call.run, h2, h3]⟩
  | tap i prevouts annex leaf ty =>
    obtain ⟨h1, h2⟩ := tapCase vecSink [] i prevouts annex leaf ty hc
    obtain ⟨h2, h3⟩ := pair h2
    exact ⟨⟨tx, h1, hs⟩, by simp only [Call.run, tapHash, finish, h2, h3]⟩
  | tapKey i prevouts ty =>
    obtain ⟨h1, h2⟩ := tapCase vecSink [] i prevouts none none ty hc
    obtain ⟨h2, h3⟩ := pair h2
    exact ⟨⟨tx, h1, hs⟩, by simp only [Call.run, tapKeyHash, finish, h2, h3]⟩
  | tapScript i prevouts leaf ty =>
    obtain ⟨h1, h2⟩ := tapCase vecSink [] i prevouts none (some (leaf, 0xFFFFFFFF)) ty hc
    obtain ⟨h2, h3⟩ := pair h2
    exact ⟨⟨tx, h1, hs⟩, by simp only [Call.run, tapScriptHash, finish, h2, h3]⟩
  | segwitTo sink out i code amount ty =>
    obtain ⟨h1, h2⟩ := segCase sink out i code amount ty
    obtain ⟨h2, h3⟩ := pair h2
    exact ⟨⟨tx, h1, hs⟩, by simp only [Call.run, h2, h3]⟩
  | p2wpkh i spk amount ty =>
    simp only [Call.run, p2wpkhHash]
    cases Scr.p2wpkhScriptCode spk with
    | none => exact ⟨⟨tx, hg, hs⟩, rfl⟩
    | some o => cases o with
      | none => exact ⟨⟨tx, hg, hs⟩, rfl⟩
      | some code =>
        obtain ⟨h1, h2⟩ := segCase vecSink [] i code amount ty
        obtain ⟨h2, h3⟩ := pair h2
        exact ⟨⟨tx, h1, hs⟩, by simp only [finish, h2, h3]⟩
  | p2wsh i ws amount ty =>
    obtain ⟨h1, h2⟩ := segCase vecSink [] i ws amount ty
    obtain ⟨h2, h3⟩ := pair h2
    exact ⟨⟨tx, h1, hs⟩, by simp only [Call.run, p2wshHash, finish, h2, h3]⟩
  | legacyTo sink i spk n =>
    have hk : SameSigned c.tx (Cache.new tx0).tx := by rw [hg.same]; exact hs
    exact ⟨⟨tx, hg, hs⟩, by simp only [Call.run, hk.legacyEncode]⟩
  | legacy i spk n =>
    have hk : SameSigned c.tx (Cache.new tx0).tx := by rw [hg.same]; exact hs
    exact ⟨⟨tx, hg, hs⟩, by simp only [Call.run, legacyHash, hk.legacyEncode]⟩
  | witness i w =>
    have hk := sameSigned_witness tx i w
    refine ⟨⟨_, ⟨?_, ?_, ?_, ?_⟩, hk.symm.trans hs⟩, rfl⟩
    · simp only [Call.run, witnessMut, hg.same]
    · rw [← hk.common H]; exact hg.common
    · rw [← hk.common H]; exact hg.segwit
    · exact hg.taproot

/-- Whatever was computed, written (also unsuccessfully) or stored into witnesses before, the next call gives what it gives on a fresh
cache: same bytes, same hash, same error. -/
theorem C56_cached (H : Bytes → Hash) (tx : Tx) (P : List TxOut) (calls : List Call) (call : Call)
    (h : ∀ x ∈ call :: calls, x.Spends P tx.inputs.length) :
    (call.run H (history H tx calls)).2 = (call.run H (Cache.new tx)).2 := by
  suffices hh : ∀ (calls : List Call) (c : Cache), (∀ x ∈ calls, x.Spends P tx.inputs.length) → (∃ t, Good H t P c ∧ SameSigned t tx) →
      ∃ t, Good H t P (calls.foldl (fun c call => (call.run H c).1) c) ∧ SameSigned t tx by
    obtain ⟨t, h1, h2⟩ := hh calls (Cache.new tx) (fun x hx => h x (List.mem_cons_of_mem _ hx)) ⟨tx, good_new H tx P, .refl tx⟩
    exact (call_good H P t tx _ h1 h2 call (h call List.mem_cons_self)).2
  intro calls
  induction calls with
  | nil => intro c _ hc; exact hc
  | cons x calls ih =>
    intro c hx hc
    obtain ⟨t, h1, h2⟩ := hc
    rw [List.foldl_cons]
    exact ih _ (fun y hy => hx y (List.mem_cons_of_mem _ hy)) (call_good H P t tx c h1 h2 x (hx x List.mem_cons_self)).1

/-- So do all the results of a sequence of calls. -/
theorem C56_sequence (H : Bytes → Hash) (tx : Tx) (P : List TxOut) (calls : List Call) (h : ∀ x ∈ calls, x.Spends P tx.inputs.length) :
    (calls.foldl (fun (s : Cache × List Res) call => ((call.run H s.1).1, s.2 ++ [(call.run H s.1).2])) (Cache.new tx, [])).2 =
      calls.map fun call => (call.run H (Cache.new tx)).2 := by
  suffices hh : ∀ calls : List Call, (∀ x ∈ calls, x.Spends P tx.inputs.length) →
      calls.foldl (fun (s : Cache × List Res) call => ((call.run H s.1).1, s.2 ++ [(call.run H s.1).2])) (Cache.new tx, []) =
        (history H tx calls, calls.map fun call => (call.run H (Cache.new tx)).2) by rw [hh calls h]
  intro calls
  induction hn : calls.length generalizing calls with
  | zero => intro _; rw [List.length_eq_zero_iff] at hn; subst hn; rfl
  | succ n ih =>
    intro hx
    obtain ⟨l, x, rfl⟩ : ∃ l x, calls = l ++ [x] := by
      have hne : calls ≠ [] := by intro h0; rw [h0] at hn; cases hn
      exact ⟨calls.dropLast, calls.getLast hne, (List.dropLast_concat_getLast hne).symm⟩
    have hl : l.length = n := by simp at hn; exact hn
    rw [List.foldl_append, ih l hl (fun y hy => hx y (List.mem_append_left _ hy))]
    have := C56_cached H tx P l x (by
      intro y hy
      rcases List.mem_cons.mp hy with rfl | hy
      · exact hx _ (by simp)
      · exact hx _ (List.mem_append_left _ hy))
    simp only [List.foldl_cons, List.foldl_nil, this, List.map_append, List.map_cons, List.map_nil]
    simp [history, List.foldl_append]

/-! ## The messages -/

/-- BIP-341's `SigMsg(hash_type, ext_flag)` after the epoch byte, with BIP-342's extension: `spent` are the outputs spent by the
inputs, `txin` and `own` the signed input and the output it spends. -/
def bip341 (H : Bytes → Hash) (tx : Tx) (i : Nat) (txin : TxIn) (spent : List TxOut) (own : TxOut) (annex : Option Bytes)
    (ext : Option (Hash × UInt32)) (hashType : UInt8) : Bytes :=
  let sha (m : Bytes) : Bytes := (H m).1
  let anyoneCanPay : Bool := hashType &&& 0x80 == 0x80
  let base := hashType &&& 3
  [0x00] ++ [hashType] ++ leBytes 4 tx.version.toNat ++ leBytes 4 tx.lockTime.toNat ++
  (if anyoneCanPay then [] else
    sha (tx.inputs.flatMap fun x => x.prev.txid.1 ++ leBytes 4 x.prev.vout.toNat) ++
    sha (spent.flatMap fun o => leBytes 8 o.amount.1) ++
    sha (spent.flatMap fun o => csEncode o.spk.length ++ o.spk) ++
    sha (tx.inputs.flatMap fun x => leBytes 4 x.sequence.toNat)) ++
  (if base ≠ 2 ∧ base ≠ 3 then sha (tx.outputs.flatMap fun o => leBytes 8 o.amount.1 ++ (csEncode o.spk.length ++ o.spk)) else []) ++
  [(if ext.isSome then 2 else 0) + (if annex.isSome then 1 else 0)] ++
  (if anyoneCanPay then
    (txin.prev.txid.1 ++ leBytes 4 txin.prev.vout.toNat) ++ leBytes 8 own.amount.1 ++ (csEncode own.spk.length ++ own.spk) ++
      leBytes 4 txin.sequence.toNat
   else leBytes 4 i) ++
  (match annex with
   | some a => sha (csEncode a.length ++ a)
   | none => []) ++
  (if base = 3 then
    match tx.outputs[i]? with
    | some o => sha (leBytes 8 o.amount.1 ++ (csEncode o.spk.length ++ o.spk))
    | none => []
   else []) ++
  (match ext with
   | some (leaf, codesep) => leaf.1 ++ [0x00] ++ leBytes 4 codesep.toNat
   | none => [])

/-- The errors, in the order they are looked for. -/
def tapError (tx : Tx) (i : Nat) (prevouts : Prevouts) (hashType : UInt8) : Option TapErr :=
  let inputs := tx.inputs.length
  match prevouts with
  | .all l =>
    if l.length ≠ inputs then some .prevoutsSize
    else if hashType ≥ 0x80 ∧ i ≥ inputs then some (.inputsIndex ⟨i, inputs⟩)
    else if hashType &&& 3 = 3 ∧ i ≥ tx.outputs.length then some (.singleMissing i tx.outputs.length)
    else none
  | .one j _ =>
    if hashType < 0x80 then some .prevoutsKind
    else if i ≥ inputs then some (.inputsIndex ⟨i, inputs⟩)
    else if i ≠ j then some .prevoutsOneIndex
    else if hashType &&& 3 = 3 ∧ i ≥ tx.outputs.length then some (.singleMissing i tx.outputs.length)
    else none

theorem tapEncode_new (H : Bytes → Hash) (sink : Sink) (tx : Tx) (out : Bytes) (i : Nat) (prevouts : Prevouts) (annex : Option Annex)
    (leaf : Option (Hash × UInt32)) (ty : Tap) :
    ((tapEncode H sink i prevouts annex leaf ty ⟨Cache.new tx, out⟩).1.out, (tapEncode H sink i prevouts annex leaf ty ⟨Cache.new tx, out⟩).2) =
      exec sink out (tapProg H tx i prevouts annex leaf ty).1 (tapProg H tx i prevouts annex leaf ty).2 := by
  cases prevouts with
  | one j o => exact (tapEncode_denotes (P := []) i _ annex leaf ty (fun _ l hl => by cases hl) ⟨Cache.new tx, out⟩ (good_new H tx [])).2
  | all l => exact (tapEncode_denotes (P := l) i _ annex leaf ty (fun _ l' hl _ => by cases hl; rfl) ⟨Cache.new tx, out⟩ (good_new H tx l)).2

theorem tapProg_error (H : Bytes → Hash) (tx : Tx) (i : Nat) (prevouts : Prevouts) (annex : Option Annex)
    (leaf : Option (Hash × UInt32)) (ty : Tap) :
    (tapProg H tx i prevouts annex leaf ty).2 = (tapError tx i prevouts ty.toU8).map .sighash := by
  have seq_none : ∀ {ε : Type} (p q : Prog ε), (p ⊳ q).2 = match p.2 with | none => q.2 | some e => some e := by
    intro ε p q; unfold Prog.seq; cases p.2 <;> rfl
  have hw : ∀ {ε : Type} (b : Bytes), (Prog.write b : Prog ε).2 = none := fun _ => rfl
  have hd : ∀ {ε : Type}, (Prog.done : Prog ε).2 = none := rfl
  have hf : ∀ {ε : Type} (e : ε), (Prog.fail e : Prog ε).2 = some (.sighash e) := fun _ => rfl
  have htx : ∀ h : i < tx.inputs.length, txIn tx i = .ok tx.inputs[i] := fun h => by unfold txIn; rw [List.getElem?_eq_getElem h]
  have htx' : ¬ i < tx.inputs.length → txIn tx i = .error ⟨i, tx.inputs.length⟩ := fun h => by
    unfold txIn; rw [List.getElem?_eq_none (by omega)]
  have ho : ∀ h : i < tx.outputs.length, tx.outputs[i]? = some tx.outputs[i] := fun h => List.getElem?_eq_getElem h
  have ho' : ¬ i < tx.outputs.length → tx.outputs[i]? = none := fun h => List.getElem?_eq_none (by omega)
  have bit : ∀ n m : Nat, (n < m ∧ ¬ m ≤ n) ∨ (¬ n < m ∧ m ≤ n) := fun n m => by omega
  have b0 : (0 : UInt8) &&& 3 ≠ 3 := by decide
  have b1 : (1 : UInt8) &&& 3 ≠ 3 := by decide
  have b2 : (2 : UInt8) &&& 3 ≠ 3 := by decide
  have b3 : (3 : UInt8) &&& 3 = 3 := by decide
  have b4 : (129 : UInt8) &&& 3 ≠ 3 := by decide
  have b5 : (130 : UInt8) &&& 3 ≠ 3 := by decide
  have b6 : (131 : UInt8) &&& 3 = 3 := by decide
  unfold tapProg tapError
  cases prevouts with
  | all l =>
    by_cases hl : l.length = tx.inputs.length
    · have hcheck : (Prevouts.all l).checkAll tx = .ok () := by simp [Prevouts.checkAll, hl]
      have hget : (Prevouts.all l).getAll = .ok l := rfl
      have hget' : ∀ h : i < tx.inputs.length, (Prevouts.all l).get i = .ok (l[i]'(by omega)) := fun h => by
        unfold Prevouts.get; simp only; rw [List.getElem?_eq_getElem (by omega)]
      rw [hcheck, hget]
      rcases bit i tx.inputs.length with ⟨h1, h1'⟩ | ⟨h1, h1'⟩ <;> rcases bit i tx.outputs.length with ⟨h2, h2'⟩ | ⟨h2, h2'⟩ <;>
        cases annex <;> cases leaf <;> cases ty <;>
        simp [h1', h2', b0, b1, b2, b3, b4, b5, b6, Prog.try, seq_none, hw, hd, hf, hl, Tap.splitAcp, Tap.toU8, htx, htx', h1, h2, ho, ho', hget', Except.mapError]
    · simp [Prevouts.checkAll, hl, Prog.try, Prog.fail]
  | one j o =>
    have hcheck : (Prevouts.one j o).checkAll tx = .ok () := rfl
    have hget : (Prevouts.one j o).getAll = .error .prevoutsKind := rfl
    have hget' : (Prevouts.one j o).get i = if i = j then .ok o else .error .prevoutsOneIndex := rfl
    rw [hcheck, hget, hget']
    generalize hb : decide (i = j) = b
    have h3 : (i = j) = (b = true) := by rw [← hb]; simp
    simp only [ne_eq, h3]
    rcases bit i tx.inputs.length with ⟨h1, h1'⟩ | ⟨h1, h1'⟩ <;> rcases bit i tx.outputs.length with ⟨h2, h2'⟩ | ⟨h2, h2'⟩ <;>
      cases b <;> cases annex <;> cases leaf <;> cases ty <;>
      simp [h1', h2', b0, b1, b2, b3, b4, b5, b6, Prog.try, seq_none, hw, hd, hf, Tap.splitAcp, Tap.toU8, htx, htx', h1, h2, ho, ho', Except.mapError]

theorem u32le_ofNat (i : Nat) (h : i < 2 ^ 32) : u32le (UInt32.ofNat i) = leBytes 4 i := by
  unfold u32le
  rw [UInt32.toNat_ofNat', Nat.mod_eq_of_lt h]

/-- What the caller's `Prevouts` say: the outputs spent by all the inputs, and the one spent by input `i`. -/
def Prevouts.Says (spent : List TxOut) (own : TxOut) (i : Nat) : Prevouts → Prop
  | .all l => l = spent ∧ l[i]? = some own
  | .one _ o => o = own

theorem tapProg_msg (H : Bytes → Hash) (tx : Tx) (i : Nat) (txin : TxIn) (prevouts : Prevouts) (spent : List TxOut) (own : TxOut)
    (annex : Option Annex) (leaf : Option (Hash × UInt32)) (ty : Tap) (hi : tx.inputs[i]? = some txin) (h32 : i < 2 ^ 32)
    (hp : prevouts.Says spent own i) (he : tapError tx i prevouts ty.toU8 = none) :
    (tapProg H tx i prevouts annex leaf ty).1.flatten = bip341 H tx i txin spent own (annex.map Subtype.val) leaf ty.toU8 := by
  have hcheck : prevouts.checkAll tx = .ok () := by
    cases prevouts with
    | one j o => rfl
    | all l =>
      unfold tapError at he
      unfold Prevouts.checkAll
      simp only at he ⊢
      by_cases hl : l.length ≠ tx.inputs.length
      · rw [if_pos hl] at he; cases he
      · rw [if_neg hl]
  have hall : ty.splitAcp.2 = false → prevouts.getAll = .ok spent := by
    intro hacp
    cases prevouts with
    | one j o =>
      unfold tapError at he
      simp only at he
      rw [if_pos ((acp_byte ty).mp hacp)] at he; cases he
    | all l => rw [hp.1.symm]; rfl
  have hget : ty.splitAcp.2 = true → prevouts.get i = .ok own := by
    intro hacp
    cases prevouts with
    | one j o =>
      unfold tapError at he
      simp only at he
      have : ¬ ty.toU8 < 0x80 := by rw [← acp_byte, hacp]; simp
      rw [if_neg this] at he
      by_cases h1 : i ≥ tx.inputs.length
      · rw [if_pos h1] at he; cases he
      · rw [if_neg h1] at he
        by_cases h2 : i ≠ j
        · rw [if_pos h2] at he; cases he
        · unfold Prevouts.get
          simp only
          rw [if_pos (by omega)]; rw [show o = own from hp]
    | all l =>
      unfold Prevouts.get
      simp only
      rw [hp.2]
  have hout : ty.splitAcp.1 = .single → ∃ o, tx.outputs[i]? = some o := by
    intro hs
    have h3 : ty.toU8 &&& 3 = 3 := by rw [← (C55_tap_split ty).2.1, hs]; rfl
    by_cases ho : i ≥ tx.outputs.length
    · exfalso
      unfold tapError at he
      cases prevouts <;> simp [h3, ho] at he
      · have := he; grind
      · grind
    · exact ⟨_, List.getElem?_eq_getElem (by omega)⟩
  have htx : txIn tx i = .ok txin := by unfold txIn; rw [hi]
  have seq_w : ∀ (b : Bytes) (q : Prog TapErr), (Prog.write b ⊳ q).1.flatten = b ++ q.1.flatten := fun b q => by
    simp [Prog.seq, Prog.write]
  have seq_d : ∀ (q : Prog TapErr), (Prog.done ⊳ q).1.flatten = q.1.flatten := fun q => by simp [Prog.seq, Prog.done]
  have seq_assoc : ∀ p q r : Prog TapErr, ((p ⊳ q) ⊳ r) = (p ⊳ (q ⊳ r)) := by
    rintro ⟨p, pe⟩ ⟨q, qe⟩ ⟨r, re⟩
    cases pe <;> cases qe <;> simp [Prog.seq]
  have wr : ∀ b : Bytes, (Prog.write b : Prog TapErr).1.flatten = b := fun b => by simp [Prog.write]
  have dn : (Prog.done : Prog TapErr).1.flatten = [] := rfl
  have b0 : (0 : UInt8) &&& 3 = 0 := by decide
  have c0 : (0 : UInt8) &&& 128 = 0 := by decide
  have b1 : (1 : UInt8) &&& 3 = 1 := by decide
  have c1 : (1 : UInt8) &&& 128 = 0 := by decide
  have b2 : (2 : UInt8) &&& 3 = 2 := by decide
  have c2 : (2 : UInt8) &&& 128 = 0 := by decide
  have b3 : (3 : UInt8) &&& 3 = 3 := by decide
  have c3 : (3 : UInt8) &&& 128 = 0 := by decide
  have b129 : (129 : UInt8) &&& 3 = 1 := by decide
  have c129 : (129 : UInt8) &&& 128 = 128 := by decide
  have b130 : (130 : UInt8) &&& 3 = 2 := by decide
  have c130 : (130 : UInt8) &&& 128 = 128 := by decide
  have b131 : (131 : UInt8) &&& 3 = 3 := by decide
  have c131 : (131 : UInt8) &&& 128 = 128 := by decide
  have s3 : (1 : UInt8) ||| 2 = 3 := by decide
  have hmod : i % 4294967296 = i := Nat.mod_eq_of_lt h32
  have hfun : txOutB = fun o => leBytes 8 o.amount.val ++ (csEncode (List.length o.spk) ++ o.spk) := rfl
  unfold tapProg bip341
  rw [hcheck, computeCommon_eq]
  cases ty with
  | default =>
    have hall' := hall rfl
    cases annex <;> cases leaf <;> simp [Tap.splitAcp, Tap.toU8, Prog.try, computeTap_eq, seq_w, seq_d, seq_assoc, wr, dn, Except.mapError, 
        List.flatMap, outPointB, amountB, scriptB, hfun, hmod, u32le, List.append_assoc, htx, hi, s3, b0, c0, hall']
  | all =>
    have hall' := hall rfl
    cases annex <;> cases leaf <;> simp [Tap.splitAcp, Tap.toU8, Prog.try, computeTap_eq, seq_w, seq_d, seq_assoc, wr, dn, Except.mapError, 
        List.flatMap, outPointB, amountB, scriptB, hfun, hmod, u32le, List.append_assoc, htx, hi, s3, b1, c1, hall']
  | none =>
    have hall' := hall rfl
    cases annex <;> cases leaf <;> simp [Tap.splitAcp, Tap.toU8, Prog.try, computeTap_eq, seq_w, seq_d, seq_assoc, wr, dn, Except.mapError, 
        List.flatMap, outPointB, amountB, scriptB, hfun, hmod, u32le, List.append_assoc, htx, hi, s3, b2, c2, hall']
  | single =>
    have hall' := hall rfl
    obtain ⟨o, ho⟩ := hout rfl
    cases annex <;> cases leaf <;> simp [Tap.splitAcp, Tap.toU8, Prog.try, computeTap_eq, seq_w, seq_d, seq_assoc, wr, dn, Except.mapError, 
        List.flatMap, outPointB, amountB, scriptB, hfun, hmod, u32le, List.append_assoc, htx, hi, s3, b3, c3, hall', ho]
  | allAcp =>
    have hget' := hget rfl
    cases annex <;> cases leaf <;> simp [Tap.splitAcp, Tap.toU8, Prog.try, computeTap_eq, seq_w, seq_d, seq_assoc, wr, dn, Except.mapError, 
        List.flatMap, outPointB, amountB, scriptB, hfun, hmod, u32le, List.append_assoc, htx, hi, s3, b129, c129, hget']
  | noneAcp =>
    have hget' := hget rfl
    cases annex <;> cases leaf <;> simp [Tap.splitAcp, Tap.toU8, Prog.try, computeTap_eq, seq_w, seq_d, seq_assoc, wr, dn, Except.mapError, 
        List.flatMap, outPointB, amountB, scriptB, hfun, hmod, u32le, List.append_assoc, htx, hi, s3, b130, c130, hget']
  | singleAcp =>
    have hget' := hget rfl
    obtain ⟨o, ho⟩ := hout rfl
    cases annex <;> cases leaf <;> simp [Tap.splitAcp, Tap.toU8, Prog.try, computeTap_eq, seq_w, seq_d, seq_assoc, wr, dn, Except.mapError, 
        List.flatMap, outPointB, amountB, scriptB, hfun, hmod, u32le, List.append_assoc, htx, hi, s3, b131, c131, hget', ho]

theorem finish_tap (H : Bytes → Hash) (tx : Tx) (i : Nat) (prevouts : Prevouts) (annex : Option Annex) (leaf : Option (Hash × UInt32)) (ty : Tap) :
    (tapHash H (Cache.new tx) i prevouts annex leaf ty).2 = match tapError tx i prevouts ty.toU8 with
      | some e => some (.error e)
      | none => some (.ok (Taproot.tagged H sighashTag (tapProg H tx i prevouts annex leaf ty).1.flatten)) := by
  have h := tapEncode_new H vecSink tx [] i prevouts annex leaf ty
  rw [exec_vec, tapProg_error, List.nil_append] at h
  simp only [Prod.mk.injEq] at h
  unfold tapHash finish
  simp only [h.1, h.2]
  cases tapError tx i prevouts ty.toU8 <;> rfl

/-- Taproot: the tagged hash of BIP-341's message (with the extension of BIP-342 for scripts), for the ASCII tag `TapSighash`. -/
theorem C56_taproot (H : Bytes → Hash) (tx : Tx) (i : Nat) (txin : TxIn) (prevouts : Prevouts) (spent : List TxOut) (own : TxOut)
    (annex : Option Annex) (leaf : Option (Hash × UInt32)) (ty : Tap) (hi : tx.inputs[i]? = some txin) (h32 : i < 2 ^ 32)
    (hp : prevouts.Says spent own i) (he : tapError tx i prevouts ty.toU8 = none) :
    let tag := "TapSighash".toUTF8.data.toList
    (tapHash H (Cache.new tx) i prevouts annex leaf ty).2 = some (.ok (H ((H tag).1 ++ (H tag).1 ++
      bip341 H tx i txin spent own (annex.map Subtype.val) leaf ty.toU8))) := by
  have ht : "TapSighash".toUTF8.data.toList = sighashTag := by decide
  simp only [ht]
  rw [finish_tap, he, tapProg_msg H tx i txin prevouts spent own annex leaf ty hi h32 hp he]
  rfl

/-- It fails exactly on the listed errors, and never panics. -/
theorem C56_taproot_errors (H : Bytes → Hash) (tx : Tx) (i : Nat) (prevouts : Prevouts) (annex : Option Annex)
    (leaf : Option (Hash × UInt32)) (ty : Tap) (e : TapErr) :
    (tapHash H (Cache.new tx) i prevouts annex leaf ty).2 ≠ none ∧
    ((tapHash H (Cache.new tx) i prevouts annex leaf ty).2 = some (.error e) ↔ tapError tx i prevouts ty.toU8 = some e) := by
  rw [finish_tap]
  cases h : tapError tx i prevouts ty.toU8 with
  | none => exact ⟨by simp, by simp⟩
  | some x => exact ⟨by simp, by simp⟩

/-- The key-path and script-path functions are that function without annex, and with code separator position `0xFFFFFFFF`. -/
theorem C56_taproot_paths (H : Bytes → Hash) (c : Cache) (i : Nat) (prevouts : Prevouts) (leaf : Hash) (ty : Tap) :
    tapKeyHash H c i prevouts ty = tapHash H c i prevouts none none ty ∧
    tapScriptHash H c i prevouts leaf ty = tapHash H c i prevouts none (some (leaf, 0xFFFFFFFF)) ty := ⟨rfl, rfl⟩

theorem exec_prefix {ε : Type} (sink : Sink) (bs : List Bytes) (e : Option (SErr ε)) : ∀ out, ∃ pre, pre <+: bs.flatten ∧
    (exec sink out bs e).1 = out ++ pre ∧ ((exec sink out bs e).2 = .error .io ∨ (pre = bs.flatten ∧
      (exec sink out bs e).2 = match e with | none => .ok () | some x => .error x)) := by
  induction bs with
  | nil => intro out; cases e <;> exact ⟨[], List.prefix_refl _, by simp [exec], .inr ⟨rfl, rfl⟩⟩
  | cons b bs ih =>
    intro out
    simp only [exec, List.flatten_cons]
    by_cases hs : sink out b = true
    · rw [if_pos hs]
      obtain ⟨pre, h1, h2, h3⟩ := ih (out ++ b)
      refine ⟨b ++ pre, (List.prefix_append_right_inj b).mpr h1, by rw [h2, List.append_assoc], ?_⟩
      rcases h3 with h3 | ⟨h3, h4⟩
      · exact .inl h3
      · exact .inr ⟨by rw [h3], h4⟩
    · rw [if_neg hs]
      exact ⟨[], List.nil_prefix, by simp, .inl rfl⟩

/-- Writing the message: whatever the writer refuses, it has received a prefix of the message, and all of it if the function
reports success; a refusal is reported as such. -/
theorem C56_taproot_writer (H : Bytes → Hash) (sink : Sink) (tx : Tx) (out : Bytes) (i : Nat) (txin : TxIn) (prevouts : Prevouts)
    (spent : List TxOut) (own : TxOut) (annex : Option Annex) (leaf : Option (Hash × UInt32)) (ty : Tap) (hi : tx.inputs[i]? = some txin)
    (h32 : i < 2 ^ 32) (hp : prevouts.Says spent own i) (he : tapError tx i prevouts ty.toU8 = none) :
    let msg := bip341 H tx i txin spent own (annex.map Subtype.val) leaf ty.toU8
    let r := tapEncode H sink i prevouts annex leaf ty ⟨Cache.new tx, out⟩
    ∃ pre, pre <+: msg ∧ r.1.out = out ++ pre ∧ (r.2 = .error .io ∨ (r.2 = .ok () ∧ pre = msg)) := by
  have h := tapEncode_new H sink tx out i prevouts annex leaf ty
  obtain ⟨pre, h1, h2, h3⟩ := exec_prefix sink (tapProg H tx i prevouts annex leaf ty).1 (tapProg H tx i prevouts annex leaf ty).2 out
  rw [← h] at h2 h3
  rw [tapProg_msg H tx i txin prevouts spent own annex leaf ty hi h32 hp he] at h1 h3
  rw [tapProg_error, he] at h3
  refine ⟨pre, h1, h2, ?_⟩
  rcases h3 with h3 | ⟨h3, h4⟩
  · exact .inl h3
  · exact .inr ⟨h4, h3⟩

/-! ## Segwit version 0 -/

/-- BIP-143's message. -/
def bip143 (H : Bytes → Hash) (tx : Tx) (i : Nat) (txin : TxIn) (scriptCode : Bytes) (amount : Amount) (hashType : UInt32) : Bytes :=
  let dsha (m : Bytes) : Bytes := (H (H m).1).1
  let zero : Bytes := List.replicate 32 0
  let anyoneCanPay := hashType &&& 0x80 ≠ 0
  let base := hashType &&& 0x1f
  let outputB (o : TxOut) : Bytes := leBytes 8 o.amount.1 ++ (csEncode o.spk.length ++ o.spk)
  leBytes 4 tx.version.toNat ++
  (if anyoneCanPay then zero else dsha (tx.inputs.flatMap fun x => x.prev.txid.1 ++ leBytes 4 x.prev.vout.toNat)) ++
  (if ¬ anyoneCanPay ∧ base ≠ 3 ∧ base ≠ 2 then dsha (tx.inputs.flatMap fun x => leBytes 4 x.sequence.toNat) else zero) ++
  (txin.prev.txid.1 ++ leBytes 4 txin.prev.vout.toNat) ++
  (csEncode scriptCode.length ++ scriptCode) ++
  leBytes 8 amount.1 ++
  leBytes 4 txin.sequence.toNat ++
  (if base ≠ 3 ∧ base ≠ 2 then dsha (tx.outputs.flatMap outputB)
   else if base = 3 then match tx.outputs[i]? with
    | some o => dsha (outputB o)
    | none => zero
   else zero) ++
  leBytes 4 tx.lockTime.toNat ++
  leBytes 4 hashType.toNat

theorem segwitEncode_new (H : Bytes → Hash) (sink : Sink) (tx : Tx) (out : Bytes) (i : Nat) (code : Bytes) (amount : Amount) (ty : Ecdsa) :
    ((segwitEncode H sink i code amount ty ⟨Cache.new tx, out⟩).1.out, (segwitEncode H sink i code amount ty ⟨Cache.new tx, out⟩).2) =
      exec sink out (segwitProg H tx i code amount ty).1 (segwitProg H tx i code amount ty).2 :=
  (segwitEncode_denotes (P := []) i code amount ty ⟨Cache.new tx, out⟩ (good_new H tx [])).2

theorem segwitProg_none (H : Bytes → Hash) (tx : Tx) (i : Nat) (code : Bytes) (amount : Amount) (ty : Ecdsa) (hi : tx.inputs[i]? = none) :
    (segwitProg H tx i code amount ty).2 = some (.sighash ⟨i, tx.inputs.length⟩) := by
  have htx : txIn tx i = .error ⟨i, tx.inputs.length⟩ := by unfold txIn; rw [hi]
  unfold segwitProg
  rw [htx]
  have seq_none : ∀ {ε : Type} (p q : Prog ε), (p ⊳ q).2 = match p.2 with | none => q.2 | some e => some e := by
    intro ε p q; unfold Prog.seq; cases p.2 <;> rfl
  have hw : ∀ {ε : Type} (b : Bytes), (Prog.write b : Prog ε).2 = none := fun _ => rfl
  have hf : ∀ {ε : Type} (e : ε), (Prog.fail e : Prog ε).2 = some (.sighash e) := fun _ => rfl
  cases ty <;> simp [Prog.try, seq_none, hw, hf, Ecdsa.splitAcp]

theorem segwitProg_some (H : Bytes → Hash) (tx : Tx) (i : Nat) (txin : TxIn) (code : Bytes) (amount : Amount) (ty : Ecdsa)
    (hi : tx.inputs[i]? = some txin) : (segwitProg H tx i code amount ty).2 = none ∧
    (segwitProg H tx i code amount ty).1.flatten = bip143 H tx i txin code amount ty.toU32 := by
  have htx : txIn tx i = .ok txin := by unfold txIn; rw [hi]
  have seq_none : ∀ {ε : Type} (p q : Prog ε), (p ⊳ q).2 = match p.2 with | none => q.2 | some e => some e := by
    intro ε p q; unfold Prog.seq; cases p.2 <;> rfl
  have hw : ∀ {ε : Type} (b : Bytes), (Prog.write b : Prog ε).2 = none := fun _ => rfl
  have seq_w : ∀ (b : Bytes) (q : Prog InputsIndexError), (Prog.write b ⊳ q).1.flatten = b ++ q.1.flatten := fun b q => by
    simp [Prog.seq, Prog.write]
  have seq_assoc : ∀ p q r : Prog InputsIndexError, ((p ⊳ q) ⊳ r) = (p ⊳ (q ⊳ r)) := by
    rintro ⟨p, pe⟩ ⟨q, qe⟩ ⟨r, re⟩
    cases pe <;> cases qe <;> simp [Prog.seq]
  have wr : ∀ b : Bytes, (Prog.write b : Prog InputsIndexError).1.flatten = b := fun b => by simp [Prog.write]
  have b1 : (1 : UInt32) &&& 31 = 1 := by decide
  have c1 : (1 : UInt32) &&& 128 = 0 := by decide
  have b2 : (2 : UInt32) &&& 31 = 2 := by decide
  have c2 : (2 : UInt32) &&& 128 = 0 := by decide
  have b3 : (3 : UInt32) &&& 31 = 3 := by decide
  have c3 : (3 : UInt32) &&& 128 = 0 := by decide
  have b129 : (129 : UInt32) &&& 31 = 1 := by decide
  have c129 : (129 : UInt32) &&& 128 = 128 := by decide
  have b130 : (130 : UInt32) &&& 31 = 2 := by decide
  have c130 : (130 : UInt32) &&& 128 = 128 := by decide
  have b131 : (131 : UInt32) &&& 31 = 3 := by decide
  have c131 : (131 : UInt32) &&& 128 = 128 := by decide
  have hfun : txOutB = fun o => leBytes 8 o.amount.val ++ (csEncode (List.length o.spk) ++ o.spk) := rfl
  unfold segwitProg bip143
  rw [htx]
  by_cases ho : i < tx.outputs.length
  · have ho' := List.getElem?_eq_getElem ho
    cases ty <;> constructor <;>
      simp [ho, ho', Prog.try, seq_none, hw, seq_w, seq_assoc, wr, Ecdsa.splitAcp, Ecdsa.toU32, b1, b2, b3, b129, b130, b131, c1, c2, c3, c129, c130, c131,
        computeCommon_eq, hfun, List.flatMap, outPointB, amountB, scriptB, u32le]
  · have ho' : tx.outputs[i]? = none := List.getElem?_eq_none (by omega)
    cases ty <;> constructor <;>
      simp [ho, ho', Prog.try, seq_none, hw, seq_w, seq_assoc, wr, Ecdsa.splitAcp, Ecdsa.toU32, b1, b2, b3, b129, b130, b131, c1, c2, c3, c129, c130, c131,
        computeCommon_eq, hfun, List.flatMap, outPointB, amountB, scriptB, u32le]

/-- P2WSH: the double hash of BIP-143's message for the witness script, or the index error. -/
theorem C56_p2wsh (H : Bytes → Hash) (tx : Tx) (i : Nat) (ws : Bytes) (amount : Amount) (ty : Ecdsa) :
    (p2wshHash H (Cache.new tx) i ws amount ty).2 = match tx.inputs[i]? with
      | some txin => some (.ok (H (H (bip143 H tx i txin ws amount ty.toU32)).1))
      | none => some (.error ⟨i, tx.inputs.length⟩) := by
  have h := segwitEncode_new H vecSink tx [] i ws amount ty
  rw [exec_vec, List.nil_append] at h
  simp only [Prod.mk.injEq] at h
  unfold p2wshHash finish
  simp only [h.1, h.2]
  cases hi : tx.inputs[i]? with
  | none => rw [segwitProg_none H tx i ws amount ty hi]
  | some txin =>
    have ⟨h1, h2⟩ := segwitProg_some H tx i txin ws amount ty hi
    rw [h1, h2]

/-- P2WPKH: the same for the script code `76 a9 14 <20 bytes> 88 ac` of a script `00 14 <20 bytes>`; other scripts are refused. -/
theorem C56_p2wpkh (H : Bytes → Hash) (tx : Tx) (i : Nat) (spk : Bytes) (amount : Amount) (ty : Ecdsa) :
    (∀ h : Arr 20, spk = [0x00, 0x14] ++ h.1 → (p2wpkhHash H (Cache.new tx) i spk amount ty).2 = match tx.inputs[i]? with
      | some txin => some (.ok (H (H (bip143 H tx i txin ([0x76, 0xa9, 0x14] ++ h.1 ++ [0x88, 0xac]) amount ty.toU32)).1))
      | none => some (.error (.sighash ⟨i, tx.inputs.length⟩))) ∧
    ((¬ ∃ h : Arr 20, spk = [0x00, 0x14] ++ h.1) → (p2wpkhHash H (Cache.new tx) i spk amount ty).2 = some (.error .notP2wpkh)) := by
  have ⟨k1, k2⟩ := Scr.C35_script_code spk
  constructor
  · intro h he
    unfold p2wpkhHash
    rw [k1 h he]
    simp only
    generalize [0x76, 0xa9, 0x14] ++ h.1 ++ [0x88, 0xac] = code
    have := C56_p2wsh H tx i code amount ty
    unfold p2wshHash at this
    rw [this]
    cases tx.inputs[i]? <;> rfl
  · intro hn
    unfold p2wpkhHash
    rw [k2 (by rintro ⟨h, hl, he⟩; exact hn ⟨⟨h, hl⟩, he⟩)]

/-- Writing the message. -/
theorem C56_segwit_writer (H : Bytes → Hash) (sink : Sink) (tx : Tx) (out : Bytes) (i : Nat) (txin : TxIn) (code : Bytes) (amount : Amount)
    (ty : Ecdsa) (hi : tx.inputs[i]? = some txin) :
    let msg := bip143 H tx i txin code amount ty.toU32
    let r := segwitEncode H sink i code amount ty ⟨Cache.new tx, out⟩
    ∃ pre, pre <+: msg ∧ r.1.out = out ++ pre ∧ (r.2 = .error .io ∨ (r.2 = .ok () ∧ pre = msg)) := by
  have h := segwitEncode_new H sink tx out i code amount ty
  obtain ⟨pre, h1, h2, h3⟩ := exec_prefix sink (segwitProg H tx i code amount ty).1 (segwitProg H tx i code amount ty).2 out
  have ⟨e1, e2⟩ := segwitProg_some H tx i txin code amount ty hi
  rw [← h] at h2 h3
  rw [e2] at h1 h3
  rw [e1] at h3
  refine ⟨pre, h1, h2, ?_⟩
  rcases h3 with h3 | ⟨h3, h4⟩
  · exact .inl h3
  · exact .inr ⟨h4, h3⟩

/-! ## Legacy -/

/-- The copy of the transaction that is signed: each input has an outpoint, a script and a sequence, each output an 8-byte value and
a script. -/
structure LegacyCopy where
  inputs : List (OutPoint × Bytes × UInt32)
  outputs : List (Nat × Bytes)

/-- Bitcoin's original algorithm (`SignatureHash` of the reference client), step by step, for an input that exists and, for SINGLE,
has an output of the same index. -/
def legacyCopy (tx : Tx) (i : Nat) (scriptCode : Bytes) (hashType : UInt32) : LegacyCopy :=
  let base := hashType &&& 0x1f
  -- blank out the other inputs' scripts
  let ins := tx.inputs.mapIdx fun n x => (x.prev, if n = i then scriptCode else [], x.sequence)
  let outs := tx.outputs.map fun o => (o.amount.1, o.spk)
  -- with NONE and SINGLE the others may update at will
  let free := ins.mapIdx fun n x => if n = i then x else (x.1, x.2.1, 0)
  let ins := if base = 2 ∨ base = 3 then free else ins
  let outs := if base = 2 then []
    else if base = 3 then List.replicate i (2 ^ 64 - 1, []) ++ (outs.drop i).take 1
    else outs
  -- blank out the other inputs completely
  let ins := if hashType &&& 0x80 ≠ 0 then (ins.drop i).take 1 else ins
  ⟨ins, outs⟩

/-- The consensus serialization of the copy, followed by the type. -/
def legacyMsg (tx : Tx) (i : Nat) (scriptCode : Bytes) (hashType : UInt32) : Bytes :=
  let copy := legacyCopy tx i scriptCode hashType
  leBytes 4 tx.version.toNat ++
  (csEncode copy.inputs.length ++ copy.inputs.flatMap fun x =>
    (x.1.txid.1 ++ leBytes 4 x.1.vout.toNat) ++ (csEncode x.2.1.length ++ x.2.1) ++ leBytes 4 x.2.2.toNat) ++
  (csEncode copy.outputs.length ++ copy.outputs.flatMap fun o => leBytes 8 o.1 ++ (csEncode o.2.length ++ o.2)) ++
  leBytes 4 tx.lockTime.toNat ++
  leBytes 4 hashType.toNat

theorem legacyInputsProg_out (i : Nat) (spk : Bytes) (sh : Ecdsa) : ∀ (l : List TxIn) (n : Nat),
    (legacyInputsProg i spk sh n l).2 = none ∧
    (legacyInputsProg i spk sh n l).1.flatten = (l.mapIdx fun k x =>
      outPointB x.prev ++ scriptB (if n + k = i then spk else []) ++ u32le (if n + k ≠ i ∧ (sh = .single ∨ sh = .none) then 0 else x.sequence)).flatten
  | [], n => ⟨rfl, rfl⟩
  | x :: l, n => by
    obtain ⟨h1, h2⟩ := legacyInputsProg_out i spk sh l (n + 1)
    have hfun : (fun k (y : TxIn) => outPointB y.prev ++ scriptB (if n + (k + 1) = i then spk else []) ++
        u32le (if n + (k + 1) ≠ i ∧ (sh = .single ∨ sh = .none) then 0 else y.sequence)) =
        (fun k (y : TxIn) => outPointB y.prev ++ scriptB (if n + 1 + k = i then spk else []) ++
        u32le (if n + 1 + k ≠ i ∧ (sh = .single ∨ sh = .none) then 0 else y.sequence)) := by
      funext k y; rw [Nat.add_assoc, Nat.add_comm 1 k]
    rw [List.mapIdx_cons, hfun, List.flatten_cons, ← h2]
    simp only [legacyInputsProg]
    by_cases h3 : n = i
    · subst h3
      rw [if_pos rfl, if_neg (by rintro ⟨h, -⟩; exact h rfl)]
      simp [Prog.seq, Prog.write, h1]
    · rw [if_neg h3]
      by_cases h4 : sh = .single ∨ sh = .none
      · rw [if_pos ⟨h3, h4⟩]
        simp [Prog.seq, Prog.write, h1, h3, h4]
      · rw [if_neg (by rintro ⟨-, h⟩; exact h4 h)]
        simp [Prog.seq, Prog.write, h1, h3, h4]

theorem nullOutputsProg_out : ∀ n, (nullOutputsProg n).2 = none ∧
    (nullOutputsProg n).1.flatten = (List.replicate n ((2 ^ 64 - 1 : Nat), ([] : Bytes))).flatMap fun o => leBytes 8 o.1 ++ (csEncode o.2.length ++ o.2)
  | 0 => ⟨rfl, rfl⟩
  | n + 1 => by
    obtain ⟨h1, h2⟩ := nullOutputsProg_out n
    have hc : leBytes 8 (2 ^ 64 - 1) ++ (csEncode ([] : Bytes).length ++ ([] : Bytes)) = [0xFF, 0xFF, 0xFF, 0xFF, 0xFF, 0xFF, 0xFF, 0xFF, 0x00] := by decide
    rw [List.replicate_succ, List.flatMap_cons, hc, ← h2]
    simp [nullOutputsProg, Prog.seq, Prog.write, h1]

theorem consensus_split (n : UInt32) : ((Ecdsa.fromConsensus n).splitAcp.2 = true ↔ n &&& 0x80 ≠ 0) ∧
    ((Ecdsa.fromConsensus n).splitAcp.1 = .single ↔ n &&& 0x1f = 3) ∧ ((Ecdsa.fromConsensus n).splitAcp.1 = .none ↔ n &&& 0x1f = 2) ∧
    ((Ecdsa.fromConsensus n).splitAcp.1 = .single ∨ (Ecdsa.fromConsensus n).splitAcp.1 = .none ∨ (Ecdsa.fromConsensus n).splitAcp.1 = .all) := by
  rw [C55_from_consensus]
  unfold coreReading
  by_cases h1 : n &&& 0x80 ≠ 0 <;> by_cases h2 : n &&& 0x1f = 2 <;> by_cases h3 : n &&& 0x1f = 3 <;>
    simp_all [Ecdsa.splitAcp]

theorem take_one_drop {α : Type} (l : List α) (i : Nat) (h : i < l.length) : (l.drop i).take 1 = [l[i]] := by
  rw [List.drop_eq_getElem_cons h]; rfl

theorem legacyProg_out (tx : Tx) (i : Nat) (spk : Bytes) (n : UInt32) (hi : i < tx.inputs.length)
    (hs : ¬ (n &&& 0x1f = 3 ∧ i ≥ tx.outputs.length)) :
    (legacyProg tx i spk n).2 = none ∧ (legacyProg tx i spk n).1.flatten = legacyMsg tx i spk n := by
  have hin := List.getElem?_eq_getElem hi
  have ⟨l1, l2⟩ := legacyInputsProg_out i spk (Ecdsa.fromConsensus n).splitAcp.1 tx.inputs 0
  have seq1 : ∀ {ε : Type} (p q : Prog ε), p.2 = none → (p ⊳ q).1.flatten = p.1.flatten ++ q.1.flatten := by
    intro ε p q h; unfold Prog.seq; rw [h]; simp
  have seq2 : ∀ {ε : Type} (p q : Prog ε), p.2 = none → (p ⊳ q).2 = q.2 := by
    intro ε p q h; unfold Prog.seq; rw [h]
  have w1 : ∀ (b : Bytes), (Prog.write b : Prog InputsIndexError).1.flatten = b := fun b => by simp [Prog.write]
  have w2 : ∀ (b : Bytes), (Prog.write b : Prog InputsIndexError).2 = none := fun _ => rfl
  obtain ⟨hacp, hsingle, hnone, hcases⟩ := consensus_split n
  unfold legacyProg legacyMsg
  generalize hsp : (Ecdsa.fromConsensus n).splitAcp = sp at *
  obtain ⟨sh, acp⟩ := sp
  simp only at *
  -- the inputs
  have hins : ∀ p : Prog InputsIndexError, p = legacyInsProg tx i spk sh acp →
      p.2 = none ∧ p.1.flatten = csEncode (legacyCopy tx i spk n).inputs.length ++ (legacyCopy tx i spk n).inputs.flatMap fun x =>
        (x.1.txid.1 ++ leBytes 4 x.1.vout.toNat) ++ (csEncode x.2.1.length ++ x.2.1) ++ leBytes 4 x.2.2.toNat := by
    intro p hp
    unfold legacyInsProg at hp
    have hcopy : (legacyCopy tx i spk n).inputs = if acp = true then [(tx.inputs[i].prev, spk, tx.inputs[i].sequence)] else
        tx.inputs.mapIdx fun k x => (x.prev, if k = i then spk else [], if k ≠ i ∧ (sh = .single ∨ sh = .none) then 0 else x.sequence) := by
      unfold legacyCopy
      simp only
      have hi' : (if n &&& 31 = 2 ∨ n &&& 31 = 3 then
          List.mapIdx (fun n x => if n = i then x else (x.1, x.2.1, (0 : UInt32))) (List.mapIdx (fun n x => (x.prev, if n = i then spk else ([] : Bytes), x.sequence)) tx.inputs)
          else List.mapIdx (fun n x => (x.prev, if n = i then spk else [], x.sequence)) tx.inputs) =
          tx.inputs.mapIdx fun k x => (x.prev, if k = i then spk else [], if k ≠ i ∧ (sh = .single ∨ sh = .none) then 0 else x.sequence) := by
        by_cases hb : n &&& 31 = 2 ∨ n &&& 31 = 3
        · have hb' : sh = .single ∨ sh = .none := by
            rcases hb with h | h
            · exact .inr (hnone.mpr h)
            · exact .inl (hsingle.mpr h)
          rw [if_pos hb, List.mapIdx_mapIdx]
          congr 1
          funext k x
          by_cases hk : k = i <;> simp [hk, hb']
        · have hb' : ¬ (sh = .single ∨ sh = .none) := by
            rintro (h | h)
            · exact hb (.inr (hsingle.mp h))
            · exact hb (.inl (hnone.mp h))
          rw [if_neg hb]
          simp only [hb', and_false, if_false]
      rw [hi']
      by_cases ha : acp = true
      · rw [if_pos ha, if_pos (hacp.mp ha), take_one_drop _ _ (by simpa using hi)]
        simp
      · rw [if_neg ha, if_neg (fun h => ha (hacp.mpr h))]
    rw [hcopy]
    by_cases ha : acp = true
    · rw [if_pos ha] at hp ⊢
      rw [hp, hin]
      simp [seq1, seq2, w1, w2, outPointB, scriptB, u32le]
    · rw [if_neg ha] at hp ⊢
      rw [hp]
      constructor
      · rw [seq2 _ _ (w2 _)]; exact l1
      · rw [seq1 _ _ (w2 _), w1, l2, List.length_mapIdx, List.flatMap]
        have hmap : ∀ {α β γ : Type} (f : β → γ) (g : Nat → α → β) (l : List α), (l.mapIdx g).map f = l.mapIdx fun k x => f (g k x) := by
          intro α β γ f g l
          induction l generalizing g with
          | nil => rfl
          | cons x l ih => simp [List.mapIdx_cons, ih]
        rw [hmap]
        simp [outPointB, scriptB, u32le]
  have houts : ∀ p : Prog InputsIndexError, p = legacyOutsProg tx i sh →
      p.2 = none ∧ p.1.flatten = csEncode (legacyCopy tx i spk n).outputs.length ++
        (legacyCopy tx i spk n).outputs.flatMap fun o => leBytes 8 o.1 ++ (csEncode o.2.length ++ o.2) := by
    intro p hp
    unfold legacyOutsProg at hp
    rcases hcases with h | h | h
    · subst h
      have hb := hsingle.mp rfl
      have ho : i < tx.outputs.length := by
        apply Classical.byContradiction
        intro h
        exact hs ⟨hb, by omega⟩
      have hm : min i (tx.outputs.length - 1) = i := by omega
      have ⟨n1, n2⟩ := nullOutputsProg_out i
      simp only at hp
      rw [if_neg (by omega), hm, List.getElem?_eq_getElem ho] at hp
      have hcopy : (legacyCopy tx i spk n).outputs = List.replicate i (2 ^ 64 - 1, []) ++ [(tx.outputs[i].amount.1, tx.outputs[i].spk)] := by
        unfold legacyCopy
        simp only
        rw [if_neg (by rw [hb]; decide), if_pos hb, take_one_drop _ _ (by simpa using ho), List.getElem_map]
      rw [hcopy, hp]
      refine ⟨?_, ?_⟩
      · rw [seq2 _ _ (w2 _), seq2 _ _ n1]; rfl
      · rw [seq1 _ _ (w2 _), seq1 _ _ n1, w1, n2]
        simp [w1, txOutB, amountB, scriptB]
    · subst h
      have hb := hnone.mp rfl
      have hcopy : (legacyCopy tx i spk n).outputs = [] := by
        unfold legacyCopy
        simp only
        rw [if_pos hb]
      rw [hcopy, hp]
      exact ⟨rfl, by simp [w1]⟩
    · subst h
      have hcopy : (legacyCopy tx i spk n).outputs = tx.outputs.map fun o => (o.amount.1, o.spk) := by
        unfold legacyCopy
        simp only
        rw [if_neg (fun h => by have := hnone.mpr h; cases this), if_neg (fun h => by have := hsingle.mpr h; cases this)]
      rw [hcopy, hp]
      refine ⟨rfl, ?_⟩
      simp only [w1, List.length_map, List.flatMap, List.map_map]
      rfl
  have ⟨i1, i2⟩ := hins _ rfl
  have ⟨o1, o2⟩ := houts _ rfl
  constructor
  · rw [seq2 _ _ (w2 _), seq2 _ _ i1, seq2 _ _ o1, seq2 _ _ (w2 _), w2]
  · rw [seq1 _ _ (w2 _), seq1 _ _ i1, seq1 _ _ o1, seq1 _ _ (w2 _), i2, o2, w1, w1, w1]
    simp [u32le]

/-- Legacy: the double hash of the original algorithm's message, the number one for the SINGLE bug, or the index error. -/
theorem C56_legacy (H : Bytes → Hash) (tx : Tx) (i : Nat) (spk : Bytes) (n : UInt32) :
    legacyHash H (Cache.new tx) i spk n =
      if i ≥ tx.inputs.length then some (.error ⟨i, tx.inputs.length⟩)
      else if n &&& 0x1f = 3 ∧ i ≥ tx.outputs.length then some (.ok ⟨1 :: List.replicate 31 0, by simp⟩)
      else some (.ok (H (H (legacyMsg tx i spk n)).1)) := by
  unfold legacyHash
  rw [legacyEncode_prog]
  simp only [Cache.new]
  by_cases hi : i ≥ tx.inputs.length
  · rw [if_pos hi]
    have : txIn tx i = .error ⟨i, tx.inputs.length⟩ := by unfold txIn; rw [List.getElem?_eq_none hi]
    rw [this]
  · rw [if_neg hi]
    have hi' : i < tx.inputs.length := by omega
    have : txIn tx i = .ok tx.inputs[i] := by unfold txIn; rw [List.getElem?_eq_getElem hi']
    rw [this]
    simp only
    by_cases hs : n &&& 0x1f = 3 ∧ i ≥ tx.outputs.length
    · have : invalidSingle n i tx.outputs.length = true := by
        unfold invalidSingle; simp [(C55_is_single n).mpr hs.1, hs.2]
      simp only [this, if_true]
      rw [if_pos hs]; rfl
    · have : ¬ invalidSingle n i tx.outputs.length = true := by
        unfold invalidSingle
        intro h
        simp only [Bool.and_eq_true, decide_eq_true_eq] at h
        exact hs ⟨(C55_is_single n).mp h.1, h.2⟩
      have ⟨e1, e2⟩ := legacyProg_out tx i spk n hi' hs
      simp only [this, if_false]
      rw [if_neg hs, exec_vec, e1, e2, List.nil_append]; rfl

/-- Writing the message. -/
theorem C56_legacy_writer (sink : Sink) (tx : Tx) (i : Nat) (spk : Bytes) (n : UInt32) (hi : i < tx.inputs.length) :
    (n &&& 0x1f = 3 ∧ i ≥ tx.outputs.length ∧ legacyEncode sink (Cache.new tx) i spk n = .singleBug) ∨
    ∃ pre r, legacyEncode sink (Cache.new tx) i spk n = .wrote pre r ∧ pre <+: legacyMsg tx i spk n ∧
      (r = .error .io ∨ (r = .ok () ∧ pre = legacyMsg tx i spk n)) := by
  rw [legacyEncode_prog]
  simp only [Cache.new]
  have : txIn tx i = .ok tx.inputs[i] := by unfold txIn; rw [List.getElem?_eq_getElem hi]
  rw [this]
  simp only
  by_cases hs : n &&& 0x1f = 3 ∧ i ≥ tx.outputs.length
  · have : invalidSingle n i tx.outputs.length = true := by
      unfold invalidSingle; simp [(C55_is_single n).mpr hs.1, hs.2]
    simp only [this, if_true]; exact .inl ⟨hs.1, hs.2, trivial⟩
  · have : ¬ invalidSingle n i tx.outputs.length = true := by
      unfold invalidSingle
      intro h
      simp only [Bool.and_eq_true, decide_eq_true_eq] at h
      exact hs ⟨(C55_is_single n).mp h.1, h.2⟩
    have ⟨e1, e2⟩ := legacyProg_out tx i spk n hi hs
    simp only [this, if_false]
    obtain ⟨pre, h1, h2, h3⟩ := exec_prefix sink (legacyProg tx i spk n).1 (legacyProg tx i spk n).2 []
    rw [e2] at h1 h3
    rw [List.nil_append] at h2
    refine .inr ⟨_, _, rfl, by rw [h2]; exact h1, ?_⟩
    rw [h2]
    rcases h3 with h3 | ⟨h3, h4⟩
    · exact .inl h3
    · refine .inr ⟨?_, h3⟩
      rw [h4, e1]

/-! ## Where the code falls short -/

/-- A cache whose taproot part was computed from `P`. -/
def Filled (H : Bytes → Hash) (tx : Tx) (P : List TxOut) (c : Cache) : Prop := Good H tx P c ∧ c.taproot = some (computeTap H P)

theorem Denotes.filled {ε : Type} {H : Bytes → Hash} {tx : Tx} {P Q : List TxOut} {sink : Sink} {k : TapC → M ε} {p : Prog ε}
    (h : Denotes (Filled H tx P) sink (k (computeTap H P)) p) : Denotes (Filled H tx P) sink (M.taproot H Q k) p := by
  intro w hw
  unfold M.taproot taprootCache
  rw [hw.2]
  exact h w hw
theorem commonCache_filled {H : Bytes → Hash} {tx : Tx} {P : List TxOut} {c : Cache} (h : Filled H tx P c) :
    Filled H tx P (commonCache H c).1 := by
  refine ⟨(commonCache_good h.1).1, ?_⟩
  unfold commonCache
  cases c.common with
  | none => exact h.2
  | some x => exact h.2
theorem Denotes.commonFilled {ε : Type} {H : Bytes → Hash} {tx : Tx} {P : List TxOut} {sink : Sink} {k : Common → M ε} {p : Prog ε}
    (h : Denotes (Filled H tx P) sink (k (computeCommon H tx)) p) : Denotes (Filled H tx P) sink (M.common H k) p := by
  intro w hw
  have h1 := commonCache_filled hw
  have ⟨_, h2⟩ := commonCache_good hw.1
  unfold M.common
  simp only [h2]
  exact h ⟨(commonCache H w.cache).1, w.out⟩ h1
theorem Denotes.txFilled {ε : Type} {H : Bytes → Hash} {tx : Tx} {P : List TxOut} {sink : Sink} {k : Tx → M ε} {p : Prog ε}
    (h : Denotes (Filled H tx P) sink (k tx) p) : Denotes (Filled H tx P) sink (M.tx k) p := by
  intro w hw
  unfold M.tx
  have := hw.1.same
  rw [this]
  exact h w hw

/-- What is written after the taproot part of the cache was read. -/
def tapRest (H : Bytes → Hash) (sink : Sink) (tx : Tx) (i : Nat) (prevouts : Prevouts) (annex : Option Annex)
    (leaf : Option (Hash × UInt32)) (sighash : Tap) (acp : Bool) : M TapErr :=
  (if sighash ≠ .none ∧ sighash ≠ .single then M.common H (fun c => .write sink c.outputs.1) else .done) ;;
  (let spendType : UInt8 := 0
   let spendType := if annex.isSome then spendType ||| 1 else spendType
   let spendType := if leaf.isSome then spendType ||| 2 else spendType
   M.write sink [spendType]) ;;
  (if acp then
    M.try ((txIn tx i).mapError .inputsIndex) fun txin =>
    M.try (prevouts.get i) fun prev =>
    M.write sink (outPointB txin.prev) ;;
    M.write sink (amountB prev.amount) ;;
    M.write sink (scriptB prev.spk) ;;
    M.write sink (u32le txin.sequence)
  else M.write sink (u32le (UInt32.ofNat i))) ;;
  (match annex with
   | some a => M.write sink (H (csEncode a.1.length ++ a.1)).1
   | none => .done) ;;
  (if sighash = .single then
    match tx.outputs[i]? with
    | some o => M.write sink (H (txOutB o)).1
    | none => .fail (.singleMissing i tx.outputs.length)
  else .done) ;;
  (match leaf with
   | some (h, pos) => M.write sink h.1 ;; M.write sink [0] ;; M.write sink (u32le pos)
   | none => .done)

theorem tapRest_filled (H : Bytes → Hash) (sink : Sink) (tx : Tx) (P : List TxOut) (i : Nat) (prevouts : Prevouts) (annex : Option Annex)
    (leaf : Option (Hash × UInt32)) (sighash : Tap) (acp : Bool) :
    ∃ p, Denotes (Filled H tx P) sink (tapRest H sink tx i prevouts annex leaf sighash acp) p := by
  unfold tapRest
  have h1 : ∀ m k : M TapErr, (∃ p, Denotes (Filled H tx P) sink m p) → (∃ p, Denotes (Filled H tx P) sink k p) →
      ∃ p, Denotes (Filled H tx P) sink (m ;; k) p := by
    rintro m k ⟨p, hp⟩ ⟨q, hq⟩; exact ⟨_, hp.seq hq⟩
  have h2 : ∀ (c : Prop) [Decidable c] (m k : M TapErr), (∃ p, Denotes (Filled H tx P) sink m p) → (∃ p, Denotes (Filled H tx P) sink k p) →
      ∃ p, Denotes (Filled H tx P) sink (if c then m else k) p := by
    rintro c _ m k ⟨p, hp⟩ ⟨q, hq⟩; exact ⟨_, .ite (fun _ => hp) (fun _ => hq)⟩
  refine h1 _ _ (h2 _ _ _ ⟨_, .commonFilled (.write _)⟩ ⟨_, .done⟩) (h1 _ _ ⟨_, .write _⟩ (h1 _ _ (h2 _ _ _ ?_ ⟨_, .write _⟩)
    (h1 _ _ ?_ (h1 _ _ (h2 _ _ _ ?_ ⟨_, .done⟩) ?_))))
  · cases Except.mapError TapErr.inputsIndex (txIn tx i) with
    | error e => exact ⟨_, .fail e⟩
    | ok a => cases prevouts.get i with
      | error e => exact ⟨_, .fail e⟩
      | ok b => exact ⟨_, .seq (.write _) (.seq (.write _) (.seq (.write _) (.write _)))⟩
  · cases annex with
    | none => exact ⟨_, .done⟩
    | some a => exact ⟨_, .write _⟩
  · cases tx.outputs[i]? with
    | none => exact ⟨_, .fail _⟩
    | some o => exact ⟨_, .write _⟩
  · cases leaf with
    | none => exact ⟨_, .done⟩
    | some l => exact ⟨_, .seq (.write _) (.seq (.write _) (.write _))⟩

theorem tapEncode_fills (H : Bytes → Hash) (tx : Tx) (P : List TxOut) (out : Bytes) (i : Nat) (annex : Option Annex)
    (leaf : Option (Hash × UInt32)) (ty : Tap) (hP : P.length = tx.inputs.length) (hty : ty.splitAcp.2 = false) :
    Filled H tx P (tapEncode H vecSink i (.all P) annex leaf ty ⟨Cache.new tx, out⟩).1.cache := by
  have hcheck : (Prevouts.all P).checkAll tx = .ok () := by simp [Prevouts.checkAll, hP]
  have hrun : ∃ o, tapEncode H vecSink i (.all P) annex leaf ty ⟨Cache.new tx, out⟩ =
      tapRest H vecSink tx i (.all P) annex leaf ty.splitAcp.1 ty.splitAcp.2
        ⟨⟨tx, some (computeCommon H tx), none, some (computeTap H P)⟩, o⟩ := by
    refine ⟨out ++ [0] ++ [ty.toU8] ++ u32le tx.version ++ u32le tx.lockTime ++ (computeCommon H tx).prevouts.1 ++ (computeTap H P).amounts.1 ++
      (computeTap H P).spks.1 ++ (computeCommon H tx).sequences.1, ?_⟩
    · unfold tapEncode
      obtain ⟨sh, acp, hsp⟩ : ∃ a b, ty.splitAcp = (a, b) := ⟨_, _, rfl⟩
      rw [hsp] at hty ⊢
      simp only at hty
      subst hty
      simp only [M.tx, Cache.new, hcheck, M.try]
      rfl
  obtain ⟨o, hrun⟩ := hrun
  rw [hrun]
  obtain ⟨p, hp⟩ := tapRest_filled H vecSink tx P i (.all P) annex leaf ty.splitAcp.1 ty.splitAcp.2
  exact (hp _ ⟨⟨rfl, .inr rfl, .inl rfl, .inr rfl⟩, rfl⟩).1

theorem tapEncode_stale (H : Bytes → Hash) (sink : Sink) (tx : Tx) (P P' : List TxOut) (i : Nat) (annex : Option Annex)
    (leaf : Option (Hash × UInt32)) (ty : Tap) (hP : P.length = tx.inputs.length) (hP' : P'.length = tx.inputs.length)
    (hty : ty.splitAcp.2 = false) :
    Denotes (Filled H tx P) sink (tapEncode H sink i (.all P') annex leaf ty) (tapProg H tx i (.all P) annex leaf ty) := by
  unfold tapEncode tapProg
  apply Denotes.txFilled
  have hc : (Prevouts.all P').checkAll tx = .ok () := by simp [Prevouts.checkAll, hP']
  have hc' : (Prevouts.all P).checkAll tx = .ok () := by simp [Prevouts.checkAll, hP]
  rw [hc, hc']
  simp only [M.try, Prog.try, Prevouts.getAll]
  generalize hsp : ty.splitAcp = sp at *
  obtain ⟨sh, acp⟩ := sp
  simp only at hty ⊢
  subst hty
  simp only [Bool.not_false, if_true, Bool.false_eq_true, if_false]
  refine (Denotes.write _).seq ((Denotes.write _).seq ((Denotes.write _).seq ((Denotes.write _).seq (.seq ?_ (.seq ?_ (.seq (Denotes.write _)
    (.seq (Denotes.write _) (.seq ?_ (.seq ?_ ?_)))))))))
  · exact .seq (.commonFilled (.write _)) (.seq (.filled (.write _)) (.seq (.filled (.write _)) (.commonFilled (.write _))))
  · exact .ite (fun _ => .commonFilled (.write _)) (fun _ => .done)
  · cases annex with
    | none => exact .done
    | some a => exact .write _
  · refine .ite (fun _ => ?_) (fun _ => .done)
    cases tx.outputs[i]? with
    | none => exact .fail _
    | some o => exact .write _
  · cases leaf with
    | none => exact .done
    | some l => exact .seq (.write _) (.seq (.write _) (.write _))

/-- Finding: the cached hashes of the spent outputs are not tied to the outputs they were computed from.  After a call with the spent
outputs `P`, a call with other spent outputs `P'` (as many) gives the hash for `P`. -/
theorem C56_stale_prevouts (H : Bytes → Hash) (tx : Tx) (i j : Nat) (P P' : List TxOut) (annex annex' : Option Annex)
    (leaf leaf' : Option (Hash × UInt32)) (ty ty' : Tap) (hP : P.length = tx.inputs.length) (hP' : P'.length = tx.inputs.length)
    (hty : ty.toU8 < 0x80) :
    (tapHash H (tapHash H (Cache.new tx) j (.all P) annex' leaf' ty).1 i (.all P') annex leaf ty').2 =
      (tapHash H (Cache.new tx) i (.all (if ty'.toU8 < 0x80 then P else P')) annex leaf ty').2 := by
  have hf : Filled H tx P (tapHash H (Cache.new tx) j (.all P) annex' leaf' ty).1 :=
    tapEncode_fills H tx P [] j annex' leaf' ty hP ((acp_byte ty).mpr hty)
  generalize (tapHash H (Cache.new tx) j (.all P) annex' leaf' ty).1 = c at hf
  by_cases h : ty'.toU8 < 0x80
  · rw [if_pos h]
    have d1 := (tapEncode_stale H vecSink tx P P' i annex leaf ty' hP hP' ((acp_byte ty').mpr h) ⟨c, []⟩ hf).2
    have d2 := tapEncode_new H vecSink tx [] i (.all P) annex leaf ty'
    rw [show (W.mk c []).out = [] from rfl, ← d2] at d1
    simp only [Prod.mk.injEq] at d1
    simp only [tapHash, finish, d1.1, d1.2]
  · rw [if_neg h]
    have := (call_good H P tx tx c hf.1 (.refl tx) (.tap i (.all P') annex leaf ty') (fun hh => absurd hh h)).2
    simpa [Call.run] using this

/-- Finding: without ANYONECANPAY the index is not compared with the number of inputs, and only its low 32 bits are signed. -/
theorem C56_index_unchecked (H : Bytes → Hash) (tx : Tx) (i : Nat) (P : List TxOut) (annex : Option Annex) (leaf : Option (Hash × UInt32))
    (ty : Tap) (hP : P.length = tx.inputs.length) (hty : ty.toU8 < 3) :
    (∃ h, (tapHash H (Cache.new tx) i (.all P) annex leaf ty).2 = some (.ok h)) ∧
    (tapHash H (Cache.new tx) (i + 2 ^ 32) (.all P) annex leaf ty).2 = (tapHash H (Cache.new tx) i (.all P) annex leaf ty).2 := by
  have he : ∀ i, tapError tx i (.all P) ty.toU8 = none := by
    intro i
    unfold tapError
    cases ty <;> simp [hP, Tap.toU8] at hty ⊢ <;> exact fun h => absurd h (by decide)
  have hm : ∀ i, tapProg H tx (i + 2 ^ 32) (.all P) annex leaf ty = tapProg H tx i (.all P) annex leaf ty := by
    intro i
    unfold tapProg
    have hw : UInt32.ofNat (i + 2 ^ 32) = UInt32.ofNat i := by
      apply UInt32.toNat_inj.mp
      rw [UInt32.toNat_ofNat', UInt32.toNat_ofNat']
      omega
    cases ty
    all_goals first
      | (exfalso; revert hty; decide)
      | simp [Tap.splitAcp, hw]
  rw [finish_tap, finish_tap, he, he, hm]
  exact ⟨⟨_, rfl⟩, rfl⟩

/-! ## Examples -/

/-- SHA-256, as modelled in `Verif/Hashes`. -/
def sha (b : Bytes) : Hash := ⟨(Sha2.sha256 b ++ List.replicate 32 0).take 32, by simp⟩

/-- The transaction of BIP-143's first example (and of the test `bip143_p2wpkh`). -/
def sampleTx : Tx where
  version := 1
  lockTime := 0x11
  inputs := [
    ⟨⟨⟨[0xff, 0xf7, 0xf7, 0x88, 0x1a, 0x80, 0x99, 0xaf, 0xa6, 0x94, 0x0d, 0x42, 0xd1, 0xe7, 0xf6, 0x36, 0x2b, 0xec, 0x38, 0x17, 0x1e, 0xa3, 0xed, 0xf4, 0x33, 0x54, 0x1d, 0xb4, 0xe4, 0xad, 0x96, 0x9f], by decide⟩, 0⟩, [], 0xffffffee, Wit.empty⟩,
    ⟨⟨⟨[0xef, 0x51, 0xe1, 0xb8, 0x04, 0xcc, 0x89, 0xd1, 0x82, 0xd2, 0x79, 0x65, 0x5c, 0x3a, 0xa8, 0x9e, 0x81, 0x5b, 0x1b, 0x30, 0x9f, 0xe2, 0x87, 0xd9, 0xb2, 0xb5, 0x5d, 0x57, 0xb9, 0x0e, 0xc6, 0x8a], by decide⟩, 1⟩, [], 0xffffffff, Wit.empty⟩]
  outputs := [
    ⟨⟨112340000, by decide⟩, [0x76, 0xa9, 0x14, 0x82, 0x80, 0xb3, 0x7d, 0xf3, 0x78, 0xdb, 0x99, 0xf6, 0x6f, 0x85, 0xc9, 0x5a, 0x78, 0x3a, 0x76, 0xac, 0x7a, 0x6d, 0x59, 0x88, 0xac]⟩,
    ⟨⟨223450000, by decide⟩, [0x76, 0xa9, 0x14, 0x3b, 0xde, 0x42, 0xdb, 0xee, 0x7e, 0x4d, 0xbe, 0x6a, 0x21, 0xb2, 0xd5, 0x0c, 0xe2, 0xf0, 0x16, 0x7f, 0xaa, 0x81, 0x59, 0x88, 0xac]⟩]

/-- BIP-143's first example gives the hash printed there. -/
example : (p2wpkhHash sha (Cache.new sampleTx) 1 [0x00, 0x14, 0x1d, 0x0f, 0x17, 0x2a, 0x0e, 0xcb, 0x48, 0xae, 0xe1, 0xbe, 0x1f, 0x26, 0x87, 0xd2, 0x96, 0x3a, 0xe3, 0x3f, 0x71, 0xa1] ⟨600000000, by decide⟩ .all).2 =
    some (.ok ⟨[0xc3, 0x7a, 0xf3, 0x11, 0x16, 0xd1, 0xb2, 0x7c, 0xaf, 0x68, 0xaa, 0xe9, 0xe3, 0xac, 0x82, 0xf1, 0x47, 0x79, 0x29, 0x01, 0x4d, 0x5b, 0x91, 0x76, 0x57, 0xd0, 0xeb, 0x49, 0x47, 0x8c, 0xb6, 0x70], by decide⟩) := by
  have : ((p2wpkhHash sha (Cache.new sampleTx) 1 [0x00, 0x14, 0x1d, 0x0f, 0x17, 0x2a, 0x0e, 0xcb, 0x48, 0xae, 0xe1, 0xbe, 0x1f, 0x26, 0x87, 0xd2, 0x96, 0x3a, 0xe3, 0x3f, 0x71, 0xa1] ⟨600000000, by decide⟩ .all).2.map
      fun r => r.toOption.map Subtype.val) = some (some [0xc3, 0x7a, 0xf3, 0x11, 0x16, 0xd1, 0xb2, 0x7c, 0xaf, 0x68, 0xaa, 0xe9, 0xe3, 0xac, 0x82, 0xf1, 0x47, 0x79, 0x29, 0x01, 0x4d, 0x5b, 0x91, 0x76, 0x57, 0xd0, 0xeb, 0x49, 0x47, 0x8c, 0xb6, 0x70]) := by decide +kernel
  revert this
  generalize (p2wpkhHash sha (Cache.new sampleTx) 1 _ _ _).2 = r
  intro h
  cases r with
  | none => simp at h
  | some r => cases r with
    | error e => simp [Except.toOption] at h
    | ok v => simp [Except.toOption] at h; rw [Option.some.injEq, Except.ok.injEq]; exact Subtype.ext h

def out1 : TxOut := ⟨⟨5000, by decide⟩, [0x51]⟩
def out2 : TxOut := ⟨⟨7000, by decide⟩, [0x52, 0x53]⟩

example (H : Bytes → Hash) : (Call.run H (history H sampleTx
      [.tapKey 0 (.all [out1, out2]) .all, .p2wsh 1 [0x51] ⟨9, by decide⟩ .single, .witness 0 (Wit.ofList [[1]]),
       .tapTo (fun o _ => o.length < 40) [] 1 (.all [out1, out2]) none none .default, .tapKey 7 (.one 7 out2) .allAcp])
      (.tapKey 1 (.all [out1, out2]) .single)).2 =
    (Call.run H (Cache.new sampleTx) (.tapKey 1 (.all [out1, out2]) .single)).2 := by
  apply C56_cached H sampleTx [out1, out2]
  intro x hx
  simp only [List.mem_cons, List.not_mem_nil, or_false] at hx
  rcases hx with rfl | rfl | rfl | rfl | rfl | rfl
  · intro _ l h _; cases h; rfl
  · intro _ l h _; cases h; rfl
  · trivial
  · trivial
  · intro _ l h _; cases h; rfl
  · intro _ l h _; cases h

example (H : Bytes → Hash) : ∃ m, (tapHash H (Cache.new sampleTx) 1 (.all [out1, out2]) none none .singleAcp).2 = some (.ok (H m)) :=
  ⟨_, C56_taproot H sampleTx 1 _ _ [out1, out2] out2 none none .singleAcp rfl (by decide) ⟨rfl, rfl⟩ (by decide)⟩
example : tapError sampleTx 2 (.all [out1, out2]) 0x03 = some (.singleMissing 2 2) := by decide
example : tapError sampleTx 1 (.one 0 out1) 0x81 = some .prevoutsOneIndex := by decide
example (H : Bytes → Hash) : legacyHash H (Cache.new { sampleTx with outputs := [] }) 1 [0x51] 0x83 = some (.ok uint256One) := by
  rw [C56_legacy]; rfl
/-- The second hash is the one for the outputs of the first call. -/
example (H : Bytes → Hash) :
    (tapHash H (tapHash H (Cache.new sampleTx) 0 (.all [out1, out1]) none none .default).1 0 (.all [out1, out2]) none none .default).2 =
      (tapHash H (Cache.new sampleTx) 0 (.all [out1, out1]) none none .default).2 :=
  C56_stale_prevouts H sampleTx 0 0 [out1, out1] [out1, out2] none none none none .default .default rfl rfl (by decide)
/-- For SHA-256 it is not the right one. -/
example : (tapHash sha (Cache.new sampleTx) 0 (.all [out1, out1]) none none .default).2.map (fun r => r.toOption.map Subtype.val) ≠
    (tapHash sha (Cache.new sampleTx) 0 (.all [out1, out2]) none none .default).2.map (fun r => r.toOption.map Subtype.val) := by decide +kernel

end Sighash
end Btc
