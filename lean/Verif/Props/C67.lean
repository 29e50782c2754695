import Verif.Props.C56
import Verif.Codec.WireDec
/-!
# C67: what a signature hash commits to

Two uses of the signature hash functions that give the same hash agree on everything the signature is meant to cover, or two of
the strings hashed by the two calls collide.
-/
namespace Btc
namespace Sighash
open Crypto
open Taproot (Hash)

/-! ## Prefix codes -/

/-- Encodings that can be told apart with anything following. -/
def PF {α : Type} (f : α → Bytes) (ok : α → Prop) : Prop := ∀ x y r s, ok x → ok y → f x ++ r = f y ++ s → x = y ∧ r = s

theorem pf_u32 : PF (fun x : UInt32 => leBytes 4 x.toNat) fun _ => True := by
  intro x y r s _ _ h
  obtain ⟨h1, h2⟩ := List.append_inj h (by simp)
  refine ⟨?_, h2⟩
  have := congrArg leNat h1
  rw [leNat_leBytes 4 _ x.toNat_lt, leNat_leBytes 4 _ y.toNat_lt] at this
  exact UInt32.toNat_inj.mp this
theorem pf_nat (k : Nat) : PF (fun n : Nat => leBytes k n) fun n => n < 256 ^ k := by
  intro x y r s hx hy h
  obtain ⟨h1, h2⟩ := List.append_inj h (by simp)
  have := congrArg leNat h1
  rw [leNat_leBytes k _ hx, leNat_leBytes k _ hy] at this
  exact ⟨this, h2⟩
theorem pf_amount : PF (fun a : Amount => leBytes 8 a.1) fun _ => True := by
  intro x y r s _ _ h
  have hb : ∀ a : Amount, a.1 < 256 ^ 8 := fun a => by
    have := a.2
    have h2 : MAX_MONEY < 256 ^ 8 := by decide
    omega
  obtain ⟨h1, h2⟩ := pf_nat 8 x.1 y.1 r s (hb x) (hb y) h
  exact ⟨Subtype.ext h1, h2⟩
theorem pf_outPoint : PF (fun o : OutPoint => o.txid.1 ++ leBytes 4 o.vout.toNat) fun _ => True := by
  intro x y r s _ _ h
  simp only [List.append_assoc] at h
  obtain ⟨h1, h2⟩ := List.append_inj h (by rw [x.txid.2, y.txid.2])
  obtain ⟨h3, h4⟩ := pf_u32 _ _ _ _ trivial trivial h2
  obtain ⟨a, b⟩ := x
  obtain ⟨c, d⟩ := y
  cases h3
  cases Subtype.ext h1
  exact ⟨rfl, h4⟩
theorem pf_script : PF (fun s : Bytes => csEncode s.length ++ s) fun s => s.length < 2 ^ 64 := by
  intro x y r s hx hy h
  exact (Wire.byteVec (2 ^ 64)).prefix_free ⟨Nat.le_of_lt hx, hx⟩ ⟨Nat.le_of_lt hy, hy⟩ h
theorem pf_txOut : PF (fun o : TxOut => leBytes 8 o.amount.1 ++ (csEncode o.spk.length ++ o.spk)) fun o => o.spk.length < 2 ^ 64 := by
  intro x y r s hx hy h
  simp only [List.append_assoc] at h
  obtain ⟨h1, h2⟩ := pf_amount _ _ _ _ trivial trivial h
  rw [← List.append_assoc, ← List.append_assoc] at h2
  obtain ⟨h3, h4⟩ := pf_script _ _ _ _ hx hy h2
  obtain ⟨a, b⟩ := x
  obtain ⟨c, d⟩ := y
  cases h1; cases h3
  exact ⟨rfl, h4⟩

theorem PF.flat {α : Type} {f : α → Bytes} {ok : α → Prop} (h : PF f ok) (hne : ∀ x, f x ≠ []) : ∀ (l m : List α),
    (∀ x ∈ l, ok x) → (∀ x ∈ m, ok x) → l.flatMap f = m.flatMap f → l = m
  | [], [], _, _, _ => rfl
  | [], y :: m, _, _, he => by
    rw [List.flatMap_nil, List.flatMap_cons] at he
    exact absurd (List.append_eq_nil_iff.mp he.symm).1 (hne y)
  | x :: l, [], _, _, he => by
    rw [List.flatMap_nil, List.flatMap_cons] at he
    exact absurd (List.append_eq_nil_iff.mp he).1 (hne x)
  | x :: l, y :: m, hl, hm, he => by
    rw [List.flatMap_cons, List.flatMap_cons] at he
    obtain ⟨h1, h2⟩ := h x y _ _ (hl x List.mem_cons_self) (hm y List.mem_cons_self) he
    rw [h1, h.flat hne l m (fun z hz => hl z (List.mem_cons_of_mem _ hz)) (fun z hz => hm z (List.mem_cons_of_mem _ hz)) h2]

theorem cs_ne (x : Bytes) : csEncode x.length ++ x ≠ [] := by
  unfold csEncode; repeat' split
  all_goals simp
theorem leBytes_ne (k n : Nat) : leBytes (k + 1) n ≠ [] := by simp [leBytes]

theorem flat_inputs {l m : List TxIn} (f : TxIn → α) (g : α → Bytes) (hg : PF g fun _ => True) (hne : ∀ x, g x ≠ [])
    (h : l.flatMap (fun x => g (f x)) = m.flatMap fun x => g (f x)) : l.map f = m.map f := by
  apply hg.flat hne _ _ (fun _ _ => trivial) (fun _ _ => trivial)
  simpa [List.flatMap_map] using h

/-- Equal hashes come from equal messages, or two messages of the list collide. -/
theorem hash_eq {H : Bytes → Hash} {S : List Bytes} {x y : Bytes} (hx : x ∈ S) (hy : y ∈ S) (h : (H x).1 = (H y).1) : Collision H S ∨ x = y := by
  by_cases he : x = y
  · exact .inr he
  · exact .inl ⟨x, hx, y, hy, he, Subtype.ext h⟩

/-- The two strings hashed by a double hash. -/
def twice (H : Bytes → Hash) (x : Bytes) : List Bytes := [x, (H x).1]

theorem dhash_eq {H : Bytes → Hash} {S : List Bytes} {x y : Bytes} (hx : ∀ z ∈ twice H x, z ∈ S) (hy : ∀ z ∈ twice H y, z ∈ S)
    (h : (H (H x).1).1 = (H (H y).1).1) : Collision H S ∨ x = y := by
  rcases hash_eq (hx _ (by simp [twice])) (hy _ (by simp [twice])) h with h | h
  · exact .inl h
  · exact hash_eq (hx _ (by simp [twice])) (hy _ (by simp [twice])) h

/-- Equal hashes followed by anything. -/
theorem hash_step {H : Bytes → Hash} {S : List Bytes} {x y r s : Bytes} (hx : x ∈ S) (hy : y ∈ S) (h : (H x).1 ++ r = (H y).1 ++ s) :
    Collision H S ∨ (x = y ∧ r = s) := by
  obtain ⟨h1, h2⟩ := List.append_inj h (by rw [(H x).2, (H y).2])
  rcases hash_eq hx hy h1 with h | h
  · exact .inl h
  · exact .inr ⟨h, h2⟩
theorem dhash_step {H : Bytes → Hash} {S : List Bytes} {x y r s : Bytes} (hx : ∀ z ∈ twice H x, z ∈ S) (hy : ∀ z ∈ twice H y, z ∈ S)
    (h : (H (H x).1).1 ++ r = (H (H y).1).1 ++ s) : Collision H S ∨ (x = y ∧ r = s) := by
  obtain ⟨h1, h2⟩ := List.append_inj h (by rw [(H _).2, (H _).2])
  rcases dhash_eq hx hy h1 with h | h
  · exact .inl h
  · exact .inr ⟨h, h2⟩

/-- The lists that signature hashes hash: outpoints, sequences, amounts, scripts, outputs; and one output. -/
def prevsBytes (tx : Tx) : Bytes := tx.inputs.flatMap fun x => x.prev.txid.1 ++ leBytes 4 x.prev.vout.toNat
def sequencesBytes (tx : Tx) : Bytes := tx.inputs.flatMap fun x => leBytes 4 x.sequence.toNat
def outBytes (o : TxOut) : Bytes := leBytes 8 o.amount.1 ++ (csEncode o.spk.length ++ o.spk)
def amountsBytes (l : List TxOut) : Bytes := l.flatMap fun o => leBytes 8 o.amount.1
def scriptsBytes (l : List TxOut) : Bytes := l.flatMap fun o => csEncode o.spk.length ++ o.spk

/-- The strings hashed inside a BIP-341 message. -/
def tapParts (tx : Tx) (i : Nat) (spent : List TxOut) (annex : Option Bytes) : List Bytes :=
  [prevsBytes tx, amountsBytes spent, scriptsBytes spent, sequencesBytes tx, tx.outputs.flatMap outBytes] ++
    annex.toList.map (fun a => csEncode a.length ++ a) ++ tx.outputs[i]?.toList.map outBytes
/-- The strings hashed for a taproot signature hash. -/
def tapInputs (H : Bytes → Hash) (tx : Tx) (i : Nat) (txin : TxIn) (spent : List TxOut) (own : TxOut) (annex : Option Bytes)
    (ext : Option (Hash × UInt32)) (ty : Tap) : List Bytes :=
  ((H sighashTag).1 ++ (H sighashTag).1 ++ bip341 H tx i txin spent own annex ext ty.toU8) :: tapParts tx i spent annex

/-- The strings hashed inside a BIP-143 message, and for a segwit version 0 signature hash. -/
def segwitParts (H : Bytes → Hash) (tx : Tx) (i : Nat) : List Bytes :=
  twice H (prevsBytes tx) ++ twice H (sequencesBytes tx) ++ twice H (tx.outputs.flatMap outBytes) ++
    tx.outputs[i]?.toList.flatMap (fun o => twice H (outBytes o))
def segwitInputs (H : Bytes → Hash) (tx : Tx) (i : Nat) (txin : TxIn) (code : Bytes) (amount : Amount) (ty : Ecdsa) : List Bytes :=
  twice H (bip143 H tx i txin code amount ty.toU32) ++ segwitParts H tx i

/-! ## Taproot -/

/-- Scripts and annexes with lengths that fit in 64 bits (always true in memory). -/
structure Fits (tx : Tx) (spent : List TxOut) (own : TxOut) (annex : Option Bytes) : Prop where
  outputs : ∀ o ∈ tx.outputs, o.spk.length < 2 ^ 64
  spent : ∀ o ∈ spent, o.spk.length < 2 ^ 64
  own : own.spk.length < 2 ^ 64
  annex : ∀ a, annex = some a → a.length < 2 ^ 64

/-- What a BIP-341 signature covers, for two uses that are to be the same. -/
structure SameTaproot (tx tx' : Tx) (i i' : Nat) (txin txin' : TxIn) (spent spent' : List TxOut) (own own' : TxOut)
    (annex annex' : Option Bytes) (ext ext' : Option (Hash × UInt32)) (ty ty' : Tap) : Prop where
  type : ty = ty'
  version : tx.version = tx'.version
  lockTime : tx.lockTime = tx'.lockTime
  sameAnnex : annex = annex'
  sameExt : ext = ext'
  /-- Without ANYONECANPAY: which input is signed, every outpoint and sequence, and every spent output. -/
  inputs : ty.toU8 < 0x80 → i = i' ∧ tx.inputs.map (·.prev) = tx'.inputs.map (·.prev) ∧
    tx.inputs.map (·.sequence) = tx'.inputs.map (·.sequence) ∧ spent.map (·.amount) = spent'.map (·.amount) ∧ spent.map (·.spk) = spent'.map (·.spk)
  /-- With it: the signed input and the output it spends. -/
  input : ty.toU8 ≥ 0x80 → txin.prev = txin'.prev ∧ txin.sequence = txin'.sequence ∧ own = own'
  /-- DEFAULT and ALL: every output. -/
  outputs : ty.toU8 &&& 3 < 2 → tx.outputs = tx'.outputs
  /-- SINGLE: the output with the index of the input. -/
  output : ty.toU8 &&& 3 = 3 → tx.outputs[i]? = tx'.outputs[i']?

theorem tap_msg_commits (H : Bytes → Hash) (tx tx' : Tx) (i i' : Nat) (txin txin' : TxIn) (spent spent' : List TxOut) (own own' : TxOut)
    (annex annex' : Option Bytes) (ext ext' : Option (Hash × UInt32)) (ty ty' : Tap) (hi : i < 2 ^ 32) (hi' : i' < 2 ^ 32)
    (f : Fits tx spent own annex) (f' : Fits tx' spent' own' annex')
    (ho : ty.toU8 &&& 3 = 3 → i < tx.outputs.length) (ho' : ty'.toU8 &&& 3 = 3 → i' < tx'.outputs.length)
    (h : bip341 H tx i txin spent own annex ext ty.toU8 = bip341 H tx' i' txin' spent' own' annex' ext' ty'.toU8) :
    Collision H (tapParts tx i spent annex ++ tapParts tx' i' spent' annex') ∨
      SameTaproot tx tx' i i' txin txin' spent spent' own own' annex annex' ext ext' ty ty' := by
  by_cases hcol : Collision H (tapParts tx i spent annex ++ tapParts tx' i' spent' annex')
  · exact .inl hcol
  refine .inr ?_
  have step : ∀ {x y r s : Bytes}, x ∈ tapParts tx i spent annex → y ∈ tapParts tx' i' spent' annex' →
      (H x).1 ++ r = (H y).1 ++ s → x = y ∧ r = s :=
    fun hx hy h => (hash_step (List.mem_append_left _ hx) (List.mem_append_right _ hy) h).resolve_left hcol
  have o4 : ∀ (t : Tx) j (sp : List TxOut) an, t.outputs.flatMap outBytes ∈ tapParts t j sp an := fun t j sp an => by simp [tapParts]
  have byte : ∀ {x y : UInt8} {r s : Bytes}, [x] ++ r = [y] ++ s → x = y ∧ r = s := fun h => by
    simpa using h
  unfold bip341 at h
  simp only [List.append_assoc] at h
  have h := (byte h).2
  obtain ⟨hty, h⟩ := byte h
  have hty : ty = ty' := by revert hty; cases ty <;> cases ty' <;> first | (intro _; rfl) | (intro h; exact absurd h (by decide))
  subst hty
  obtain ⟨hver, h⟩ := pf_u32 _ _ _ _ trivial trivial h
  obtain ⟨hlock, h⟩ := pf_u32 _ _ _ _ trivial trivial h
  have hbit : (ty.toU8 &&& 128 == 128) = decide (ty.toU8 ≥ 0x80) := by cases ty <;> decide
  rw [hbit] at h
  have part1 : ∀ r s : Bytes, (if decide (ty.toU8 ≥ 0x80) = true then [] else
        (H (tx.inputs.flatMap fun x => x.prev.txid.1 ++ leBytes 4 x.prev.vout.toNat)).1 ++
        ((H (spent.flatMap fun o => leBytes 8 o.amount.1)).1 ++
        ((H (spent.flatMap fun o => csEncode o.spk.length ++ o.spk)).1 ++
        (H (tx.inputs.flatMap fun x => leBytes 4 x.sequence.toNat)).1))) ++ r =
      (if decide (ty.toU8 ≥ 0x80) = true then [] else
        (H (tx'.inputs.flatMap fun x => x.prev.txid.1 ++ leBytes 4 x.prev.vout.toNat)).1 ++
        ((H (spent'.flatMap fun o => leBytes 8 o.amount.1)).1 ++
        ((H (spent'.flatMap fun o => csEncode o.spk.length ++ o.spk)).1 ++
        (H (tx'.inputs.flatMap fun x => leBytes 4 x.sequence.toNat)).1))) ++ s →
      (ty.toU8 < 0x80 → tx.inputs.map (·.prev) = tx'.inputs.map (·.prev) ∧
        tx.inputs.map (·.sequence) = tx'.inputs.map (·.sequence) ∧ spent.map (·.amount) = spent'.map (·.amount) ∧
        spent.map (·.spk) = spent'.map (·.spk)) ∧ r = s := by
    intro r s h
    by_cases hacp : ty.toU8 ≥ 0x80
    · simp only [hacp, decide_true, if_true, List.nil_append] at h
      exact ⟨fun hh => absurd hh (UInt8.not_lt.mpr hacp), h⟩
    · simp only [hacp, decide_false, Bool.false_eq_true, if_false, List.append_assoc] at h
      obtain ⟨h1, h⟩ := step (by simp [tapParts, prevsBytes]) (by simp [tapParts, prevsBytes]) h
      obtain ⟨h2, h⟩ := step (by simp [tapParts, amountsBytes]) (by simp [tapParts, amountsBytes]) h
      obtain ⟨h3, h⟩ := step (by simp [tapParts, scriptsBytes]) (by simp [tapParts, scriptsBytes]) h
      obtain ⟨h4, h⟩ := step (by simp [tapParts, sequencesBytes]) (by simp [tapParts, sequencesBytes]) h
      refine ⟨fun _ => ⟨flat_inputs _ _ pf_outPoint (fun x => by simp [leBytes]) h1, flat_inputs _ _ pf_u32 (fun x => by simp [leBytes]) h4, ?_, ?_⟩, h⟩
      · apply pf_amount.flat (fun x => leBytes_ne _ _) _ _ (fun _ _ => trivial) (fun _ _ => trivial)
        simpa [List.flatMap_map] using h2
      · apply pf_script.flat (fun x => cs_ne x)
        · intro x hx; obtain ⟨o, h5, rfl⟩ := List.mem_map.mp hx; exact f.spent o h5
        · intro x hx; obtain ⟨o, h5, rfl⟩ := List.mem_map.mp hx; exact f'.spent o h5
        · simpa [List.flatMap_map] using h3
  obtain ⟨hins, h⟩ := part1 _ _ h
  have part2 : ∀ r s : Bytes, (if ty.toU8 &&& 3 ≠ 2 ∧ ty.toU8 &&& 3 ≠ 3 then
        (H (tx.outputs.flatMap fun o => leBytes 8 o.amount.1 ++ (csEncode o.spk.length ++ o.spk))).1 else []) ++ r =
      (if ty.toU8 &&& 3 ≠ 2 ∧ ty.toU8 &&& 3 ≠ 3 then
        (H (tx'.outputs.flatMap fun o => leBytes 8 o.amount.1 ++ (csEncode o.spk.length ++ o.spk))).1 else []) ++ s →
      (ty.toU8 &&& 3 < 2 → tx.outputs = tx'.outputs) ∧ r = s := by
    intro r s h
    by_cases hb : ty.toU8 &&& 3 ≠ 2 ∧ ty.toU8 &&& 3 ≠ 3
    · rw [if_pos hb, if_pos hb] at h
      obtain ⟨h1, h⟩ := step (o4 tx i spent annex) (o4 tx' i' spent' annex') h
      exact ⟨fun _ => pf_txOut.flat (fun x => by simp [leBytes]) _ _ f.outputs f'.outputs h1, h⟩
    · rw [if_neg hb, if_neg hb] at h
      refine ⟨fun hh => absurd ?_ hb, h⟩
      revert hh
      cases ty <;> decide
  obtain ⟨houts, h⟩ := part2 _ _ h
  obtain ⟨hflag, h⟩ := byte h
  have hsome : ext.isSome = ext'.isSome ∧ annex.isSome = annex'.isSome := by
    revert hflag
    cases ext.isSome <;> cases ext'.isSome <;> cases annex.isSome <;> cases annex'.isSome <;> decide
  have part3 : ∀ r s : Bytes, (if decide (ty.toU8 ≥ 0x80) = true then
        txin.prev.txid.1 ++ (leBytes 4 txin.prev.vout.toNat ++ (leBytes 8 own.amount.1 ++ (csEncode own.spk.length ++ (own.spk ++
          leBytes 4 txin.sequence.toNat)))) else leBytes 4 i) ++ r =
      (if decide (ty.toU8 ≥ 0x80) = true then
        txin'.prev.txid.1 ++ (leBytes 4 txin'.prev.vout.toNat ++ (leBytes 8 own'.amount.1 ++ (csEncode own'.spk.length ++ (own'.spk ++
          leBytes 4 txin'.sequence.toNat)))) else leBytes 4 i') ++ s →
      (ty.toU8 < 0x80 → i = i') ∧ (ty.toU8 ≥ 0x80 → txin.prev = txin'.prev ∧ txin.sequence = txin'.sequence ∧ own = own') ∧ r = s := by
    intro r s h
    by_cases hacp : ty.toU8 ≥ 0x80
    · simp only [hacp, decide_true, if_true, List.append_assoc] at h
      rw [← List.append_assoc, ← List.append_assoc txin'.prev.txid.1] at h
      obtain ⟨h1, h⟩ := pf_outPoint _ _ _ _ trivial trivial h
      have e : ∀ (o : TxOut) (q : TxIn) (r : Bytes), leBytes 8 o.amount.1 ++ (csEncode o.spk.length ++ (o.spk ++ (leBytes 4 q.sequence.toNat ++ r))) =
        (leBytes 8 o.amount.1 ++ (csEncode o.spk.length ++ o.spk)) ++ (leBytes 4 q.sequence.toNat ++ r) := by intros; simp
      rw [e, e] at h
      obtain ⟨h2, h⟩ := pf_txOut _ _ _ _ f.own f'.own h
      obtain ⟨h3, h⟩ := pf_u32 _ _ _ _ trivial trivial h
      exact ⟨fun hh => absurd hh (UInt8.not_lt.mpr hacp), fun _ => ⟨h1, h3, h2⟩, h⟩
    · simp only [hacp, decide_false, Bool.false_eq_true, if_false] at h
      obtain ⟨h1, h⟩ := pf_nat 4 _ _ _ _ hi hi' h
      exact ⟨fun _ => h1, fun hh => absurd hh hacp, h⟩
  obtain ⟨hindex, hin, h⟩ := part3 _ _ h
  have part4 : ∀ r s : Bytes, (match (generalizing := false) annex with
        | some a => (H (csEncode a.length ++ a)).1
        | none => []) ++ r = (match (generalizing := false) annex' with
        | some a => (H (csEncode a.length ++ a)).1
        | none => []) ++ s → annex = annex' ∧ r = s := by
    intro r s h
    cases annex with
    | none => cases annex' with
      | none => exact ⟨rfl, h⟩
      | some b => exact absurd hsome.2 (by simp)
    | some a => cases annex' with
      | none => exact absurd hsome.2 (by simp)
      | some b =>
        obtain ⟨h1, h⟩ := step (by simp [tapParts]) (by simp [tapParts]) h
        obtain ⟨h2, -⟩ := pf_script a b [] [] (f.annex a rfl) (f'.annex b rfl) (by simpa using h1)
        exact ⟨by rw [h2], h⟩
  obtain ⟨hannex, h⟩ := part4 _ _ h
  have part5 : ∀ r s : Bytes, (if ty.toU8 &&& 3 = 3 then
        match tx.outputs[i]? with
        | some o => (H (leBytes 8 o.amount.1 ++ (csEncode o.spk.length ++ o.spk))).1
        | none => []
        else []) ++ r = (if ty.toU8 &&& 3 = 3 then
        match tx'.outputs[i']? with
        | some o => (H (leBytes 8 o.amount.1 ++ (csEncode o.spk.length ++ o.spk))).1
        | none => []
        else []) ++ s → (ty.toU8 &&& 3 = 3 → tx.outputs[i]? = tx'.outputs[i']?) ∧ r = s := by
    intro r s h
    by_cases hb : ty.toU8 &&& 3 = 3
    · rw [if_pos hb, if_pos hb, List.getElem?_eq_getElem (ho hb), List.getElem?_eq_getElem (ho' hb)] at h
      obtain ⟨h1, h⟩ := step (by simp [tapParts, outBytes, List.getElem?_eq_getElem (ho hb)]) (by simp [tapParts, outBytes, List.getElem?_eq_getElem (ho' hb)]) h
      obtain ⟨h2, -⟩ := pf_txOut (tx.outputs[i]'(ho hb)) (tx'.outputs[i']'(ho' hb)) [] [] (f.outputs _ (List.getElem_mem _)) (f'.outputs _ (List.getElem_mem _))
        (by simpa using h1)
      exact ⟨fun _ => by rw [List.getElem?_eq_getElem (ho hb), List.getElem?_eq_getElem (ho' hb), h2], h⟩
    · rw [if_neg hb, if_neg hb] at h
      exact ⟨fun hh => absurd hh hb, h⟩
  obtain ⟨hout, h⟩ := part5 _ _ h
  have hext : ext = ext' := by
    cases ext with
    | none => cases ext' with
      | none => rfl
      | some b => exact absurd hsome.1 (by simp)
    | some a => cases ext' with
      | none => exact absurd hsome.1 (by simp)
      | some b =>
        obtain ⟨a1, a2⟩ := a
        obtain ⟨b1, b2⟩ := b
        simp only at h
        obtain ⟨h1, h⟩ := List.append_inj h (by rw [a1.2, b1.2])
        obtain ⟨h2, -⟩ := pf_u32 a2 b2 [] [] trivial trivial (by simpa using (byte h).2)
        rw [Subtype.ext h1, h2]
  exact ⟨rfl, hver, hlock, hannex, hext, fun hh => ⟨hindex hh, hins hh⟩, hin, houts, hout⟩

theorem tapError_single {tx : Tx} {i : Nat} {prevouts : Prevouts} {ht : UInt8} (h : tapError tx i prevouts ht = none) (hb : ht &&& 3 = 3) :
    i < tx.outputs.length := by
  apply Classical.byContradiction
  intro hn
  have hn' : i ≥ tx.outputs.length := by omega
  unfold tapError at h
  cases prevouts with
  | all l =>
    simp only at h
    repeat' split at h
    all_goals first
      | (rename_i h3; exact h3 ⟨hb, hn'⟩)
      | cases h
  | one j o =>
    simp only at h
    repeat' split at h
    all_goals first
      | (rename_i h3; exact h3 ⟨hb, hn'⟩)
      | cases h

/-- Taproot: two calls that give the same hash sign the same things. -/
theorem C67_taproot (H : Bytes → Hash) (tx tx' : Tx) (i i' : Nat) (txin txin' : TxIn) (prevouts prevouts' : Prevouts)
    (spent spent' : List TxOut) (own own' : TxOut) (annex annex' : Option Annex) (leaf leaf' : Option (Hash × UInt32)) (ty ty' : Tap) (d : Hash)
    (hin : tx.inputs[i]? = some txin) (hin' : tx'.inputs[i']? = some txin') (hi : i < 2 ^ 32) (hi' : i' < 2 ^ 32)
    (hp : prevouts.Says spent own i) (hp' : prevouts'.Says spent' own' i')
    (f : Fits tx spent own (annex.map Subtype.val)) (f' : Fits tx' spent' own' (annex'.map Subtype.val))
    (h : (tapHash H (Cache.new tx) i prevouts annex leaf ty).2 = some (.ok d))
    (h' : (tapHash H (Cache.new tx') i' prevouts' annex' leaf' ty').2 = some (.ok d)) :
    Collision H (tapInputs H tx i txin spent own (annex.map Subtype.val) leaf ty ++
        tapInputs H tx' i' txin' spent' own' (annex'.map Subtype.val) leaf' ty') ∨
      SameTaproot tx tx' i i' txin txin' spent spent' own own' (annex.map Subtype.val) (annex'.map Subtype.val) leaf leaf' ty ty' := by
  have he : tapError tx i prevouts ty.toU8 = none := by
    cases hh : tapError tx i prevouts ty.toU8 with
    | none => rfl
    | some e => rw [(C56_taproot_errors H tx i prevouts annex leaf ty e).2.mpr hh] at h; cases h
  have he' : tapError tx' i' prevouts' ty'.toU8 = none := by
    cases hh : tapError tx' i' prevouts' ty'.toU8 with
    | none => rfl
    | some e => rw [(C56_taproot_errors H tx' i' prevouts' annex' leaf' ty' e).2.mpr hh] at h'; cases h'
  have e := C56_taproot H tx i txin prevouts spent own annex leaf ty hin hi hp he
  have e' := C56_taproot H tx' i' txin' prevouts' spent' own' annex' leaf' ty' hin' hi' hp' he'
  rw [h] at e
  rw [h'] at e'
  simp only [Option.some.injEq, Except.ok.injEq] at e e'
  have ht : "TapSighash".toUTF8.data.toList = sighashTag := by decide
  rw [ht] at e e'
  rcases hash_eq (S := tapInputs H tx i txin spent own (annex.map Subtype.val) leaf ty ++
      tapInputs H tx' i' txin' spent' own' (annex'.map Subtype.val) leaf' ty')
    (by simp [tapInputs]) (by simp [tapInputs]) (congrArg Subtype.val (e.symm.trans e')) with hc | hm
  · exact .inl hc
  · refine (tap_msg_commits H tx tx' i i' txin txin' spent spent' own own' _ _ leaf leaf' ty ty' hi hi' f f'
      (tapError_single he) (tapError_single he') (List.append_cancel_left hm)).imp (fun hc => hc.mono fun x hx => ?_) id
    simp only [tapInputs, List.mem_append, List.mem_cons] at hx ⊢
    exact hx.elim (fun hx => .inl (.inr hx)) fun hx => .inr (.inr hx)

/-! ## Segwit version 0 -/

/-- What a BIP-143 signature covers. -/
structure SameSegwit (H : Bytes → Hash) (tx tx' : Tx) (i i' : Nat) (txin txin' : TxIn) (code code' : Bytes) (amount amount' : Amount) (ty ty' : Ecdsa) : Prop where
  type : ty = ty'
  version : tx.version = tx'.version
  lockTime : tx.lockTime = tx'.lockTime
  prev : txin.prev = txin'.prev
  sequence : txin.sequence = txin'.sequence
  code : code = code'
  amount : amount = amount'
  /-- Without ANYONECANPAY: every outpoint. -/
  prevs : ty.toU32 &&& 0x80 = 0 → tx.inputs.map (·.prev) = tx'.inputs.map (·.prev)
  /-- ALL without ANYONECANPAY: every sequence. -/
  sequences : ty.toU32 = 1 → tx.inputs.map (·.sequence) = tx'.inputs.map (·.sequence)
  /-- ALL: every output. -/
  outputs : ty.toU32 &&& 0x1f = 1 → tx.outputs = tx'.outputs
  /-- SINGLE: the output with the index of the input, or that there is none, unless the hash of the one output is all zeroes. -/
  output : ty.toU32 &&& 0x1f = 3 → tx.outputs[i]? = tx'.outputs[i']? ∨
    ∃ o, (tx.outputs[i]? = some o ∨ tx'.outputs[i']? = some o) ∧ (H (H (outBytes o)).1).1 = List.replicate 32 0

theorem segwit_msg_commits (H : Bytes → Hash) (tx tx' : Tx) (i i' : Nat) (txin txin' : TxIn) (code code' : Bytes) (amount amount' : Amount) (ty ty' : Ecdsa)
    (fo : ∀ o ∈ tx.outputs, o.spk.length < 2 ^ 64) (fo' : ∀ o ∈ tx'.outputs, o.spk.length < 2 ^ 64) (fc : code.length < 2 ^ 64) (fc' : code'.length < 2 ^ 64)
    (h : bip143 H tx i txin code amount ty.toU32 = bip143 H tx' i' txin' code' amount' ty'.toU32) :
    Collision H (segwitParts H tx i ++ segwitParts H tx' i') ∨ SameSegwit H tx tx' i i' txin txin' code code' amount amount' ty ty' := by
  by_cases hcol : Collision H (segwitParts H tx i ++ segwitParts H tx' i')
  · exact .inl hcol
  refine .inr ?_
  have dstep : ∀ {x y r s : Bytes}, (∀ z ∈ twice H x, z ∈ segwitParts H tx i) → (∀ z ∈ twice H y, z ∈ segwitParts H tx' i') →
      (H (H x).1).1 ++ r = (H (H y).1).1 ++ s → x = y ∧ r = s :=
    fun hx hy h => (dhash_step (fun z hz => List.mem_append_left _ (hx z hz)) (fun z hz => List.mem_append_right _ (hy z hz)) h).resolve_left hcol
  have p1 : ∀ t j, ∀ z ∈ twice H (prevsBytes t), z ∈ segwitParts H t j := fun t j z hz => by simp [segwitParts, hz]
  have p2 : ∀ t j, ∀ z ∈ twice H (sequencesBytes t), z ∈ segwitParts H t j := fun t j z hz => by simp [segwitParts, hz]
  have p3 : ∀ t j, ∀ z ∈ twice H (t.outputs.flatMap outBytes), z ∈ segwitParts H t j := fun t j z hz => by simp [segwitParts, hz]
  have p4 : ∀ (t : Tx) j o, t.outputs[j]? = some o → ∀ z ∈ twice H (outBytes o), z ∈ segwitParts H t j := fun t j o ho z hz => by simp [segwitParts, hz, ho]
  have hty : ty = ty' := by
    unfold bip143 at h
    obtain ⟨-, h2⟩ := List.append_inj' h (by simp)
    obtain ⟨h3, -⟩ := pf_u32 ty.toU32 ty'.toU32 [] [] trivial trivial (by simpa using h2)
    exact C55_to_u32_injective _ _ h3
  subst hty
  unfold bip143 at h
  simp only [List.append_assoc] at h
  obtain ⟨hver, h⟩ := pf_u32 _ _ _ _ trivial trivial h
  have part1 : ∀ r s : Bytes, (if ty.toU32 &&& 0x80 ≠ 0 then List.replicate 32 0 else
        (H (H (tx.inputs.flatMap fun x => x.prev.txid.1 ++ leBytes 4 x.prev.vout.toNat)).1).1) ++ r =
      (if ty.toU32 &&& 0x80 ≠ 0 then List.replicate 32 0 else
        (H (H (tx'.inputs.flatMap fun x => x.prev.txid.1 ++ leBytes 4 x.prev.vout.toNat)).1).1) ++ s →
      (ty.toU32 &&& 0x80 = 0 → tx.inputs.map (·.prev) = tx'.inputs.map (·.prev)) ∧ r = s := by
    intro r s h
    by_cases hacp : ty.toU32 &&& 0x80 ≠ 0
    · rw [if_pos hacp, if_pos hacp] at h
      exact ⟨fun hh => absurd hh hacp, List.append_cancel_left h⟩
    · rw [if_neg hacp, if_neg hacp] at h
      obtain ⟨h1, h⟩ := dstep (p1 tx i) (p1 tx' i') h
      exact ⟨fun _ => flat_inputs _ _ pf_outPoint (fun x => by simp [leBytes]) h1, h⟩
  obtain ⟨hprevs, h⟩ := part1 _ _ h
  have part2 : ∀ r s : Bytes, (if ¬ ty.toU32 &&& 0x80 ≠ 0 ∧ ty.toU32 &&& 0x1f ≠ 3 ∧ ty.toU32 &&& 0x1f ≠ 2 then
        (H (H (tx.inputs.flatMap fun x => leBytes 4 x.sequence.toNat)).1).1 else List.replicate 32 0) ++ r =
      (if ¬ ty.toU32 &&& 0x80 ≠ 0 ∧ ty.toU32 &&& 0x1f ≠ 3 ∧ ty.toU32 &&& 0x1f ≠ 2 then
        (H (H (tx'.inputs.flatMap fun x => leBytes 4 x.sequence.toNat)).1).1 else List.replicate 32 0) ++ s →
      (ty.toU32 = 1 → tx.inputs.map (·.sequence) = tx'.inputs.map (·.sequence)) ∧ r = s := by
    intro r s h
    by_cases hb : ¬ ty.toU32 &&& 0x80 ≠ 0 ∧ ty.toU32 &&& 0x1f ≠ 3 ∧ ty.toU32 &&& 0x1f ≠ 2
    · rw [if_pos hb, if_pos hb] at h
      obtain ⟨h1, h⟩ := dstep (p2 tx i) (p2 tx' i') h
      exact ⟨fun _ => flat_inputs _ _ pf_u32 (fun x => by simp [leBytes]) h1, h⟩
    · rw [if_neg hb, if_neg hb] at h
      refine ⟨fun hh => absurd ?_ hb, List.append_cancel_left h⟩
      rw [hh]; decide
  obtain ⟨hseqs, h⟩ := part2 _ _ h
  rw [← List.append_assoc, ← List.append_assoc txin'.prev.txid.1] at h
  obtain ⟨hprev, h⟩ := pf_outPoint _ _ _ _ trivial trivial h
  rw [← List.append_assoc, ← List.append_assoc (csEncode code'.length)] at h
  obtain ⟨hcode, h⟩ := pf_script _ _ _ _ fc fc' h
  obtain ⟨hamount, h⟩ := pf_amount _ _ _ _ trivial trivial h
  obtain ⟨hseq, h⟩ := pf_u32 _ _ _ _ trivial trivial h
  obtain ⟨h, hl⟩ := List.append_inj' h (by simp)
  obtain ⟨hlock, -⟩ := pf_u32 _ _ _ _ trivial trivial hl
  refine ⟨rfl, hver, hlock, hprev, hseq, hcode, hamount, hprevs, hseqs, ?_, ?_⟩
  · intro hb
    have hb' : ty.toU32 &&& 0x1f ≠ 3 ∧ ty.toU32 &&& 0x1f ≠ 2 := by rw [hb]; decide
    rw [if_pos hb', if_pos hb'] at h
    have := (dstep (r := []) (s := []) (p3 tx i) (p3 tx' i') (congrArg (· ++ []) h)).1
    exact pf_txOut.flat (fun x => by simp [leBytes]) _ _ fo fo' this
  · intro hb
    have hb' : ¬ (ty.toU32 &&& 0x1f ≠ 3 ∧ ty.toU32 &&& 0x1f ≠ 2) := fun hh => hh.1 hb
    rw [if_neg hb', if_neg hb', if_pos hb, if_pos hb] at h
    cases h1 : tx.outputs[i]? with
    | none => cases h2 : tx'.outputs[i']? with
      | none => exact .inl rfl
      | some b => rw [h1, h2] at h; exact .inr ⟨b, .inr rfl, h.symm⟩
    | some a => cases h2 : tx'.outputs[i']? with
      | none => rw [h1, h2] at h; exact .inr ⟨a, .inl rfl, h⟩
      | some b =>
        rw [h1, h2] at h
        have := (dstep (r := []) (s := []) (p4 tx i a h1) (p4 tx' i' b h2) (congrArg (· ++ []) h)).1
        obtain ⟨h3, -⟩ := pf_txOut a b [] [] (fo a (List.mem_of_getElem? h1)) (fo' b (List.mem_of_getElem? h2)) (by simpa [outBytes] using this)
        exact .inl (by rw [h3])

/-- P2WSH: two calls that give the same hash sign the same things. -/
theorem C67_segwit (H : Bytes → Hash) (tx tx' : Tx) (i i' : Nat) (txin txin' : TxIn) (ws ws' : Bytes) (amount amount' : Amount) (ty ty' : Ecdsa) (d : Hash)
    (hin : tx.inputs[i]? = some txin) (hin' : tx'.inputs[i']? = some txin')
    (fo : ∀ o ∈ tx.outputs, o.spk.length < 2 ^ 64) (fo' : ∀ o ∈ tx'.outputs, o.spk.length < 2 ^ 64) (fc : ws.length < 2 ^ 64) (fc' : ws'.length < 2 ^ 64)
    (h : (p2wshHash H (Cache.new tx) i ws amount ty).2 = some (.ok d)) (h' : (p2wshHash H (Cache.new tx') i' ws' amount' ty').2 = some (.ok d)) :
    Collision H (segwitInputs H tx i txin ws amount ty ++ segwitInputs H tx' i' txin' ws' amount' ty') ∨
      SameSegwit H tx tx' i i' txin txin' ws ws' amount amount' ty ty' := by
  rw [C56_p2wsh, hin] at h
  rw [C56_p2wsh, hin'] at h'
  simp only [Option.some.injEq, Except.ok.injEq] at h h'
  rcases dhash_eq (S := segwitInputs H tx i txin ws amount ty ++ segwitInputs H tx' i' txin' ws' amount' ty')
    (fun z hz => by simp [segwitInputs, hz]) (fun z hz => by simp [segwitInputs, hz]) (congrArg Subtype.val (h.trans h'.symm)) with hc | hm
  · exact .inl hc
  · refine (segwit_msg_commits H tx tx' i i' txin txin' ws ws' amount amount' ty ty' fo fo' fc fc' hm).imp (fun hc => hc.mono fun x hx => ?_) id
    simp only [segwitInputs, List.mem_append] at hx ⊢
    exact hx.elim (fun hx => .inl (.inr hx)) fun hx => .inr (.inr hx)

/-! ## Legacy -/

theorem pf_count : PF (fun n : Nat => csEncode n) fun n => n < 2 ^ 64 := by
  intro x y r s hx hy h
  exact csU64_wire.prefix_free hx hy h

theorem pf_seq {α : Type} {f : α → Bytes} {ok : α → Prop} (h : PF f ok) : ∀ (l m : List α) (r s : Bytes), l.length = m.length →
    (∀ x ∈ l, ok x) → (∀ x ∈ m, ok x) → l.flatMap f ++ r = m.flatMap f ++ s → l = m ∧ r = s
  | [], [], _, _, _, _, _, he => ⟨rfl, he⟩
  | [], y :: m, _, _, hl, _, _, _ => by simp at hl
  | x :: l, [], _, _, hl, _, _, _ => by simp at hl
  | x :: l, y :: m, r, s, hl, ha, hb, he => by
    rw [List.flatMap_cons, List.flatMap_cons, List.append_assoc, List.append_assoc] at he
    obtain ⟨h1, h2⟩ := h x y _ _ (ha x List.mem_cons_self) (hb y List.mem_cons_self) he
    obtain ⟨h3, h4⟩ := pf_seq h l m r s (by simpa using hl) (fun z hz => ha z (List.mem_cons_of_mem _ hz)) (fun z hz => hb z (List.mem_cons_of_mem _ hz)) h2
    exact ⟨by rw [h1, h3], h4⟩

theorem pf_copyIn : PF (fun x : OutPoint × Bytes × UInt32 => (x.1.txid.1 ++ leBytes 4 x.1.vout.toNat) ++ (csEncode x.2.1.length ++ x.2.1) ++ leBytes 4 x.2.2.toNat)
    fun x => x.2.1.length < 2 ^ 64 := by
  rintro ⟨a, b, c⟩ ⟨a', b', c'⟩ r s hx hy h
  simp only at hx hy h
  simp only [List.append_assoc] at h
  rw [← List.append_assoc a.txid.1, ← List.append_assoc a'.txid.1] at h
  obtain ⟨h1, h⟩ := pf_outPoint _ _ _ _ trivial trivial h
  rw [← List.append_assoc, ← List.append_assoc (csEncode b'.length)] at h
  obtain ⟨h2, h⟩ := pf_script _ _ _ _ hx hy h
  obtain ⟨h3, h⟩ := pf_u32 _ _ _ _ trivial trivial h
  exact ⟨by rw [h1, h2, h3], h⟩
theorem pf_copyOut : PF (fun o : Nat × Bytes => leBytes 8 o.1 ++ (csEncode o.2.length ++ o.2)) fun o => o.1 < 2 ^ 64 ∧ o.2.length < 2 ^ 64 := by
  rintro ⟨a, b⟩ ⟨a', b'⟩ r s hx hy h
  simp only at hx hy h
  simp only [List.append_assoc] at h
  obtain ⟨h1, h⟩ := pf_nat 8 _ _ _ _ hx.1 hy.1 h
  rw [← List.append_assoc, ← List.append_assoc (csEncode b'.length)] at h
  obtain ⟨h2, h⟩ := pf_script _ _ _ _ hx.2 hy.2 h
  exact ⟨by rw [h1, h2], h⟩

/-- Sizes that fit in 64 bits (always true in memory). -/
structure LegacyFits (tx : Tx) (code : Bytes) : Prop where
  inputs : tx.inputs.length < 2 ^ 64
  count : tx.outputs.length < 2 ^ 64
  outputs : ∀ o ∈ tx.outputs, o.spk.length < 2 ^ 64
  code : code.length < 2 ^ 64

theorem legacyCopy_fits {tx : Tx} {i : Nat} {code : Bytes} {n : UInt32} (f : LegacyFits tx code) (hs : n &&& 0x1f = 3 → i < tx.outputs.length) :
    (legacyCopy tx i code n).inputs.length < 2 ^ 64 ∧ (legacyCopy tx i code n).outputs.length < 2 ^ 64 ∧
    (∀ x ∈ (legacyCopy tx i code n).inputs, x.2.1.length < 2 ^ 64) ∧
    (∀ o ∈ (legacyCopy tx i code n).outputs, o.1 < 2 ^ 64 ∧ o.2.length < 2 ^ 64) := by
  have hm : ∀ a : Amount, a.1 < 2 ^ 64 := fun a => by
    have := a.2
    have h2 : MAX_MONEY < 2 ^ 64 := by decide
    omega
  refine ⟨?_, ?_, ?_, ?_⟩
  · have := f.inputs
    unfold legacyCopy
    simp only
    split <;> split <;> simp <;> omega
  · have := f.count
    unfold legacyCopy
    simp only
    split
    · simp
    · split
      · rename_i h2
        have := hs h2
        simp; omega
      · simpa using this
  · intro x hx
    have hbase : ∀ x ∈ tx.inputs.mapIdx (fun n x => (x.prev, if n = i then code else ([] : Bytes), x.sequence)), x.2.1.length < 2 ^ 64 := by
      intro x hx
      rw [List.mem_mapIdx] at hx
      obtain ⟨k, hk, rfl⟩ := hx
      simp only
      split
      · exact f.code
      · simp
    have hfree : ∀ x ∈ (tx.inputs.mapIdx (fun n x => (x.prev, if n = i then code else ([] : Bytes), x.sequence))).mapIdx (fun n x => if n = i then x else (x.1, x.2.1, 0)),
        x.2.1.length < 2 ^ 64 := by
      intro x hx
      rw [List.mem_mapIdx] at hx
      obtain ⟨k, hk, rfl⟩ := hx
      have := hbase _ (List.getElem_mem hk)
      split <;> exact this
    unfold legacyCopy at hx
    simp only at hx
    split at hx
    · have hx := List.mem_of_mem_drop (List.mem_of_mem_take hx)
      split at hx
      · exact hfree x hx
      · exact hbase x hx
    · split at hx
      · exact hfree x hx
      · exact hbase x hx
  · intro o ho
    have hbase : ∀ o ∈ tx.outputs.map (fun o => (o.amount.1, o.spk)), o.1 < 2 ^ 64 ∧ o.2.length < 2 ^ 64 := by
      intro o ho
      obtain ⟨p, hp, rfl⟩ := List.mem_map.mp ho
      exact ⟨hm _, f.outputs p hp⟩
    unfold legacyCopy at ho
    simp only at ho
    split at ho
    · cases ho
    · split at ho
      · rcases List.mem_append.mp ho with h | h
        · obtain ⟨-, rfl⟩ := List.mem_replicate.mp h
          exact ⟨by decide, by decide⟩
        · exact hbase o (List.mem_of_mem_drop (List.mem_of_mem_take h))
      · exact hbase o ho

/-- What a legacy signature covers. -/
structure SameLegacy (tx tx' : Tx) (i i' : Nat) (txin txin' : TxIn) (code code' : Bytes) (n n' : UInt32) : Prop where
  type : n = n'
  version : tx.version = tx'.version
  lockTime : tx.lockTime = tx'.lockTime
  /-- Without ANYONECANPAY: every outpoint; and, unless the script code is empty, which input is signed, its script code and sequence. -/
  prevs : n &&& 0x80 = 0 → tx.inputs.map (·.prev) = tx'.inputs.map (·.prev)
  sameCode : n &&& 0x80 = 0 → code ≠ [] → i = i' ∧ code = code' ∧ txin.sequence = txin'.sequence
  /-- With it: the signed input. -/
  input : n &&& 0x80 ≠ 0 → txin.prev = txin'.prev ∧ txin.sequence = txin'.sequence ∧ code = code'
  /-- Neither NONE nor SINGLE, no ANYONECANPAY: every sequence. -/
  sequences : n &&& 0x80 = 0 → n &&& 0x1f ≠ 2 → n &&& 0x1f ≠ 3 → tx.inputs.map (·.sequence) = tx'.inputs.map (·.sequence)
  /-- Neither NONE nor SINGLE: every output. -/
  outputs : n &&& 0x1f ≠ 2 → n &&& 0x1f ≠ 3 → tx.outputs = tx'.outputs
  /-- SINGLE: the index and the output. -/
  output : n &&& 0x1f = 3 → i = i' ∧ tx.outputs[i]? = tx'.outputs[i']?

theorem legacy_msg_commits (tx tx' : Tx) (i i' : Nat) (txin txin' : TxIn) (code code' : Bytes) (n n' : UInt32)
    (hin : tx.inputs[i]? = some txin) (hin' : tx'.inputs[i']? = some txin') (f : LegacyFits tx code) (f' : LegacyFits tx' code')
    (hs : n &&& 0x1f = 3 → i < tx.outputs.length) (hs' : n' &&& 0x1f = 3 → i' < tx'.outputs.length)
    (h : legacyMsg tx i code n = legacyMsg tx' i' code' n') : SameLegacy tx tx' i i' txin txin' code code' n n' := by
  have hn : n = n' := by
    unfold legacyMsg at h
    obtain ⟨-, h2⟩ := List.append_inj' h (by simp)
    exact (pf_u32 n n' [] [] trivial trivial (by simpa using h2)).1
  subst hn
  unfold legacyMsg at h
  simp only at h
  obtain ⟨h, -⟩ := List.append_inj' h rfl
  obtain ⟨h, hlock⟩ := List.append_inj' h (by simp)
  obtain ⟨hlock, -⟩ := pf_u32 tx.lockTime tx'.lockTime [] [] trivial trivial (by simpa using hlock)
  have assoc : ∀ a b c d : Bytes, a ++ (b ++ c) ++ d = a ++ (b ++ (c ++ d)) := fun a b c d => by simp only [List.append_assoc]
  rw [assoc, assoc] at h
  obtain ⟨hver, h⟩ := pf_u32 _ _ _ _ trivial trivial h
  obtain ⟨f1, f2, f3, f4⟩ := legacyCopy_fits (i := i) (n := n) f hs
  obtain ⟨g1, g2, g3, g4⟩ := legacyCopy_fits (i := i') (n := n) f' hs'
  obtain ⟨hl, h⟩ := pf_count _ _ _ _ f1 g1 h
  obtain ⟨hins, h⟩ := pf_seq pf_copyIn _ _ _ _ hl f3 g3 h
  obtain ⟨hl2, h⟩ := pf_count _ _ _ _ f2 g2 h
  obtain ⟨houts, -⟩ := pf_seq pf_copyOut _ _ [] [] hl2 f4 g4 (by simpa using h)
  have hi : i < tx.inputs.length := by
    rw [List.getElem?_eq_some_iff] at hin; exact hin.1
  have hi' : i' < tx'.inputs.length := by
    rw [List.getElem?_eq_some_iff] at hin'; exact hin'.1
  have hcopy : ∀ (t : Tx) (j : Nat) (c : Bytes) (x : TxIn), t.inputs[j]? = some x →
      (n &&& 0x80 = 0 → (legacyCopy t j c n).inputs = t.inputs.mapIdx fun k y =>
        (y.prev, if k = j then c else [], if k ≠ j ∧ (n &&& 0x1f = 2 ∨ n &&& 0x1f = 3) then 0 else y.sequence)) ∧
      (n &&& 0x80 ≠ 0 → (legacyCopy t j c n).inputs = [(x.prev, c, x.sequence)]) := by
    intro t j c x hx
    have hj : j < t.inputs.length := by rw [List.getElem?_eq_some_iff] at hx; exact hx.1
    have hx' : t.inputs[j] = x := by rw [List.getElem?_eq_getElem hj] at hx; simpa using hx
    have hfun : (if n &&& 0x1f = 2 ∨ n &&& 0x1f = 3 then
          List.mapIdx (fun n x => if n = j then x else (x.1, x.2.1, (0 : UInt32))) (List.mapIdx (fun n x => (x.prev, if n = j then c else ([] : Bytes), x.sequence)) t.inputs)
          else List.mapIdx (fun n x => (x.prev, if n = j then c else [], x.sequence)) t.inputs) =
          t.inputs.mapIdx fun k y => (y.prev, if k = j then c else [], if k ≠ j ∧ (n &&& 0x1f = 2 ∨ n &&& 0x1f = 3) then 0 else y.sequence) := by
      by_cases hb : n &&& 0x1f = 2 ∨ n &&& 0x1f = 3
      · rw [if_pos hb, List.mapIdx_mapIdx]
        congr 1
        funext k x
        by_cases hk : k = j <;> simp [hk, hb]
      · rw [if_neg hb]
        simp only [hb, and_false, if_false]
    unfold legacyCopy
    simp only
    rw [hfun]
    constructor
    · intro h0; rw [if_neg (fun hh => hh h0)]
    · intro h0
      rw [if_pos h0, take_one_drop _ _ (by simpa using hj)]
      simp [hx']
  have ⟨c1, c2⟩ := hcopy tx i code txin hin
  have ⟨d1, d2⟩ := hcopy tx' i' code' txin' hin'
  -- the lists of inputs, point by point
  have point : n &&& 0x80 = 0 → tx.inputs.length = tx'.inputs.length ∧ ∀ k (h1 : k < tx.inputs.length) (h2 : k < tx'.inputs.length),
      tx.inputs[k].prev = tx'.inputs[k].prev ∧ (if k = i then code else []) = (if k = i' then code' else []) ∧
      (if k ≠ i ∧ (n &&& 0x1f = 2 ∨ n &&& 0x1f = 3) then 0 else tx.inputs[k].sequence) =
        (if k ≠ i' ∧ (n &&& 0x1f = 2 ∨ n &&& 0x1f = 3) then 0 else tx'.inputs[k].sequence) := by
    intro h0
    have he := (c1 h0).symm.trans (hins.trans (d1 h0))
    have hlen := congrArg List.length he
    simp only [List.length_mapIdx] at hlen
    refine ⟨hlen, fun k h1 h2 => ?_⟩
    have := congrArg (fun l => l[k]?) he
    simp only [List.getElem?_mapIdx, List.getElem?_eq_getElem h1, List.getElem?_eq_getElem h2, Option.map_some, Option.some.injEq, Prod.mk.injEq] at this
    exact this
  have hmap : ∀ {α : Type} (g : TxIn → α), tx.inputs.length = tx'.inputs.length →
      (∀ k (h1 : k < tx.inputs.length) (h2 : k < tx'.inputs.length), g tx.inputs[k] = g tx'.inputs[k]) → tx.inputs.map g = tx'.inputs.map g := by
    intro α g hlen hk
    apply List.ext_getElem
    · simpa using hlen
    · intro k h1 h2
      simp only [List.length_map] at h1 h2
      simp only [List.getElem_map]
      exact hk k h1 h2
  have hx : tx.inputs[i] = txin := by rw [List.getElem?_eq_getElem hi] at hin; simpa using hin
  have hx' : tx'.inputs[i'] = txin' := by rw [List.getElem?_eq_getElem hi'] at hin'; simpa using hin'
  refine ⟨rfl, hver, hlock, ?_, ?_, ?_, ?_, ?_, ?_⟩
  · intro h0
    obtain ⟨hlen, hk⟩ := point h0
    exact hmap _ hlen fun k h1 h2 => (hk k h1 h2).1
  · intro h0 hne
    obtain ⟨hlen, hk⟩ := point h0
    obtain ⟨-, e2, e3⟩ := hk i hi (by omega)
    rw [if_pos rfl] at e2
    have hii : i = i' := by
      apply Classical.byContradiction
      intro hne'
      rw [if_neg hne'] at e2
      exact hne e2
    subst hii
    rw [if_pos rfl] at e2
    rw [if_neg (fun hh => hh.1 rfl), if_neg (fun hh => hh.1 rfl), hx, hx'] at e3
    exact ⟨rfl, e2, e3⟩
  · intro h0
    have he := (c2 h0).symm.trans (hins.trans (d2 h0))
    simp only [List.cons.injEq, Prod.mk.injEq, and_true] at he
    exact ⟨he.1, he.2.2, he.2.1⟩
  · intro h0 h2 h3
    obtain ⟨hlen, hk⟩ := point h0
    refine hmap _ hlen fun k h4 h5 => ?_
    have := (hk k h4 h5).2.2
    have hb : ¬ (n &&& 0x1f = 2 ∨ n &&& 0x1f = 3) := fun hh => hh.elim h2 h3
    rw [if_neg (fun hh => hb hh.2), if_neg (fun hh => hb hh.2)] at this
    exact this
  · intro h2 h3
    have e : ∀ (t : Tx) (j : Nat) (c : Bytes), (legacyCopy t j c n).outputs = t.outputs.map fun o => (o.amount.1, o.spk) := by
      intro t j c
      unfold legacyCopy
      simp only
      rw [if_neg h2, if_neg h3]
    rw [e, e] at houts
    have := List.map_inj_right (f := fun o : TxOut => (o.amount.1, o.spk)) (fun a b hab => by
      obtain ⟨a1, a2⟩ := a
      obtain ⟨b1, b2⟩ := b
      simp only [Prod.mk.injEq] at hab
      rw [Subtype.ext hab.1, hab.2]) |>.mp houts
    exact this
  · intro h3
    have e : ∀ (t : Tx) (j : Nat) (c : Bytes) (hj : j < t.outputs.length), (legacyCopy t j c n).outputs =
        List.replicate j (2 ^ 64 - 1, []) ++ [((t.outputs[j]'hj).amount.1, (t.outputs[j]'hj).spk)] := by
      intro t j c hj
      unfold legacyCopy
      simp only
      rw [if_neg (by rw [h3]; decide), if_pos h3, take_one_drop _ _ (by simpa using hj), List.getElem_map]
    rw [e tx i code (hs h3), e tx' i' code' (hs' h3)] at houts
    have hlen := congrArg List.length houts
    simp only [List.length_append, List.length_replicate, List.length_singleton] at hlen
    have hii : i = i' := by omega
    subst hii
    have := List.append_cancel_left houts
    simp only [List.cons.injEq, Prod.mk.injEq, and_true] at this
    refine ⟨rfl, ?_⟩
    rw [List.getElem?_eq_getElem (hs h3), List.getElem?_eq_getElem (hs' h3)]
    have hab : tx.outputs[i]'(hs h3) = tx'.outputs[i]'(hs' h3) := by
      obtain ⟨t1, t2⟩ := this
      generalize tx.outputs[i]'(hs h3) = a at t1 t2
      generalize tx'.outputs[i]'(hs' h3) = b at t1 t2
      obtain ⟨a1, a2⟩ := a
      obtain ⟨b1, b2⟩ := b
      simp only at t1 t2
      rw [Subtype.ext t1, t2]
    rw [hab]

/-- Legacy: two calls on inputs that exist and have, for SINGLE, an output of their index: the same hash only for the same things
signed. -/
theorem C67_legacy (H : Bytes → Hash) (tx tx' : Tx) (i i' : Nat) (txin txin' : TxIn) (code code' : Bytes) (n n' : UInt32) (d : Hash)
    (hin : tx.inputs[i]? = some txin) (hin' : tx'.inputs[i']? = some txin') (f : LegacyFits tx code) (f' : LegacyFits tx' code')
    (hs : n &&& 0x1f = 3 → i < tx.outputs.length) (hs' : n' &&& 0x1f = 3 → i' < tx'.outputs.length)
    (h : legacyHash H (Cache.new tx) i code n = some (.ok d)) (h' : legacyHash H (Cache.new tx') i' code' n' = some (.ok d)) :
    Collision H (twice H (legacyMsg tx i code n) ++ twice H (legacyMsg tx' i' code' n')) ∨ SameLegacy tx tx' i i' txin txin' code code' n n' := by
  have hi : i < tx.inputs.length := by rw [List.getElem?_eq_some_iff] at hin; exact hin.1
  have hi' : i' < tx'.inputs.length := by rw [List.getElem?_eq_some_iff] at hin'; exact hin'.1
  rw [C56_legacy, if_neg (by omega), if_neg (fun hh => by have := hs hh.1; omega)] at h
  rw [C56_legacy, if_neg (by omega), if_neg (fun hh => by have := hs' hh.1; omega)] at h'
  simp only [Option.some.injEq, Except.ok.injEq] at h h'
  rcases dhash_eq (S := twice H (legacyMsg tx i code n) ++ twice H (legacyMsg tx' i' code' n'))
    (fun z hz => by simp [hz]) (fun z hz => by simp [hz]) (congrArg Subtype.val (h.trans h'.symm)) with hc | hm
  · exact .inl hc
  · exact .inr (legacy_msg_commits tx tx' i i' txin txin' code code' n n' hin hin' f f' hs hs' hm)

/-- Finding about the format rather than the code: with an empty script code, a legacy ALL signature does not say which input it is for. -/
theorem C67_legacy_empty_code (H : Bytes → Hash) (tx : Tx) (i j : Nat) (hi : i < tx.inputs.length) (hj : j < tx.inputs.length) :
    legacyHash H (Cache.new tx) i [] 1 = legacyHash H (Cache.new tx) j [] 1 := by
  rw [C56_legacy, C56_legacy, if_neg (by omega), if_neg (fun h => absurd h.1 (by decide)), if_neg (by omega), if_neg (fun h => absurd h.1 (by decide))]
  have : legacyCopy tx i [] 1 = legacyCopy tx j [] 1 := by
    have b1 : ¬ ((1 : UInt32) &&& 0x1f = 2 ∨ (1 : UInt32) &&& 0x1f = 3) := by decide
    have b2 : ¬ ((1 : UInt32) &&& 0x80 ≠ 0) := by decide
    have b3 : (1 : UInt32) &&& 0x1f ≠ 2 := by decide
    have b4 : (1 : UInt32) &&& 0x1f ≠ 3 := by decide
    unfold legacyCopy
    simp only [ite_self]
    rw [if_neg b1, if_neg b1, if_neg b2, if_neg b2, if_neg b3, if_neg b3, if_neg b4, if_neg b4]
  unfold legacyMsg
  rw [this]

/-! ## Examples -/

example : Fits sampleTx [out1, out2] out2 none := ⟨by decide, by decide, by decide, by simp⟩
example : LegacyFits sampleTx [0x51] := ⟨by decide, by decide, by decide, by decide⟩
/-- Changing an output changes every hash of type ALL, or collides. -/
example (H : Bytes → Hash) (d : Hash) (h : (tapHash H (Cache.new sampleTx) 1 (.all [out1, out2]) none none .default).2 = some (.ok d))
    (h' : (tapHash H (Cache.new { sampleTx with outputs := [out1] }) 1 (.all [out1, out2]) none none .default).2 = some (.ok d)) :
    Collision H (tapInputs H sampleTx 1 sampleTx.inputs[1] [out1, out2] out2 none none .default ++
      tapInputs H { sampleTx with outputs := [out1] } 1 sampleTx.inputs[1] [out1, out2] out2 none none .default) := by
  rcases C67_taproot H sampleTx { sampleTx with outputs := [out1] } 1 1 _ _ (.all [out1, out2]) (.all [out1, out2]) [out1, out2] [out1, out2] out2 out2
    none none none none .default .default d rfl rfl (by decide) (by decide) ⟨rfl, rfl⟩ ⟨rfl, rfl⟩ ⟨by decide, by decide, by decide, by simp⟩
    ⟨by decide, by decide, by decide, by simp⟩ h h' with hc | hs
  · exact hc
  · have := congrArg List.length (hs.outputs (by decide))
    exact absurd this (by decide)

/-- Claiming another amount for the spent output changes the BIP-143 hash, even with NONE|ANYONECANPAY, or collides. -/
example (H : Bytes → Hash) (d : Hash) (h : (p2wshHash H (Cache.new sampleTx) 0 [0x51] ⟨5000, by decide⟩ .noneAcp).2 = some (.ok d))
    (h' : (p2wshHash H (Cache.new sampleTx) 0 [0x51] ⟨5001, by decide⟩ .noneAcp).2 = some (.ok d)) :
    Collision H (segwitInputs H sampleTx 0 sampleTx.inputs[0] [0x51] ⟨5000, by decide⟩ .noneAcp ++
      segwitInputs H sampleTx 0 sampleTx.inputs[0] [0x51] ⟨5001, by decide⟩ .noneAcp) := by
  rcases C67_segwit H sampleTx sampleTx 0 0 _ _ [0x51] [0x51] _ _ .noneAcp .noneAcp d rfl rfl (by decide) (by decide) (by decide) (by decide) h h' with hc | hs
  · exact hc
  · exact absurd (congrArg Subtype.val hs.amount) (by decide)
/-- Signing the other input with the same script gives another legacy hash, or a collision. -/
example (H : Bytes → Hash) (d : Hash) (h : legacyHash H (Cache.new sampleTx) 0 [0x51] 3 = some (.ok d))
    (h' : legacyHash H (Cache.new sampleTx) 1 [0x51] 3 = some (.ok d)) :
    Collision H (twice H (legacyMsg sampleTx 0 [0x51] 3) ++ twice H (legacyMsg sampleTx 1 [0x51] 3)) := by
  rcases C67_legacy H sampleTx sampleTx 0 1 _ _ [0x51] [0x51] 3 3 d rfl rfl ⟨by decide, by decide, by decide, by decide⟩
    ⟨by decide, by decide, by decide, by decide⟩ (fun _ => by decide) (fun _ => by decide) h h' with hc | hs
  · exact hc
  · exact absurd (hs.output (by decide)).1 (by decide)
example (H : Bytes → Hash) : legacyHash H (Cache.new sampleTx) 0 [] 1 = legacyHash H (Cache.new sampleTx) 1 [] 1 :=
  C67_legacy_empty_code H sampleTx 0 1 (by decide) (by decide)

end Sighash
end Btc
