import Verif.Primitives.ExplainTx
import Verif.Codec.Messages
/-!
# C118: the errors of decoding say what is wrong with the bytes, and where

The descriptions `CsBad`, `TxBad`, … (Codec/Explain.lean, Primitives/Explain.lean, Primitives/ExplainTx.lean) are written with encodings
only: what comes before the place of the error is complete, and what is there is wrong in the way the error says.
-/
namespace Btc
open Why

/-! ### Which error for which bytes -/

/-- A compact size is refused because it is too long for its value, above the limit or cut off. -/
theorem C118_compact_size (lim : Nat) (bs : Bytes) (e : DErr) :
    (csDec lim).decodeSliceUnbounded bs = .err e ↔ CsBad lim bs e ∨ CsCut bs e :=
  (tells_cs lim).decoder (csDec_lawful lim) bs e

theorem C118_bytes (lim : Nat) (hl : lim < 2 ^ 64) (bs : Bytes) (e : DErr) :
    (byteVecDec lim).decodeSliceUnbounded bs = .err e ↔ BytesBad lim bs e ∨ BytesShort lim bs e :=
  (tells_byteVec hl).decoder (byteVecDec_lawful lim) bs e

theorem C118_input (bs : Bytes) (e : DErr) : txInDec.decodeSliceUnbounded bs = .err e ↔ TxInBad bs e ∨ TxInShort bs e :=
  tells_txIn.decoder txInDec_lawful bs e

theorem C118_output (bs : Bytes) (e : DErr) : txOutDec.decodeSliceUnbounded bs = .err e ↔ TxOutBad bs e ∨ TxOutShort bs e :=
  tells_txOut.decoder txOutDec_lawful bs e

theorem C118_witness (bs : Bytes) (e : DErr) : witDec.decodeSliceUnbounded bs = .err e ↔ WitBad bs e ∨ WitShort bs e :=
  tells_wit.decoder witDec_lawful bs e

/-- Every error of the transaction decoder, with every number in it. -/
theorem C118_transaction (bs : Bytes) (e : DErr) : txDec.decodeSliceUnbounded bs = .err e ↔ TxBad bs e ∨ TxShort bs e :=
  tells_tx.decoder txDec_lawful bs e

theorem C118_header (bs : Bytes) (e : DErr) : headerDec.decodeSliceUnbounded bs = .err e ↔ FixShort headerFields bs e := by
  rw [tells_header.decoder headerDec_lawful bs e]
  exact ⟨fun h => h.elim (fun h => nomatch h) id, .inr⟩

theorem C118_block (bs : Bytes) (e : DErr) : blockDec.decodeSliceUnbounded bs = .err e ↔ BlockBad bs e ∨ BlockShort bs e :=
  tells_block.decoder blockDec_lawful bs e

/-! ### Appending bytes -/

theorem fail_extend {α : Type} {d : Dec α} {P : Parser α} (L : Lawful d P) {bs : Bytes} {e : DErr} (h : P bs = .fail e) (x : Bytes) :
    P (bs ++ x) = .fail e := by
  obtain ⟨inv, den, L, rfl⟩ := L
  have := L.feed_spec bs d.init L.init
  match hf : d.feed d.init bs with
  | .needsMore s' =>
    rw [hf] at this
    obtain ⟨_, e', h1, _⟩ := L.more s' this.1
    have h2 := this.2 []
    rw [List.append_nil, h, h1] at h2
    cases h2
  | .ready s' rest =>
    rw [hf] at this
    obtain ⟨c, hc, hd⟩ := this
    have h2 := hd rest
    rw [← hc, h] at h2
    rw [hc, List.append_assoc, hd]
    cases hr : d.fin s' with
    | ok b => rw [hr] at h2; cases h2
    | error e' => rw [hr] at h2; cases h2; rfl
  | .err e' =>
    rw [hf] at this
    have h2 := this []
    rw [List.append_nil, h] at h2
    cases h2
    exact this x
  | .stuck => rw [hf] at this; exact this.elim

/-- What is wrong stays wrong, with the same error, whatever bytes follow. -/
theorem C118_final (bs x : Bytes) (e : DErr) :
    (TxBad bs e → txDec.decodeSliceUnbounded (bs ++ x) = .err e) ∧ (BlockBad bs e → blockDec.decodeSliceUnbounded (bs ++ x) = .err e) ∧
    (WitBad bs e → witDec.decodeSliceUnbounded (bs ++ x) = .err e) := by
  refine ⟨fun h => ?_, fun h => ?_, fun h => ?_⟩
  · exact (C118_transaction _ _).mpr (.inl ((tells_tx.fail _ _).mp (fail_extend txDec_lawful ((tells_tx.fail _ _).mpr h) x)))
  · exact (C118_block _ _).mpr (.inl ((tells_block.fail _ _).mp (fail_extend blockDec_lawful ((tells_block.fail _ _).mpr h) x)))
  · exact (C118_witness _ _).mpr (.inl ((tells_wit.fail _ _).mp (fail_extend witDec_lawful ((tells_wit.fail _ _).mpr h) x)))

/-! ### How many bytes are missing -/

/-- The number in "… more bytes required", if the error ends with this sentence. -/
def missing : DErr → Option Nat
  | .eof m => some m
  | .lenPrefix e | .item e | .fst e | .snd e | .tag _ e => missing e
  | _ => none

/-- After an early end at least the stated number of bytes has to follow. -/
def Need {α : Type} (P : Parser α) : Prop := ∀ bs e m, P bs = .more e → missing e = some m → ∀ x a r, P (bs ++ x) = .done a r → m ≤ x.length

theorem csShort_extend {bs : Bytes} {m : Nat} (h : CsShort bs m) (x : Bytes) (hx : x.length < m) : ∃ m', CsShort (bs ++ x) m' := by
  cases h with
  | none h =>
    have : x = [] := List.length_eq_zero_iff.mp (by omega)
    subst this; exact ⟨1, .none (by simp [h])⟩
  | some m w t h1 h2 h3 =>
    exact ⟨_, .some m w (t ++ x) h1 (by rw [h2]; rfl) (by rw [List.length_append]; omega)⟩

theorem need_array (N : Nat) : Need (arrayParser N []) := by
  intro bs e m h hm x a r hd
  obtain ⟨k, h1, h2⟩ := ((tells_array N).more _ _).mp h
  obtain ⟨h3, h4⟩ := (Wire.array N _ _ _).mp hd
  have h5 : (bs ++ x).length = (a ++ r).length := by rw [h4]
  simp only [List.length_append] at h5
  simp only [missing, Option.some.injEq] at hm
  omega

theorem need_byteVec (lim : Nat) (hl : lim < 2 ^ 64) : Need (byteVecParser lim) := by
  intro bs e m h hm x a r hd
  refine Nat.le_of_not_lt fun hlt => ?_
  have h1 := ((tells_byteVec hl).more _ _).mp h
  have : ∃ e, BytesShort lim (bs ++ x) e := by
    cases h1 with
    | «prefix» k h2 =>
      simp only [missing, Option.some.injEq] at hm; subst hm
      obtain ⟨m', h3⟩ := csShort_extend h2 x hlt
      exact ⟨_, .prefix m' h3⟩
    | body k j t h2 h3 h4 h5 =>
      simp only [missing, Option.some.injEq] at hm; subst hm
      exact ⟨_, .body k (j - x.length) (t ++ x) h2 (by rw [h3, List.append_assoc]) (by omega) (by rw [List.length_append]; omega)⟩
  obtain ⟨e', h2⟩ := this
  rw [((tells_byteVec hl).more _ _).mpr h2] at hd
  cases hd

theorem need_map {α β : Type} {P : Parser α} (h : Need P) (f : α → Except DErr β) : Need (P.mapE f id) := by
  intro bs e m hb hm x a r hd
  unfold Parser.mapE at hb hd
  cases hp : P bs with
  | done a' r' => rw [hp] at hb; simp only at hb; cases hf : f a' <;> rw [hf] at hb <;> cases hb
  | fail e' => rw [hp] at hb; cases hb
  | more e' =>
    rw [hp] at hb; cases hb
    cases hq : P (bs ++ x) with
    | done a' r' => exact h bs _ m hp hm x a' r' hq
    | fail e' => rw [hq] at hd; cases hd
    | more e' => rw [hq] at hd; cases hd

theorem need_seq {α β : Type} {P : Parser α} {Q : Parser β} {enc : α → Bytes} {ok : α → Prop} (W : Wire P enc ok) (hP : Need P) (hQ : Need Q) :
    Need (seqParser P Q) := by
  intro bs e m hb hm x a r hd
  unfold seqParser at hb hd
  cases hp : P bs with
  | done a' r' =>
    rw [hp] at hb
    simp only at hb
    obtain ⟨h1, h2⟩ := (W _ _ _).mp hp
    rw [(W (bs ++ x) a' (r' ++ x)).mpr ⟨h1, by rw [h2, List.append_assoc]⟩] at hd
    simp only at hd
    cases hq : Q r' with
    | done b r2 => rw [hq] at hb; cases hb
    | fail e' => rw [hq] at hb; cases hb
    | more e' =>
      rw [hq] at hb; cases hb
      cases hq2 : Q (r' ++ x) with
      | done b r2 => exact hQ r' e' m hq hm x b r2 hq2
      | fail e' => rw [hq2] at hd; cases hd
      | more e' => rw [hq2] at hd; cases hd
  | fail e' => rw [hp] at hb; cases hb
  | more e' =>
    rw [hp] at hb; cases hb
    cases hq : P (bs ++ x) with
    | done a' r' => exact hP bs e' m hp hm x a' r' hq
    | fail e' => rw [hq] at hd; cases hd
    | more e' => rw [hq] at hd; cases hd

theorem flatten_ge {α : Type} (enc : α → Bytes) : ∀ l : List α, (∀ a ∈ l, 1 ≤ (enc a).length) → l.length ≤ ((l.map enc).flatten).length
  | [], _ => by simp
  | a :: l, h => by
    have h1 := h a (by simp)
    have h2 := flatten_ge enc l (fun x hx => h x (by simp [hx]))
    simp only [List.map_cons, List.flatten_cons, List.length_append, List.length_cons]
    omega

theorem need_vec {α : Type} {P : Parser α} {enc : α → Bytes} {ok : α → Prop} {bad short : Bytes → DErr → Prop} {lim : Nat} (hl : lim < 2 ^ 64)
    (W : Wire P enc ok) (T : Tells P bad short) (hpos : ∀ a, ok a → 1 ≤ (enc a).length) : Need (vecParser P lim) := by
  intro bs e m h hm x a r hd
  have T' := tells_vec hl W T
  have h1 := (T'.more _ _).mp h
  cases h1 with
  | «prefix» k h2 =>
    simp only [missing, Option.some.injEq] at hm; subst hm
    refine Nat.le_of_not_lt fun hlt => ?_
    obtain ⟨m', h3⟩ := csShort_extend h2 x hlt
    rw [vec_short h3] at hd; cases hd
  | item k l r' e' h2 h3 h4 h5 h6 =>
    simp only [missing, Option.some.injEq] at hm; subst hm
    rw [h5, List.append_assoc, List.append_assoc, vec_ok h2 (by omega), items_run W l k [] _ h4] at hd
    obtain ⟨ms, g1, g2, _, g4⟩ := (W.items _ _ _ _ _).mp hd
    match ms, g1, g2, g4 with
    | [], g1, _, _ => simp at g1; omega
    | y :: ys, g1, g2, g4 =>
      have hmore := (T.more _ _).mpr h6
      have hlong : r'.length < (enc y).length := by
        refine Nat.lt_of_not_le fun hle => ?_
        have e1 : r' ++ x = enc y ++ ((ys.map enc).flatten ++ r) := by rw [g4]; simp
        have e2 : r' = enc y ++ r'.drop (enc y).length := by
          have h7 : (r' ++ x).take (enc y).length = enc y := by rw [e1, List.take_left' rfl]
          rw [List.take_append_of_le_length hle] at h7
          conv => lhs; rw [← List.take_append_drop (enc y).length r', h7]
        rw [(W r' y _).mpr ⟨g2 y (by simp), e2⟩] at hmore
        cases hmore
      have hys := flatten_ge enc ys (fun z hz => hpos z (g2 z (by simp [hz])))
      have hlen : (r' ++ x).length = (((y :: ys).map enc).flatten ++ r).length := by rw [g4]
      simp only [List.map_cons, List.flatten_cons, List.length_append, List.length_cons] at hlen g1
      omega

theorem need_tx : Need txParser := by
  intro bs e m h hm
  have := (tells_tx.more _ _).mp h
  cases this <;> cases hm

theorem need_u32 : Need u32Parser := need_map (need_array 4) _
theorem need_txIn : Need txInParser :=
  need_map (need_map (need_seq (outPoint_wire.seq byteVec_wire)
    (need_seq outPoint_wire (need_map (need_array 36) _) (need_byteVec MAX_VEC_SIZE lim64)) need_u32) _) _
theorem need_txOut : Need txOutParser :=
  need_map (need_seq amount_wire (need_map (need_array 8) _) (need_byteVec MAX_VEC_SIZE lim64)) _
theorem need_hash : Need hash32Parser := need_map (need_array 32) _
theorem need_header : Need headerParser := by
  refine need_map (need_map (need_seq (u32_wire.seq3 hash32_wire hash32_wire) ?_ ?_) _) _
  · exact need_map (need_seq (u32_wire.seq hash32_wire) (need_seq u32_wire need_u32 need_hash) need_hash) _
  · exact need_map (need_seq (u32_wire.seq u32_wire) (need_seq u32_wire need_u32 need_u32) (need_array 4)) _

theorem txBytes_ge (sw : Bool) (tx : Tx) : 10 ≤ (txBytes sw tx).length := by
  have h1 := csSize_pos tx.inputs.length
  have h2 := csSize_pos tx.outputs.length
  simp only [txBytes, List.length_append, u32le_length, csEncode_length]
  omega

theorem need_block : Need blockParser :=
  need_map (need_seq header_wire need_header (need_vec lim64 tx_wire tells_tx (fun a _ => by have := txBytes_ge a.usesSegwit a; omega))) _

/-- Decoding after an error that says "`m` more bytes required" needs at least `m` more bytes. -/
def AtLeast {α : Type} (d : Dec α) : Prop := ∀ bs e m, d.decodeSliceUnbounded bs = .err e → missing e = some m →
  ∀ x a r, d.decodeSliceUnbounded (bs ++ x) = .ok a r → m ≤ x.length

theorem atLeast {α : Type} {d : Dec α} {P : Parser α} (L : Lawful d P) (N : Need P) : AtLeast d := by
  have L' := L
  obtain ⟨inv, den, hL, rfl⟩ := L'
  intro bs e m h hm x a r hd
  rw [hL.decodeSliceUnbounded_spec] at h hd
  cases hp : den d.init bs with
  | done a' r' => rw [hp] at h; cases h
  | fail e' => rw [fail_extend L hp x] at hd; cases hd
  | more e' =>
    rw [hp] at h; cases h
    cases hq : den d.init (bs ++ x) with
    | done a' r' => exact N bs e m hp hm x a' r' hq
    | fail e' => rw [hq] at hd; cases hd
    | more e' => rw [hq] at hd; cases hd

/-- Full claim: the number in "not enough bytes for decoder, `m` more bytes required" is the number of missing bytes.  Proved: fewer than `m`
do not suffice.  Missing: the decoder of a sequence counts items, not bytes (`C118_missing_fails`). -/
theorem C118_missing_partial : AtLeast headerDec ∧ AtLeast blockDec ∧ AtLeast txInDec ∧ AtLeast txOutDec ∧ AtLeast txInsDec ∧ AtLeast txOutsDec ∧
    ∀ lim, lim < 2 ^ 64 → AtLeast (byteVecDec lim) :=
  ⟨atLeast headerDec_lawful need_header, atLeast blockDec_lawful need_block, atLeast txInDec_lawful need_txIn,
   atLeast txOutDec_lawful need_txOut,
   atLeast txInsDec_lawful (need_vec lim64 txIn_wire tells_txIn fun a _ => by
     simp only [txInBytes, List.length_append, u32le_length]; omega),
   atLeast txOutsDec_lawful (need_vec lim64 txOut_wire tells_txOut fun a _ => by
     simp only [txOutBytes, List.length_append, leBytes_length]; omega),
   fun lim h => atLeast (byteVecDec_lawful lim) (need_byteVec lim h)⟩

/-- A block of which one whole transaction is missing: "1 more bytes required", but no nine bytes suffice. -/
theorem C118_missing_fails (h : Header) : ∃ e, blockDec.decodeSliceUnbounded (headerBytes h ++ [1]) = .err e ∧ missing e = some 1 ∧
    Msg.unexpectedEof 1 = "not enough bytes for decoder, 1 more bytes required" ∧
    ∀ x, x.length ≤ 9 → ∀ b r, blockDec.decodeSliceUnbounded (headerBytes h ++ [1] ++ x) ≠ .ok b r := by
  refine ⟨.snd (.eof 1), ?_, rfl, rfl, fun x hx b r hd => ?_⟩
  · refine (C118_block _ _).mpr (.inr (.txs h [1] _ rfl (.item 1 [] [] (.custom 12 0) (by decide) (by decide) (by simp) rfl (.version (by decide)))))
  · obtain ⟨inv, den, hL, hden⟩ := blockDec_lawful
    rw [hL.decodeSliceUnbounded_spec, hden] at hd
    cases hp : blockParser (headerBytes h ++ [1] ++ x) with
    | fail e => rw [hp] at hd; cases hd
    | more e => rw [hp] at hd; cases hd
    | done b' r' =>
      obtain ⟨hb, he⟩ := (block_wire _ _ _).mp hp
      rw [blockBytes, List.append_assoc, List.append_assoc] at he
      obtain ⟨-, he⟩ := header_wire.prefix_free trivial trivial he
      have hn : csEncode 1 ++ x = csEncode b'.txs.length ++ (((b'.txs.map fun tx => txBytes tx.usesSegwit tx).flatten) ++ r') := by
        rw [← List.append_assoc]; exact he
      have hw : b'.txs.length < 2 ^ 64 := by have := hb.1; have : MAX_VEC_SIZE = 4000000 := rfl; omega
      have hv := csView_csEncode 1 x
      rw [hn, csView_csEncode] at hv
      simp only [Option.some.injEq, Prod.mk.injEq] at hv
      have h1 : b'.txs.length = 1 := by
        have := csDecode_csEncode _ hw
        rw [hv.1, csDecode_csEncode 1 (by decide)] at this
        simpa using this.symm
      have h2 : x.length = ((b'.txs.map fun tx => txBytes tx.usesSegwit tx).flatten ++ r').length := by rw [hv.2]
      obtain ⟨tx, hb'⟩ := List.length_eq_one_iff.mp h1
      · rw [hb'] at h2
        have := txBytes_ge tx.usesSegwit tx
        simp at h2
        omega

/-! ### Messages about compact sizes -/

/-- What the messages about a compact size say of the bytes. -/
inductive CsSays (lim : Nat) (bs : Bytes) : String → Prop
  | one : bs = [] → CsSays lim bs "required at least one byte but the input is empty"
  | empty (n : Nat) : bs = [] → CsSays lim bs ("required at least " ++ toString n ++ " bytes but the input is empty")
  | short (n k : Nat) : bs.length = k → (∀ x v r, v < 2 ^ 64 → bs ++ x = csEncode v ++ r → n ≤ (csEncode v).length) →
      CsSays lim bs ("required at least " ++ toString n ++ " bytes but only " ++ toString k ++ " bytes were received")
  | nonMinimal (m : UInt8) (w v : Nat) (r : Bytes) : Marker m w → bs = m :: leBytes w v ++ r → (csEncode v).length < w + 1 → v < 2 ^ 64 →
      CsSays lim bs ("the value " ++ toString v ++ " was not encoded minimally")
  | exceeds (v : Nat) (r : Bytes) : bs = csEncode v ++ r → lim < v → CsSays lim bs "value exceeds limit"
  | length (v : Nat) (r : Bytes) : bs = csEncode v ++ r → lim < v →
      CsSays lim bs ("decoded length " ++ toString v ++ " exceeds maximum allowed " ++ toString lim)

/-- Full claim: the messages of the compact size decoder are true.  Proved: unless the bytes end after the first byte of a compact size.  Missing:
there the counts leave out the first byte (`C118_size_fails`). -/
theorem C118_size_messages_partial (lim : Nat) (bs : Bytes) (e : DErr) (h : (csDec lim).decodeSliceUnbounded bs = .err e)
    (hc : ∀ m w t, Marker m w → bs = m :: t → w ≤ t.length) : Msg.compactSize e ≠ [] ∧ ∀ s ∈ Msg.compactSize e, CsSays lim bs s := by
  rcases (C118_compact_size lim bs e).mp h with h1 | h1
  · cases h1 with
    | nonMinimal m w v r h2 h3 h4 =>
      refine ⟨by simp [Msg.compactSize], fun s hs => ?_⟩
      simp only [Msg.compactSize, List.mem_singleton] at hs
      subst hs
      refine .nonMinimal m w v r h2 h4 ?_ ?_
      · rw [csEncode_length]
        cases h2 <;> simp only [least] at h3 <;> unfold csSize <;> (repeat' split) <;> omega
      · cases h2 <;> simp only [least] at h3 <;> omega
    | exceeds v r h2 h3 h4 =>
      refine ⟨by simp [Msg.compactSize], fun s hs => ?_⟩
      simp only [Msg.compactSize, List.mem_cons, List.not_mem_nil, or_false] at hs
      rcases hs with rfl | rfl
      · exact .exceeds v r h4 h2
      · exact .length v r h4 h2
  · cases h1 with
    | none h2 =>
      refine ⟨by simp [Msg.compactSize], fun s hs => ?_⟩
      simp only [Msg.compactSize, List.mem_singleton] at hs
      subst hs; exact .one h2
    | some m w t h2 h3 h4 => have := hc m w t h2 h3; omega

/-- The bytes end after the first byte: the message counts neither it among the required bytes nor among the received ones.  With nothing after
it, the message says that the input is empty. -/
theorem C118_size_fails (lim : Nat) (m : UInt8) (w : Nat) (t : Bytes) (hm : Marker m w) (ht : t.length < w) :
    ∃ e, (csDec lim).decodeSliceUnbounded (m :: t) = .err e ∧
      (t = [] → Msg.compactSize e = ["required at least " ++ toString w ++ " bytes but the input is empty"]) ∧
      (t ≠ [] → Msg.compactSize e = ["required at least " ++ toString w ++ " bytes but only " ++ toString t.length ++ " bytes were received"]) ∧
      (m :: t).length = t.length + 1 ∧ ∀ x v r, v < 2 ^ 64 → m :: t ++ x = csEncode v ++ r → (csEncode v).length = w + 1 := by
  refine ⟨.csEof w t.length, (C118_compact_size _ _ _).mpr (.inr (.some m w t hm rfl ht)), fun h => ?_, fun h => ?_, rfl, fun x v r hv he => ?_⟩
  · subst h; cases hm <;> rfl
  · match t, h with
    | b :: t, _ => cases hm <;> rfl
  · have hc := csComplete_csEncode v
    match hcs : csEncode v with
    | [] => rw [hcs] at hc; exact hc.elim
    | b :: t' =>
      rw [hcs] at hc he
      simp only [csComplete] at hc
      have hb : m = b := (List.cons.inj he).1
      subst hb
      rw [List.length_cons, hc, csNeed_marker hm]

/-! ### Two more messages -/

/-- A witness that ends inside its element count: "missing 0", but whatever completes it has at least 253 elements to add. -/
theorem C118_witness_missing_fails (m : UInt8) (w : Nat) (t : Bytes) (hm : Marker m w) (ht : t.length < w) :
    witDec.decodeSliceUnbounded (m :: t) = .err (.eof 0) ∧ Msg.witnessEof 0 = "not enough witness elements for decoder, missing 0" ∧
    ∀ x wit r, witDec.decodeSliceUnbounded (m :: t ++ x) = .ok wit r → 253 ≤ wit.elems := by
  refine ⟨(C118_witness _ _).mpr (.inr (.count _ (.some m w t hm rfl ht))), rfl, fun x wit r hd => ?_⟩
  obtain ⟨inv, den, hL, hden⟩ := witDec_lawful
  rw [hL.decodeSliceUnbounded_spec, hden] at hd
  cases hp : witParser (m :: t ++ x) with
  | fail e => rw [hp] at hd; cases hd
  | more e => rw [hp] at hd; cases hd
  | done w' r' =>
    rw [hp] at hd; cases hd
    obtain ⟨l, _, rfl, he⟩ := (witParser_done _ _ _).mp hp
    refine Nat.le_of_not_lt fun hlt => ?_
    have h1 : l.length < 253 := hlt
    have h2 : csEncode l.length = [UInt8.ofNat l.length] := by
      unfold csEncode; rw [if_pos (by omega)]
    rw [h2] at he
    have hb : m = UInt8.ofNat l.length := (List.cons.inj he).1
    have hn := congrArg UInt8.toNat hb
    rw [UInt8.toNat_ofNat'] at hn
    cases hm <;> simp at hn <;> omega

/-- The bytes are a transaction, with something after it. -/
def Whole (bs : Bytes) (tx : Tx) : Prop := TxFormat tx ∧ ∃ r, bs = txBody tx ++ u32le tx.lockTime ++ r

/-- What the messages of the transaction decoder say of the bytes. -/
inductive TxSays (bs : Bytes) : String → Prop
  /-- The heading before the message of an inner error. -/
  | heading : (∀ tx r, txDec.decodeSliceUnbounded bs ≠ .ok tx r) → TxSays bs "transaction decoder error"
  | flag (v : UInt32) (f : UInt8) (r : Bytes) : bs = u32le v ++ 0 :: f :: r → f ≠ 1 →
      TxSays bs ("we only support segwit flag value 0x01: " ++ toString f.toNat)
  | noWitnesses (v : UInt32) (ins : List TxIn) (outs : List TxOut) (r : Bytes) : ins ≠ [] →
      bs = u32le v ++ [0, 1] ++ insBytes ins ++ (outsBytes outs ++ List.replicate ins.length 0 ++ r) →
      TxSays bs "non-empty Segwit transaction with no witnesses"
  | version : bs.length < 4 → TxSays bs "early end of transaction (still decoding version)"
  | inputs (v : UInt32) (m : Bytes) (r : Bytes) (e : DErr) : m = [] ∨ m = [0, 1] → bs = u32le v ++ m ++ r →
      VecShort txInBytes PlainIn TxInShort 4000000 r e → TxSays bs "early end of transaction (still decoding inputs)"
  | segwitFlag (v : UInt32) : bs = u32le v ++ [0] → TxSays bs "early end of transaction (still decoding segwit flag)"
  | outputs (sw : Bool) (v : UInt32) (ins : List TxIn) (r : Bytes) (e : DErr) : AfterIns bs sw v ins r →
      VecShort txOutBytes PlainOut TxOutShort 4000000 r e →
      TxSays bs "early end of transaction (still decoding outputs)"
  | witnesses (v : UInt32) (ins : List TxIn) (outs : List TxOut) (ws : List Wit) (r : Bytes) (e : DErr) : ws.length < ins.length →
      AfterIns bs true v ins (outsBytes outs ++ (ws.map witBytes).flatten ++ r) → WitShort r e →
      TxSays bs "early end of transaction (still decoding witnesses)"
  | lockTime (tx : Tx) (r : Bytes) : TxFormat tx → bs = txBody tx ++ r → r.length < 4 →
      TxSays bs "early end of transaction (still decoding locktime)"
  | noOutputs (tx : Tx) : Whole bs tx → tx.outputs = [] → TxSays bs "transaction has no outputs"
  | nullPrev (tx : Tx) (i : Nat) (x : TxIn) : Whole bs tx → tx.inputs[i]? = some x → x.prev = OutPoint.null → 1 < tx.inputs.length →
      TxSays bs ("null prevout in non-coinbase transaction at input " ++ toString i)
  | small (tx : Tx) (x : TxIn) (n : Nat) : Whole bs tx → tx.inputs = [x] → x.prev = OutPoint.null → n = x.scriptSig.length → n < 2 →
      TxSays bs ("coinbase scriptSig too small: " ++ toString n ++ " bytes (min 2)")
  | large (tx : Tx) (x : TxIn) (n : Nat) : Whole bs tx → tx.inputs = [x] → x.prev = OutPoint.null → n = x.scriptSig.length → 100 < n →
      TxSays bs ("coinbase scriptSig too large: " ++ toString n ++ " bytes (max 100)")
  | sum (tx : Tx) (n : Nat) : Whole bs tx → n = (tx.outputs.map fun o => o.amount.1).sum → 2100000000000000 < n →
      TxSays bs ("sum of output values " ++ toString n ++ " satoshis exceeds MAX_MONEY")

/-- Full claim: the message of every error of the transaction decoder is true of the bytes.  Proved: except for the sum of the values when it
is too large already without the last output, and for duplicate inputs, whose text is not modelled.  Missing: `C118_sum_fails`. -/
theorem C118_transaction_messages_partial (bs : Bytes) (e : DErr) (s : String) (h : txDec.decodeSliceUnbounded bs = .err e)
    (hs : Msg.transaction e = some s)
    (hl : ∀ tx a x, Whole bs tx → tx.outputs = a ++ [x] → (a.map fun o => o.amount.1).sum ≤ 2100000000000000) : TxSays bs s := by
  have hne : ∀ tx r, txDec.decodeSliceUnbounded bs ≠ .ok tx r := by intro tx r h'; rw [h] at h'; cases h'
  rcases (C118_transaction bs e).mp h with h1 | h1
  · cases h1 with
    | inputs v r e h1 h2 => cases hs; exact .heading hne
    | segwitInputs v r e h1 h2 => cases hs; exact .heading hne
    | outputs sw v ins r e h1 h2 => cases hs; exact .heading hne
    | witness v ins outs ws r e _ _ _ _ _ _ => cases hs; exact .heading hne
    | flag v f r h1 h2 => cases hs; exact .flag v f r h1 h2
    | noWitnesses v ins outs r h1 h2 h3 h4 =>
      cases hs
      cases h4 with | segwit _ _ _ _ _ h5 => exact .noWitnesses v ins outs r h3 h5
    | rule tx r e h1 h2 h3 =>
      have hw : Whole bs tx := ⟨h1, r, h2⟩
      cases h3 with
      | noOutputs h4 => cases hs; exact .noOutputs tx hw h4
      | nullPrev a x b h4 h5 h6 h7 h8 =>
        cases hs
        exact .nullPrev tx a.length x hw (by rw [h5]; simp) h7 h6
      | coinbaseShort x h4 h5 h6 h7 => cases hs; exact .small tx x _ hw h5 h6 rfl h7
      | coinbaseLong x h4 h5 h6 h7 => cases hs; exact .large tx x _ hw h5 h6 rfl h7
      | duplicate o _ _ _ _ => cases hs
      | value a x b g1 g2 g3 g4 g5 =>
        cases hs
        have hb : b = [] := by
          refine Classical.byContradiction fun hne => ?_
          have := hl tx (a ++ x :: b.dropLast) (b.getLast hne) hw (by rw [g1]; simp [List.dropLast_concat_getLast])
          simp only [List.map_append, List.map_cons, List.sum_append, List.sum_cons] at this
          omega
        subst hb
        have hsum : (a.map fun o => o.amount.1).sum + x.amount.1 = (tx.outputs.map fun o => o.amount.1).sum := by rw [g1]; simp
        exact .sum tx _ hw hsum g5
  · cases h1 with
    | version h2 => cases hs; exact .version h2
    | inputs v r e h2 h3 => cases hs; exact .inputs v [] r e (.inl rfl) (by rw [h2]; simp) h3
    | segwitInputs v r e h2 h3 => cases hs; exact .inputs v [0, 1] r e (.inr rfl) h2 h3
    | flag v h2 => cases hs; exact .segwitFlag v h2
    | outputs sw v ins r e h2 h3 => cases hs; exact .outputs sw v ins r e h2 h3
    | witness v ins outs ws r e h2 h3 h4 h5 h6 h7 => cases hs; exact .witnesses v ins outs ws r e h4 h6 h7
    | lockTime tx r h2 h3 h4 => cases hs; exact .lockTime tx r h2 h3 h4

example : TxSays [2, 0, 0, 0, 0, 7] "we only support segwit flag value 0x01: 7" := by
  refine C118_transaction_messages_partial _ (.custom 10 7) _ (by decide +kernel) rfl ?_
  intro tx a x hw
  obtain ⟨_, r, h⟩ := hw
  exfalso
  have h2 := congrArg List.length h
  simp [txBody, u32le, insBytes, outsBytes] at h2
  omega

/-- Outputs of 21 million, 1 and 5 bitcoin units: the message speaks of the sum of the first two. -/
theorem C118_sum_fails : ∃ tx, TxFormat tx ∧ txDec.decodeSliceUnbounded (txBody tx ++ u32le tx.lockTime) = .err (.custom 18 2100000000000001) ∧
    Msg.transaction (.custom 18 2100000000000001) = some "sum of output values 2100000000000001 satoshis exceeds MAX_MONEY" ∧
    (tx.outputs.map fun o => o.amount.1).sum = 2100000000000006 := by
  refine ⟨{ sampleTx with outputs := [⟨⟨2100000000000000, by decide⟩, []⟩, ⟨⟨1, by decide⟩, []⟩, ⟨⟨5, by decide⟩, []⟩] }, ?_, ?_, rfl, rfl⟩
  · exact ⟨⟨by decide, by decide⟩, ⟨sampleTx_decodable.scripts.1, by simp⟩, sampleTx_decodable.witnesses⟩
  · refine (C118_transaction _ _).mpr (.inl (.rule _ [] _ ?_ (by rw [List.append_nil])
      (.value [⟨⟨2100000000000000, by decide⟩, []⟩] ⟨⟨1, by decide⟩, []⟩ [⟨⟨5, by decide⟩, []⟩] rfl ?_ ?_ (by decide) (by decide))))
    · exact ⟨⟨by decide, by decide⟩, ⟨sampleTx_decodable.scripts.1, by simp⟩, sampleTx_decodable.witnesses⟩
    · exact sampleTx_decodable.distinct
    · exact sampleTx_decodable.nonNull

/-! ### Examples -/

/-- Flag 2. -/
example : txDec.decodeSliceUnbounded [1, 0, 0, 0, 0, 2, 7] = .err (.custom 10 2) :=
  (C118_transaction _ _).mpr (.inl (.flag 1 2 [7] rfl (by decide)))
/-- One input whose script length 3 is written with three bytes. -/
example (o : OutPoint) : txDec.decodeSliceUnbounded (u32le 2 ++ ([1] ++ (outPointBytes o ++ [0xFD, 3, 0]))) =
    .err (.tag 2 (.item (.fst (.snd (.lenPrefix (.nonMinimal 3)))))) :=
  (C118_transaction _ _).mpr (.inl (.inputs 2 _ _ rfl (.item 1 [] _ _ (by decide) (by decide) (by simp) rfl
    (.script o _ _ rfl (.prefix _ (.nonMinimal 0xFD 2 3 [] .two (by decide) rfl))))))
/-- The end after the zero that could begin the flag. -/
example : txDec.decodeSliceUnbounded [1, 0, 0, 0, 0] = .err (.custom 12 2) := (C118_transaction _ _).mpr (.inr (.flag 1 rfl))
example : (byteVecDec 100).decodeSliceUnbounded [5, 1, 2] = .err (.eof 3) :=
  (C118_bytes 100 (by decide) _ _).mpr (.inr (.body 5 3 [1, 2] (by decide) rfl (by decide) rfl))
example : (csDec 10).decodeSliceUnbounded [0xFF] = .err (.csEof 8 0) ∧
    Msg.compactSize (.csEof 8 0) = ["required at least 8 bytes but the input is empty"] :=
  ⟨(C118_compact_size _ _ _).mpr (.inr (.some 0xFF 8 [] .eight rfl (by decide))), rfl⟩
/-- A header cut after 10 bytes. -/
example (h : Header) (x : Bytes) (e : DErr) (m : Nat) (r : Bytes) (h1 : headerDec.decodeSliceUnbounded ((headerBytes h).take 10) = .err e)
    (h2 : missing e = some m) (h3 : headerDec.decodeSliceUnbounded ((headerBytes h).take 10 ++ x) = .ok h r) : m ≤ x.length :=
  C118_missing_partial.1 _ e m h1 h2 x h r h3
/-- Whatever follows flag 2, the error is the same. -/
example (x : Bytes) : txDec.decodeSliceUnbounded ([1, 0, 0, 0, 0, 2] ++ x) = .err (.custom 10 2) :=
  (C118_final _ x _).1 (.flag 1 2 [] rfl (by decide))
example : ∀ s ∈ Msg.compactSize (.nonMinimal 3), CsSays 100 [0xFD, 3, 0] s :=
  (C118_size_messages_partial 100 _ _ ((C118_compact_size _ _ _).mpr (.inl (.nonMinimal 0xFD 2 3 [] .two (by decide) rfl)))
    (fun m w t hm h => by cases hm <;> simp at h <;> simp [← h])).2

end Btc
