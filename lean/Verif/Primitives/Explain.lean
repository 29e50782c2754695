import Verif.Codec.Explain
import Verif.Primitives.BlockLaws
import Verif.Props.C10Errors
/-!
# What the errors of decoding transactions and blocks say of the bytes
-/
namespace Btc
namespace Why

theorem lim64 : MAX_VEC_SIZE < 2 ^ 64 := by decide

/-! ### Parts of transactions -/

theorem tells_u32 : Tells u32Parser Nev (ArrShort 4) :=
  tells_map (Wire.array 4) (tells_array 4) (fun _ _ => ⟨_, rfl⟩)

theorem tells_outPoint : Tells outPointParser Nev (ArrShort 36) := by
  refine tells_map (Wire.array 36) (tells_array 36) (fun a ha => ?_)
  have ht : (a.take 32).length = 32 := by simp [ha]
  exact ⟨_, dif_pos ht⟩

/-- An amount above 21 million bitcoin. -/
inductive AmountBad (bs : Bytes) : DErr → Prop
  | mk (v : Nat) (r : Bytes) : 2100000000000000 < v → v < 2 ^ 64 → bs = leBytes 8 v ++ r → AmountBad bs (.custom 1 v)

theorem tells_amount : Tells amountParser AmountBad (ArrShort 8) where
  fail bs e := by
    constructor
    · intro h
      unfold amountParser Parser.mapE at h
      cases hp : arrayParser 8 [] bs with
      | done a r =>
        obtain ⟨h1, h2⟩ := (Wire.array 8 _ _ _).mp hp
        rw [hp] at h
        simp only at h
        by_cases hm : leNat a ≤ MAX_MONEY
        · rw [dif_pos hm] at h; cases h
        · rw [dif_neg hm] at h; cases h
          have hm' : ¬ leNat a ≤ 2100000000000000 := hm
          refine .mk _ r (by omega) ?_ (by rw [leBytes_leNat' 8 a h1]; exact h2)
          have := leNat_lt a
          rw [h1] at this
          exact this
      | fail e' => exact nomatch (tells_array 8).fail _ _ |>.mp hp
      | more e' => rw [hp] at h; cases h
    · rintro ⟨v, r, h1, h2, rfl⟩
      unfold amountParser Parser.mapE
      rw [(Wire.array 8 _ (leBytes 8 v) r).mpr ⟨leBytes_length _ _, rfl⟩]
      simp only
      have h3 : leNat (leBytes 8 v) = v := leNat_leBytes 8 v h2
      have h4 : ¬ v ≤ MAX_MONEY := show ¬ v ≤ 2100000000000000 by omega
      rw [h3, dif_neg h4]
      rfl
  more bs e := by
    rw [← (tells_array 8).more]
    unfold amountParser Parser.mapE
    cases hp : arrayParser 8 [] bs with
    | done a r =>
      simp only
      by_cases hm : leNat a ≤ MAX_MONEY
      · rw [dif_pos hm]; simp [POut.ofEnd]
      · rw [dif_neg hm]; simp [POut.ofEnd]
    | fail e' => simp
    | more e' => simp

/-- The encoding of an out point. -/
def outPointBytes (o : OutPoint) : Bytes := o.txid.1 ++ u32le o.vout
/-- The encoding of a script. -/
def scriptBytes (s : Bytes) : Bytes := csEncode s.length ++ s

/-- An input with a bad script length. -/
inductive TxInBad (bs : Bytes) : DErr → Prop
  | script (o : OutPoint) (r : Bytes) (e : DErr) : bs = outPointBytes o ++ r → BytesBad 4000000 r e → TxInBad bs (.fst (.snd e))

/-- An input that ends in its out point, its script or its sequence number. -/
inductive TxInShort (bs : Bytes) : DErr → Prop
  | outPoint (e : DErr) : ArrShort 36 bs e → TxInShort bs (.fst (.fst e))
  | script (o : OutPoint) (r : Bytes) (e : DErr) : bs = outPointBytes o ++ r → BytesShort 4000000 r e → TxInShort bs (.fst (.snd e))
  | sequence (o : OutPoint) (s r : Bytes) (e : DErr) : s.length ≤ 4000000 → bs = outPointBytes o ++ scriptBytes s ++ r →
      ArrShort 4 r e → TxInShort bs (.snd e)

theorem tells_txIn : Tells txInParser TxInBad TxInShort := by
  have h1 := tells_seq outPoint_wire tells_outPoint (tells_byteVec (lim := MAX_VEC_SIZE) lim64)
  have w1 := outPoint_wire.seq byteVec_wire
  have h2 := tells_seq w1 h1 tells_u32
  have w2 := w1.seq u32_wire
  have h3 := tells_map (f := fun x => .ok (x.1.1, x.1.2, x.2)) w2 h2 (fun _ _ => ⟨_, rfl⟩)
  have w3 : Wire ((seqParser (seqParser outPointParser (byteVecParser MAX_VEC_SIZE)) u32Parser).mapE
      (fun x => .ok (x.1.1, x.1.2, x.2)) id)
      (fun x => x.1.txid.1 ++ u32le x.1.vout ++ (csEncode x.2.1.length ++ x.2.1) ++ u32le x.2.2) (fun x => x.2.1.length ≤ MAX_VEC_SIZE) := by
    refine w2.mapE ?_ ?_
    · rintro ⟨⟨o, b⟩, s⟩ y ⟨⟨_, h⟩, _⟩ hy
      cases hy
      exact ⟨h, rfl⟩
    · rintro ⟨o, b, s⟩ h
      exact ⟨((o, b), s), ⟨⟨trivial, h⟩, trivial⟩, rfl⟩
  have h4 := tells_map (f := fun x => (Except.ok (⟨x.1, x.2.1, x.2.2, Wit.empty⟩ : TxIn) : Except DErr TxIn)) w3 h3 (fun _ _ => ⟨_, rfl⟩)
  refine h4.congr (fun bs e => ?_) (fun bs e => ?_)
  · constructor
    · rintro (⟨_, ⟨_, h⟩ | ⟨o, r, e, _, h5, h6⟩⟩ | ⟨_, _, _, _, _, h⟩)
      · cases h
      · exact .script o r e h5 h6
      · cases h
    · rintro ⟨o, r, e, h5, h6⟩
      exact .first _ (.second o r e trivial h5 h6)
  · constructor
    · rintro (⟨_, ⟨_, h⟩ | ⟨o, r, e, _, h5, h6⟩⟩ | ⟨⟨o, s⟩, r, e, h5, h6, h7⟩)
      · exact .outPoint _ h
      · exact .script o r e h5 h6
      · exact .sequence o s r e h5.2 h6 h7
    · intro h
      cases h with
      | outPoint e h => exact .first _ (.first _ h)
      | script o r e h5 h6 => exact .first _ (.second o r e trivial h5 h6)
      | sequence o s r e h5 h6 h7 => exact .second (o, s) r e ⟨trivial, h5⟩ h6 h7

/-- An output with an amount that is too large or a bad script length. -/
inductive TxOutBad (bs : Bytes) : DErr → Prop
  | value (e : DErr) : AmountBad bs e → TxOutBad bs (.fst e)
  | script (a : Amount) (r : Bytes) (e : DErr) : bs = leBytes 8 a.1 ++ r → BytesBad 4000000 r e → TxOutBad bs (.snd e)

/-- An output that ends in its amount or its script. -/
inductive TxOutShort (bs : Bytes) : DErr → Prop
  | value (e : DErr) : ArrShort 8 bs e → TxOutShort bs (.fst e)
  | script (a : Amount) (r : Bytes) (e : DErr) : bs = leBytes 8 a.1 ++ r → BytesShort 4000000 r e → TxOutShort bs (.snd e)

theorem tells_txOut : Tells txOutParser TxOutBad TxOutShort := by
  have h1 := tells_seq amount_wire tells_amount (tells_byteVec (lim := MAX_VEC_SIZE) lim64)
  have w1 := amount_wire.seq byteVec_wire
  refine (tells_map (f := fun x => (Except.ok (⟨x.1, x.2⟩ : TxOut) : Except DErr TxOut)) w1 h1 (fun _ _ => ⟨_, rfl⟩)).congr
    (fun bs e => ?_) (fun bs e => ?_)
  · constructor
    · rintro (⟨e, h⟩ | ⟨a, r, e, _, h5, h6⟩)
      · exact .value e h
      · exact .script a r e h5 h6
    · rintro (⟨e, h⟩ | ⟨a, r, e, h5, h6⟩)
      · exact .first e h
      · exact .second a r e trivial h5 h6
  · constructor
    · rintro (⟨e, h⟩ | ⟨a, r, e, _, h5, h6⟩)
      · exact .value e h
      · exact .script a r e h5 h6
    · rintro (⟨e, h⟩ | ⟨a, r, e, h5, h6⟩)
      · exact .first e h
      · exact .second a r e trivial h5 h6

/-! ### Witnesses -/

/-- A bad element count; or, after some good elements, a bad element length; or a witness so long that an element begins
at an offset which does not fit 32 bits (this is a panic). -/
inductive WitBad (bs : Bytes) : DErr → Prop
  | count (e : DErr) : CsBad 4000000 bs e → WitBad bs (.lenPrefix e)
  | element (n : Nat) (l : List Bytes) (r : Bytes) (e : DErr) : n ≤ 4000000 → l.length < n → (∀ x ∈ l, x.length ≤ 4000000) →
      bs = csEncode n ++ (l.map scriptBytes).flatten ++ r → CsBad 4000000 r e → WitBad bs (.lenPrefix e)
  | offset (a : List Bytes) (x : Bytes) (b : List Bytes) (r : Bytes) : (a ++ x :: b).length ≤ 4000000 → (∀ y ∈ a ++ x :: b, y.length ≤ 4000000) →
      bs = csEncode (a ++ x :: b).length ++ ((a ++ x :: b).map scriptBytes).flatten ++ r → 2 ^ 32 ≤ ((a.map scriptBytes).flatten).length →
      WitBad bs .panic

/-- The end inside an element. -/
def ElShort (r : Bytes) : Prop := (∃ m, CsShort r m) ∨ ∃ n t, n ≤ 4000000 ∧ r = csEncode n ++ t ∧ t.length < n

/-- A witness that ends in its count or, `m` elements being missing, in the first of these. -/
inductive WitShort (bs : Bytes) : DErr → Prop
  | count (m : Nat) : CsShort bs m → WitShort bs (.eof 0)
  | element (m : Nat) (l : List Bytes) (r : Bytes) : l.length + m ≤ 4000000 → 0 < m → (∀ x ∈ l, x.length ≤ 4000000) →
      bs = csEncode (l.length + m) ++ (l.map scriptBytes).flatten ++ r → ElShort r → WitShort bs (.eof m)

theorem elemsEnc_eq (l : List Bytes) : elemsEnc l = (l.map scriptBytes).flatten := rfl

theorem wdItems_step (total k n : Nat) (content r : Bytes) (hn : n ≤ 4000000) :
    wdItems total (k + 1) content [] none (csEncode n ++ r) =
      if r.length < n then .more (.eof (k + 1)) else wdItems total k (content ++ csEncode n ++ r.take n) [] none (r.drop n) := by
  rw [wdItems]
  simp only
  rw [csThen_ok, csEnd_csEncode _ _ (by omega), if_pos (show n ≤ MAX_WITNESS_ITEM_SIZE from hn)]

theorem wdItems_bad (total k : Nat) (content bs : Bytes) (e : DErr) (h : CsBad 4000000 bs e) :
    wdItems total (k + 1) content [] none bs = .fail (.lenPrefix e) := by
  rw [wdItems]
  simp only
  refine csThen_bad h (fun p r hp => ?_)
  rw [show csEnd MAX_WITNESS_ITEM_SIZE p = .error e from hp]

theorem wdItems_short (total k : Nat) (content bs : Bytes) (h : ElShort bs) :
    wdItems total (k + 1) content [] none bs = .more (.eof (k + 1)) := by
  rcases h with ⟨m, h⟩ | ⟨n, t, h1, rfl, h2⟩
  · rw [wdItems]; simp only
    exact csThen_short h
  · rw [wdItems_step _ _ _ _ _ h1, if_pos h2]

theorem wdItems_runk (total k : Nat) (r : Bytes) : ∀ (l : List Bytes) (content : Bytes), (∀ x ∈ l, x.length ≤ 4000000) →
    wdItems total (l.length + k) content [] none (elemsEnc l ++ r) = wdItems total k (content ++ elemsEnc l) [] none r
  | [], content, _ => by simp
  | x :: l, content, h => by
    have hx := h x (by simp)
    rw [show (x :: l).length + k = (l.length + k) + 1 by simp only [List.length_cons]; omega,
      show elemsEnc (x :: l) ++ r = csEncode x.length ++ (x ++ (elemsEnc l ++ r)) by simp [elemEnc],
      wdItems_step _ _ _ _ _ hx, if_neg (by simp)]
    rw [List.take_left' rfl, List.drop_left' rfl, wdItems_runk total k r l _ (fun y hy => h y (by simp [hy]))]
    simp [elemEnc]

/-- Elements are all there, or one is bad, or the bytes end in one. -/
theorem els_cases : ∀ (k : Nat) (bs : Bytes),
    (∃ l r, l.length = k ∧ (∀ x ∈ l, x.length ≤ 4000000) ∧ bs = elemsEnc l ++ r) ∨
    ∃ (l : List Bytes) (m : Nat) (r : Bytes), l.length + (m + 1) = k ∧ (∀ x ∈ l, x.length ≤ 4000000) ∧ bs = elemsEnc l ++ r ∧
      ((∃ e, CsBad 4000000 r e) ∨ ElShort r)
  | 0, bs => .inl ⟨[], bs, rfl, by simp, by simp⟩
  | k + 1, bs => by
    rcases cs_cases 4000000 bs with ⟨v, r, h1, h2, rfl⟩ | h1 | h1
    · by_cases hr : r.length < v
      · exact .inr ⟨[], k, csEncode v ++ r, by simp, by simp, by simp, .inr (.inr ⟨v, r, h1, rfl, hr⟩)⟩
      · have hl : (r.take v).length = v := by simp; omega
        have hb : csEncode v ++ r = elemEnc (r.take v) ++ r.drop v := by simp [elemEnc, hl]
        rcases els_cases k (r.drop v) with ⟨l, r', g1, g2, g3⟩ | ⟨l, m, r', g1, g2, g3, g4⟩
        · refine .inl ⟨r.take v :: l, r', by simp [g1], ?_, by rw [hb, g3]; simp⟩
          intro x hx
          rcases List.mem_cons.mp hx with rfl | hx
          · omega
          · exact g2 x hx
        · refine .inr ⟨r.take v :: l, m, r', by simp only [List.length_cons]; omega, ?_, by rw [hb, g3]; simp, g4⟩
          intro x hx
          rcases List.mem_cons.mp hx with rfl | hx
          · omega
          · exact g2 x hx
    · exact .inr ⟨[], k, bs, by simp, by simp, by simp, .inl h1⟩
    · exact .inr ⟨[], k, bs, by simp, by simp, by simp, .inr (.inl ⟨_, h1⟩)⟩

theorem wit_ok {n : Nat} (h : n ≤ 4000000) (r : Bytes) : witParser (csEncode n ++ r) = wdItems n n [] [] none r := by
  rw [witParser, csThen_ok, witCont, csEnd_csEncode _ _ (by omega), if_pos (show n ≤ MAX_WITNESS_STACK_ITEMS from h)]

theorem wit_bad {bs : Bytes} {e : DErr} (h : WitBad bs e) : witParser bs = .fail e := by
  cases h with
  | count e h =>
    exact csThen_bad h (fun p r hp => by rw [witCont, show csEnd MAX_WITNESS_STACK_ITEMS p = .error e from hp])
  | element n l r e h1 h2 h3 h4 h5 =>
    subst h4
    rw [List.append_assoc, wit_ok h1, ← elemsEnc_eq]
    obtain ⟨k, hk⟩ : ∃ k, n = l.length + (k + 1) := ⟨n - l.length - 1, by omega⟩
    have := wdItems_runk n (k + 1) r l [] h3
    rw [← hk] at this
    rw [this, wdItems_bad _ _ _ _ _ h5]
  | offset a x b r h1 h2 h3 h4 =>
    subst h3
    rw [List.append_assoc, wit_ok h1, ← elemsEnc_eq, wdItems_run _ _ _ _ h2, List.nil_append, wdFinish]
    have h64 : ∀ y ∈ a ++ x :: b, y.length < 2 ^ 64 := fun y hy => by have := h2 y hy; omega
    have := wdIndex_eq (a ++ x :: b) [] h64
    simp only [List.nil_append, elemsEnc_nil, List.length_nil] at this
    rw [this, if_neg]
    · rfl
    · intro h
      have := h a x b rfl
      rw [elemsEnc_eq] at this
      omega

theorem wit_short {bs : Bytes} {e : DErr} (h : WitShort bs e) : witParser bs = .more e := by
  cases h with
  | count m h => exact csThen_short h
  | element m l r h1 h2 h3 h4 h5 =>
    subst h4
    rw [List.append_assoc, wit_ok h1, ← elemsEnc_eq]
    obtain ⟨k, rfl⟩ : ∃ k, m = k + 1 := ⟨m - 1, by omega⟩
    rw [wdItems_runk _ (k + 1) r l [] h3, wdItems_short _ _ _ _ h5]

theorem wit_cases (bs : Bytes) : (∃ w r, WitGood w ∧ bs = witBytes w ++ r) ∨ (∃ e, WitBad bs e) ∨ ∃ e, WitShort bs e := by
  rcases cs_cases 4000000 bs with ⟨n, r, h1, h2, rfl⟩ | ⟨e, h1⟩ | h1
  · rcases els_cases n r with ⟨l, r', g1, g2, g3⟩ | ⟨l, m, r', g1, g2, g3, ⟨e, g4⟩ | g4⟩
    · by_cases hf : OffsetsFit l
      · exact .inl ⟨Wit.ofList l, r', ⟨l, ⟨by rw [g1]; exact h1, g2, hf⟩, rfl⟩, by rw [witBytes_ofList, g1, g3]; simp⟩
      · have : ∃ a x b, l = a ++ x :: b ∧ 2 ^ 32 ≤ (elemsEnc a).length := by
          refine Classical.byContradiction fun hn => hf fun a x b hl => ?_
          refine Nat.lt_of_not_le fun hle => hn ⟨a, x, b, hl, hle⟩
        obtain ⟨a, x, b, rfl, hle⟩ := this
        exact .inr (.inl ⟨_, .offset a x b r' (by rw [g1]; exact h1) g2 (by rw [g1, g3, List.append_assoc]; rfl) hle⟩)
    · exact .inr (.inl ⟨_, .element n l r' e h1 (by omega) g2 (by rw [g3, List.append_assoc]; rfl) g4⟩)
    · exact .inr (.inr ⟨_, .element (m + 1) l r' (by omega) (by omega) g2 (by rw [g1, g3, List.append_assoc]; rfl) g4⟩)
  · exact .inr (.inl ⟨_, .count e h1⟩)
  · exact .inr (.inr ⟨_, .count _ h1⟩)

theorem tells_wit : Tells witParser WitBad WitShort where
  fail bs e := by
    refine ⟨fun h => ?_, wit_bad⟩
    rcases wit_cases bs with ⟨w, r, h1, h2⟩ | ⟨e', h1⟩ | ⟨e', h1⟩
    · rw [(wit_wire _ _ _).mpr ⟨h1, h2⟩] at h; cases h
    · rw [wit_bad h1] at h; cases h; exact h1
    · rw [wit_short h1] at h; cases h
  more bs e := by
    refine ⟨fun h => ?_, wit_short⟩
    rcases wit_cases bs with ⟨w, r, h1, h2⟩ | ⟨e', h1⟩ | ⟨e', h1⟩
    · rw [(wit_wire _ _ _).mpr ⟨h1, h2⟩] at h; cases h
    · rw [wit_bad h1] at h; cases h
    · rw [wit_short h1] at h; cases h; exact h1

end Why
end Btc
