import Verif.Codec.Encoder
namespace Btc

/-- Specification: the chunks an encoder will yield from a state, in order, used as documented
(take `current_chunk`, then `advance`, stop at `Finished`). -/
inductive Yields (e : Enc) : e.S → List Bytes → Prop
  | last (s s' : e.S) : e.adv s = (s', false) → Yields e s [e.cur s]
  | more (s s' : e.S) (cs : List Bytes) : e.adv s = (s', true) → Yields e s' cs →
      Yields e s (e.cur s :: cs)

theorem Yields.inv {e : Enc} {s : e.S} {cs : List Bytes} (h : Yields e s cs) :
    (∃ s', e.adv s = (s', false) ∧ cs = [e.cur s]) ∨
    (∃ s' ds, e.adv s = (s', true) ∧ Yields e s' ds ∧ cs = e.cur s :: ds) := by
  cases h with
  | last _ s' h => exact .inl ⟨s', h, rfl⟩
  | more _ s' ds h h' => exact .inr ⟨s', ds, h, h', rfl⟩

theorem Yields.det {e : Enc} {s : e.S} {cs ds : List Bytes} (h : Yields e s cs)
    (h' : Yields e s ds) : cs = ds := by
  induction h generalizing ds with
  | last s s' ha =>
    cases h' with
    | last _ _ h2 => rfl
    | more _ s'' cs h2 _ => rw [ha] at h2; cases h2
  | more s s' cs ha _ ih =>
    cases h' with
    | last _ s'' h2 => rw [ha] at h2; cases h2
    | more _ s'' cs h2 h3 => rw [ha] at h2; cases h2; rw [ih h3]

theorem Yields.drain {e : Enc} {s : e.S} {cs : List Bytes} (h : Yields e s cs) :
    ∀ n, cs.length ≤ n → e.drain n s = some cs.flatten := by
  induction h with
  | last s s' ha =>
    intro n hn
    obtain ⟨n, rfl⟩ : ∃ m, n = m + 1 := ⟨n - 1, by simp at hn; omega⟩
    simp [Enc.drain, ha]
  | more s s' cs ha _ ih =>
    intro n hn
    obtain ⟨n, rfl⟩ : ∃ m, n = m + 1 := ⟨n - 1, by simp at hn; omega⟩
    simp [Enc.drain, ha, ih n (by simp at hn; omega)]

/-! ### Tuples -/

theorem encN_shift {e : Enc} {es : List Enc} (s : e.S) {st : (encN es).S} {cs : List Bytes}
    (hi : st.1 < es.length) (h : Yields (encN es) st cs) :
    Yields (encN (e :: es)) (st.1 + 1, (s, st.2)) cs := by
  induction h with
  | last st st' ha =>
    have hcur : (encN es).cur st = (encN (e :: es)).cur (st.1 + 1, (s, st.2)) := by
      simp [encN, HSt.cur]
    rw [hcur]
    simp only [encN, ge_iff_le, Nat.not_le.mpr hi, if_false] at ha
    refine .last _ (st.1 + 1, (s, (st.2.adv st.1).1)) ?_
    simp only [encN, List.length_cons, HSt.adv]
    rw [if_neg (by omega)]
    by_cases hl : st.1 = es.length - 1
    · rw [if_pos hl] at ha
      have ha2 : (st.2.adv st.1).2 = false := congrArg Prod.snd ha
      rw [if_pos (by omega), ha2]
    · rw [if_neg hl] at ha
      have ha2 := congrArg Prod.snd ha
      simp at ha2
  | more st st' cs ha _ ih =>
    have hcur : (encN es).cur st = (encN (e :: es)).cur (st.1 + 1, (s, st.2)) := by
      simp [encN, HSt.cur]
    rw [hcur]
    simp only [encN, ge_iff_le, Nat.not_le.mpr hi, if_false] at ha
    by_cases hl : st.1 = es.length - 1
    · rw [if_pos hl] at ha
      have ha1 : (st.1, (st.2.adv st.1).1) = st' := congrArg Prod.fst ha
      have ha2 : (st.2.adv st.1).2 = true := congrArg Prod.snd ha
      subst ha1
      refine .more _ _ _ ?_ (ih hi)
      simp only [encN, List.length_cons, HSt.adv]
      rw [if_neg (by omega), if_pos (by omega), ha2]
    · rw [if_neg hl] at ha
      have ha1 : (if (st.2.adv st.1).2 then st.1 else st.1 + 1, (st.2.adv st.1).1) = st' :=
        congrArg Prod.fst ha
      subst ha1
      refine .more _ _ _ ?_ (ih (by simp only; split <;> omega))
      simp only [encN, List.length_cons, HSt.adv]
      rw [if_neg (by omega), if_neg (by omega)]
      by_cases hx : (st.2.adv st.1).2 = true
      · simp only [hx, if_true]
      · simp only [hx]; rfl

theorem encN_cons {e : Enc} {es : List Enc} {s : e.S} {t : HSt es} {cs ds : List Bytes}
    (hne : es ≠ []) (h : Yields e s cs) (ht : Yields (encN es) (0, t) ds) :
    Yields (encN (e :: es)) (0, (s, t)) (cs ++ ds) := by
  have hl := List.length_pos_iff.mpr hne
  induction h with
  | last s s' ha =>
    refine .more (e := encN (e :: es)) (0, (s, t)) (1, (s', t)) _ ?_
      (encN_shift s' (st := (0, t)) hl ht)
    simp only [encN, List.length_cons, HSt.adv, ha]
    rw [if_neg (by omega), if_neg (by omega)]
    rfl
  | more s s' cs ha _ ih =>
    refine .more (e := encN (e :: es)) (0, (s, t)) (0, (s', t)) _ ?_ ih
    simp only [encN, List.length_cons, HSt.adv, ha]
    rw [if_neg (by omega), if_neg (by omega)]
    rfl

theorem encN_single {e : Enc} {s : e.S} {cs : List Bytes} (h : Yields e s cs) :
    Yields (encN [e]) (0, (s, ())) cs := by
  induction h with
  | last s s' ha =>
    refine .last (e := encN [e]) (0, (s, ())) (0, (s', ())) ?_
    simp [encN, HSt.adv, ha]
  | more s s' cs ha _ ih =>
    refine .more (e := encN [e]) (0, (s, ())) (0, (s', ())) _ ?_ ih
    simp [encN, HSt.adv, ha]

/-- Chunks of all components. -/
def YieldsAll : {es : List Enc} → HSt es → List (List Bytes) → Prop
  | [], _, css => css = []
  | _ :: _, _, [] => False
  | e :: es, (s, t), cs :: css => Yields e s cs ∧ YieldsAll (es := es) t css

theorem encN_yields : ∀ {es : List Enc} {t : HSt es} {css : List (List Bytes)}, es ≠ [] →
    YieldsAll t css → Yields (encN es) (0, t) css.flatten
  | [], _, _, h, _ => absurd rfl h
  | [e], (s, ()), [cs], _, h => by simpa using encN_single h.1
  | [e], (s, ()), cs :: c :: css, _, h => by
    have h2 := h.2
    simp [YieldsAll] at h2
  | [e], (s, ()), [], _, h => h.elim
  | e :: e' :: es, (s, t), [], _, h => h.elim
  | e :: e' :: es, (s, t), cs :: css, _, h => by
    have := encN_cons (by simp) h.1 (encN_yields (es := e' :: es) (by simp) h.2)
    simpa using this

theorem bytesEnc_yields (b : Bytes) : Yields bytesEnc b [b] :=
  .last (e := bytesEnc) b b rfl

theorem optEnc_none (e : Enc) : Yields (optEnc e) none [[]] := .last (e := optEnc e) none none rfl

theorem optEnc_some {e : Enc} {s : e.S} {cs : List Bytes} (h : Yields e s cs) :
    Yields (optEnc e) (some s) cs := by
  induction h with
  | last s s' ha => exact .last (e := optEnc e) (some s) (some s') (by simp [optEnc, ha])
  | more s s' cs ha _ ih =>
    exact .more (e := optEnc e) (some s) (some s') _ (by simp [optEnc, ha]) ih

/-! ### Sequences of encoders -/

/-- An encoder whose first chunk is empty yields nothing at all. -/
def NoLeadingGap (e : Enc) (s : e.S) : Prop :=
  ∀ cs, Yields e s cs → e.cur s = [] → cs.flatten = []

/-- Items with their chunks. -/
inductive YieldsEach (e : Enc) : List e.S → List (List Bytes) → Prop
  | nil : YieldsEach e [] []
  | cons {s : e.S} {t : List e.S} {cs : List Bytes} {css : List (List Bytes)} :
      Yields e s cs → YieldsEach e t css → YieldsEach e (s :: t) (cs :: css)

theorem iterEnc_cur {e : Enc} (s : e.S) (t : List e.S) : (iterEnc e).cur (some (s, t)) = e.cur s := rfl

/-- Once an item is being encoded, nothing is lost (not even for items with leading empty chunks,
which `advance` steps through). -/
theorem iterEnc_some {e : Enc} : ∀ (t : List e.S) (css : List (List Bytes)), YieldsEach e t css →
    ∀ (s : e.S) (cs : List Bytes), Yields e s cs →
    ∃ ds, Yields (iterEnc e) (some (s, t)) ds ∧ ds.flatten = cs.flatten ++ css.flatten.flatten := by
  intro t
  induction t with
  | nil =>
    intro css hcss s cs h
    cases hcss
    induction h with
    | last s s' ha =>
      exact ⟨_, .last (e := iterEnc e) (some (s, [])) none (by simp [iterEnc, ha, iterNext]),
        by simp [iterEnc_cur]⟩
    | more s s' cs ha _ ih =>
      obtain ⟨ds, h1, h2⟩ := ih
      exact ⟨_, .more (e := iterEnc e) (some (s, [])) (some (s', [])) ds (by simp [iterEnc, ha]) h1,
        by simp [iterEnc_cur, h2]⟩
  | cons s1 t ih =>
    intro css hcss s cs h
    cases hcss with
    | @cons _ _ cs1 css hs1 ht =>
    induction h with
    | more s s' cs ha _ ih2 =>
      obtain ⟨ds, h1, h2⟩ := ih2
      exact ⟨_, .more (e := iterEnc e) (some (s, s1 :: t)) (some (s', s1 :: t)) ds
        (by simp [iterEnc, ha]) h1, by simp [iterEnc_cur, h2]⟩
    | last s s' ha =>
      by_cases hc : e.cur s1 = []
      · cases hs1 with
        | more _ s1' cs1' ha1 hs1' =>
          obtain ⟨ds, h1, h2⟩ := ih _ ht s1' cs1' hs1'
          exact ⟨_, .more (e := iterEnc e) (some (s, s1 :: t)) (some (s1', t)) ds
            (by simp [iterEnc, ha, iterNext, hc, ha1]) h1, by simp [iterEnc_cur, h2, hc]⟩
        | last _ s1' ha1 =>
          -- `iterNext` skips this item: same as finishing `s` with `t` remaining
          obtain ⟨ds, h1, h2⟩ := ih _ ht s _ (.last s s' ha)
          have hadv : (iterEnc e).adv (some (s, s1 :: t)) = (iterEnc e).adv (some (s, t)) := by
            simp [iterEnc, ha, iterNext, hc, ha1]
          have hcur : (iterEnc e).cur (some (s, s1 :: t)) = (iterEnc e).cur (some (s, t)) := rfl
          rcases h1.inv with ⟨x, h3, rfl⟩ | ⟨x, ds', h3, h4, rfl⟩
          · exact ⟨_, .last (e := iterEnc e) (some (s, s1 :: t)) x (by rw [hadv, h3]),
              by rw [hcur, h2]; simp [hc]⟩
          · exact ⟨_, .more (e := iterEnc e) (some (s, s1 :: t)) x ds' (by rw [hadv, h3]) h4,
              by rw [hcur, h2]; simp [hc]⟩
      · obtain ⟨ds, h1, h2⟩ := ih _ ht s1 cs1 hs1
        exact ⟨_, .more (e := iterEnc e) (some (s, s1 :: t)) (some (s1, t)) ds
          (by simp [iterEnc, ha, iterNext, hc]) h1, by simp [iterEnc_cur, h2]⟩

theorem iterNew_yields {e : Enc} : ∀ (items : List e.S) (css : List (List Bytes)),
    YieldsEach e items css → (∀ s ∈ items, NoLeadingGap e s) →
    ∃ ds, Yields (iterEnc e) (iterNew e items) ds ∧ ds.flatten = css.flatten.flatten := by
  intro items
  induction items with
  | nil =>
    intro css h _
    cases h
    exact ⟨_, .last (e := iterEnc e) none none rfl, rfl⟩
  | cons s t ih =>
    intro css h hg
    cases h with
    | @cons _ _ cs css hs ht =>
    by_cases hc : e.cur s = []
    · obtain ⟨ds, h1, h2⟩ := ih _ ht (fun x hx => hg x (List.mem_cons_of_mem _ hx))
      refine ⟨ds, by simpa [iterNew, hc] using h1, ?_⟩
      have := hg s (List.mem_cons_self) cs hs hc
      rw [h2]
      simp [this]
    · obtain ⟨ds, h1, h2⟩ := iterEnc_some t css ht s cs hs
      exact ⟨ds, by simpa [iterNew, hc] using h1, by rw [h2]; simp⟩

theorem prefixedBytes_yields (b : Bytes) :
    Yields prefixedBytesEnc (prefixedBytes b) [csEncode b.length, b] := by
  have := encN_yields (es := [bytesEnc, bytesEnc]) (by simp)
    (t := (csEncode b.length, b, ())) (css := [[csEncode b.length], [b]])
    ⟨bytesEnc_yields (csEncode b.length), bytesEnc_yields b, rfl⟩
  exact this

theorem YieldsEach.length {e : Enc} {items : List e.S} {css : List (List Bytes)}
    (h : YieldsEach e items css) : items.length = css.length := by
  induction h with
  | nil => rfl
  | cons _ _ ih => simp [ih]

theorem prefixedSlice_yields {e : Enc} {items : List e.S} {css : List (List Bytes)}
    (h : YieldsEach e items css) (hg : ∀ s ∈ items, NoLeadingGap e s) :
    ∃ ds, Yields (prefixedSliceEnc e) (prefixedSlice e items) ds ∧
      ds.flatten = csEncode items.length ++ css.flatten.flatten := by
  obtain ⟨ds, h1, h2⟩ := iterNew_yields items css h hg
  have := encN_yields (es := [bytesEnc, iterEnc e]) (by simp)
    (t := (csEncode items.length, iterNew e items, ())) (css := [[csEncode items.length], ds])
    ⟨bytesEnc_yields (csEncode items.length), h1, rfl⟩
  exact ⟨_, this, by simp [h2]⟩

/-! ### Byte iterator -/

/-- Specification: the bytes the iterator has still to deliver. -/
def Remaining (e : Enc) (st : e.S × Nat) (bs : Bytes) : Prop :=
  ∃ cs, Yields e st.1 cs ∧ st.2 ≤ (e.cur st.1).length ∧ bs = cs.flatten.drop st.2

theorem Yields.head {e : Enc} {s : e.S} {cs : List Bytes} (h : Yields e s cs) :
    ∃ tl, cs = e.cur s :: tl := by
  cases h <;> exact ⟨_, rfl⟩

theorem biNext_spec {e : Enc} {s : e.S} {cs : List Bytes} (h : Yields e s cs) :
    ∀ pos, pos ≤ (e.cur s).length → ∃ f, ∀ f' ≥ f,
      match cs.flatten.drop pos with
      | [] => ∃ st', e.biNext f' (s, pos) = some (none, st')
      | b :: bs => ∃ st', e.biNext f' (s, pos) = some (some b, st') ∧ Remaining e st' bs := by
  have inside : ∀ (s : e.S) (cs : List Bytes), Yields e s cs → ∀ pos, pos < (e.cur s).length →
      ∀ f' ≥ 1, match cs.flatten.drop pos with
      | [] => ∃ st', e.biNext f' (s, pos) = some (none, st')
      | b :: bs => ∃ st', e.biNext f' (s, pos) = some (some b, st') ∧ Remaining e st' bs := by
    intro s cs h pos hp f' hf
    obtain ⟨f', rfl⟩ : ∃ m, f' = m + 1 := ⟨f' - 1, by omega⟩
    obtain ⟨tl, rfl⟩ := h.head
    have hd : (e.cur s :: tl).flatten.drop pos = (e.cur s)[pos] :: (e.cur s :: tl).flatten.drop (pos + 1) := by
      rw [List.drop_eq_getElem_cons (by simp; omega)]
      congr 1
      simp only [List.flatten_cons]
      rw [List.getElem_append_left hp]
    rw [hd]
    refine ⟨(s, pos + 1), ?_, _, h, Nat.succ_le_of_lt hp, rfl⟩
    simp [Enc.biNext, List.getElem?_eq_getElem hp]
  induction h with
  | last s s' ha =>
    intro pos hp
    by_cases hlt : pos < (e.cur s).length
    · exact ⟨1, inside s _ (.last s s' ha) pos hlt⟩
    · refine ⟨1, fun f' hf => ?_⟩
      obtain ⟨f', rfl⟩ : ∃ m, f' = m + 1 := ⟨f' - 1, by omega⟩
      have hn : (e.cur s)[pos]? = none := by simp; omega
      have : [e.cur s].flatten.drop pos = [] := by simp; omega
      rw [this]
      exact ⟨(s', pos), by simp [Enc.biNext, hn, ha]⟩
  | more s s' cs ha h' ih =>
    intro pos hp
    by_cases hlt : pos < (e.cur s).length
    · exact ⟨1, inside s _ (.more s s' cs ha h') pos hlt⟩
    · obtain ⟨f, hf⟩ := ih 0 (by omega)
      refine ⟨f + 1, fun f' hf' => ?_⟩
      obtain ⟨f', rfl⟩ : ∃ m, f' = m + 1 := ⟨f' - 1, by omega⟩
      have hn : (e.cur s)[pos]? = none := by simp; omega
      have hd : (e.cur s :: cs).flatten.drop pos = cs.flatten.drop 0 := by
        have : pos = (e.cur s).length := by omega
        rw [this]; simp
      rw [hd]
      have := hf f' (by omega)
      simpa [Enc.biNext, hn, ha] using this

theorem biNthLoop_spec {e : Enc} {s : e.S} {cs : List Bytes} (h : Yields e s cs) (pos0 : Nat) :
    ∀ n, ∃ f, ∀ f' ≥ f,
      match cs.flatten.drop n with
      | [] => ∃ st', e.biNthLoop pos0 f' s n = some (none, st')
      | b :: bs => ∃ st', e.biNthLoop pos0 f' s n = some (some b, st') ∧ Remaining e st' bs := by
  have inside : ∀ (s : e.S) (cs : List Bytes), Yields e s cs → ∀ n, n < (e.cur s).length →
      ∀ f' ≥ 1, match cs.flatten.drop n with
      | [] => ∃ st', e.biNthLoop pos0 f' s n = some (none, st')
      | b :: bs => ∃ st', e.biNthLoop pos0 f' s n = some (some b, st') ∧ Remaining e st' bs := by
    intro s cs h n hp f' hf
    obtain ⟨f', rfl⟩ : ∃ m, f' = m + 1 := ⟨f' - 1, by omega⟩
    obtain ⟨tl, rfl⟩ := h.head
    have hd : (e.cur s :: tl).flatten.drop n = (e.cur s)[n] :: (e.cur s :: tl).flatten.drop (n + 1) := by
      rw [List.drop_eq_getElem_cons (by simp; omega)]
      congr 1
      simp only [List.flatten_cons]
      rw [List.getElem_append_left hp]
    rw [hd]
    refine ⟨(s, n + 1), ?_, _, h, Nat.succ_le_of_lt hp, rfl⟩
    simp [Enc.biNthLoop, List.getElem?_eq_getElem hp]
  induction h with
  | last s s' ha =>
    intro n
    by_cases hlt : n < (e.cur s).length
    · exact ⟨1, inside s _ (.last s s' ha) n hlt⟩
    · refine ⟨1, fun f' hf => ?_⟩
      obtain ⟨f', rfl⟩ : ∃ m, f' = m + 1 := ⟨f' - 1, by omega⟩
      have hn : (e.cur s)[n]? = none := by simp; omega
      have : [e.cur s].flatten.drop n = [] := by simp; omega
      rw [this]
      exact ⟨(s', pos0), by simp [Enc.biNthLoop, hn, ha]⟩
  | more s s' cs ha h' ih =>
    intro n
    by_cases hlt : n < (e.cur s).length
    · exact ⟨1, inside s _ (.more s s' cs ha h') n hlt⟩
    · obtain ⟨f, hf⟩ := ih (n - (e.cur s).length)
      refine ⟨f + 1, fun f' hf' => ?_⟩
      obtain ⟨f', rfl⟩ : ∃ m, f' = m + 1 := ⟨f' - 1, by omega⟩
      have hn : (e.cur s)[n]? = none := by simp; omega
      have hd : (e.cur s :: cs).flatten.drop n = cs.flatten.drop (n - (e.cur s).length) := by
        rw [List.flatten_cons, List.drop_append, List.drop_eq_nil_of_le (by omega)]; simp
      rw [hd]
      have := hf f' (by omega)
      simpa [Enc.biNthLoop, hn, ha] using this

theorem biNth_spec {e : Enc} {st : e.S × Nat} {bs : Bytes} (h : Remaining e st bs) (n : Nat) :
    ∃ f, ∀ f' ≥ f, match bs.drop n with
      | [] => ∃ st', e.biNth f' st n = some (none, st')
      | b :: bs' => ∃ st', e.biNth f' st n = some (some b, st') ∧ Remaining e st' bs' := by
  obtain ⟨s, pos⟩ := st
  obtain ⟨cs, hy, hp, rfl⟩ := h
  simp only at hy hp
  rw [List.drop_drop]
  by_cases hlt : pos + n < (e.cur s).length
  · refine ⟨0, fun f' _ => ?_⟩
    obtain ⟨tl, rfl⟩ := hy.head
    have hd : (e.cur s :: tl).flatten.drop (pos + n) =
        (e.cur s)[pos + n] :: (e.cur s :: tl).flatten.drop (pos + n + 1) := by
      rw [List.drop_eq_getElem_cons (by simp; omega)]
      congr 1
      simp only [List.flatten_cons]
      rw [List.getElem_append_left hlt]
    simp only
    rw [hd]
    refine ⟨(s, pos + n + 1), ?_, _, hy, Nat.succ_le_of_lt hlt, rfl⟩
    simp [Enc.biNth, List.getElem?_eq_getElem hlt]
  · have hn : (e.cur s)[pos + n]? = none := by simp; omega
    cases hy with
    | last _ s' ha =>
      refine ⟨0, fun f' _ => ?_⟩
      have : [e.cur s].flatten.drop (pos + n) = [] := by simp; omega
      simp only
      rw [this]
      exact ⟨(s', pos), by simp [Enc.biNth, hn, ha]⟩
    | more _ s' cs' ha h' =>
      obtain ⟨f, hf⟩ := biNthLoop_spec h' pos (n - ((e.cur s).length - pos))
      refine ⟨f, fun f' hf' => ?_⟩
      have hd : (e.cur s :: cs').flatten.drop (pos + n) =
          cs'.flatten.drop (n - ((e.cur s).length - pos)) := by
        rw [List.flatten_cons, List.drop_append, List.drop_eq_nil_of_le (by omega)]
        simp; congr 1; omega
      simp only
      rw [hd]
      have := hf f' hf'
      simpa [Enc.biNth, hn, ha] using this

theorem biSkip_spec {e : Enc} {s : e.S} {cs : List Bytes} (h : Yields e s cs) (pos0 : Nat) :
    ∃ f, ∀ f' ≥ f, ∃ ch st', e.biSkip pos0 f' s = some (ch, st') ∧
      (ch = [] → cs.tail.flatten = []) ∧ (∃ r, cs.tail.flatten = ch ++ r) ∧
      (ch ≠ [] → Remaining e st' cs.tail.flatten) := by
  induction h with
  | last s s' ha =>
    refine ⟨1, fun f' hf => ?_⟩
    obtain ⟨f', rfl⟩ : ∃ m, f' = m + 1 := ⟨f' - 1, by omega⟩
    exact ⟨[], (s', pos0), by simp [Enc.biSkip, ha], by simp, by simp, by simp⟩
  | more s s' cs ha h' ih =>
    obtain ⟨f, hf⟩ := ih
    refine ⟨f + 1, fun f' hf' => ?_⟩
    obtain ⟨f', rfl⟩ : ∃ m, f' = m + 1 := ⟨f' - 1, by omega⟩
    obtain ⟨tl, rfl⟩ := h'.head
    by_cases hc : e.cur s' = []
    · obtain ⟨ch, st', h1, h2, h3, h4⟩ := hf f' (by omega)
      refine ⟨ch, st', by simp [Enc.biSkip, ha, hc, h1], ?_, ?_, ?_⟩
      · simpa [hc] using h2
      · simpa [hc] using h3
      · simpa [hc] using h4
    · refine ⟨e.cur s', (s', 0), by simp [Enc.biSkip, ha, hc], by simp [hc], ⟨tl.flatten, by simp⟩,
        fun _ => ⟨_, h', by simp, by simp⟩⟩

end Btc
