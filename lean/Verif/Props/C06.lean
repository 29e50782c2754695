import Verif.Codec.EncoderLaws
/-!
# C06: encoders yield the concatenation of their parts, with exact lengths
-/
namespace Btc

/-- `drain_to_vec` terminates on the encoder state `s` and returns `bs`. -/
def Drains (e : Enc) (s : e.S) (bs : Bytes) : Prop := ∃ n, e.drain n s = some bs

theorem drains_iff {e : Enc} {s : e.S} {bs : Bytes} :
    Drains e s bs ↔ ∃ cs, Yields e s cs ∧ cs.flatten = bs := by
  constructor
  · rintro ⟨n, h⟩
    induction n generalizing s bs with
    | zero => simp [Enc.drain] at h
    | succ n ih =>
      simp only [Enc.drain] at h
      split at h
      · rename_i s' ha
        cases h
        exact ⟨_, .last s s' ha, by simp⟩
      · rename_i s' ha
        simp only [Option.map_eq_some_iff] at h
        obtain ⟨bs', h1, rfl⟩ := h
        obtain ⟨cs, h2, rfl⟩ := ih h1
        exact ⟨_, .more s s' cs ha h2, by simp⟩
  · rintro ⟨cs, h, rfl⟩
    exact ⟨cs.length, h.drain _ (Nat.le_refl _)⟩

/-- The drained bytes are determined by the encoder. -/
theorem Drains.det {e : Enc} {s : e.S} {a b : Bytes} (ha : Drains e s a) (hb : Drains e s b) :
    a = b := by
  obtain ⟨cs, h1, rfl⟩ := drains_iff.mp ha
  obtain ⟨ds, h2, rfl⟩ := drains_iff.mp hb
  rw [h1.det h2]

/-- Each component of a tuple of encoders drains to the corresponding byte string. -/
def DrainsAll : {es : List Enc} → HSt es → List Bytes → Prop
  | [], _, bss => bss = []
  | _ :: _, _, [] => False
  | e :: es, (s, t), bs :: bss => Drains e s bs ∧ DrainsAll (es := es) t bss

theorem drainsAll_iff : ∀ {es : List Enc} {t : HSt es} {bss : List Bytes}, DrainsAll t bss →
    ∃ css, YieldsAll t css ∧ css.map List.flatten = bss
  | [], _, bss, h => ⟨[], rfl, by simpa [DrainsAll] using h.symm⟩
  | _ :: _, _, [], h => h.elim
  | e :: es, (s, t), bs :: bss, h => by
    obtain ⟨cs, h1, rfl⟩ := drains_iff.mp h.1
    obtain ⟨css, h2, rfl⟩ := drainsAll_iff h.2
    exact ⟨cs :: css, ⟨h1, h2⟩, rfl⟩

/-- A tuple encoder (`Encoder2/3/4/6`, and any other width) yields its components' bytes in order. -/
theorem C06_tuple {es : List Enc} (hne : es ≠ []) (t : HSt es) (bss : List Bytes)
    (h : DrainsAll t bss) : Drains (encN es) (0, t) bss.flatten := by
  obtain ⟨css, h1, rfl⟩ := drainsAll_iff h
  refine drains_iff.mpr ⟨_, encN_yields hne h1, ?_⟩
  induction css with
  | nil => rfl
  | cons c css ih => simp [List.flatten_append, List.flatten_flatten]

theorem C06_bytes (b : Bytes) : Drains bytesEnc b b :=
  drains_iff.mpr ⟨_, bytesEnc_yields b, by simp⟩

theorem C06_option {e : Enc} : Drains (optEnc e) none [] ∧
    ∀ (s : e.S) (bs : Bytes), Drains e s bs → Drains (optEnc e) (some s) bs := by
  refine ⟨drains_iff.mpr ⟨_, optEnc_none e, by simp⟩, fun s bs h => ?_⟩
  obtain ⟨cs, h1, h2⟩ := drains_iff.mp h
  exact drains_iff.mpr ⟨cs, optEnc_some h1, h2⟩

theorem C06_prefixed_bytes (b : Bytes) :
    Drains prefixedBytesEnc (prefixedBytes b) (csEncode b.length ++ b) :=
  drains_iff.mpr ⟨_, prefixedBytes_yields b, by simp⟩

example : Drains (encN [bytesEnc, optEnc bytesEnc, bytesEnc]) (0, [1, 2], none, [], ()) [1, 2] :=
  C06_tuple (es := [bytesEnc, optEnc bytesEnc, bytesEnc]) (by simp) ([1, 2], none, [], ())
    [[1, 2], [], []] ⟨C06_bytes _, C06_option.1, C06_bytes _, rfl⟩

/-- Items and what they drain to. -/
inductive DrainsEach (e : Enc) : List e.S → List Bytes → Prop
  | nil : DrainsEach e [] []
  | cons {s : e.S} {t : List e.S} {bs : Bytes} {bss : List Bytes} :
      Drains e s bs → DrainsEach e t bss → DrainsEach e (s :: t) (bs :: bss)

theorem drainsEach_iff {e : Enc} {t : List e.S} {bss : List Bytes} (h : DrainsEach e t bss) :
    ∃ css, YieldsEach e t css ∧ css.map List.flatten = bss := by
  induction h with
  | nil => exact ⟨[], .nil, rfl⟩
  | cons h1 _ ih =>
    obtain ⟨cs, h2, rfl⟩ := drains_iff.mp h1
    obtain ⟨css, h3, rfl⟩ := ih
    exact ⟨cs :: css, .cons h2 h3, rfl⟩

/-- `current_chunk` of a fresh encoder is only empty if the encoder is empty.  This is what the
documentation of `current_chunk` asks of implementors ("should avoid returning empty slices unless
the encoded type is truly empty"). -/
def GoodStart (e : Enc) (s : e.S) : Prop := ∀ bs, Drains e s bs → e.cur s = [] → bs = []

theorem GoodStart.noGap {e : Enc} {s : e.S} (h : GoodStart e s) : NoLeadingGap e s :=
  fun cs hy hc => h _ (drains_iff.mpr ⟨cs, hy, rfl⟩) hc

/-- Full statement (false, see `C06_iter_loses_bytes`): a sequence encoder yields the concatenation
of all items.  Proved for items whose first chunk is empty only when the whole item is. -/
theorem C06_iter_partial {e : Enc} (items : List e.S) (bss : List Bytes)
    (h : DrainsEach e items bss) (hg : ∀ s ∈ items, GoodStart e s) :
    Drains (iterEnc e) (iterNew e items) bss.flatten := by
  obtain ⟨css, h1, rfl⟩ := drainsEach_iff h
  obtain ⟨ds, h2, h3⟩ := iterNew_yields items css h1 (fun s hs => (hg s hs).noGap)
  exact drains_iff.mpr ⟨ds, h2, by rw [h3, List.flatten_flatten]⟩

theorem DrainsEach.length {e : Enc} {t : List e.S} {bss : List Bytes} (h : DrainsEach e t bss) :
    t.length = bss.length := by
  induction h with
  | nil => rfl
  | cons _ _ ih => simp [ih]

/-- A length-prefixed list: count, then the items. -/
theorem C06_prefixed_slice_partial {e : Enc} (items : List e.S) (bss : List Bytes)
    (h : DrainsEach e items bss) (hg : ∀ s ∈ items, GoodStart e s) :
    Drains (prefixedSliceEnc e) (prefixedSlice e items) (csEncode items.length ++ bss.flatten) := by
  have := C06_tuple (es := [bytesEnc, iterEnc e]) (by simp)
    (csEncode items.length, iterNew e items, ()) [csEncode items.length, bss.flatten]
    ⟨C06_bytes _, C06_iter_partial items bss h hg, rfl⟩
  rw [show [csEncode items.length, bss.flatten].flatten = csEncode items.length ++ bss.flatten by
    simp] at this
  exact this

example : Drains (prefixedSliceEnc prefixedBytesEnc)
    (prefixedSlice prefixedBytesEnc [prefixedBytes [9], prefixedBytes []]) [2, 1, 9, 0] :=
  C06_prefixed_slice_partial [prefixedBytes [9], prefixedBytes []] [[1, 9], [0]]
    (.cons (C06_prefixed_bytes [9]) (.cons (C06_prefixed_bytes []) .nil))
    (by
      intro s hs bs _ hc
      simp at hs
      rcases hs with rfl | rfl <;> exact absurd hc (by decide))

/-- The full statement fails: an item whose first component is empty but whose second is not is
dropped at the start of a sequence (`IterEncoder::new`, iter.rs 71-78). -/
theorem C06_iter_loses_bytes :
    ∃ (e : Enc) (item : e.S), Drains e item [7] ∧
      Drains (iterEnc e) (iterNew e [item]) [] ∧ ¬ Drains (iterEnc e) (iterNew e [item]) [7] := by
  refine ⟨encN [bytesEnc, bytesEnc], (0, [], [7], ()), ?_, ?_, ?_⟩
  · exact C06_tuple (es := [bytesEnc, bytesEnc]) (by simp) ([], [7], ()) [[], [7]]
      ⟨C06_bytes _, C06_bytes _, rfl⟩
  · exact ⟨1, rfl⟩
  · intro h
    have := h.det ⟨1, rfl⟩
    cases this

/-! ## Lengths -/

/-- `len()` of this state is the number of bytes it will yield. -/
def ExactLen (e : Enc) (len : e.S → Nat) (s : e.S) : Prop := ∀ bs, Drains e s bs → len s = bs.length

/-- All components report exact lengths. -/
def ExactAll : {es : List Enc} → HLen es → HSt es → Prop
  | [], _, _ => True
  | e :: es, (l, ls), (s, t) => (∃ bs, Drains e s bs ∧ l s = bs.length) ∧ ExactAll (es := es) ls t

theorem exactAll_sum : ∀ {es : List Enc} {ls : HLen es} {t : HSt es}, ExactAll ls t →
    ∃ bss, DrainsAll t bss ∧ ls.sum t = bss.flatten.length
  | [], _, _, _ => ⟨[], rfl, rfl⟩
  | e :: es, (l, ls), (s, t), h => by
    obtain ⟨⟨bs, h1, h2⟩, h3⟩ := h
    obtain ⟨bss, h4, h5⟩ := exactAll_sum h3
    exact ⟨bs :: bss, ⟨h1, h4⟩, by simp only [HLen.sum, h2, h5]; simp⟩

/-- `len` of a fresh tuple encoder is exact when its components' are. -/
theorem C06_len_fresh {es : List Enc} (hne : es ≠ []) (ls : HLen es) (t : HSt es)
    (h : ExactAll ls t) : ExactLen (encN es) (encNLen ls) (0, t) := by
  obtain ⟨bss, h1, h2⟩ := exactAll_sum h
  intro bs hb
  rw [hb.det (C06_tuple hne t bss h1)]
  exact h2

theorem C06_len_bytes (b : Bytes) : ExactLen bytesEnc bytesLen b := by
  intro bs h
  rw [h.det (C06_bytes b)]; rfl

theorem C06_len_option {e : Enc} (l : e.S → Nat) : ExactLen (optEnc e) (optLen l) none ∧
    ∀ s bs, Drains e s bs → l s = bs.length → ExactLen (optEnc e) (optLen l) (some s) := by
  constructor
  · intro bs h
    rw [h.det C06_option.1]; rfl
  · intro s bs h hl bs' h'
    rw [h'.det (C06_option.2 s bs h)]
    exact hl

example : ExactLen (encN [bytesEnc, bytesEnc]) (encNLen (bytesLen, bytesLen, ())) (0, [1, 2], [3], ()) :=
  C06_len_fresh (es := [bytesEnc, bytesEnc]) (by simp) (bytesLen, bytesLen, ()) ([1, 2], [3], ())
    ⟨⟨_, C06_bytes [1, 2], rfl⟩, ⟨_, C06_bytes [3], rfl⟩, trivial⟩

/-- "The number of bytes remaining" (doc of `ExactSizeEncoder::len`) is *wrong* for a tuple encoder
after the first `advance`: finished components are still counted (encoders.rs 246-248). -/
theorem C06_len_midstream_wrong :
    ∃ s s', (encN [bytesEnc, bytesEnc]).adv s = (s', true) ∧
      ExactLen (encN [bytesEnc, bytesEnc]) (encNLen (bytesLen, bytesLen, ())) s ∧
      ¬ ExactLen (encN [bytesEnc, bytesEnc]) (encNLen (bytesLen, bytesLen, ())) s' := by
  refine ⟨(0, [1, 2], [3], ()), (1, [1, 2], [3], ()), rfl, ?_, ?_⟩
  · exact C06_len_fresh (es := [bytesEnc, bytesEnc]) (by simp) (bytesLen, bytesLen, ())
      ([1, 2], [3], ()) ⟨⟨_, C06_bytes [1, 2], rfl⟩, ⟨_, C06_bytes [3], rfl⟩, trivial⟩
  · intro h
    have := h [3] ⟨1, rfl⟩
    simp [encNLen, HLen.sum, bytesLen] at this

/-! ## The byte iterator -/

/-- Collecting the byte iterator of a fresh encoder yields what draining yields. -/
theorem C06_byte_iter {e : Enc} {s : e.S} {bs : Bytes} (h : Drains e s bs) :
    ∃ f, ∀ f' ≥ f, e.biCollect f' f' (s, 0) = some bs := by
  have key : ∀ (bs : Bytes) (st : e.S × Nat), Remaining e st bs →
      ∃ f, ∀ inner ≥ f, ∀ f' ≥ f, e.biCollect inner f' st = some bs := by
    intro bs
    induction bs with
    | nil =>
      rintro ⟨s, pos⟩ ⟨cs, hy, hp, hb⟩
      obtain ⟨f, hf⟩ := biNext_spec hy pos hp
      refine ⟨f + 1, fun inner hi f' hf' => ?_⟩
      have := hf inner (by omega)
      rw [← hb] at this
      obtain ⟨st', h1⟩ := this
      obtain ⟨f', rfl⟩ : ∃ m, f' = m + 1 := ⟨f' - 1, by omega⟩
      simp [Enc.biCollect, h1]
    | cons b bs ih =>
      rintro ⟨s, pos⟩ ⟨cs, hy, hp, hb⟩
      obtain ⟨f, hf⟩ := biNext_spec hy pos hp
      have h0 := hf f (Nat.le_refl _)
      rw [← hb] at h0
      obtain ⟨st0, h1, h2⟩ := h0
      obtain ⟨g, hg⟩ := ih st0 h2
      refine ⟨f + g + 1, fun inner hi f' hf' => ?_⟩
      obtain ⟨f', rfl⟩ : ∃ m, f' = m + 1 := ⟨f' - 1, by omega⟩
      -- fuel does not change the result of `biNext`
      have mono : ∀ (n m : Nat) (st : e.S × Nat) r, n ≤ m → e.biNext n st = some r →
          e.biNext m st = some r := by
        intro n
        induction n with
        | zero => intro m st r _ h; simp [Enc.biNext] at h
        | succ n ihn =>
          intro m st r hm h
          obtain ⟨m, rfl⟩ : ∃ k, m = k + 1 := ⟨m - 1, by omega⟩
          obtain ⟨s, pos⟩ := st
          simp only [Enc.biNext] at h ⊢
          split
          · rename_i b hb; simp only [hb] at h; exact h
          · rename_i hb
            simp only [hb] at h
            split
            · rename_i ha; simp only [ha] at h; exact h
            · rename_i ha; simp only [ha] at h; exact ihn m _ r (by omega) h
      have h3 := mono f inner (s, pos) _ (by omega) h1
      simp only [Enc.biCollect, h3]
      rw [hg inner (by omega) f' (by omega)]
      rfl
  obtain ⟨cs, h1, rfl⟩ := drains_iff.mp h
  obtain ⟨f, hf⟩ := key cs.flatten (s, 0) ⟨cs, h1, by simp, by simp⟩
  exact ⟨f, fun f' hf' => hf f' hf' f' hf'⟩

/-- `nth(n)` returns the `n`-th remaining byte and leaves the bytes after it; it returns `None`
exactly when fewer bytes remain. -/
theorem C06_nth {e : Enc} {st : e.S × Nat} {bs : Bytes} (h : Remaining e st bs) (n : Nat) :
    ∃ f, ∀ f' ≥ f, ∃ st', e.biNth f' st n = some (bs[n]?, st') ∧
      (n < bs.length → Remaining e st' (bs.drop (n + 1))) := by
  obtain ⟨f, hf⟩ := biNth_spec h n
  refine ⟨f, fun f' hf' => ?_⟩
  have := hf f' hf'
  by_cases hn : n < bs.length
  · rw [List.drop_eq_getElem_cons hn] at this
    obtain ⟨st', h1, h2⟩ := this
    exact ⟨st', by rw [h1, List.getElem?_eq_getElem hn], fun _ => h2⟩
  · rw [List.drop_eq_nil_of_le (by omega)] at this
    obtain ⟨st', h1⟩ := this
    exact ⟨st', by rw [h1, List.getElem?_eq_none (by omega)], fun h => absurd h hn⟩

/-- `peek_chunk` shows a prefix of the remaining bytes, empty only if none remain, and consumes
nothing. -/
theorem C06_peek {e : Enc} {st : e.S × Nat} {bs : Bytes} (h : Remaining e st bs) :
    ∃ f, ∀ f' ≥ f, ∃ ch st', e.biPeek f' st = some (ch, st') ∧ (∃ r, bs = ch ++ r) ∧
      (ch = [] → bs = []) ∧ (bs ≠ [] → Remaining e st' bs) := by
  obtain ⟨s, pos⟩ := st
  obtain ⟨cs, hy, hp, rfl⟩ := h
  obtain ⟨tl, rfl⟩ := hy.head
  by_cases hlt : pos < (e.cur s).length
  · refine ⟨0, fun f' _ => ⟨(e.cur s).drop pos, (s, pos), by simp [Enc.biPeek, hlt], ?_, ?_, ?_⟩⟩
    · refine ⟨tl.flatten, ?_⟩
      rw [List.flatten_cons, List.drop_append_of_le_length (by simpa using hp)]
    · intro h0
      have := congrArg List.length h0
      simp at this
      omega
    · intro _
      exact ⟨_, hy, hp, rfl⟩
  · obtain ⟨f, hf⟩ := biSkip_spec hy pos
    refine ⟨f, fun f' hf' => ?_⟩
    obtain ⟨ch, st', h1, h2, h3, h4⟩ := hf f' hf'
    have hd : (e.cur s :: tl).flatten.drop pos = tl.flatten := by
      have : pos = (e.cur s).length := by simp at hp; omega
      simp [this]
    refine ⟨ch, st', by simp [Enc.biPeek, hlt, h1], ?_, ?_, ?_⟩
    · rw [hd]; exact h3
    · rw [hd]; exact h2
    · intro hne
      rw [hd] at hne ⊢
      apply h4
      intro h0
      exact hne (by simpa using h2 h0)

example : ∃ f, ∀ f' ≥ f, prefixedBytesEnc.biCollect f' f' (prefixedBytes [5, 6], 0) = some [2, 5, 6] :=
  C06_byte_iter (C06_prefixed_bytes [5, 6])

end Btc
