import Verif.Codec.Alloc
/-!
# C07: memory allocated while decoding is bounded by the data supplied
-/
namespace Btc

/-- Histories of a byte-vector decoder: `Reach s n` says state `s` is reached by pushes (of any
chunking, the caller may re-offer unconsumed bytes or not) that consumed `n` bytes in total. -/
inductive BvReach (lim : Nat) : BvState → Nat → Prop
  | init : BvReach lim (byteVecDec lim).init 0
  | push {s : BvState} {n : Nat} (bs : Bytes) {s' : BvState} {rest : Bytes} {st : Status} :
      BvReach lim s n → (byteVecDec lim).push s bs = .ok (s', rest, st) →
      BvReach lim s' (n + (bs.length - rest.length))

theorem csPush_rest_le (pb bs : Bytes) : (csPush pb bs).2.1.length ≤ bs.length := by
  cases bs with
  | nil => simp [csPush]
  | cons b bs =>
    by_cases hp : pb = []
    · simp [csPush, hp]; omega
    · obtain ⟨b0, t, rfl⟩ := List.exists_cons_of_ne_nil hp
      simp [csPush]

/-- The claimed length never matters: however large the length prefix, the buffer's capacity is at
most 1,000,000 bytes more than the number of bytes consumed so far. -/
theorem C07_bytes (lim : Nat) (s : BvState) (n : Nat) (h : BvReach lim s n) :
    s.buffer.length ≤ n ∧ s.buffer.length ≤ s.cap ∧ s.cap ≤ n + 1000000 := by
  have key : s.buffer.length ≤ n ∧ s.buffer.length ≤ s.cap ∧ s.cap ≤ s.buffer.length + MAX_VECTOR_ALLOCATE ∧
      (s.pre ≠ none → s.buffer = [] ∧ s.cap = 0) := by
    induction h with
    | init => exact ⟨by simp [byteVecDec], by simp [byteVecDec], by simp [byteVecDec],
        by simp [byteVecDec]⟩
    | @push s n bs s' rest st _ hp ih =>
      obtain ⟨i1, i2, i3, i4⟩ := ih
      have body : ∀ (t : BvState) (cs : Bytes), cs.length ≤ bs.length → t.pre = none →
          t.buffer = s.buffer → t.cap = s.cap → bvBody t cs = (s', rest, st) →
          s'.buffer.length ≤ n + (bs.length - rest.length) ∧ s'.buffer.length ≤ s'.cap ∧
          s'.cap ≤ s'.buffer.length + MAX_VECTOR_ALLOCATE ∧ (s'.pre ≠ none → s'.buffer = [] ∧ s'.cap = 0) := by
        intro t cs hcs hpre hb hc hbody
        simp only [bvBody, Prod.mk.injEq] at hbody
        obtain ⟨e1, e2, _⟩ := hbody
        rw [← hb] at i1 i2 i3
        rw [← hc] at i2 i3
        have hr : t.buffer.length ≤ (bvReserve t).cap ∧ (bvReserve t).buffer = t.buffer ∧
            (bvReserve t).cap ≤ t.buffer.length + MAX_VECTOR_ALLOCATE ∧ (bvReserve t).pre = none := by
          unfold bvReserve
          split
          · exact ⟨by simp, rfl, by simp; omega, hpre⟩
          · exact ⟨i2, rfl, i3, hpre⟩
        obtain ⟨r1, r2, r3, r4⟩ := hr
        subst e1
        subst e2
        simp only [List.length_append, List.length_take, List.length_drop, r2]
        refine ⟨?_, ?_, ?_, ?_⟩
        · omega
        · omega
        · omega
        · intro h; exact absurd r4 h
      simp only [byteVecDec] at hp
      split at hp
      · rename_i pb hpre
        obtain ⟨hb, hc⟩ := i4 (by rw [hpre]; simp)
        split at hp
        · cases hp
          refine ⟨by rw [hb]; simp, by rw [hb]; simp, by rw [hc]; simp, fun _ => ⟨hb, hc⟩⟩
        · rename_i pb' rest' hcs
          split at hp
          · cases hp
          · rename_i m hend
            simp only [Except.ok.injEq] at hp
            have hl : rest'.length ≤ bs.length := by
              have := csPush_rest_le pb bs
              rw [hcs] at this
              exact this
            exact body ⟨none, s.buffer, m, s.cap⟩ rest' hl rfl rfl rfl hp
      · rename_i hpre
        simp only [Except.ok.injEq] at hp
        exact body s bs (Nat.le_refl _) hpre rfl rfl hp
  have hM : MAX_VECTOR_ALLOCATE = 1000000 := rfl
  exact ⟨key.1, key.2.1, by omega⟩

/-- A prefix claiming 4,000,000 bytes followed by two bytes of data: capacity 1,000,000 after 7
bytes. -/
example : ∃ s, BvReach 4000000 s 7 ∧ s.expected = 4000000 ∧ s.cap = 1000000 := by
  exact ⟨⟨none, [1, 2], 4000000, 1000000⟩,
    .push (lim := 4000000) [0xFE, 0x00, 0x09, 0x3D, 0x00, 1, 2] (rest := []) (st := .needsMore)
      .init (by rfl), rfl, rfl⟩

/-- Histories of a vector decoder for `count` items occupying `sz` bytes each; `obs` is the list of
all (length, capacity) pairs the item vector went through. -/
inductive EvReach {α : Type} (d : Dec α) (sz count : Nat) : EvMem d.S α → Nat → Prop
  | init : EvReach d sz count ⟨(exactVecDec d count).init, []⟩ 0
  | push {m : EvMem d.S α} {n : Nat} (bs : Bytes) {s' : EvState d.S α} {rest : Bytes}
      {obs : List MemObs} :
      EvReach d sz count m n → evPushC d sz m bs = (.ok (s', rest, .needsMore), obs) →
      EvReach d sz count ⟨s', obs⟩ (n + (bs.length - rest.length))

theorem EvReach.good {α : Type} {d : Dec α} {inv : d.S → Prop} {den : d.S → Parser α}
    (L : LawfulWith d inv den) {sz count : Nat} (hs : sz ≤ MAX_VECTOR_ALLOCATE)
    {m : EvMem d.S α} {n : Nat} (h : EvReach d sz count m n) :
    (∀ s, m.st.decoder = some s → inv s) ∧ MemGood sz ⟨m.st.buffer.length, m.cap⟩ ∧
      (∀ x ∈ m.obs, MemGood sz x ∧ x.len ≤ m.st.buffer.length) ∧ m.st.buffer.length ≤ n := by
  induction h with
  | init =>
    refine ⟨by simp [exactVecDec], ?_, by simp, by simp [exactVecDec]⟩
    exact ⟨by simp [exactVecDec], by simp [exactVecDec, EvMem.cap]⟩
  | @push m n bs s' rest obs _ hp ih =>
    obtain ⟨i1, i2, i3, i4⟩ := ih
    unfold evPushC at hp
    have hg := evLoopC_good L hs m.st.left m.st.buffer m.cap m.obs m.st.decoder bs n i1 i2 i3 i4
    rw [hp] at hg
    obtain ⟨g1, g2⟩ := hg
    obtain ⟨h1, h2, h3, h5, c, t, h4⟩ := g2 s' rest .needsMore rfl
    simp only at h4
    subst h4
    refine ⟨h3 rfl, ?_, fun x hx => ⟨(g1 x hx).1, h5 x hx⟩, by simp; omega⟩
    exact (g1 _ (List.mem_cons_self)).1

/-- However many items are announced: at every moment of every decoding (also during a push that
ends in an error) the item vector's allocation is at most 1,000,000 bytes beyond the items already
decoded, and each decoded item has consumed at least one byte of input.

The size `sz` of the item type in memory must not exceed 1,000,000 bytes. -/
theorem C07_items {α : Type} (d : Dec α) (P : Parser α) (hd : Lawful d P) (sz count : Nat)
    (hs : sz ≤ 1000000) (m : EvMem d.S α) (n : Nat) (h : EvReach d sz count m n) (bs : Bytes) :
    ∀ x ∈ (evPushC d sz m bs).2,
      x.cap * sz ≤ x.len * sz + 1000000 ∧ x.len ≤ n + bs.length := by
  obtain ⟨inv, den, L, _⟩ := hd
  obtain ⟨i1, i2, i3, i4⟩ := h.good L hs
  have := (evLoopC_good L hs m.st.left m.st.buffer m.cap m.obs m.st.decoder bs n i1 i2 i3 i4).1
  intro x hx
  exact ⟨(this x hx).1.2, (this x hx).2⟩

/-- The capacity-tracking decoder is the decoder. -/
theorem C07_items_faithful {α : Type} (d : Dec α) (sz count : Nat) (m : EvMem d.S α) (bs : Bytes) :
    (evPushC d sz m bs).1 = (exactVecDec d count).push m.st bs :=
  evLoopC_erase d sz _ _ _ _ _ _

/-- 4,000,000 announced items of 8 bytes, one and a half of 4 bytes each received: the capacity is
125,000 items. -/
example : ∃ (m : EvMem (arrayDec 4).S Bytes), EvReach (arrayDec 4) 8 4000000 m 6 ∧ m.cap = 125000 ∧
    m.st.buffer = [[1, 2, 3, 4]] := by
  refine ⟨⟨⟨3999999, [[1, 2, 3, 4]], some [5, 6]⟩, [⟨1, 125000⟩, ⟨0, 125000⟩]⟩, ?_, rfl, rfl⟩
  exact .push (d := arrayDec 4) [1, 2, 3, 4, 5, 6] (rest := []) .init (by rfl)

end Btc
