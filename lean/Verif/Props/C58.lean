import Verif.Io.Io
import Verif.Props.C49
import Verif.Props.C01_C05
import Verif.Codec.EncoderLaws
/-!
# C58: readers, writers and their adapters

`Delivers` says what a reader delivers: some bytes in order, then end of file or an error, with any number of interruptions and in
pieces of any size.  `srcBuf` delivers what its script says, so the theorems below are about every schedule.
-/
namespace Btc
namespace Io

/-- The reader delivers `bytes s`, then ends with an error (`ending s`) or at the end of file.  `size` bounds how many calls that takes. -/
structure Delivers {σ : Type} (R : Reader σ) (bytes : σ → Bytes) (ending : σ → Option Kind) (size : σ → Nat) : Prop where
  /-- Bytes come in order, never more than asked for. -/
  ok : ∀ s n s' b, R.read s n = (s', .ok b) → b ≠ [] → b.length ≤ n ∧ bytes s = b ++ bytes s' ∧ ending s' = ending s ∧ size s' < size s
  /-- No bytes: the end of file, or nothing was asked for. -/
  eof : ∀ s n s', R.read s n = (s', .ok []) → (bytes s = [] ∧ ending s = none) ∨ (n = 0 ∧ bytes s ≠ [] ∧ bytes s' = bytes s ∧ ending s' = ending s)
  interrupted : ∀ s n s', R.read s n = (s', .error .interrupted) → bytes s' = bytes s ∧ ending s' = ending s ∧ size s' < size s
  error : ∀ s n s' k, R.read s n = (s', .error k) → k ≠ .interrupted → bytes s = [] ∧ ending s = some k

/-- The same for `fill_buf` and `consume`. -/
structure Buffers {σ : Type} (B : BufReader σ) (bytes : σ → Bytes) (ending : σ → Option Kind) (size : σ → Nat) : Prop where
  eof : ∀ s s', B.fill s = (s', .ok []) → bytes s = [] ∧ ending s = none
  ok : ∀ s s' b, B.fill s = (s', .ok b) → b ≠ [] → (∃ r, bytes s = b ++ r) ∧ ∀ k, k ≤ b.length →
    ∃ s'', B.consume s' k = some s'' ∧ bytes s'' = (bytes s).drop k ∧ ending s'' = ending s ∧ size s'' ≤ size s ∧ (0 < k → size s'' < size s)
  interrupted : ∀ s s', B.fill s = (s', .error .interrupted) → bytes s' = bytes s ∧ ending s' = ending s ∧ size s' < size s
  error : ∀ s s' k, B.fill s = (s', .error k) → k ≠ .interrupted → bytes s = [] ∧ ending s = some k

/-! ## Readers that deliver -/

/-- What a script delivers: the bytes up to an empty piece or an error other than `Interrupted`. -/
def srcBytes : List Ev → Bytes
  | [] => []
  | .data b :: es => if b = [] then [] else b ++ srcBytes es
  | .err .interrupted :: es => srcBytes es
  | .err _ :: _ => []
def srcEnding : List Ev → Option Kind
  | [] => none
  | .data b :: es => if b = [] then none else srcEnding es
  | .err .interrupted :: es => srcEnding es
  | .err k :: _ => some k
def srcSize : List Ev → Nat
  | [] => 0
  | .data b :: es => b.length + 1 + srcSize es
  | .err _ :: es => 1 + srcSize es

theorem srcBytes_err (k : Kind) (es : List Ev) : srcBytes (.err k :: es) = if k = .interrupted then srcBytes es else [] := by cases k <;> rfl
theorem srcEnding_err (k : Kind) (es : List Ev) : srcEnding (.err k :: es) = if k = .interrupted then srcEnding es else some k := by cases k <;> rfl

/-- Every script is delivered, through `read` and through `fill_buf`. -/
theorem C58_script : Delivers srcBuf.toReader srcBytes srcEnding srcSize ∧ Buffers srcBuf srcBytes srcEnding srcSize := by
  refine ⟨⟨?_, ?_, ?_, ?_⟩, ⟨?_, ?_, ?_, ?_⟩⟩
  · intro s n s' b h hb
    replace h : srcRead s n = (s', .ok b) := h
    match s with
    | [] => cases h; exact absurd rfl hb
    | .err k :: es => cases h
    | .data c :: es =>
      simp only [srcRead] at h
      by_cases hc : c.length ≤ n
      · rw [if_pos hc] at h
        cases h
        exact ⟨hc, by simp [srcBytes, hb], by simp [srcEnding, hb], by simp [srcSize]⟩
      · rw [if_neg hc] at h
        cases h
        have h1 : c ≠ [] := by rintro rfl; simp at hc
        have h2 : c.drop n ≠ [] := by rw [ne_eq, List.drop_eq_nil_iff]; exact hc
        refine ⟨by simp; omega, ?_, by simp [srcEnding, h1, h2], ?_⟩
        · simp only [srcBytes, h1, h2, if_false]
          rw [← List.append_assoc, List.take_append_drop]
        · have : 0 < n := by
            rcases Nat.eq_zero_or_pos n with rfl | h
            · simp at hb
            · exact h
          simp only [srcSize, List.length_drop]; omega
  · intro s n s' h
    replace h : srcRead s n = (s', .ok []) := h
    match s with
    | [] => exact .inl ⟨rfl, rfl⟩
    | .err k :: es => cases h
    | .data c :: es =>
      simp only [srcRead] at h
      by_cases hc : c.length ≤ n
      · rw [if_pos hc] at h
        cases h
        exact .inl ⟨by simp [srcBytes], by simp [srcEnding]⟩
      · rw [if_neg hc] at h
        simp only [Prod.mk.injEq, Except.ok.injEq, List.take_eq_nil_iff] at h
        have h1 : c ≠ [] := by rintro rfl; simp at hc
        rcases h.2 with h2 | h2
        · subst h2
          rw [← h.1]
          refine .inr ⟨rfl, by simp [srcBytes, h1], by simp, by simp⟩
        · exact absurd h2 h1
  · intro s n s' h
    replace h : srcRead s n = (s', .error .interrupted) := h
    match s with
    | [] => cases h
    | .err k :: es => cases h; exact ⟨rfl, rfl, by simp [srcSize]⟩
    | .data c :: es => simp only [srcRead] at h; split at h <;> cases h
  · intro s n s' k h hk
    replace h : srcRead s n = (s', .error k) := h
    match s with
    | [] => cases h
    | .err k :: es => cases h; rw [srcBytes_err, srcEnding_err, if_neg hk, if_neg hk]; exact ⟨rfl, rfl⟩
    | .data c :: es => simp only [srcRead] at h; split at h <;> cases h
  · intro s s' h
    replace h : srcFill s = (s', .ok []) := h
    match s with
    | [] => exact ⟨rfl, rfl⟩
    | .err k :: es => cases h
    | .data c :: es =>
      simp only [srcFill] at h
      by_cases hc : c = []
      · simp [srcBytes, srcEnding, hc]
      · rw [if_neg hc] at h; cases h; exact absurd rfl hc
  · intro s s' b h hb
    replace h : srcFill s = (s', .ok b) := h
    match s with
    | [] => cases h; exact absurd rfl hb
    | .err k :: es => cases h
    | .data c :: es =>
      simp only [srcFill] at h
      by_cases hc : c = []
      · rw [if_pos hc] at h; cases h; exact absurd rfl hb
      · rw [if_neg hc] at h
        cases h
        refine ⟨⟨srcBytes es, by simp [srcBytes, hb]⟩, fun k hk => ?_⟩
        show ∃ s'', srcConsume (.data b :: es) k = some s'' ∧ _
        cases k with
        | zero => exact ⟨_, rfl, rfl, rfl, Nat.le_refl _, fun h => absurd h (by omega)⟩
        | succ k =>
          simp only [srcConsume]
          rw [if_neg (by omega)]
          by_cases he : b.length = k + 1
          · rw [if_pos he]
            refine ⟨_, rfl, ?_, by simp [srcEnding, hb], by simp [srcSize], fun _ => by simp [srcSize]⟩
            simp only [srcBytes, hb, if_false]
            rw [← he, List.drop_left]
          · rw [if_neg he]
            have h2 : b.drop (k + 1) ≠ [] := by rw [ne_eq, List.drop_eq_nil_iff]; omega
            refine ⟨_, rfl, ?_, by simp [srcEnding, hb, h2], by simp [srcSize], fun _ => by simp [srcSize]; omega⟩
            simp only [srcBytes, hb, h2, if_false]
            rw [List.drop_append_of_le_length (by omega)]
  · intro s s' h
    replace h : srcFill s = (s', .error .interrupted) := h
    match s with
    | [] => cases h
    | .err k :: es => cases h; exact ⟨rfl, rfl, by simp [srcSize]⟩
    | .data c :: es => simp only [srcFill] at h; split at h <;> cases h
  · intro s s' k h hk
    replace h : srcFill s = (s', .error k) := h
    match s with
    | [] => cases h
    | .err k :: es => cases h; rw [srcBytes_err, srcEnding_err, if_neg hk, if_neg hk]; exact ⟨rfl, rfl⟩
    | .data c :: es => simp only [srcFill] at h; split at h <;> cases h

/-- A byte slice delivers its bytes. -/
theorem C58_slice : Delivers sliceBuf.toReader (fun s => s) (fun _ => none) List.length ∧ Buffers sliceBuf (fun s => s) (fun _ => none) List.length := by
  refine ⟨⟨?_, ?_, ?_, ?_⟩, ⟨?_, ?_, ?_, ?_⟩⟩
  · intro s n s' b h hb
    simp only [sliceBuf, Prod.mk.injEq, Except.ok.injEq] at h
    obtain ⟨rfl, rfl⟩ := h
    have h1 : min s.length n ≠ 0 := by intro h; rw [h] at hb; exact hb rfl
    refine ⟨by simp; omega, (List.take_append_drop _ _).symm, rfl, by simp; omega⟩
  · intro s n s' h
    simp only [sliceBuf, Prod.mk.injEq, Except.ok.injEq, List.take_eq_nil_iff] at h
    obtain ⟨rfl, h⟩ := h
    by_cases hs : s = []
    · exact .inl ⟨hs, rfl⟩
    · have := List.length_pos_iff.mpr hs
      rcases h with h | h
      · have hn : n = 0 := by omega
        subst hn
        exact .inr ⟨rfl, hs, by simp, rfl⟩
      · exact absurd h hs
  · intro s n s' h; cases h
  · intro s n s' k h; cases h
  · intro s s' h; cases h; exact ⟨rfl, rfl⟩
  · intro s s' b h hb
    cases h
    refine ⟨⟨[], by simp⟩, fun k hk => ⟨s.drop k, ?_, rfl, rfl, by simp, fun h => by simp; omega⟩⟩
    simp [sliceBuf, hk]
  · intro s s' h; cases h
  · intro s s' k h; cases h

/-- A cursor delivers the bytes from its position on, and its position grows by what was read. -/
theorem C58_cursor : Delivers cursorBuf.toReader (fun c => c.inner.drop c.pos) (fun _ => none) (fun c => c.inner.length - c.pos) ∧
    Buffers cursorBuf (fun c => c.inner.drop c.pos) (fun _ => none) (fun c => c.inner.length - c.pos) ∧
    (∀ (c : Cursor) (n : Nat) (c' : Cursor) (b : Bytes), c.read n = (c', .ok b) → c'.inner = c.inner ∧ c'.pos = c.pos + b.length) := by
  refine ⟨⟨?_, ?_, ?_, ?_⟩, ⟨?_, ?_, ?_, ?_⟩, ?_⟩
  · intro c n c' b h hb
    replace h : c.read n = (c', .ok b) := h
    unfold Cursor.read at h
    have hf := c.fits
    by_cases hp : c.pos ≥ c.inner.length
    · rw [if_pos hp] at h; cases h; exact absurd rfl hb
    · rw [if_neg hp] at h
      simp only [Prod.mk.injEq, Except.ok.injEq] at h
      obtain ⟨rfl, rfl⟩ := h
      have h1 : min (c.inner.length - c.pos) n ≠ 0 := by intro h; rw [h] at hb; exact hb rfl
      have h2 : min (c.pos + min (c.inner.length - c.pos) n) U64MAX = c.pos + min (c.inner.length - c.pos) n := by omega
      refine ⟨by simp; omega, ?_, rfl, ?_⟩
      · show c.inner.drop c.pos = _ ++ c.inner.drop (min _ _)
        rw [h2, ← List.drop_drop, List.take_append_drop]
      · show c.inner.length - min _ _ < _
        omega
  · intro c n c' h
    replace h : c.read n = (c', .ok []) := h
    unfold Cursor.read at h
    by_cases hp : c.pos ≥ c.inner.length
    · exact .inl ⟨List.drop_eq_nil_iff.mpr hp, rfl⟩
    · rw [if_neg hp] at h
      simp only [Prod.mk.injEq, Except.ok.injEq, List.take_eq_nil_iff, List.drop_eq_nil_iff] at h
      obtain ⟨rfl, h⟩ := h
      have hn : n = 0 := by omega
      have hf := c.fits
      refine .inr ⟨hn, by rw [ne_eq, List.drop_eq_nil_iff]; exact hp, ?_, rfl⟩
      show c.inner.drop (min _ _) = _
      rw [show min (c.pos + min (c.inner.length - c.pos) n) U64MAX = c.pos by omega]
  · intro c n c' h
    replace h : c.read n = _ := h
    unfold Cursor.read at h; split at h <;> cases h
  · intro c n c' k h
    replace h : c.read n = _ := h
    unfold Cursor.read at h; split at h <;> cases h
  · intro c c' h
    replace h : c.fill = _ := h
    unfold Cursor.fill at h
    simp only [Prod.mk.injEq, Except.ok.injEq, List.drop_eq_nil_iff] at h
    exact ⟨List.drop_eq_nil_iff.mpr (by omega), rfl⟩
  · intro c c' b h hb
    replace h : c.fill = _ := h
    unfold Cursor.fill at h
    simp only [Prod.mk.injEq, Except.ok.injEq] at h
    obtain ⟨rfl, rfl⟩ := h
    have hf := c.fits
    have hp : c.pos < c.inner.length := by
      rw [ne_eq, List.drop_eq_nil_iff] at hb; omega
    have hm : min c.pos c.inner.length = c.pos := by omega
    refine ⟨⟨[], by rw [hm]; simp⟩, fun k hk => ⟨⟨c.inner, min (c.pos + k) U64MAX, c.fits⟩, rfl, ?_, rfl, ?_, ?_⟩⟩
    · rw [hm, List.length_drop] at hk
      show c.inner.drop (min _ _) = (c.inner.drop c.pos).drop k
      rw [List.drop_drop, show min (c.pos + k) U64MAX = c.pos + k by omega]
    · show c.inner.length - min (c.pos + k) U64MAX ≤ _; omega
    · intro h; show c.inner.length - min (c.pos + k) U64MAX < _; omega
  · intro c c' h; cases h
  · intro c c' k h; cases h
  · intro c n c' b h
    unfold Cursor.read at h
    have hf := c.fits
    split at h
    · cases h; exact ⟨rfl, rfl⟩
    · simp only [Prod.mk.injEq, Except.ok.injEq] at h
      obtain ⟨rfl, rfl⟩ := h
      refine ⟨rfl, ?_⟩
      show min _ _ = _
      simp only [List.length_take, List.length_drop]
      omega

/-! ## Take -/

/-- Limiting any reader delivers the first `remaining` bytes.  The error after them is only dropped if the reader has more bytes than the limit. -/
theorem C58_take {σ : Type} (R : Reader σ) (bytes : σ → Bytes) (ending : σ → Option Kind) (size : σ → Nat) (h : Delivers R bytes ending size) :
    Delivers (takeReader R) (fun t => (bytes t.reader).take t.remaining)
      (fun t => if t.remaining < (bytes t.reader).length then none else ending t.reader) (fun t => size t.reader) := by
  refine ⟨?_, ?_, ?_, ?_⟩
  · intro t n t' b hr hb
    replace hr : t.read R n = _ := hr
    unfold Take.read at hr
    simp only at hr
    split at hr
    · rename_i r b' he
      simp only [Prod.mk.injEq, Except.ok.injEq] at hr
      obtain ⟨rfl, rfl⟩ := hr
      obtain ⟨h1, h2, h3, h4⟩ := h.ok _ _ _ _ he hb
      refine ⟨by omega, ?_, ?_, h4⟩
      · simp only
        rw [h2, List.take_append, List.take_of_length_le (by omega)]
      · simp only
        rw [h2, h3, List.length_append]
        by_cases hc : t.remaining - b'.length < (bytes r).length
        · rw [if_pos hc, if_pos (by omega)]
        · rw [if_neg hc, if_neg (by omega)]
    · cases hr
  · intro t n t' hr
    replace hr : t.read R n = _ := hr
    unfold Take.read at hr
    simp only at hr
    split at hr
    · rename_i r b' he
      simp only [Prod.mk.injEq, Except.ok.injEq] at hr
      obtain ⟨rfl, rfl⟩ := hr
      rcases h.eof _ _ _ he with ⟨h1, h2⟩ | ⟨h1, h2, h3, h4⟩
      · refine .inl ⟨by simp [h1], ?_⟩
        rw [h1, if_neg (by simp)]; exact h2
      · have hl := List.length_pos_iff.mpr h2
        by_cases h0 : t.remaining = 0
        · exact .inl ⟨by simp [h0], by rw [if_pos (by omega)]⟩
        · refine .inr ⟨by omega, ?_, ?_, ?_⟩
          · rw [ne_eq, List.take_eq_nil_iff]; rintro (h | h); exact h0 h; exact h2 h
          · simp only [h3, List.length_nil, Nat.sub_zero]
          · simp only [h3, h4, List.length_nil, Nat.sub_zero]
    · cases hr
  · intro t n t' hr
    replace hr : t.read R n = _ := hr
    unfold Take.read at hr
    simp only at hr
    split at hr
    · cases hr
    · rename_i r k he
      simp only [Prod.mk.injEq, Except.error.injEq] at hr
      obtain ⟨rfl, rfl⟩ := hr
      obtain ⟨h1, h2, h3⟩ := h.interrupted _ _ _ he
      simp only [h1, h2]
      exact ⟨trivial, trivial, h3⟩
  · intro t n t' k hr hk
    replace hr : t.read R n = _ := hr
    unfold Take.read at hr
    simp only at hr
    split at hr
    · cases hr
    · rename_i r k' he
      simp only [Prod.mk.injEq, Except.error.injEq] at hr
      obtain ⟨rfl, rfl⟩ := hr
      obtain ⟨h1, h2⟩ := h.error _ _ _ _ he hk
      refine ⟨by simp [h1], ?_⟩
      rw [h1, if_neg (by simp)]; exact h2

/-- Through `fill_buf` a limited reader stops at the limit without looking further. -/
theorem C58_take_buffered {σ : Type} (B : BufReader σ) (bytes : σ → Bytes) (ending : σ → Option Kind) (size : σ → Nat) (h : Buffers B bytes ending size) :
    Buffers (takeBuf B) (fun t => (bytes t.reader).take t.remaining)
      (fun t => if t.remaining ≤ (bytes t.reader).length then none else ending t.reader) (fun t => size t.reader) := by
  refine ⟨?_, ?_, ?_, ?_⟩
  · intro t t' hr
    replace hr : t.fill B = _ := hr
    unfold Take.fill at hr
    by_cases h0 : t.remaining = 0
    · exact ⟨by simp [h0], by rw [if_pos (by omega)]⟩
    · rw [if_neg h0] at hr
      split at hr
      · rename_i r b he
        simp only [Prod.mk.injEq, Except.ok.injEq, List.take_eq_nil_iff] at hr
        have hb : b = [] := by
          rcases hr.2 with h | h
          · exact List.eq_nil_of_length_eq_zero (by omega)
          · exact h
        subst hb
        obtain ⟨h1, h2⟩ := h.eof _ _ he
        refine ⟨by simp [h1], ?_⟩
        rw [h1, if_neg (by simp; omega)]; exact h2
      · cases hr
  · intro t t' c hr hc
    replace hr : t.fill B = _ := hr
    unfold Take.fill at hr
    by_cases h0 : t.remaining = 0
    · rw [if_pos h0] at hr; cases hr; exact absurd rfl hc
    · rw [if_neg h0] at hr
      split at hr
      · rename_i r b he
        simp only [Prod.mk.injEq, Except.ok.injEq] at hr
        obtain ⟨rfl, rfl⟩ := hr
        have hb : b ≠ [] := by rintro rfl; simp at hc
        obtain ⟨⟨rest, h1⟩, h2⟩ := h.ok _ _ _ he hb
        refine ⟨⟨((bytes t.reader).take t.remaining).drop (min b.length t.remaining), ?_⟩, fun k hk => ?_⟩
        · have : b.take (min b.length t.remaining) = ((bytes t.reader).take t.remaining).take (min b.length t.remaining) := by
            rw [h1, List.take_take, List.take_append_of_le_length (by omega)]
            congr 1; omega
          rw [this, List.take_append_drop]
        · rw [List.length_take] at hk
          obtain ⟨s'', g1, g2, g3, g4, g5⟩ := h2 k (by omega)
          refine ⟨⟨s'', t.remaining - k⟩, ?_, ?_, ?_, g4, g5⟩
          · show Take.consume B _ k = _
            unfold Take.consume
            rw [if_pos (by simp only; omega)]
            simp only [g1, Option.map_some]
          · simp only
            rw [g2, List.drop_take]
          · simp only
            rw [g2, g3, List.length_drop]
            have hl : b.length ≤ (bytes t.reader).length := by rw [h1]; simp
            by_cases hq : t.remaining ≤ (bytes t.reader).length
            · rw [if_pos hq, if_pos (by omega)]
            · rw [if_neg hq, if_neg (by omega)]
      · cases hr
  · intro t t' hr
    replace hr : t.fill B = _ := hr
    unfold Take.fill at hr
    split at hr
    · cases hr
    · split at hr
      · cases hr
      · rename_i r k he
        simp only [Prod.mk.injEq, Except.error.injEq] at hr
        obtain ⟨rfl, rfl⟩ := hr
        obtain ⟨h1, h2, h3⟩ := h.interrupted _ _ he
        simp only [h1, h2]
        exact ⟨trivial, trivial, h3⟩
  · intro t t' k hr hk
    replace hr : t.fill B = _ := hr
    unfold Take.fill at hr
    split at hr
    · cases hr
    · rename_i h0
      split at hr
      · cases hr
      · rename_i r k' he
        simp only [Prod.mk.injEq, Except.error.injEq] at hr
        obtain ⟨rfl, rfl⟩ := hr
        obtain ⟨h1, h2⟩ := h.error _ _ _ he hk
        refine ⟨by simp [h1], ?_⟩
        rw [h1, if_neg (by simp; omega)]; exact h2

/-! ## The loops -/

theorem readExact_spec {σ : Type} (R : Reader σ) (bytes : σ → Bytes) (ending : σ → Option Kind) (size : σ → Nat) (h : Delivers R bytes ending size) :
    ∀ (f : Nat) (s : σ) (n : Nat) (acc : Bytes), size s < f →
    (n ≤ (bytes s).length → ∃ s', R.readExact f s n acc = some (s', acc ++ (bytes s).take n, .ok ()) ∧ bytes s' = (bytes s).drop n ∧ ending s' = ending s) ∧
    ((bytes s).length < n → ∃ s', R.readExact f s n acc = some (s', acc ++ bytes s, .error ((ending s).getD .unexpectedEof))) := by
  intro f
  induction f with
  | zero => intro s n acc hf; omega
  | succ f ih =>
    intro s n acc hf
    match n with
    | 0 =>
      refine ⟨fun _ => ⟨s, ?_, by simp, rfl⟩, fun h => by omega⟩
      simp [Reader.readExact]
    | n + 1 =>
      rcases hr : R.read s (n + 1) with ⟨s', r⟩
      simp only [Reader.readExact, hr]
      rcases r with k | b
      · by_cases hk : k = .interrupted
        · subst hk
          obtain ⟨h1, h2, h3⟩ := h.interrupted _ _ _ hr
          have := ih s' (n + 1) acc (by omega)
          rw [h1, h2] at this
          exact this
        · obtain ⟨h1, h2⟩ := h.error _ _ _ _ hr hk
          rw [h1, h2]
          refine ⟨fun h => by simp at h, fun _ => ⟨s', ?_⟩⟩
          cases k
          · exact absurd rfl hk
          all_goals simp
      · cases b with
        | nil =>
          rcases h.eof _ _ _ hr with ⟨h1, h2⟩ | h1
          · rw [h1, h2]
            exact ⟨fun h => by simp at h, fun _ => ⟨s', by simp⟩⟩
          · omega
        | cons b bs =>
          obtain ⟨h1, h2, h3, h4⟩ := h.ok _ _ _ _ hr (by simp)
          have := ih s' (n + 1 - (b :: bs).length) (acc ++ (b :: bs)) (by omega)
          rw [h3] at this
          simp only
          generalize b :: bs = c at *
          rw [h2]
          constructor
          · intro hl
            obtain ⟨s'', g1, g2, g3⟩ := this.1 (by rw [List.length_append] at hl; omega)
            refine ⟨s'', ?_, ?_, g3⟩
            · rw [g1, List.take_append, List.take_of_length_le h1, List.append_assoc]
            · rw [g2, List.drop_append, List.drop_eq_nil_of_le h1, List.nil_append]
          · intro hl
            obtain ⟨s'', g1⟩ := this.2 (by rw [List.length_append] at hl; omega)
            exact ⟨s'', by rw [g1, List.append_assoc]⟩

/-- `read_exact` fills the buffer with the next bytes and leaves the reader after them, or fails, with the reader's error or for the end of
file, exactly when there are fewer. -/
theorem C58_read_exact {σ : Type} (R : Reader σ) (bytes : σ → Bytes) (ending : σ → Option Kind) (size : σ → Nat) (h : Delivers R bytes ending size)
    (f : Nat) (s : σ) (n : Nat) (hf : size s < f) :
    (n ≤ (bytes s).length → ∃ s', R.readExact f s n [] = some (s', (bytes s).take n, .ok ()) ∧ bytes s' = (bytes s).drop n ∧ ending s' = ending s) ∧
    ((bytes s).length < n → ∃ s', R.readExact f s n [] = some (s', bytes s, .error ((ending s).getD .unexpectedEof))) :=
  readExact_spec R bytes ending size h f s n [] hf

theorem readToEnd_spec {σ : Type} (R : Reader σ) (bytes : σ → Bytes) (ending : σ → Option Kind) (size : σ → Nat) (h : Delivers R bytes ending size) :
    ∀ (f : Nat) (t : Take σ) (acc : Bytes), size t.reader < f →
    ∃ t', R.readToEnd f t acc = some (t', acc ++ (bytes t.reader).take t.remaining,
      match (if t.remaining < (bytes t.reader).length then none else ending t.reader) with | none => .ok () | some k => .error k) ∧
      (t.remaining < (bytes t.reader).length → bytes t'.reader = (bytes t.reader).drop t.remaining ∧ ending t'.reader = ending t.reader) := by
  intro f
  induction f with
  | zero => intro t acc hf; omega
  | succ f ih =>
    intro t acc hf
    rcases hr : R.read t.reader (min 64 t.remaining) with ⟨r, x⟩
    simp only [Reader.readToEnd, Take.read, hr]
    rcases x with k | b
    · by_cases hk : k = .interrupted
      · subst hk
        obtain ⟨h1, h2, h3⟩ := h.interrupted _ _ _ hr
        have := ih ⟨r, t.remaining⟩ acc (by simp only; omega)
        simp only [h1, h2] at this
        exact this
      · obtain ⟨h1, h2⟩ := h.error _ _ _ _ hr hk
        rw [h1, h2]
        refine ⟨⟨r, t.remaining⟩, ?_, fun h => by simp at h⟩
        cases k
        · exact absurd rfl hk
        all_goals simp
    · cases b with
      | nil =>
        simp only [List.length_nil, Nat.sub_zero]
        rcases h.eof _ _ _ hr with ⟨h1, h2⟩ | ⟨h1, h2, h3, h4⟩
        · rw [h1, h2]
          exact ⟨⟨r, t.remaining⟩, by simp, fun h => by simp at h⟩
        · have hl := List.length_pos_iff.mpr h2
          have h0 : t.remaining = 0 := by omega
          refine ⟨⟨r, t.remaining⟩, ?_, ?_⟩
          · rw [if_pos (by omega), h0]; simp
          · intro _; simp only [h3, h4, h0, List.drop_zero]; exact ⟨trivial, trivial⟩
      | cons b bs =>
        obtain ⟨h1, h2, h3, h4⟩ := h.ok _ _ _ _ hr (by simp)
        obtain ⟨t', g1, g2⟩ := ih ⟨r, t.remaining - (b :: bs).length⟩ (acc ++ (b :: bs)) (by simp only; omega)
        simp only at g1 g2 ⊢
        generalize b :: bs = c at *
        have ht : c.take t.remaining = c := List.take_of_length_le (by omega)
        refine ⟨t', ?_, ?_⟩
        · rw [g1, h2, h3, List.take_append, ht, List.append_assoc, List.length_append]
          by_cases hc : t.remaining - c.length < (bytes r).length
          · rw [if_pos hc, if_pos (by omega)]
          · rw [if_neg hc, if_neg (by omega)]
        · rw [h2, List.length_append]
          intro hl
          obtain ⟨g3, g4⟩ := g2 (by omega)
          rw [g3, g4, h3, List.drop_append, show c.drop t.remaining = [] from List.drop_eq_nil_of_le (by omega), List.nil_append]
          exact ⟨rfl, rfl⟩

/-- `read_to_limit` appends the first `limit` bytes of the reader and no others, and leaves a reader that has more right after them.  It fails
exactly when the reader ends with an error after at most `limit` bytes. -/
theorem C58_read_to_limit {σ : Type} (R : Reader σ) (bytes : σ → Bytes) (ending : σ → Option Kind) (size : σ → Nat) (h : Delivers R bytes ending size)
    (f : Nat) (s : σ) (limit : Nat) (hf : size s < f) :
    ∃ t res, R.readToLimit f s limit = some (t, (bytes s).take limit, res) ∧
      (limit < (bytes s).length → res = .ok () ∧ bytes t.reader = (bytes s).drop limit ∧ ending t.reader = ending s) ∧
      ((bytes s).length ≤ limit → ending s = none → res = .ok ()) ∧
      (∀ k, (bytes s).length ≤ limit → ending s = some k → res = .error k) := by
  obtain ⟨t', h1, h2⟩ := readToEnd_spec R bytes ending size h f ⟨s, limit⟩ [] hf
  simp only [List.nil_append] at h1 h2
  refine ⟨t', _, h1, ?_, ?_, ?_⟩
  · intro hl; rw [if_pos hl]; exact ⟨rfl, h2 hl⟩
  · intro hl he; rw [if_neg (by omega), he]
  · intro k hl he; rw [if_neg (by omega), he]

/-! ## Decoding -/

/-- The buffered decoder on any reader: the parse of the bytes delivered, with the reader left right after the object; if the bytes end too
early, the reader's error or else the decoder's. -/
theorem decodeFromRead_spec {α σ : Type} (B : BufReader σ) (bytes : σ → Bytes) (ending : σ → Option Kind) (size : σ → Nat) (h : Buffers B bytes ending size)
    {d : Dec α} {inv : d.S → Prop} {den : d.S → Parser α} (L : LawfulWith d inv den) :
    ∀ (f : Nat) (r : σ) (s : d.S), inv s → size r < f →
    match den s (bytes r) with
    | .done a rest => ∃ r', decodeFromRead B d f r s = some (.ok a r') ∧ bytes r' = rest ∧ ending r' = ending r
    | .fail e => decodeFromRead B d f r s = some (.decode e)
    | .more e => decodeFromRead B d f r s = some (match ending r with | none => .decode e | some k => .io k) := by
  intro f
  induction f with
  | zero => intro r s _ hf; omega
  | succ f ih =>
    intro r s hs hf
    obtain ⟨_, e0, hm1, hm2⟩ := L.more s hs
    rcases hr : B.fill r with ⟨r', x⟩
    simp only [decodeFromRead, hr]
    rcases x with k | b
    · by_cases hk : k = .interrupted
      · subst hk
        obtain ⟨h1, h2, h3⟩ := h.interrupted _ _ hr
        have := ih r' s hs (by omega)
        rw [h1, h2] at this
        exact this
      · obtain ⟨h1, h2⟩ := h.error _ _ _ hr hk
        rw [h1, hm1, h2]
        cases k
        · exact absurd rfl hk
        all_goals rfl
    · cases b with
      | nil =>
        obtain ⟨h1, h2⟩ := h.eof _ _ hr
        rw [h1, hm1, h2]
        simp [ReadOut.ofEnd, hm2]
      | cons b bs =>
        obtain ⟨⟨rest0, h1⟩, h2⟩ := h.ok _ _ _ hr (by simp)
        simp only
        have hne : b :: bs ≠ [] := by simp
        generalize b :: bs = c at *
        have hp := L.push s c hs
        match hpush : d.push s c with
        | .error e =>
          rw [hpush] at hp
          have h3 := hp rest0
          rw [← h1] at h3
          simp only [h3]
        | .ok (s', rest, status) =>
          have hc : ∃ c', c = c' ++ rest := by
            rw [hpush] at hp
            cases status with
            | ready => obtain ⟨c', hc, -⟩ := hp; exact ⟨c', hc⟩
            | needsMore => obtain ⟨c', hc, -⟩ := hp; exact ⟨c', hc⟩
          obtain ⟨c', hc⟩ := hc
          have hlen : c.length - rest.length = c'.length := by rw [hc]; simp
          obtain ⟨r'', g1, g2, g3, g4, g5⟩ := h2 c'.length (by rw [hc]; simp)
          have hdrop : bytes r'' = rest ++ rest0 := by
            rw [g2, h1, hc, List.append_assoc, List.drop_left]
          simp only [hlen, g1]
          cases status with
          | ready =>
            rw [hpush] at hp
            obtain ⟨c2, hc2, hd⟩ := hp
            have : c2 = c' := List.append_cancel_right (hc2.symm.trans hc)
            subst this
            have h4 := hd (rest ++ rest0)
            rw [← List.append_assoc, ← hc, ← h1] at h4
            rw [h4]
            cases hfin : d.fin s' with
            | error e => simp [POut.ofEnd, ReadOut.ofEnd]
            | ok a =>
              simp only [POut.ofEnd, ReadOut.ofEnd]
              exact ⟨r'', rfl, hdrop, g3⟩
          | needsMore =>
            rw [hpush] at hp
            obtain ⟨c2, hc2, hs', hd, hprog⟩ := hp
            have : c2 = c' := List.append_cancel_right (hc2.symm.trans hc)
            subst this
            have h4 := hd (rest ++ rest0)
            rw [← List.append_assoc, ← hc, ← h1] at h4
            rw [h4, ← hdrop]
            have hpos : 0 < c2.length := by
              by_cases hrest : rest = []
              · subst hrest
                rw [List.append_nil] at hc
                rw [← hc]; exact List.length_pos_iff.mpr hne
              · exact List.length_pos_iff.mpr (hprog hrest)
            have := ih r'' s' hs' (by have := g5 hpos; omega)
            rw [g3] at this
            exact this

/-- `decode_from_read` on any reader decodes the bytes it delivers as `decode_from_slice_unbounded` would, consumes exactly the object, and
passes on errors. -/
theorem C58_decode {α σ : Type} (B : BufReader σ) (bytes : σ → Bytes) (ending : σ → Option Kind) (size : σ → Nat) (h : Buffers B bytes ending size)
    {d : Dec α} (hd : IsLawful d) (f : Nat) (r : σ) (hf : size r < f) :
    (∀ a rest, d.decodeSliceUnbounded (bytes r) = .ok a rest → ∃ r', decodeFromRead B d f r d.init = some (.ok a r') ∧ bytes r' = rest ∧ ending r' = ending r) ∧
    (∀ e, d.decodeSliceUnbounded (bytes r) = .err e → decodeFromRead B d f r d.init = some (.decode e) ∨
      ∃ k, ending r = some k ∧ decodeFromRead B d f r d.init = some (.io k)) ∧
    (∀ e, d.decodeSliceUnbounded (bytes r) = .err e → ending r = none → decodeFromRead B d f r d.init = some (.decode e)) := by
  obtain ⟨P, inv, den, L, hP⟩ := hd
  have := decodeFromRead_spec B bytes ending size h L f r d.init L.init hf
  rw [L.decodeSliceUnbounded_spec]
  cases hd : den d.init (bytes r) with
  | done a rest =>
    rw [hd] at this
    refine ⟨fun a' rest' he => ?_, fun e he => ?_, fun e he => ?_⟩
    · simp only [POut.outcome, Outcome.ok.injEq] at he
      obtain ⟨rfl, rfl⟩ := he
      exact this
    · simp [POut.outcome] at he
    · simp [POut.outcome] at he
  | fail e =>
    rw [hd] at this
    refine ⟨fun a' rest' he => by simp [POut.outcome] at he, fun e' he => ?_, fun e' he _ => ?_⟩
    · simp only [POut.outcome, Outcome.err.injEq] at he; subst he; exact .inl this
    · simp only [POut.outcome, Outcome.err.injEq] at he; subst he; exact this
  | more e =>
    rw [hd] at this
    refine ⟨fun a' rest' he => by simp [POut.outcome] at he, fun e' he => ?_, fun e' he h0 => ?_⟩
    · simp only [POut.outcome, Outcome.err.injEq] at he; subst he
      cases hk : ending r with
      | none => rw [hk] at this; exact .inl this
      | some k => rw [hk] at this; exact .inr ⟨k, rfl, this⟩
    · simp only [POut.outcome, Outcome.err.injEq] at he; subst he
      rw [h0] at this; exact this

theorem decodeUnbuffered_spec {α σ : Type} (R : Reader σ) (bytes : σ → Bytes) (ending : σ → Option Kind) (size : σ → Nat) (h : Delivers R bytes ending size)
    {d : Dec α} {inv : d.S → Prop} {den : d.S → Parser α} (L : LawfulWith d inv den) (cap : Nat) (hcap : 0 < cap) :
    ∀ (f : Nat) (r : σ) (s : d.S), inv s → size r < f →
    match den s (bytes r) with
    | .done a rest => ∃ r', decodeUnbuffered R d cap f r s = some (.ok a r') ∧ bytes r' = rest ∧ ending r' = ending r
    | .fail e => decodeUnbuffered R d cap f r s = some (.decode e)
    | .more e => decodeUnbuffered R d cap f r s = some (match ending r with | none => .decode e | some k => .io k) := by
  intro f
  induction f with
  | zero => intro r s _ hf; omega
  | succ f ih =>
    intro r s hs hf
    obtain ⟨hl, e0, hm1, hm2⟩ := L.more s hs
    rcases hr : R.read r (min (d.limit s) cap) with ⟨r', x⟩
    simp only [decodeUnbuffered, hr]
    rw [if_neg (by omega)]
    rcases x with k | b
    · by_cases hk : k = .interrupted
      · subst hk
        obtain ⟨h1, h2, h3⟩ := h.interrupted _ _ _ hr
        have := ih r' s hs (by omega)
        rw [h1, h2] at this
        exact this
      · obtain ⟨h1, h2⟩ := h.error _ _ _ _ hr hk
        rw [h1, hm1, h2]
        cases k
        · exact absurd rfl hk
        all_goals rfl
    · cases b with
      | nil =>
        rcases h.eof _ _ _ hr with ⟨h1, h2⟩ | ⟨h1, -⟩
        · rw [h1, hm1, h2]
          simp [ReadOut.ofEnd, hm2]
        · omega
      | cons b bs =>
        obtain ⟨h1, h2, h3, h4⟩ := h.ok _ _ _ _ hr (by simp)
        simp only
        generalize b :: bs = c at *
        have hf2 := L.feed_spec c s hs
        match hfe : d.feed s c with
        | .needsMore s' =>
          rw [hfe] at hf2
          have h5 := hf2.2 (bytes r')
          rw [← h2] at h5
          rw [h5]
          have := ih r' s' hf2.1 (by omega)
          rw [h3] at this
          exact this
        | .ready s' rest =>
          rw [hfe] at hf2
          obtain ⟨c', hc, hd⟩ := hf2
          have h5 := hd (rest ++ bytes r')
          rw [← List.append_assoc, ← hc, ← h2] at h5
          cases hfin : d.fin s' with
          | error e => rw [hfin] at h5; rw [h5]; simp [POut.ofEnd, ReadOut.ofEnd, hfin]
          | ok a =>
            rw [hfin] at h5
            simp only [POut.ofEnd] at h5
            have hlim := L.limit s (bytes r) a _ hs h5
            have hrest : rest = [] := by
              apply List.length_eq_zero_iff.mp
              rw [h2, List.length_append, List.length_append] at hlim
              omega
            subst hrest
            rw [h5]
            simp only [ReadOut.ofEnd, hfin]
            exact ⟨r', rfl, rfl, h3⟩
        | .err e =>
          rw [hfe] at hf2
          have h5 := hf2 (bytes r')
          rw [← h2] at h5
          rw [h5]
        | .stuck => rw [hfe] at hf2; exact hf2.elim

/-- `decode_from_read_unbuffered` likewise, for every size of its buffer: not a byte more than the object is taken from the reader. -/
theorem C58_decode_unbuffered {α σ : Type} (R : Reader σ) (bytes : σ → Bytes) (ending : σ → Option Kind) (size : σ → Nat) (h : Delivers R bytes ending size)
    {d : Dec α} (hd : IsLawful d) (cap : Nat) (hcap : 0 < cap) (f : Nat) (r : σ) (hf : size r < f) :
    (∀ a rest, d.decodeSliceUnbounded (bytes r) = .ok a rest → ∃ r', decodeUnbuffered R d cap f r d.init = some (.ok a r') ∧ bytes r' = rest ∧ ending r' = ending r) ∧
    (∀ e, d.decodeSliceUnbounded (bytes r) = .err e → decodeUnbuffered R d cap f r d.init = some (.decode e) ∨
      ∃ k, ending r = some k ∧ decodeUnbuffered R d cap f r d.init = some (.io k)) ∧
    (∀ e, d.decodeSliceUnbounded (bytes r) = .err e → ending r = none → decodeUnbuffered R d cap f r d.init = some (.decode e)) := by
  obtain ⟨P, inv, den, L, hP⟩ := hd
  have := decodeUnbuffered_spec R bytes ending size h L cap hcap f r d.init L.init hf
  rw [L.decodeSliceUnbounded_spec]
  cases hd : den d.init (bytes r) with
  | done a rest =>
    rw [hd] at this
    refine ⟨fun a' rest' he => ?_, fun e he => ?_, fun e he => ?_⟩
    · simp only [POut.outcome, Outcome.ok.injEq] at he
      obtain ⟨rfl, rfl⟩ := he
      exact this
    · simp [POut.outcome] at he
    · simp [POut.outcome] at he
  | fail e =>
    rw [hd] at this
    refine ⟨fun a' rest' he => by simp [POut.outcome] at he, fun e' he => ?_, fun e' he _ => ?_⟩
    · simp only [POut.outcome, Outcome.err.injEq] at he; subst he; exact .inl this
    · simp only [POut.outcome, Outcome.err.injEq] at he; subst he; exact this
  | more e =>
    rw [hd] at this
    refine ⟨fun a' rest' he => by simp [POut.outcome] at he, fun e' he => ?_, fun e' he h0 => ?_⟩
    · simp only [POut.outcome, Outcome.err.injEq] at he; subst he
      cases hk : ending r with
      | none => rw [hk] at this; exact .inl this
      | some k => rw [hk] at this; exact .inr ⟨k, rfl, this⟩
    · simp only [POut.outcome, Outcome.err.injEq] at he; subst he
      rw [h0] at this; exact this

/-! ## Hashing -/

theorem hashReader_spec {σ : Type} (B : BufReader σ) (bytes : σ → Bytes) (ending : σ → Option Kind) (size : σ → Nat) (h : Buffers B bytes ending size)
    (A : Hashes.Alg) : ∀ (f : Nat) (r : σ) (e : A.S), size r < f →
    (∃ cs : List Bytes, cs.flatten = bytes r ∧ ending r = none ∧ hashReader B A f r e = some (.ok (A.finish (cs.foldl A.input e)))) ∨
    (∃ k, hashReader B A f r e = some (.error k) ∧ (k = .interrupted ∨ ending r = some k)) := by
  intro f
  induction f with
  | zero => intro r e hf; omega
  | succ f ih =>
    intro r e hf
    rcases hr : B.fill r with ⟨r', x⟩
    simp only [hashReader, hr]
    rcases x with k | b
    · by_cases hk : k = .interrupted
      · exact .inr ⟨k, rfl, .inl hk⟩
      · exact .inr ⟨k, rfl, .inr (h.error _ _ _ hr hk).2⟩
    · cases b with
      | nil =>
        obtain ⟨h1, h2⟩ := h.eof _ _ hr
        exact .inl ⟨[], by simp [h1], h2, rfl⟩
      | cons b bs =>
        obtain ⟨⟨rest0, h1⟩, h2⟩ := h.ok _ _ _ hr (by simp)
        obtain ⟨r'', g1, g2, g3, g4, g5⟩ := h2 _ (Nat.le_refl _)
        simp only [g1]
        have hs := g5 (by simp)
        rcases ih r'' (A.input e (b :: bs)) (by omega) with ⟨cs, i1, i2, i3⟩ | ⟨k, i1, i2⟩
        · refine .inl ⟨(b :: bs) :: cs, ?_, by rw [← g3]; exact i2, i3⟩
          rw [List.flatten_cons, i1, g2, h1, List.drop_left]
        · exact .inr ⟨k, i1, by rw [← g3]; exact i2⟩

/-- `hash_reader` hashes exactly the bytes the reader delivers, or passes an error on.  (It does not retry after `Interrupted`.) -/
theorem C58_hash_reader {σ : Type} (B : BufReader σ) (bytes : σ → Bytes) (ending : σ → Option Kind) (size : σ → Nat) (h : Buffers B bytes ending size)
    (A : Hashes.Alg) (H : Bytes → Bytes) (N : Nat) (hA : A.Computes H N) (f : Nat) (r : σ) (hf : size r < f) (hN : (bytes r).length < N) :
    (ending r = none ∧ hashReader B A f r A.new = some (.ok (H (bytes r)))) ∨
    (∃ k, hashReader B A f r A.new = some (.error k) ∧ (k = .interrupted ∨ ending r = some k)) := by
  rcases hashReader_spec B bytes ending size h A f r A.new hf with ⟨cs, h1, h2, h3⟩ | h1
  · left
    refine ⟨h2, ?_⟩
    rw [h3, hA cs (by rw [h1]; exact hN), h1]
  · exact .inr h1

/-- A script without interruptions is hashed. -/
theorem C58_hash_script (A : Hashes.Alg) (H : Bytes → Bytes) (N : Nat) (hA : A.Computes H N) (es : List Ev) (f : Nat) (hf : srcSize es < f)
    (hN : (srcBytes es).length < N) (hi : Ev.err .interrupted ∉ es) (he : srcEnding es = none) :
    hashReader srcBuf A f es A.new = some (.ok (H (srcBytes es))) := by
  rcases C58_hash_reader srcBuf srcBytes srcEnding srcSize C58_script.2 A H N hA f es hf hN with h | ⟨k, h1, h2⟩
  · exact h.2
  · exfalso
    rw [he] at h2
    rcases h2 with rfl | h2
    · have key : ∀ (f : Nat) (es : List Ev) (e : A.S), Ev.err .interrupted ∉ es → hashReader srcBuf A f es e ≠ some (.error .interrupted) := by
        intro f
        induction f with
        | zero => intro es e _ h; cases h
        | succ f ih =>
          intro es e hn h
          match es with
          | [] => cases h
          | .err k :: es =>
            have : some (Except.error k : Except Kind Bytes) = some (.error .interrupted) := h
            cases this
            exact hn (List.mem_cons_self ..)
          | .data b :: es =>
            have hn2 : Ev.err .interrupted ∉ es := fun h => hn (List.mem_cons_of_mem _ h)
            cases b with
            | nil => cases h
            | cons b bs =>
              have h' : hashReader srcBuf A f es (A.input e (b :: bs)) = some (.error .interrupted) := by
                rw [← h]
                simp only [hashReader, srcBuf, srcFill, srcConsume, List.length_cons, if_false, reduceCtorEq]
                simp
              exact ih es _ hn2 h'
      exact key f es A.new hi h1
    · cases h2

/-! ## Writers -/

/-- The writer never fails for good and always takes something. -/
def Willing (es : List WEv) : Prop := ∀ e ∈ es, e = .err .interrupted ∨ ∃ n, e = .accept (n + 1)

theorem writeAll_spec (es : List WEv) : ∀ (f : Nat) (out b : Bytes), es.length < f →
    ∃ p es' res, scriptWriter.writeAll f (out, es) b = some ((out ++ p, es'), res) ∧ p <+: b ∧ (res = .ok () ↔ p = b) ∧
      (∀ e ∈ es', e ∈ es) ∧ es'.length ≤ es.length ∧ (Willing es → res = .ok ()) := by
  induction es with
  | nil =>
    intro f out b hf
    cases b with
    | nil =>
      refine ⟨[], [], .ok (), ?_, List.prefix_refl _, by simp, fun _ h => h, Nat.le_refl _, fun _ => rfl⟩
      cases f <;> simp [Writer.writeAll]
    | cons b bs =>
      obtain ⟨f, rfl⟩ : ∃ g, f = g + 1 := ⟨f - 1, by omega⟩
      refine ⟨b :: bs, [], .ok (), ?_, List.prefix_refl _, by simp, fun _ h => h, Nat.le_refl _, fun _ => rfl⟩
      simp only [Writer.writeAll, scriptWriter, scriptWrite, List.length_cons]
      rw [show (b :: bs).drop (bs.length + 1) = [] by simp]
      cases f <;> simp [Writer.writeAll]
  | cons w es ih =>
    intro f out b hf
    cases b with
    | nil =>
      refine ⟨[], w :: es, .ok (), ?_, List.prefix_refl _, by simp, fun _ h => h, Nat.le_refl _, fun _ => rfl⟩
      cases f <;> simp [Writer.writeAll]
    | cons b bs =>
      obtain ⟨f, rfl⟩ : ∃ g, f = g + 1 := ⟨f - 1, by omega⟩
      simp only [List.length_cons] at hf
      cases w with
      | err k =>
        by_cases hk : k = .interrupted
        · subst hk
          obtain ⟨p, es', res, h1, h2, h3, h4, h5, h6⟩ := ih f out (b :: bs) (by omega)
          refine ⟨p, es', res, ?_, h2, h3, fun e he => List.mem_cons_of_mem _ (h4 e he), by simp; omega, fun hw => h6 fun e he => hw e (List.mem_cons_of_mem _ he)⟩
          simp only [Writer.writeAll, scriptWriter, scriptWrite]
          exact h1
        · refine ⟨[], es, .error k, ?_, List.nil_prefix, by simp, fun e he => List.mem_cons_of_mem _ he, by simp, fun hw => ?_⟩
          · simp only [Writer.writeAll, scriptWriter, scriptWrite, List.append_nil]
          · rcases hw _ (List.mem_cons_self ..) with h | ⟨n, h⟩
            · cases h; exact absurd rfl hk
            · cases h
      | accept n =>
        cases n with
        | zero =>
          refine ⟨[], es, .error .unexpectedEof, ?_, List.nil_prefix, by simp, fun e he => List.mem_cons_of_mem _ he, by simp, fun hw => ?_⟩
          · simp [Writer.writeAll, scriptWriter, scriptWrite]
          · rcases hw _ (List.mem_cons_self ..) with h | ⟨n, h⟩ <;> cases h
        | succ n =>
          obtain ⟨p, es', res, h1, h2, h3, h4, h5, h6⟩ := ih f (out ++ (b :: bs).take (n + 1)) ((b :: bs).drop (n + 1)) (by omega)
          have hm : min (n + 1) (b :: bs).length = min n bs.length + 1 := by simp only [List.length_cons]; omega
          have hdrop : (b :: bs).drop (min n bs.length + 1) = (b :: bs).drop (n + 1) := by
            by_cases hle : n ≤ bs.length
            · rw [Nat.min_eq_left hle]
            · rw [Nat.min_eq_right (by omega), List.drop_eq_nil_of_le (by simp), List.drop_eq_nil_of_le (by simp; omega)]
          have hsplit := List.take_append_drop (n + 1) (b :: bs)
          refine ⟨(b :: bs).take (n + 1) ++ p, es', res, ?_, ?_, ?_, fun e he => List.mem_cons_of_mem _ (h4 e he), by simp; omega,
            fun hw => h6 fun e he => hw e (List.mem_cons_of_mem _ he)⟩
          · simp only [Writer.writeAll, scriptWriter, scriptWrite]
            rw [hm]
            simp only
            rw [hdrop, ← List.append_assoc]
            exact h1
          · obtain ⟨q, hq⟩ := h2
            exact ⟨q, by rw [List.append_assoc, hq, hsplit]⟩
          · rw [h3]
            constructor
            · intro hp; rw [hp, hsplit]
            · intro hp
              exact List.append_cancel_left (hp.trans hsplit.symm)

/-- `write_all` on any writer: what has been written is the beginning of the buffer, and it is all of it exactly when the call succeeds;
interruptions and short writes do not make it fail. -/
theorem C58_write_all (es : List WEv) (f : Nat) (out b : Bytes) (hf : es.length < f) :
    ∃ p es' res, scriptWriter.writeAll f (out, es) b = some ((out ++ p, es'), res) ∧ p <+: b ∧ (res = .ok () ↔ p = b) ∧ (Willing es → res = .ok ()) := by
  obtain ⟨p, es', res, h1, h2, h3, -, -, h6⟩ := writeAll_spec es f out b hf
  exact ⟨p, es', res, h1, h2, h3, h6⟩

/-- `drain_to_writer` on any writer writes a beginning of the encoding, all of it exactly when it succeeds, which it does if the writer is willing. -/
theorem C58_drain (e : Enc) (s : e.S) (cs : List Bytes) (hy : Yields e s cs) : ∀ (es : List WEv) (rounds f : Nat) (out : Bytes),
    es.length < rounds → cs.length ≤ f →
    ∃ p es' res, scriptWriter.drain e rounds f (out, es) s = some ((out ++ p, es'), res) ∧ p <+: cs.flatten ∧
      (res = .ok () → p = cs.flatten) ∧ (Willing es → res = .ok ()) := by
  induction hy with
  | last s s' ha =>
    intro es rounds f out hr hf
    obtain ⟨f, rfl⟩ : ∃ g, f = g + 1 := ⟨f - 1, by simp at hf; omega⟩
    obtain ⟨p, es', res, h1, h2, h3, -, -, h6⟩ := writeAll_spec es rounds out (e.cur s) hr
    simp only [Writer.drain, h1]
    cases res with
    | error k => exact ⟨p, es', .error k, rfl, by simpa using h2, (fun h => by cases h), h6⟩
    | ok u =>
      refine ⟨p, es', .ok (), ?_, by simpa using h2, fun _ => by simpa using h3.mp rfl, fun _ => rfl⟩
      simp [ha]
  | more s s' cs ha hy ih =>
    intro es rounds f out hr hf
    obtain ⟨f, rfl⟩ : ∃ g, f = g + 1 := ⟨f - 1, by simp at hf; omega⟩
    obtain ⟨p, es', res, h1, h2, h3, h4, h5, h6⟩ := writeAll_spec es rounds out (e.cur s) hr
    simp only [Writer.drain, h1]
    cases res with
    | error k =>
      refine ⟨p, es', .error k, rfl, ?_, (fun h => by cases h), h6⟩
      obtain ⟨q, hq⟩ := h2
      exact ⟨q ++ cs.flatten, by rw [← List.append_assoc, hq, List.flatten_cons]⟩
    | ok u =>
      have hp := h3.mp rfl
      subst hp
      simp only [ha]
      obtain ⟨p2, es2, res2, g1, g2, g3, g4⟩ := ih es' rounds f (out ++ e.cur s) (by omega) (by simp at hf; omega)
      refine ⟨e.cur s ++ p2, es2, res2, by rw [← List.append_assoc]; exact g1, ?_, fun h => by rw [g3 h, List.flatten_cons],
        fun hw => g4 fun w hw2 => hw w (h4 w hw2)⟩
      obtain ⟨q, hq⟩ := g2
      exact ⟨q, by rw [List.flatten_cons, ← hq, List.append_assoc]⟩

/-- Writing to a byte slice: the bytes that fit are written; more fail. -/
theorem C58_slice_writer (f : Nat) (done room b : Bytes) (hf : 2 ≤ f) :
    sliceWriter.writeAll f (done, room) b =
      some ((done ++ b.take room.length, room.drop b.length), if b.length ≤ room.length then .ok () else .error .unexpectedEof) := by
  obtain ⟨f, rfl⟩ : ∃ g, f = g + 2 := ⟨f - 2, by omega⟩
  cases b with
  | nil => simp [Writer.writeAll]
  | cons b bs =>
    cases room with
    | nil => simp [Writer.writeAll, sliceWriter]
    | cons r rs =>
      have hm : min (r :: rs).length (b :: bs).length = min rs.length bs.length + 1 := by simp only [List.length_cons]; omega
      simp only [Writer.writeAll, sliceWriter, hm]
      by_cases hle : bs.length ≤ rs.length
      · rw [Nat.min_eq_right hle]
        rw [show (b :: bs).drop (bs.length + 1) = [] by simp, show (b :: bs).take (bs.length + 1) = b :: bs by simp,
          show (b :: bs).take (r :: rs).length = b :: bs by simp [List.take_of_length_le hle]]
        simp [Writer.writeAll, hle]
      · have hlt : rs.length < bs.length := by omega
        rw [Nat.min_eq_left (by omega)]
        rw [show (r :: rs).drop (rs.length + 1) = [] by simp]
        have hd : ∃ x xs, (b :: bs).drop (rs.length + 1) = x :: xs := by
          cases hx : (b :: bs).drop (rs.length + 1) with
          | nil => rw [List.drop_eq_nil_iff] at hx; simp at hx; omega
          | cons x xs => exact ⟨x, xs, rfl⟩
        obtain ⟨x, xs, hx⟩ := hd
        rw [hx]
        simp [Writer.writeAll, hle]
        omega

/-- Writing to a cursor overwrites the bytes from its position on; bytes before and after are kept, and the length stays. -/
theorem C58_cursor_writer (c c' : Cursor) (b : Bytes) (n : Nat) (h : cursorWriter.write c b = (c', .ok n)) :
    n = min b.length (c.inner.length - c.pos) ∧ c'.pos = c.pos + n ∧ c'.inner.length = c.inner.length ∧
    (n ≠ 0 → c'.inner.take c.pos = c.inner.take c.pos ∧ (c'.inner.drop c.pos).take n = b.take n ∧ c'.inner.drop (c.pos + n) = c.inner.drop (c.pos + n)) ∧
    (n = 0 → c'.inner = c.inner) := by
  simp only [cursorWriter, Prod.mk.injEq, Except.ok.injEq] at h
  obtain ⟨rfl, hn⟩ := h
  simp only
  rw [hn]
  have hn2 : n = min b.length (c.inner.length - c.pos) := by omega
  refine ⟨hn2, rfl, ?_, ?_, ?_⟩
  · simp only [List.length_append, List.length_take, List.length_drop]; omega
  · intro h0
    have hp : min c.pos c.inner.length = c.pos := by omega
    rw [hp]
    have l1 : (c.inner.take c.pos).length = c.pos := by rw [List.length_take]; omega
    have l2 : (b.take n).length = n := by rw [List.length_take]; omega
    refine ⟨?_, ?_, ?_⟩
    · rw [List.append_assoc, List.take_append_of_le_length (by omega), List.take_of_length_le (by omega)]
    · rw [List.append_assoc, List.drop_append_of_le_length (by omega), List.drop_eq_nil_of_le (by omega), List.nil_append,
        List.take_append_of_le_length (by omega), List.take_of_length_le (by omega)]
    · rw [List.drop_append, List.drop_eq_nil_of_le (by rw [List.length_append]; omega), List.nil_append, List.length_append, l1, l2, Nat.sub_self, List.drop_zero]
  · intro h0
    rw [h0, List.take_zero, List.append_nil, Nat.add_zero, List.take_append_drop]

/-! ## Examples -/

/-- Ten bytes in three pieces with an interruption, then a failure. -/
def script1 : List Ev := [.data [1, 2, 3], .err .interrupted, .data [4, 5, 6, 7], .data [8, 9, 10], .err (.other 5)]
example : srcBytes script1 = [1, 2, 3, 4, 5, 6, 7, 8, 9, 10] ∧ srcEnding script1 = some (.other 5) := by decide
example : (srcBuf.readExact 20 script1 5 []).map (fun x => (x.2.1, x.1)) = some ([1, 2, 3, 4, 5], [.data [6, 7], .data [8, 9, 10], .err (.other 5)]) := by decide
example : (srcBuf.readExact 20 script1 11 []).map (fun x => x.2.1) = some [1, 2, 3, 4, 5, 6, 7, 8, 9, 10] := by decide
example : (srcBuf.readToLimit 20 script1 6).map (fun x => x.2.1) = some [1, 2, 3, 4, 5, 6] := by decide

/-- A reader that has delivered exactly as many bytes as the limit is asked again, and its error is reported although the limit was met
(std's `Take` would not ask). -/
theorem C58_take_asks_again : ∃ t, srcBuf.readToLimit 20 [.data [1, 2, 3], .err (.other 5)] 3 = some (t, [1, 2, 3], .error (.other 5)) := ⟨_, rfl⟩
/-- `hash_reader` gives up at an interruption. -/
example : hashReader srcBuf Hashes.sha256Alg 20 script1 Hashes.sha256Alg.new = some (.error .interrupted) := by rfl
example : Willing [.accept 3, .err .interrupted, .accept 1] := by intro e he; simp at he; rcases he with rfl | rfl | rfl <;> simp
example : scriptWriter.writeAll 9 ([9], [.accept 3, .err .interrupted, .accept 1]) [1, 2, 3, 4, 5] = some (([9, 1, 2, 3, 4, 5], []), .ok ()) := by rfl

/-- A two-byte vector read through interruptions: the reader is left after it. -/
example : decodeFromRead srcBuf (byteVecDec 10) 20 [.data [2], .err .interrupted, .data [7, 8, 9], .err (.other 5)] (byteVecDec 10).init =
    some (.ok [7, 8] [.data [9], .err (.other 5)]) := by rfl
example : decodeUnbuffered srcBuf.toReader (byteVecDec 10) 3 20 [.data [2], .err .interrupted, .data [7, 8, 9], .err (.other 5)] (byteVecDec 10).init =
    some (.ok [7, 8] [.data [9], .err (.other 5)]) := by with_unfolding_all rfl
/-- Seven bytes into a slice of four. -/
example : sliceWriter.writeAll 2 ([], [0, 0, 0, 0]) [1, 2, 3, 4, 5, 6, 7] = some (([1, 2, 3, 4], []), .error .unexpectedEof) := by rfl

end Io
end Btc
