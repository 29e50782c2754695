import Verif.Hashes.Engine
/-! # Lemmas on the block-wise engines -/
namespace Btc
namespace Hashes

variable {σ : Type}

theorem blocksLoop_append (B : Nat) (comp : σ → Bytes → σ) (k₁ k₂ : Nat) (h : σ) (a b : Bytes) (ha : a.length = k₁ * B) :
    blocksLoop B comp (k₁ + k₂) h (a ++ b) = blocksLoop B comp k₂ (blocksLoop B comp k₁ h a) b := by
  induction k₁ generalizing h a with
  | zero => have : a = [] := List.eq_nil_of_length_eq_zero (by omega); subst this; simp [blocksLoop]
  | succ k ih =>
    have hB : B ≤ a.length := by rw [ha, Nat.succ_mul]; omega
    rw [show k + 1 + k₂ = (k + k₂) + 1 by omega]
    simp only [blocksLoop]
    rw [List.take_append_of_le_length hB, List.drop_append_of_le_length hB]
    exact ih _ _ (by rw [List.length_drop, ha, Nat.succ_mul]; omega)

theorem processBlocks_append (B : Nat) (hB : 0 < B) (comp : σ → Bytes → σ) (h : σ) (a b : Bytes) (ha : a.length % B = 0) :
    processBlocks B comp h (a ++ b) = processBlocks B comp (processBlocks B comp h a) b := by
  have h1 : a.length = a.length / B * B := by
    have := Nat.div_add_mod a.length B; rw [ha, Nat.mul_comm] at this; omega
  unfold processBlocks
  rw [← blocksLoop_append B comp _ _ h a b h1]
  congr 1
  rw [List.length_append, h1, Nat.mul_comm, Nat.mul_add_div hB, Nat.mul_comm, Nat.mul_div_cancel _ hB]

theorem processBlocks_short (B : Nat) (comp : σ → Bytes → σ) (h : σ) (b : Bytes) (hb : b.length < B) :
    processBlocks B comp h b = h := by
  unfold processBlocks; rw [Nat.div_eq_of_lt hb]; rfl

theorem processBlocks_one (B : Nat) (hB : 0 < B) (comp : σ → Bytes → σ) (h : σ) (b : Bytes) (hb : b.length = B) :
    processBlocks B comp h b = comp h b := by
  unfold processBlocks; rw [hb, Nat.div_self hB]; simp [blocksLoop, ← hb]

theorem splice_length (buf : Bytes) (i : Nat) (l : Bytes) (h : i + l.length ≤ buf.length) : (splice buf i l).length = buf.length := by
  simp [splice]; omega

theorem splice_take (buf : Bytes) (i : Nat) (l : Bytes) (h : i + l.length ≤ buf.length) :
    (splice buf i l).take (i + l.length) = buf.take i ++ l := by
  unfold splice
  rw [List.take_append_of_le_length (by rw [List.length_append, List.length_take]; omega),
    List.take_of_length_le (by rw [List.length_append, List.length_take]; omega)]

theorem splice_full (buf : Bytes) (i : Nat) (l : Bytes) (h : i + l.length = buf.length) : splice buf i l = buf.take i ++ l := by
  unfold splice
  rw [List.drop_of_length_le (by omega), List.append_nil]

/-- What an engine that has been fed `m` looks like. -/
def Rep (B : Nat) (comp : σ → Bytes → σ) (iv : σ) (e : Eng σ) (m : Bytes) : Prop :=
  e.buffer.length = B ∧ e.bytesHashed = m.length ∧
  ∃ f t, m = f ++ t ∧ f.length % B = 0 ∧ t.length < B ∧ e.buffer.take t.length = t ∧ e.h = processBlocks B comp iv f

theorem rep_new (B : Nat) (hB : 0 < B) (comp : σ → Bytes → σ) (iv : σ) : Rep B comp iv (Eng.new B iv) [] :=
  ⟨by simp [Eng.new], rfl, [], [], rfl, by simp, hB, by simp, by simp [Eng.new, processBlocks, blocksLoop]⟩

theorem rep_incomplete (B : Nat) (f t : Bytes) (hf : f.length % B = 0) (ht : t.length < B) : (f ++ t).length % B = t.length := by
  rw [List.length_append, Nat.add_mod, hf, Nat.zero_add, Nat.mod_mod, Nat.mod_eq_of_lt ht]

/-- The end of `input`, once the buffer is empty. -/
theorem rep_tail (B : Nat) (hB : 0 < B) (comp : σ → Bytes → σ) (iv : σ) (buf f x : Bytes) (n : Nat) (hbuf : buf.length = B)
    (hf : f.length % B = 0) (hn : n = (f ++ x).length) :
    Rep B comp iv ⟨splice buf 0 (x.drop (x.length / B * B)),
      if x.length / B * B > 0 then processBlocks B comp (processBlocks B comp iv f) (x.take (x.length / B * B))
        else processBlocks B comp iv f, n⟩ (f ++ x) := by
  have hdm := Nat.div_add_mod x.length B
  have hlt := Nat.mod_lt x.length hB
  have hle : x.length / B * B ≤ x.length := Nat.div_mul_le_self _ _
  have hrl : (x.drop (x.length / B * B)).length < B := by
    rw [List.length_drop]; rw [Nat.mul_comm] at hdm; omega
  have htl : (x.take (x.length / B * B)).length % B = 0 := by
    rw [List.length_take, Nat.min_eq_left hle]; exact Nat.mul_mod_left _ _
  refine ⟨?_, hn, f ++ x.take (x.length / B * B), x.drop (x.length / B * B), ?_, ?_, hrl, ?_, ?_⟩
  · exact (splice_length _ _ _ (by omega)).trans hbuf
  · rw [List.append_assoc, List.take_append_drop]
  · rw [List.length_append, Nat.add_mod, hf, htl]; simp
  · have := splice_take buf 0 (x.drop (x.length / B * B)) (by omega)
    simpa using this
  · show (if _ then _ else _) = _
    rw [processBlocks_append B hB comp iv _ _ hf]
    split
    · rfl
    · rw [show x.length / B * B = 0 by omega, List.take_zero, processBlocks_short B comp (processBlocks B comp iv f) [] (by simpa using hB)]

theorem rep_input (B : Nat) (hB : 0 < B) (comp : σ → Bytes → σ) (iv : σ) (e : Eng σ) (m x : Bytes) (hr : Rep B comp iv e m)
    (hlen : (m ++ x).length < 2 ^ 64) : Rep B comp iv (e.input B comp x) (m ++ x) := by
  obtain ⟨hb, hn, f, t, hm, hf, ht, htake, hh⟩ := hr
  have hi : incompleteLen B e = t.length := by
    unfold incompleteLen; rw [hn, hm]; exact rep_incomplete B f t hf ht
  have hn' : (e.bytesHashed + x.length) % 2 ^ 64 = (m ++ x).length := by
    rw [hn, ← List.length_append]; exact Nat.mod_eq_of_lt hlen
  unfold Eng.input
  simp only [hi, hn']
  by_cases hs : t.length + x.length < B
  · rw [if_pos hs]
    refine ⟨?_, rfl, f, t ++ x, by rw [hm, List.append_assoc], hf, by simpa using hs, ?_, hh⟩
    · exact (splice_length _ _ _ (by omega)).trans hb
    · show (splice e.buffer t.length x).take (t ++ x).length = t ++ x
      rw [List.length_append, splice_take _ _ _ (by omega), htake]
  · rw [if_neg hs]
    by_cases hp : t.length > 0
    · simp only [if_pos hp]
      have hx1 : (x.take (B - t.length)).length = B - t.length := by rw [List.length_take]; omega
      have hblk : splice e.buffer t.length (x.take (B - t.length)) = t ++ x.take (B - t.length) := by
        rw [splice_full _ _ _ (by omega), htake]
      have hbl : (t ++ x.take (B - t.length)).length = B := by rw [List.length_append, hx1]; omega
      have hf' : (f ++ (t ++ x.take (B - t.length))).length % B = 0 := by
        rw [List.length_append, hbl, Nat.add_mod_right, hf]
      have hmx : m ++ x = (f ++ (t ++ x.take (B - t.length))) ++ x.drop (B - t.length) := by
        rw [hm]; simp [List.append_assoc, List.take_append_drop]
      have := rep_tail B hB comp iv (t ++ x.take (B - t.length)) (f ++ (t ++ x.take (B - t.length))) (x.drop (B - t.length))
        (m ++ x).length hbl hf' (by rw [hmx])
      rw [processBlocks_append B hB comp iv _ _ hf] at this
      rw [hblk, hh]
      rw [hmx] at this ⊢
      exact this
    · simp only [if_neg hp]
      have ht0 : t = [] := List.eq_nil_of_length_eq_zero (by omega)
      have hmf : m = f := by rw [hm, ht0, List.append_nil]
      rw [hh, hmf]
      exact rep_tail B hB comp iv e.buffer f x _ hb hf rfl

/-- Any sequence of `input` calls. -/
theorem rep_inputs (B : Nat) (hB : 0 < B) (comp : σ → Bytes → σ) (iv : σ) (xs : List Bytes) (e : Eng σ) (m : Bytes)
    (hr : Rep B comp iv e m) (hlen : (m ++ xs.flatten).length < 2 ^ 64) :
    Rep B comp iv (xs.foldl (fun e x => e.input B comp x) e) (m ++ xs.flatten) := by
  induction xs generalizing e m with
  | nil => simpa using hr
  | cons x xs ih =>
    rw [List.flatten_cons, ← List.append_assoc] at hlen ⊢
    exact ih _ _ (rep_input B hB comp iv e m x hr (by rw [List.length_append] at hlen; omega)) hlen

theorem fillFrom_mark (buf t : Bytes) (B : Nat) (x : UInt8) (hb : buf.length = B) (ht : t.length < B) (htake : buf.take t.length = t) :
    fillFrom (splice buf t.length [x]) (t.length + 1) = t ++ x :: List.replicate (B - t.length - 1) 0 := by
  unfold fillFrom
  have h := splice_take buf t.length [x] (by simp; omega)
  simp only [List.length_singleton] at h
  rw [h, htake, splice_length _ _ _ (by simp; omega), hb]
  simp [Nat.sub_sub]

theorem rep_finish (B L : Nat) (hL : 8 ≤ L) (hLB : L < B) (enc : Nat → Bytes) (henc : ∀ n, (enc n).length = 8) (comp : σ → Bytes → σ)
    (iv : σ) (e : Eng σ) (m : Bytes) (hr : Rep B comp iv e m) (hlen : 8 * m.length < 2 ^ 64) :
    e.finish B L enc comp = processBlocks B comp iv
      (m ++ 0x80 :: List.replicate ((2 * B - 1 - L - m.length % B) % B) 0 ++ (List.replicate (L - 8) 0 ++ enc (8 * m.length))) := by
  have hB : 0 < B := by omega
  obtain ⟨hb, hn, f, t, hm, hf, ht, htake, hh⟩ := hr
  have hmod : m.length % B = t.length := by rw [hm]; exact rep_incomplete B f t hf ht
  have hi : incompleteLen B e = t.length := by unfold incompleteLen; rw [hn, hmod]
  unfold Eng.finish
  simp only [hi, hn, Nat.mod_eq_of_lt hlen, hmod, fillFrom_mark e.buffer t B 0x80 hb ht htake]
  have hassoc : ∀ (z w : Bytes), m ++ 0x80 :: z ++ w = f ++ (t ++ 0x80 :: (z ++ w)) := by
    intro z w; rw [hm]; simp
  rw [hassoc, processBlocks_append B hB comp iv _ _ hf, hh]
  by_cases hs : t.length ≥ B - L
  · simp only [if_pos hs]
    have hz : (2 * B - 1 - L - t.length) % B = 2 * B - 1 - L - t.length := Nat.mod_eq_of_lt (by omega)
    rw [hz]
    have hsplit : t ++ 0x80 :: (List.replicate (2 * B - 1 - L - t.length) 0 ++ (List.replicate (L - 8) 0 ++ enc (8 * m.length)))
        = (t ++ 0x80 :: List.replicate (B - t.length - 1) 0) ++ (List.replicate (B - 8) 0 ++ enc (8 * m.length)) := by
      rw [← List.append_assoc (List.replicate _ _) (List.replicate _ _), List.replicate_append_replicate]
      rw [List.append_assoc, List.cons_append, ← List.append_assoc (List.replicate _ _) (List.replicate _ _),
        List.replicate_append_replicate]
      rw [show 2 * B - 1 - L - t.length + (L - 8) = B - t.length - 1 + (B - 8) by omega]
    have hl1 : (t ++ (0x80 : UInt8) :: List.replicate (B - t.length - 1) 0).length = B := by simp; omega
    rw [hsplit, processBlocks_append B hB comp _ (t ++ (0x80 : UInt8) :: List.replicate (B - t.length - 1) 0) _
      (by rw [hl1]; exact Nat.mod_self B)]
    congr 1
    have hfl : (fillTo (t ++ (0x80 : UInt8) :: List.replicate (B - t.length - 1) 0) (B - 8)).length = B := by
      unfold fillTo; rw [List.length_append, List.length_replicate, List.length_drop, hl1]; omega
    rw [splice_full _ _ _ (by rw [henc, hfl]; omega)]
    congr 1
    unfold fillTo
    rw [List.take_left' (by simp)]
  · simp only [if_neg hs]
    have hz : (2 * B - 1 - L - t.length) % B = B - 1 - L - t.length := by
      rw [show 2 * B - 1 - L - t.length = (B - 1 - L - t.length) + B by omega, Nat.add_mod_right, Nat.mod_eq_of_lt (by omega)]
    rw [hz]
    congr 1
    have hl1 : (t ++ (0x80 : UInt8) :: List.replicate (B - t.length - 1) 0).length = B := by simp; omega
    rw [splice_full _ _ _ (by rw [henc, hl1]; omega)]
    rw [List.take_append, List.take_of_length_le (by omega), show B - 8 - t.length = (B - 9 - t.length) + 1 by omega,
      List.take_succ_cons, List.take_replicate, ← List.append_assoc (List.replicate _ _) (List.replicate _ _),
      List.replicate_append_replicate, List.append_assoc, List.cons_append]
    rw [show min (B - 9 - t.length) (B - t.length - 1) = B - 1 - L - t.length + (L - 8) by omega]

theorem rep_finishSha3 (B : Nat) (hB : 1 < B) (comp : σ → Bytes → σ) (iv : σ) (e : Eng σ) (m : Bytes) (hr : Rep B comp iv e m) :
    e.finishSha3 B comp = processBlocks B comp iv
      (m ++ if m.length % B = B - 1 then [0x86] else 0x06 :: List.replicate (B - 2 - m.length % B) 0 ++ [0x80]) := by
  have hB0 : 0 < B := by omega
  obtain ⟨hb, hn, f, t, hm, hf, ht, htake, hh⟩ := hr
  have hmod : m.length % B = t.length := by rw [hm]; exact rep_incomplete B f t hf ht
  have hi : incompleteLen B e = t.length := by unfold incompleteLen; rw [hn, hmod]
  unfold Eng.finishSha3
  simp only [hi, hmod]
  have hbuf : splice (fillFrom e.buffer (t.length + 1)) t.length [0x06] = t ++ 0x06 :: List.replicate (B - t.length - 1) 0 := by
    unfold splice fillFrom
    have h1 : (e.buffer.take (t.length + 1)).length = t.length + 1 := by rw [List.length_take]; omega
    rw [List.take_append_of_le_length (by omega), List.take_take, Nat.min_eq_left (by omega), htake, List.length_singleton,
      List.drop_left' h1, hb]
    simp [Nat.sub_sub]
  rw [hbuf, hm, List.append_assoc, processBlocks_append B hB0 comp iv _ _ hf, hh]
  congr 1
  have hl1 : (t ++ (0x06 : UInt8) :: List.replicate (B - t.length - 1) 0).length = B := by simp; omega
  rw [splice_full _ _ _ (by rw [hl1]; simp; omega)]
  by_cases hs : t.length = B - 1
  · rw [if_pos hs]
    have h0 : B - t.length - 1 = 0 := by omega
    rw [h0, List.replicate_zero, ← hs, List.take_left' rfl]
    simp
    decide
  · rw [if_neg hs, List.getD_eq_getElem?_getD, List.getElem?_append_right (by omega),
      show B - 1 - t.length = (B - 2 - t.length) + 1 by omega, List.getElem?_cons_succ, List.getElem?_replicate_of_lt (by omega)]
    rw [List.take_append, List.take_of_length_le (by omega), show B - 1 - t.length = (B - 2 - t.length) + 1 by omega,
      List.take_succ_cons, List.take_replicate, Nat.min_eq_left (by omega)]
    simp

end Hashes
end Btc
