import Verif.Codec.Laws
/-!
# Capacity accounting of the vector decoders

`evLoop` (Combinators.lean) forgets the capacity of the item vector.  `evLoopC` is the same loop with
the capacity made explicit; `evLoopC_erase` shows that forgetting it gives `evLoop` back.
-/
namespace Btc

/-- One memory observation: number of decoded items and capacity (in items) of the vector. -/
structure MemObs where
  len : Nat
  cap : Nat

/-- `ExactVecDecoderWith::reserve` (decoders.rs 197-205) for items of `sz` bytes, `left` of which are
missing.  `reserve_exact n` is modelled as giving capacity exactly `len + n`. -/
def evReserve (sz left len cap : Nat) : Nat :=
  if len = cap then len + min left (MAX_VECTOR_ALLOCATE / max sz 1) else cap

/-- `Vec::push`: a full vector grows to at least double its capacity (the standard library's
amortised growth). -/
def vecPushCap (len cap : Nat) : Nat := if len = cap then max (2 * cap) (len + 1) else cap

/-- The loop of `ExactVecDecoderWith::push_bytes` (decoders.rs 221-241) with capacity.  Returns what
the loop returns, and every capacity the vector went through, most recent first. -/
def evLoopC {α : Type} (d : Dec α) (sz : Nat) : Nat → List α → Nat → List MemObs → Option d.S →
    Bytes → Except DErr (EvState d.S α × Bytes × Status) × List MemObs
  | 0, buf, cap, tr, o, bs => (.ok (⟨0, buf, o⟩, bs, .ready), ⟨buf.length, cap⟩ :: tr)
  | k + 1, buf, cap, tr, o, bs =>
    if bs = [] then (.ok (⟨k + 1, buf, o⟩, bs, .needsMore), ⟨buf.length, cap⟩ :: tr)
    else
      let cap := evReserve sz (k + 1) buf.length cap
      let tr := ⟨buf.length, cap⟩ :: tr
      match d.push (o.getD d.init) bs with
      | .error e => (.error (.item e), tr)
      | .ok (s', rest, .needsMore) => (.ok (⟨k + 1, buf, some s'⟩, rest, .needsMore), tr)
      | .ok (s', rest, .ready) =>
        match d.fin s' with
        | .error e => (.error (.item e), tr)
        | .ok a => evLoopC d sz k (buf ++ [a]) (vecPushCap buf.length cap) tr none rest

theorem evLoopC_erase {α : Type} (d : Dec α) (sz : Nat) : ∀ (k : Nat) (buf : List α) (cap : Nat)
    (tr : List MemObs) (o : Option d.S) (bs : Bytes),
    (evLoopC d sz k buf cap tr o bs).1 = evLoop d k buf o bs := by
  intro k
  induction k with
  | zero => intros; rfl
  | succ k ih =>
    intro buf cap tr o bs
    simp only [evLoopC, evLoop]
    split
    · rfl
    · split <;> rename_i hp <;> simp only [hp]
      split <;> rename_i hf <;> simp only [hf]
      exact ih _ _ _ _ _

/-- A state of the vector decoder together with the capacity of its vector and all capacities so
far. -/
structure EvMem (S α : Type) where
  st : EvState S α
  obs : List MemObs

/-- The current capacity. -/
def EvMem.cap {S α : Type} (m : EvMem S α) : Nat :=
  match m.obs with
  | [] => 0
  | o :: _ => o.cap

/-- `push_bytes` with capacity. -/
def evPushC {α : Type} (d : Dec α) (sz : Nat) (m : EvMem d.S α) (bs : Bytes) :
    Except DErr (EvState d.S α × Bytes × Status) × List MemObs :=
  evLoopC d sz m.st.left m.st.buffer m.cap m.obs m.st.decoder bs

/-- What the trace of a loop must satisfy. -/
def MemGood (sz : Nat) (o : MemObs) : Prop := o.len ≤ o.cap ∧ o.cap * sz ≤ o.len * sz + MAX_VECTOR_ALLOCATE

theorem evReserve_good {sz left len cap : Nat} (hl : 0 < left) (hs : sz ≤ MAX_VECTOR_ALLOCATE)
    (h : MemGood sz ⟨len, cap⟩) :
    MemGood sz ⟨len, evReserve sz left len cap⟩ ∧ len < evReserve sz left len cap := by
  unfold evReserve
  split
  · rename_i he
    subst he
    have h1 : (MAX_VECTOR_ALLOCATE / max sz 1) * max sz 1 ≤ MAX_VECTOR_ALLOCATE :=
      Nat.div_mul_le_self _ _
    have h2 : 0 < MAX_VECTOR_ALLOCATE / max sz 1 := by
      apply Nat.div_pos
      · have : (1 : Nat) ≤ MAX_VECTOR_ALLOCATE := by decide
        omega
      · omega
    have h3 : min left (MAX_VECTOR_ALLOCATE / max sz 1) * sz ≤ MAX_VECTOR_ALLOCATE :=
      Nat.le_trans (Nat.mul_le_mul (Nat.min_le_right _ _) (Nat.le_max_left _ _)) h1
    refine ⟨⟨by simp, ?_⟩, by omega⟩
    simp only [Nat.add_mul]
    omega
  · rename_i he
    refine ⟨h, ?_⟩
    have := h.1
    simp only at this
    omega

/-- The number of items is bounded by the bytes consumed, and every capacity on the trace is good. -/
theorem evLoopC_good {α : Type} {d : Dec α} {inv : d.S → Prop} {den : d.S → Parser α}
    (L : LawfulWith d inv den) {sz : Nat} (hs : sz ≤ MAX_VECTOR_ALLOCATE) :
    ∀ (k : Nat) (buf : List α) (cap : Nat) (tr : List MemObs) (o : Option d.S) (bs : Bytes)
      (fed : Nat),
      (∀ s, o = some s → inv s) → MemGood sz ⟨buf.length, cap⟩ →
      (∀ x ∈ tr, MemGood sz x ∧ x.len ≤ buf.length) → buf.length ≤ fed →
      let r := evLoopC d sz k buf cap tr o bs
      (∀ x ∈ r.2, MemGood sz x ∧ x.len ≤ fed + bs.length) ∧
      (∀ st rest status, r.1 = .ok (st, rest, status) →
        rest.length ≤ bs.length ∧ st.buffer.length + rest.length ≤ fed + bs.length ∧
        (status = .needsMore → ∀ s, st.decoder = some s → inv s) ∧
        (∀ x ∈ r.2, x.len ≤ st.buffer.length) ∧
        ∃ c t, r.2 = ⟨st.buffer.length, c⟩ :: t) := by
  intro k
  induction k with
  | zero =>
    intro buf cap tr o bs fed _ hg ht hb
    simp only [evLoopC]
    have h0 : ∀ x ∈ (⟨buf.length, cap⟩ : MemObs) :: tr, MemGood sz x ∧ x.len ≤ buf.length := by
      intro x hx
      rcases List.mem_cons.mp hx with rfl | hx
      · exact ⟨hg, Nat.le_refl _⟩
      · exact ht x hx
    refine ⟨fun x hx => ⟨(h0 x hx).1, by have := (h0 x hx).2; omega⟩, fun st rest status h => ?_⟩
    cases h
    exact ⟨Nat.le_refl _, by simp; omega, by simp, fun x hx => (h0 x hx).2, _, _, rfl⟩
  | succ k ih =>
    intro buf cap tr o bs fed ho hg ht hb
    have hinv : inv (o.getD d.init) := by
      cases o with
      | none => exact L.init
      | some s => exact ho s rfl
    simp only [evLoopC]
    split
    · rename_i hbs
      have h0 : ∀ x ∈ (⟨buf.length, cap⟩ : MemObs) :: tr, MemGood sz x ∧ x.len ≤ buf.length := by
        intro x hx
        rcases List.mem_cons.mp hx with rfl | hx
        · exact ⟨hg, Nat.le_refl _⟩
        · exact ht x hx
      refine ⟨fun x hx => ⟨(h0 x hx).1, by have := (h0 x hx).2; omega⟩, fun st rest status h => ?_⟩
      cases h
      exact ⟨Nat.le_refl _, by simp; omega, fun _ => ho, fun x hx => (h0 x hx).2, _, _, rfl⟩
    · obtain ⟨hg', hlt⟩ := evReserve_good (left := k + 1) (by omega) hs hg
      have htr : ∀ x ∈ (⟨buf.length, evReserve sz (k + 1) buf.length cap⟩ : MemObs) :: tr,
          MemGood sz x ∧ x.len ≤ buf.length := by
        intro x hx
        rcases List.mem_cons.mp hx with rfl | hx
        · exact ⟨hg', Nat.le_refl _⟩
        · exact ht x hx
      have htr' : ∀ x ∈ (⟨buf.length, evReserve sz (k + 1) buf.length cap⟩ : MemObs) :: tr,
          MemGood sz x ∧ x.len ≤ fed + bs.length := fun x hx =>
        ⟨(htr x hx).1, by have := (htr x hx).2; omega⟩
      have hp := L.push _ bs hinv
      split
      · exact ⟨htr', fun st rest status h => by cases h⟩
      · rename_i s' rest hpush
        rw [hpush] at hp
        obtain ⟨c, hc, hi, _, _⟩ := hp
        refine ⟨htr', fun st rest' status h => ?_⟩
        cases h
        have hl : bs.length = c.length + rest.length := by rw [hc]; simp
        refine ⟨by omega, by simp; omega, fun _ s h => ?_, fun x hx => (htr x hx).2, _, _, rfl⟩
        cases h; exact hi
      · rename_i s' rest hpush
        rw [hpush] at hp
        obtain ⟨c, hc, hden⟩ := hp
        split
        · exact ⟨htr', fun st rest status h => by cases h⟩
        · rename_i a hfin
          have hcne : c ≠ [] := by
            rintro rfl
            obtain ⟨_, e, hm, _⟩ := L.more _ hinv
            have := hden []
            rw [List.append_nil, hm, hfin] at this
            cases this
          have hcl : 0 < c.length := List.length_pos_iff.mpr hcne
          have hlen : bs.length = c.length + rest.length := by rw [hc]; simp
          have hpc : vecPushCap buf.length (evReserve sz (k + 1) buf.length cap)
              = evReserve sz (k + 1) buf.length cap := by
            unfold vecPushCap; rw [if_neg (by omega)]
          have hgn : MemGood sz ⟨(buf ++ [a]).length,
              vecPushCap buf.length (evReserve sz (k + 1) buf.length cap)⟩ := by
            rw [hpc]
            refine ⟨by simp; omega, ?_⟩
            have := hg'.2
            simp only [List.length_append, List.length_singleton, Nat.add_mul] at this ⊢
            omega
          have := ih (buf ++ [a]) _ _ none rest (fed + c.length) (by simp) hgn
            (fun x hx => ⟨(htr x hx).1, by have := (htr x hx).2; simp; omega⟩)
            (by simp; omega)
          refine ⟨fun x hx => ?_, fun st rest' status h => ?_⟩
          · have := this.1 x hx
            exact ⟨this.1, by omega⟩
          · obtain ⟨h1, h2, h3, h4⟩ := this.2 st rest' status h
            exact ⟨by omega, by omega, h3, h4⟩

end Btc
