import Verif.Codec.Drivers
import Verif.Codec.Then
/-!
# Decoders characterised by what they accept

`LawfulWith` also pins down which error is reported and when.  The framed network decoders report errors that depend
on how the bytes were split, so they are characterised by their successes only: `den s bs a rest` says that from
state `s` the input `bs` is accepted as `a` leaving `rest`.
-/
namespace Btc

abbrev Rel (α : Type) := Bytes → α → Bytes → Prop

/-- One push against the relation `D`. -/
def PushOkA {α S : Type} (fin : S → Except DErr α) (inv : S → Prop) (den : S → Rel α) (D : Rel α) (bs : Bytes) :
    Except DErr (S × Bytes × Status) → Prop
  | .error _ => ∀ ext a r, ¬ D (bs ++ ext) a r
  | .ok (s', rest, .ready) => ∃ c, bs = c ++ rest ∧ ∀ ext a r, D (c ++ ext) a r ↔ fin s' = .ok a ∧ r = ext
  | .ok (s', rest, .needsMore) =>
      ∃ c, bs = c ++ rest ∧ inv s' ∧ (∀ ext a r, D (c ++ ext) a r ↔ den s' ext a r) ∧ (rest ≠ [] → c ≠ [])

/-- Laws of the states in which more input is needed. -/
structure AcceptsWith {α : Type} (d : Dec α) (inv : d.S → Prop) (den : d.S → Rel α) : Prop where
  fin : ∀ s, inv s → ∃ e, d.fin s = .error e
  push : ∀ s bs, inv s → PushOkA d.fin inv den (den s) bs (d.push s bs)
  limit : ∀ s bs a rest, inv s → den s bs a rest → 0 < d.limit s ∧ d.limit s + rest.length ≤ bs.length

theorem PushOkA.prepend {α S : Type} {fin : S → Except DErr α} {inv : S → Prop} {den : S → Rel α}
    {Q Q' : Rel α} {bs c rest : Bytes} {r : Except DErr (S × Bytes × Status)}
    (hbs : bs = c ++ rest) (hQ : ∀ ext a r, Q (c ++ ext) a r ↔ Q' ext a r) (h : PushOkA fin inv den Q' rest r) :
    PushOkA fin inv den Q bs r := by
  subst hbs
  match r with
  | .error e => exact fun ext a r => by rw [List.append_assoc, hQ]; exact h ext a r
  | .ok (s', rest', .ready) =>
    obtain ⟨c', h1, h2⟩ := h
    exact ⟨c ++ c', by rw [h1, List.append_assoc], fun ext a r => by rw [List.append_assoc, hQ, h2]⟩
  | .ok (s', rest', .needsMore) =>
    obtain ⟨c', h1, h2, h3, h4⟩ := h
    exact ⟨c ++ c', by rw [h1, List.append_assoc], h2,
      fun ext a r => by rw [List.append_assoc, hQ, h3],
      fun hr h0 => h4 hr (List.append_eq_nil_iff.mp h0).2⟩

/-- A lawful decoder accepts what its parser parses. -/
theorem LawfulWith.accepts {α : Type} {d : Dec α} {inv : d.S → Prop} {den : d.S → Parser α}
    (L : LawfulWith d inv den) : AcceptsWith d inv (fun s bs a rest => den s bs = .done a rest) where
  fin s hs := by obtain ⟨_, e, _, h⟩ := L.more s hs; exact ⟨e, h⟩
  push s bs hs := by
    have hp := L.push s bs hs
    match hpush : d.push s bs with
    | .error e =>
      rw [hpush] at hp
      intro ext a r h
      have := hp ext
      rw [this] at h; cases h
    | .ok (s', rest, .ready) =>
      rw [hpush] at hp
      obtain ⟨c, h1, h2⟩ := hp
      refine ⟨c, h1, fun ext a r => ?_⟩
      simp only [h2]
      cases d.fin s' with
      | ok b => simp [POut.ofEnd, eq_comm]
      | error e => simp [POut.ofEnd]
    | .ok (s', rest, .needsMore) =>
      rw [hpush] at hp
      obtain ⟨c, h1, h2, h3, h4⟩ := hp
      exact ⟨c, h1, h2, fun ext a r => by simp only [h3], h4⟩
  limit s bs a rest hs h := ⟨(L.more s hs).1, L.limit s bs a rest hs h⟩

/-- Running a lawful sub-decoder first. -/
theorem pushThen_accepts {α β S : Type} {d : Dec α} {invd : d.S → Prop} {dend : d.S → Parser α}
    (L : LawfulWith d invd dend) {fin : S → Except DErr β} {inv : S → Prop} {den : S → Rel β}
    {g : DErr → DErr} {wrap : d.S → S} {k : α → Bytes → Except DErr (S × Bytes × Status)} {K : α → Rel β}
    (hinv : ∀ s, invd s → inv (wrap s))
    (hden : ∀ s bs b r, den (wrap s) bs b r ↔ ∃ a rest, dend s bs = .done a rest ∧ K a rest b r)
    (hk : ∀ a bs, PushOkA fin inv den (K a) bs (k a bs)) (s : d.S) (hs : invd s) (bs : Bytes) :
    PushOkA fin inv den (fun bs b r => ∃ a rest, dend s bs = .done a rest ∧ K a rest b r) bs
      (d.pushThen s bs g wrap k) := by
  have hp := L.push s bs hs
  unfold Dec.pushThen
  match hpush : d.push s bs with
  | .error e =>
    rw [hpush] at hp
    rintro ext b r ⟨a, rest, h, _⟩
    have := hp ext
    rw [this] at h; cases h
  | .ok (s', rest, .needsMore) =>
    rw [hpush] at hp
    obtain ⟨c, h1, h2, h3, h4⟩ := hp
    exact ⟨c, h1, hinv s' h2, fun ext a r => by rw [hden]; simp only [h3 ext], h4⟩
  | .ok (s', rest, .ready) =>
    rw [hpush] at hp
    obtain ⟨c, h1, h2⟩ := hp
    simp only
    match hf : d.fin s' with
    | .error e =>
      rintro ext b r ⟨a, rest', h, _⟩
      rw [h1, List.append_assoc, h2, hf] at h
      cases h
    | .ok a =>
      simp only
      refine (hk a rest).prepend h1 (fun ext b r => ?_)
      simp only [h2, hf, POut.ofEnd, POut.done.injEq]
      constructor
      · rintro ⟨_, _, ⟨rfl, rfl⟩, h⟩; exact h
      · exact fun h => ⟨a, ext, ⟨rfl, rfl⟩, h⟩

namespace AcceptsWith
variable {α : Type} {d : Dec α} {inv : d.S → Prop} {den : d.S → Rel α}

theorem not_nil (L : AcceptsWith d inv den) {s : d.S} (hs : inv s) (a : α) (r : Bytes) : ¬ den s [] a r := by
  intro h
  have := L.limit s [] a r hs h
  simp at this; omega

theorem feed_spec (L : AcceptsWith d inv den) (bs : Bytes) : ∀ s, inv s →
    match d.feed s bs with
    | .needsMore s' => inv s' ∧ ∀ ext a r, den s (bs ++ ext) a r ↔ den s' ext a r
    | .ready s' rest => ∃ c, bs = c ++ rest ∧ ∀ ext a r, den s (c ++ ext) a r ↔ d.fin s' = .ok a ∧ r = ext
    | .err _ => ∀ ext a r, ¬ den s (bs ++ ext) a r
    | .stuck => False := by
  induction hn : bs.length using Nat.strongRecOn generalizing bs with
  | ind n ih =>
    intro s hs
    rw [Dec.feed]
    by_cases hb : bs = []
    · subst hb; simp [hs]
    · simp only [hb, if_false]
      have hp := L.push s bs hs
      match hpush : d.push s bs with
      | .error e => rw [hpush] at hp; simpa [PushOkA] using hp
      | .ok (s', rest, .ready) => rw [hpush] at hp; exact hp
      | .ok (s', rest, .needsMore) =>
        rw [hpush] at hp
        obtain ⟨c, hc, hs', hden, hprog⟩ := hp
        have hlt : rest.length < bs.length := by
          by_cases hr : rest = []
          · subst hr
            have := List.length_pos_iff.mpr hb
            simpa using this
          · have := List.length_pos_iff.mpr (hprog hr)
            rw [hc]; simp; omega
        simp only [hlt, if_true]
        have := ih rest.length (by omega) rest rfl s' hs'
        match hf : d.feed s' rest with
        | .needsMore s'' =>
          rw [hf] at this
          refine ⟨this.1, fun ext a r => ?_⟩
          rw [hc, List.append_assoc, hden, this.2]
        | .ready s'' rest' =>
          rw [hf] at this
          obtain ⟨c', hc', hd'⟩ := this
          refine ⟨c ++ c', by rw [hc, hc', List.append_assoc], fun ext a r => ?_⟩
          rw [List.append_assoc, hden, hd']
        | .err e =>
          rw [hf] at this
          intro ext a r
          rw [hc, List.append_assoc, hden]; exact this ext a r
        | .stuck => rw [hf] at this; exact this

theorem fin_not {d : Dec α} {s : d.S} {e : DErr} (h : d.fin s = .error e) (a : α) : d.fin s ≠ .ok a := by
  rw [h]; intro h; cases h

theorem ofEnd_ok {r : Except DErr α} {rest : Bytes} {a : α} {left : Bytes} :
    Outcome.ofEnd r rest = .ok a left ↔ r = .ok a ∧ left = rest := by
  cases r <;> simp [Outcome.ofEnd, eq_comm]

/-- Feeding chunk by chunk. -/
theorem feedChunks_ok (L : AcceptsWith d inv den) (cs : List Bytes) :
    ∀ s, inv s → ∀ a rest, d.feedChunks s cs = .ok a rest ↔ den s cs.flatten a rest := by
  induction cs with
  | nil =>
    intro s hs a rest
    obtain ⟨e, he⟩ := L.fin s hs
    simp only [Dec.feedChunks, List.flatten_nil]
    constructor
    · intro h; rw [he] at h; cases h
    · intro h; exact (L.not_nil hs a rest h).elim
  | cons c cs ih =>
    intro s hs a rest
    have := L.feed_spec c s hs
    simp only [Dec.feedChunks, List.flatten_cons]
    match hf : d.feed s c with
    | .needsMore s' =>
      rw [hf] at this
      simp only [ih s' this.1, this.2]
    | .ready s' r =>
      rw [hf] at this
      obtain ⟨x, hx, hd⟩ := this
      simp only [hx, List.append_assoc, hd, ofEnd_ok]
    | .err e =>
      rw [hf] at this
      constructor
      · intro h; cases h
      · intro h; exact (this _ _ _ h).elim
    | .stuck => rw [hf] at this; exact this.elim

theorem feedChunks_not_stuck (L : AcceptsWith d inv den) (cs : List Bytes) :
    ∀ s, inv s → d.feedChunks s cs ≠ .stuck := by
  induction cs with
  | nil =>
    intro s hs h
    obtain ⟨e, he⟩ := L.fin s hs
    simp only [Dec.feedChunks, he] at h
    cases h
  | cons c cs ih =>
    intro s hs h
    have := L.feed_spec c s hs
    simp only [Dec.feedChunks] at h
    match hf : d.feed s c with
    | .needsMore s' =>
      rw [hf] at this h
      exact ih s' this.1 h
    | .ready s' r =>
      rw [hf] at h
      simp only at h
      cases hfin : d.fin s' <;> rw [hfin] at h <;> cases h
    | .err e => rw [hf] at h; cases h
    | .stuck => rw [hf] at this; exact this.elim

theorem decodeSliceUnbounded_ok (L : AcceptsWith d inv den) (hi : inv d.init) (bs : Bytes) (a : α) (rest : Bytes) :
    d.decodeSliceUnbounded bs = .ok a rest ↔ den d.init bs a rest := by
  have := L.feedChunks_ok [bs] d.init hi a rest
  simp only [List.flatten_cons, List.flatten_nil, List.append_nil] at this
  rw [← this]
  simp only [Dec.decodeSliceUnbounded, Dec.feedChunks]
  cases d.feed d.init bs <;> simp

theorem decodeSlice_ok (L : AcceptsWith d inv den) (hi : inv d.init) (bs : Bytes) (a : α) :
    d.decodeSlice bs = .ok a ↔ den d.init bs a [] := by
  rw [← L.decodeSliceUnbounded_ok hi]
  unfold Dec.decodeSlice
  cases d.decodeSliceUnbounded bs with
  | ok b r => cases r <;> simp
  | err e => simp
  | stuck => simp

/-- The unbuffered reader: it succeeds exactly on accepted input, having taken exactly the accepted bytes. -/
theorem decodeReadUnbuffered_ok (L : AcceptsWith d inv den) (cap : Nat) (hcap : 0 < cap) :
    ∀ (src : Bytes) (evs : List ReadEvent) (s : d.S), inv s → ReadEvent.fatal ∉ evs → ∀ a rest,
      d.decodeReadUnbuffered cap s src evs = .ok a rest ↔ den s src a rest := by
  intro src
  induction hn : src.length using Nat.strongRecOn generalizing src with
  | ind n ih =>
    intro evs
    induction evs with
    | cons ev evs ihe =>
      intro s hs hnf a rest
      match ev with
      | .interrupted =>
        by_cases hl0 : d.limit s = 0
        · exact zero src (.interrupted :: evs) s hs hl0 a rest
        · rw [Dec.decodeReadUnbuffered]
          simp only [hl0, if_false]
          exact ihe s hs (fun h => hnf (List.mem_cons_of_mem _ h)) a rest
      | .fatal => exact absurd (List.mem_cons_self) hnf
      | .take k => exact step n ih src hn (.take k :: evs) s hs hnf (by simp) (by simp) a rest
    | nil =>
      intro s hs hnf a rest
      exact step n ih src hn [] s hs hnf (by simp) (by simp) a rest
where
  zero (src : Bytes) (evs : List ReadEvent) (s : d.S) (hs : inv s) (hl0 : d.limit s = 0) (a : α) (rest : Bytes) :
      d.decodeReadUnbuffered cap s src evs = .ok a rest ↔ den s src a rest := by
    obtain ⟨e, he⟩ := L.fin s hs
    rw [Dec.decodeReadUnbuffered.eq_def]
    simp only [hl0, if_true, he]
    constructor
    · intro h; cases h
    · intro h
      have := (L.limit s src a rest hs h).1
      omega
  step (n : Nat)
      (ih : ∀ m < n, ∀ src : Bytes, src.length = m → ∀ (evs : List ReadEvent) (s : d.S), inv s →
        ReadEvent.fatal ∉ evs → ∀ a rest, d.decodeReadUnbuffered cap s src evs = .ok a rest ↔ den s src a rest)
      (src : Bytes) (hn : src.length = n) (evs : List ReadEvent) (s : d.S) (hs : inv s)
      (hnf : ReadEvent.fatal ∉ evs) (hni : ∀ es, evs ≠ .interrupted :: es)
      (hnf2 : ∀ es, evs ≠ .fatal :: es) (a : α) (rest : Bytes) :
      d.decodeReadUnbuffered cap s src evs = .ok a rest ↔ den s src a rest := by
    by_cases hl0 : d.limit s = 0
    · exact zero src evs s hs hl0 a rest
    obtain ⟨e0, hm2⟩ := L.fin s hs
    rw [Dec.decodeReadUnbuffered]
    rotate_left
    · intro es h; exact hni es h
    · intro es h; exact hnf2 es h
    simp only [hl0, if_false]
    generalize hk : readSize evs (min (d.limit s) cap) = k
    have hk1 : 0 < k ∧ k ≤ d.limit s := by
      rw [← hk]; unfold readSize
      split <;> omega
    have hft : ReadEvent.fatal ∉ evs.tail := fun h => hnf (List.mem_of_mem_tail h)
    by_cases hsrc : src = []
    · subst hsrc
      simp only [List.take_nil, dite_true, hm2]
      constructor
      · intro h; cases h
      · intro h; exact (L.not_nil hs a rest h).elim
    · have hpos : 0 < src.length := List.length_pos_iff.mpr hsrc
      have hne : src.take k ≠ [] := by
        rw [ne_eq, List.take_eq_nil_iff]; simp [hsrc]; omega
      simp only [hne, dite_false]
      have hf := L.feed_spec (src.take k) s hs
      match hfe : d.feed s (src.take k) with
      | .needsMore s' =>
        rw [hfe] at hf
        have h2 := hf.2 (src.drop k) a rest
        rw [List.take_append_drop] at h2
        rw [h2]
        exact ih (src.drop k).length (by simp; omega) (src.drop k) rfl evs.tail s' hf.1 hft a rest
      | .ready s' r =>
        rw [hfe] at hf
        obtain ⟨c, hc, hd⟩ := hf
        have h2 := hd (r ++ src.drop k)
        rw [← List.append_assoc, ← hc, List.take_append_drop] at h2
        simp only
        cases hfin : d.fin s' with
        | error e => simp [h2, hfin]
        | ok b =>
          have hlim := (L.limit s src b _ hs ((h2 b _).mpr ⟨hfin, rfl⟩)).2
          have hrest : r = [] := by
            have : r.length = 0 := by
              simp at hlim; omega
            exact List.length_eq_zero_iff.mp this
          subst hrest
          rw [h2, hfin]
          simp [eq_comm]
      | .err e =>
        rw [hfe] at hf
        have h2 := hf (src.drop k) a rest
        rw [List.take_append_drop] at h2
        simp [h2]
      | .stuck => rw [hfe] at hf; exact hf.elim

end AcceptsWith
end Btc
