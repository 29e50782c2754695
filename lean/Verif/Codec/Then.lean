import Verif.Codec.PushQ
import Verif.Codec.Wire
/-!
# Running a sub-decoder inside a hand-written state machine
-/
namespace Btc

/-- Push bytes to the sub-decoder `d` in state `s`.  If it needs more, return the state wrapped by
`wrap`; if it is ready, end it and continue with `k`.  This is the body of the `loop` of
`TransactionDecoder::push_bytes` (primitives/src/transaction.rs 455-571): first `match`
(`push_bytes … needs_more() → return`), second `match` (`end()`, next state, next turn). -/
def Dec.pushThen {α S : Type} (d : Dec α) (s : d.S) (bs : Bytes) (g : DErr → DErr) (wrap : d.S → S)
    (k : α → Bytes → Except DErr (S × Bytes × Status)) : Except DErr (S × Bytes × Status) :=
  match d.push s bs with
  | .error e => .error (g e)
  | .ok (s', rest, .needsMore) => .ok (wrap s', rest, .needsMore)
  | .ok (s', rest, .ready) =>
    match d.fin s' with
    | .error e => .error (g e)
    | .ok a => k a rest

theorem pushThen_ok {α β S : Type} {d : Dec α} {invd : d.S → Prop} {dend : d.S → Parser α}
    (L : LawfulWith d invd dend) {fin : S → Except DErr β} {inv : S → Prop} {den : S → Parser β}
    {g : DErr → DErr} {m : DErr} {wrap : d.S → S} {k : α → Bytes → Except DErr (S × Bytes × Status)}
    {k' : α → Parser β} (hinv : ∀ s, invd s → inv (wrap s))
    (hden : ∀ s, den (wrap s) = (dend s).andThen g m k')
    (hk : ∀ a bs, PushOkQ fin inv den (k' a) bs (k a bs)) (s : d.S) (hs : invd s) (bs : Bytes) :
    PushOkQ fin inv den ((dend s).andThen g m k') bs (d.pushThen s bs g wrap k) := by
  have hp := L.push s bs hs
  unfold Dec.pushThen
  match hpush : d.push s bs with
  | .error e =>
    rw [hpush] at hp
    simp only [PushOk] at hp
    intro ext
    simp only [Parser.andThen, hp ext]
  | .ok (s', rest, .needsMore) =>
    rw [hpush] at hp
    obtain ⟨c, h1, h2, h3, h4⟩ := hp
    exact ⟨c, h1, hinv s' h2, fun ext => by rw [hden]; simp only [Parser.andThen, h3 ext], h4⟩
  | .ok (s', rest, .ready) =>
    rw [hpush] at hp
    obtain ⟨c, h1, h2⟩ := hp
    simp only
    match hf : d.fin s' with
    | .error e =>
      intro ext
      rw [h1, List.append_assoc]
      simp only [Parser.andThen, h2, hf, POut.ofEnd]
    | .ok a =>
      simp only
      exact (hk a rest).prepend h1 (fun ext => by simp only [Parser.andThen, h2, hf, POut.ofEnd])

/-- The read limit of the sub-decoder is a lower bound for what is consumed. -/
theorem andThen_limit {α β : Type} {d : Dec α} {invd : d.S → Prop} {dend : d.S → Parser α}
    (L : LawfulWith d invd dend) {g : DErr → DErr} {m : DErr} {k' : α → Parser β}
    (hk : ∀ a bs b rest, k' a bs = .done b rest → rest.length ≤ bs.length) (s : d.S) (hs : invd s)
    (bs : Bytes) (b : β) (rest : Bytes) (h : (dend s).andThen g m k' bs = .done b rest) :
    d.limit s + rest.length ≤ bs.length := by
  obtain ⟨a, r, h1, h2⟩ := Parser.andThen_done.mp h
  have h3 := L.limit s bs a r hs h1
  have h4 := hk a r b rest h2
  omega

theorem andThen_le {α β : Type} {P : Parser α} {g : DErr → DErr} {m : DErr} {k' : α → Parser β}
    (hP : ∀ bs a r, P bs = .done a r → r.length ≤ bs.length)
    (hk : ∀ a bs b rest, k' a bs = .done b rest → rest.length ≤ bs.length)
    (bs : Bytes) (b : β) (rest : Bytes) (h : P.andThen g m k' bs = .done b rest) :
    rest.length ≤ bs.length := by
  obtain ⟨a, r, h1, h2⟩ := Parser.andThen_done.mp h
  have h3 := hP bs a r h1
  have h4 := hk a r b rest h2
  omega

theorem andThen_nil {α β : Type} {d : Dec α} {invd : d.S → Prop} {dend : d.S → Parser α}
    (L : LawfulWith d invd dend) {g : DErr → DErr} {m : DErr} {k' : α → Parser β} (s : d.S)
    (hs : invd s) : (dend s).andThen g m k' [] = .more m := by
  obtain ⟨_, e, h1, _⟩ := L.more s hs
  simp only [Parser.andThen, h1]

end Btc
