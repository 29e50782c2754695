import Verif.Codec.Decoder
/-!
# Decoders refine pure parsers

`POut` is the outcome of a pure parser on a *complete* byte string.  `Lawful d P` says that the
state machine `d` implements the parser `P`, whatever way the bytes arrive.  The driver theorems at
the end are proved once for all lawful decoders.
-/
namespace Btc

/-- Outcome of a pure parser: parsed a value leaving `rest`; definite failure; or the input is a
proper prefix of something (with the error reported if the input ends here). -/
inductive POut (α : Type) where
  | done (a : α) (rest : Bytes)
  | fail (e : DErr)
  | more (e : DErr)
  deriving DecidableEq

abbrev Parser (α : Type) := Bytes → POut α

/-- `end()`'s result as parser outcome. -/
def POut.ofEnd {α : Type} (r : Except DErr α) (rest : Bytes) : POut α :=
  match r with
  | .ok a => .done a rest
  | .error e => .fail e

/-- Outcome of a driver from a parser outcome. -/
def POut.outcome {α : Type} : POut α → Outcome α
  | .done a rest => .ok a rest
  | .fail e => .err e
  | .more e => .err e

/-- One `push` step is consistent with the parsers `den`. -/
def PushOk {α : Type} (d : Dec α) (inv : d.S → Prop) (den : d.S → Parser α) (s : d.S)
    (bs : Bytes) : Except DErr (d.S × Bytes × Status) → Prop
  | .error e => ∀ ext, den s (bs ++ ext) = .fail e
  | .ok (s', rest, .ready) =>
      ∃ c, bs = c ++ rest ∧ ∀ ext, den s (c ++ ext) = .ofEnd (d.fin s') ext
  | .ok (s', rest, .needsMore) =>
      ∃ c, bs = c ++ rest ∧ inv s' ∧ (∀ ext, den s (c ++ ext) = den s' ext) ∧ (rest ≠ [] → c ≠ [])

/-- `d` implements the parser `P`: there is an invariant on the states reached while more input is
needed and a parser `den s` for the rest of the input in each state. -/
structure LawfulWith {α : Type} (d : Dec α) (inv : d.S → Prop) (den : d.S → Parser α) : Prop where
  init : inv d.init
  more : ∀ s, inv s → 0 < d.limit s ∧ ∃ e, den s [] = .more e ∧ d.fin s = .error e
  push : ∀ s bs, inv s → PushOk d inv den s bs (d.push s bs)
  limit : ∀ s bs a rest, inv s → den s bs = .done a rest → d.limit s + rest.length ≤ bs.length

def Lawful {α : Type} (d : Dec α) (P : Parser α) : Prop :=
  ∃ inv den, LawfulWith d inv den ∧ den d.init = P

namespace LawfulWith
variable {α : Type} {d : Dec α} {inv : d.S → Prop} {den : d.S → Parser α}

/-- The feed loop against the parser. -/
theorem feed_spec (L : LawfulWith d inv den) (bs : Bytes) : ∀ s, inv s →
    match d.feed s bs with
    | .needsMore s' => inv s' ∧ ∀ ext, den s (bs ++ ext) = den s' ext
    | .ready s' rest => ∃ c, bs = c ++ rest ∧ ∀ ext, den s (c ++ ext) = .ofEnd (d.fin s') ext
    | .err e => ∀ ext, den s (bs ++ ext) = .fail e
    | .stuck => False := by
  induction hn : bs.length using Nat.strongRecOn generalizing bs with
  | ind n ih =>
    intro s hs
    rw [Dec.feed]
    by_cases hb : bs = []
    · subst hb; simp [hs]
    · simp only [hb, if_false]
      have hp := L.push s bs hs
      match hpush : d.push s bs with
      | .error e => rw [hpush] at hp; simpa [PushOk] using hp
      | .ok (s', rest, .ready) => rw [hpush] at hp; simpa [PushOk] using hp
      | .ok (s', rest, .needsMore) =>
        rw [hpush] at hp
        obtain ⟨c, hc, hs', hden, hprog⟩ := hp
        have hlt : rest.length < bs.length := by
          by_cases hr : rest = []
          · subst hr
            have := List.length_pos_iff.mpr hb
            simpa using this
          · have := List.length_pos_iff.mpr (hprog hr)
            rw [hc]; simp; omega
        simp only [hlt, if_true]
        have := ih rest.length (by omega) rest rfl s' hs'
        match hf : d.feed s' rest with
        | .needsMore s'' =>
          rw [hf] at this
          refine ⟨this.1, fun ext => ?_⟩
          rw [hc, List.append_assoc, hden, this.2]
        | .ready s'' rest' =>
          rw [hf] at this
          obtain ⟨c', hc', hd'⟩ := this
          refine ⟨c ++ c', by rw [hc, hc', List.append_assoc], fun ext => ?_⟩
          rw [List.append_assoc, hden, hd']
        | .err e =>
          rw [hf] at this
          intro ext
          rw [hc, List.append_assoc, hden, this]
        | .stuck => rw [hf] at this; exact this

theorem fin_outcome (L : LawfulWith d inv den) (s : d.S) (hs : inv s) :
    Outcome.ofEnd (d.fin s) [] = (den s []).outcome := by
  obtain ⟨_, e, h1, h2⟩ := L.more s hs
  rw [h1, h2]; rfl

theorem ofEnd_outcome {r : Except DErr α} {rest : Bytes} :
    (POut.ofEnd r rest).outcome = Outcome.ofEnd r rest := by
  cases r <;> rfl

/-- Feeding chunk by chunk gives what the parser gives on the concatenation. -/
theorem feedChunks_spec (L : LawfulWith d inv den) (cs : List Bytes) :
    ∀ s, inv s → d.feedChunks s cs = (den s cs.flatten).outcome := by
  induction cs with
  | nil => intro s hs; simpa [Dec.feedChunks] using L.fin_outcome s hs
  | cons c cs ih =>
    intro s hs
    have := L.feed_spec c s hs
    simp only [Dec.feedChunks, List.flatten_cons]
    match hf : d.feed s c with
    | .needsMore s' =>
      rw [hf] at this
      simp only [ih s' this.1, this.2]
    | .ready s' rest =>
      rw [hf] at this
      obtain ⟨x, hx, hd⟩ := this
      simp only [hx, List.append_assoc, hd, ofEnd_outcome]
    | .err e =>
      rw [hf] at this
      simp only [this, POut.outcome]
    | .stuck => rw [hf] at this; exact this.elim

theorem decodeSliceUnbounded_spec (L : LawfulWith d inv den) (bs : Bytes) :
    d.decodeSliceUnbounded bs = (den d.init bs).outcome := by
  have := L.feedChunks_spec [bs] d.init L.init
  simp only [List.flatten_cons, List.flatten_nil, List.append_nil] at this
  rw [← this]
  simp only [Dec.decodeSliceUnbounded, Dec.feedChunks]
  cases d.feed d.init bs <;> simp

/-- The parser's unconsumed rest is a suffix of the input. -/
theorem den_suffix (L : LawfulWith d inv den) (s : d.S) (hs : inv s) (bs : Bytes) (a : α)
    (rest : Bytes) (h : den s bs = .done a rest) : ∃ c, bs = c ++ rest := by
  have := L.feed_spec bs s hs
  match hf : d.feed s bs with
  | .needsMore s' =>
    rw [hf] at this
    have h2 := this.2 []
    obtain ⟨_, e, h1, _⟩ := L.more s' this.1
    rw [List.append_nil, h, h1] at h2
    cases h2
  | .ready s' rest' =>
    rw [hf] at this
    obtain ⟨c, hc, hd⟩ := this
    have h2 := hd rest'
    rw [← hc, h] at h2
    cases hr : d.fin s' with
    | ok b => rw [hr] at h2; cases h2; exact ⟨c, hc⟩
    | error e => rw [hr] at h2; cases h2
  | .err e =>
    rw [hf] at this
    have h2 := this []
    rw [List.append_nil, h] at h2
    cases h2
  | .stuck => rw [hf] at this; exact this.elim

/-- A successful parse is stable under extension of the input. -/
theorem den_extend (L : LawfulWith d inv den) (s : d.S) (hs : inv s) (bs : Bytes) (a : α)
    (rest : Bytes) (h : den s bs = .done a rest) (ext : Bytes) :
    den s (bs ++ ext) = .done a (rest ++ ext) := by
  have := L.feed_spec bs s hs
  match hf : d.feed s bs with
  | .needsMore s' =>
    rw [hf] at this
    have h2 := this.2 []
    obtain ⟨_, e, h1, _⟩ := L.more s' this.1
    rw [List.append_nil, h, h1] at h2
    cases h2
  | .ready s' rest' =>
    rw [hf] at this
    obtain ⟨c, hc, hd⟩ := this
    have h2 := hd rest'
    rw [← hc, h] at h2
    rw [hc, List.append_assoc, hd]
    cases hr : d.fin s' with
    | ok b => rw [hr] at h2; cases h2; rfl
    | error e => rw [hr] at h2; cases h2
  | .err e =>
    rw [hf] at this
    have h2 := this []
    rw [List.append_nil, h] at h2
    cases h2
  | .stuck => rw [hf] at this; exact this.elim

/-- Stripping the unconsumed rest does not change a successful parse. -/
theorem den_shrink (L : LawfulWith d inv den) (s : d.S) (hs : inv s) (c : Bytes) (a : α)
    (rest : Bytes) (h : den s (c ++ rest) = .done a rest) : den s c = .done a [] := by
  have := L.feed_spec (c ++ rest) s hs
  match hf : d.feed s (c ++ rest) with
  | .needsMore s' =>
    rw [hf] at this
    have h2 := this.2 []
    obtain ⟨_, e, h1, _⟩ := L.more s' this.1
    rw [List.append_nil, h, h1] at h2
    cases h2
  | .ready s' rest' =>
    rw [hf] at this
    obtain ⟨c', hc, hd⟩ := this
    have h2 := hd rest'
    rw [← hc, h] at h2
    cases hr : d.fin s' with
    | ok b =>
      rw [hr] at h2; cases h2
      have : c = c' := List.append_cancel_right hc
      subst this
      have := hd []
      rw [hr, List.append_nil] at this
      exact this
    | error e => rw [hr] at h2; cases h2
  | .err e =>
    rw [hf] at this
    have h2 := this []
    rw [List.append_nil, h] at h2
    cases h2
  | .stuck => rw [hf] at this; exact this.elim

end LawfulWith
end Btc
