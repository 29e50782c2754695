import Verif.Codec.CompactSize
/-!
# Parsers that accept exactly the encodings

`Wire P enc ok` says that the parser `P` accepts exactly the strings `enc a ++ rest` with `ok a`, and
returns `a` and `rest`.  It gives round trip, canonicality and injectivity at once and composes.
-/
namespace Btc

def Wire {α : Type} (P : Parser α) (enc : α → Bytes) (ok : α → Prop) : Prop :=
  ∀ bs a rest, P bs = .done a rest ↔ ok a ∧ bs = enc a ++ rest

namespace Wire
variable {α β : Type}

/-- Encodings are uniquely decodable, even with trailing data. -/
theorem prefix_free {P : Parser α} {enc : α → Bytes} {ok : α → Prop} (h : Wire P enc ok) {a b : α}
    (ha : ok a) (hb : ok b) {r s : Bytes} (he : enc a ++ r = enc b ++ s) : a = b ∧ r = s := by
  have h1 := (h _ a r).mpr ⟨ha, rfl⟩
  have h2 := (h _ b s).mpr ⟨hb, rfl⟩
  rw [he, h2] at h1
  cases h1
  exact ⟨rfl, rfl⟩

theorem inj {P : Parser α} {enc : α → Bytes} {ok : α → Prop} (h : Wire P enc ok) {a b : α}
    (ha : ok a) (hb : ok b) (he : enc a = enc b) : a = b :=
  (h.prefix_free (r := []) (s := []) ha hb (by rw [he])).1

theorem congr {P : Parser α} {enc enc' : α → Bytes} {ok ok' : α → Prop} (h : Wire P enc ok)
    (ho : ∀ a, ok a ↔ ok' a) (he : ∀ a, ok a → enc a = enc' a) : Wire P enc' ok' := by
  intro bs a rest
  rw [h bs a rest, ← ho a]
  constructor
  · rintro ⟨h1, rfl⟩; exact ⟨h1, by rw [he a h1]⟩
  · rintro ⟨h1, rfl⟩; exact ⟨h1, by rw [he a h1]⟩

theorem array (N : Nat) : Wire (arrayParser N []) (fun b => b) (fun b => b.length = N) := by
  intro bs a rest
  unfold arrayParser
  simp only [List.length_nil, Nat.sub_zero, List.nil_append]
  constructor
  · intro h
    split at h
    · cases h
      refine ⟨by simp; omega, by simp⟩
    · cases h
  · rintro ⟨h1, rfl⟩
    rw [if_pos (by simp; omega)]
    subst h1
    simp

theorem byteVec (lim : Nat) :
    Wire (byteVecParser lim) (fun b => csEncode b.length ++ b)
      (fun b => b.length ≤ lim ∧ b.length < 2 ^ 64) := by
  intro bs a rest
  unfold byteVecParser
  rw [csThen_done]
  constructor
  · rintro ⟨p, r, rfl, hc, h⟩
    unfold byteVecCont at h
    split at h
    · cases h
    · rename_i k hk
      obtain ⟨rfl, h2, h3⟩ := csEnd_ok hc hk
      unfold bytesParser at h
      simp only [List.length_nil, Nat.sub_zero, List.nil_append] at h
      split at h
      · cases h
        have hl : (r.take k).length = k := by simp; omega
        refine ⟨⟨by omega, by omega⟩, ?_⟩
        show csEncode k ++ r = (csEncode (r.take k).length ++ r.take k) ++ r.drop k
        rw [hl]; simp
      · cases h
  · rintro ⟨⟨h1, h2⟩, rfl⟩
    refine ⟨csEncode a.length, a ++ rest, by simp, csComplete_csEncode _, ?_⟩
    unfold byteVecCont
    rw [csEnd_csEncode _ _ h2, if_pos h1]
    exact bytesParser_full (buf := []) rfl rest

theorem seq {P : Parser α} {f : α → Bytes} {p : α → Prop} {Q : Parser β} {g : β → Bytes}
    {q : β → Prop} (hP : Wire P f p) (hQ : Wire Q g q) :
    Wire (seqParser P Q) (fun x => f x.1 ++ g x.2) (fun x => p x.1 ∧ q x.2) := by
  intro bs a rest
  unfold seqParser
  constructor
  · intro h
    split at h
    · rename_i x r hx
      split at h
      · rename_i y r' hy
        cases h
        obtain ⟨h1, rfl⟩ := (hP _ _ _).mp hx
        obtain ⟨h2, rfl⟩ := (hQ _ _ _).mp hy
        exact ⟨⟨h1, h2⟩, by simp⟩
      · cases h
      · cases h
    · cases h
    · cases h
  · rintro ⟨⟨h1, h2⟩, rfl⟩
    rw [List.append_assoc, (hP _ _ _).mpr ⟨h1, rfl⟩]
    simp only
    rw [(hQ _ _ _).mpr ⟨h2, rfl⟩]

theorem mapE {P : Parser α} {enc : α → Bytes} {ok : α → Prop} (h : Wire P enc ok)
    {f : α → Except DErr β} {g : DErr → DErr} {enc' : β → Bytes} {ok' : β → Prop}
    (hf : ∀ a b, ok a → f a = .ok b → ok' b ∧ enc' b = enc a)
    (hb : ∀ b, ok' b → ∃ a, ok a ∧ f a = .ok b) :
    Wire (P.mapE f g) enc' ok' := by
  intro bs b rest
  unfold Parser.mapE
  constructor
  · intro hd
    split at hd
    · rename_i a r ha
      obtain ⟨h1, rfl⟩ := (h _ _ _).mp ha
      cases hfa : f a with
      | error e => rw [hfa] at hd; cases hd
      | ok b' =>
        rw [hfa] at hd
        cases hd
        obtain ⟨h2, h3⟩ := hf a b h1 hfa
        exact ⟨h2, by rw [h3]⟩
    · cases hd
    · cases hd
  · rintro ⟨h1, rfl⟩
    obtain ⟨a, h2, h3⟩ := hb b h1
    obtain ⟨_, h4⟩ := hf a b h2 h3
    rw [(h _ a rest).mpr ⟨h2, by rw [h4]⟩]
    simp only [h3, POut.ofEnd]

theorem items {P : Parser α} {enc : α → Bytes} {ok : α → Prop} (h : Wire P enc ok) :
    ∀ (k : Nat) (buf : List α) (bs : Bytes) (l : List α) (rest : Bytes),
      itemsParser P k buf P bs = .done l rest ↔
        ∃ m, m.length = k ∧ (∀ a ∈ m, ok a) ∧ l = buf ++ m ∧ bs = (m.map enc).flatten ++ rest := by
  intro k
  induction k with
  | zero =>
    intro buf bs l rest
    simp only [itemsParser, POut.done.injEq, List.length_eq_zero_iff]
    constructor
    · rintro ⟨rfl, rfl⟩; exact ⟨[], rfl, by simp, by simp, by simp⟩
    · rintro ⟨m, rfl, _, rfl, rfl⟩; simp
  | succ k ih =>
    intro buf bs l rest
    simp only [itemsParser]
    constructor
    · intro hd
      split at hd
      · rename_i a r ha
        obtain ⟨h1, rfl⟩ := (h _ _ _).mp ha
        obtain ⟨m, h2, h3, rfl, rfl⟩ := (ih _ _ _ _).mp hd
        refine ⟨a :: m, by simp [h2], ?_, by simp, by simp⟩
        intro x hx
        rcases List.mem_cons.mp hx with rfl | hx
        · exact h1
        · exact h3 x hx
      · cases hd
      · cases hd
    · rintro ⟨m, h1, h2, rfl, rfl⟩
      cases m with
      | nil => simp at h1
      | cons a m =>
        have : P ((List.map enc (a :: m)).flatten ++ rest)
            = .done a ((m.map enc).flatten ++ rest) :=
          (h _ _ _).mpr ⟨h2 a (by simp), by simp⟩
        rw [this]
        simp only
        rw [ih]
        exact ⟨m, by simpa using h1, fun x hx => h2 x (by simp [hx]), by simp, rfl⟩

theorem vec {P : Parser α} {enc : α → Bytes} {ok : α → Prop} (h : Wire P enc ok) (lim : Nat) :
    Wire (vecParser P lim) (fun l => csEncode l.length ++ (l.map enc).flatten)
      (fun l => l.length ≤ lim ∧ l.length < 2 ^ 64 ∧ ∀ a ∈ l, ok a) := by
  intro bs l rest
  unfold vecParser
  rw [csThen_done]
  constructor
  · rintro ⟨p, r, rfl, hc, hd⟩
    unfold vecCont at hd
    split at hd
    · cases hd
    · rename_i k hk
      obtain ⟨rfl, h2, h3⟩ := csEnd_ok hc hk
      obtain ⟨m, rfl, h4, h5, rfl⟩ := (h.items _ _ _ _ _).mp hd
      rw [List.nil_append] at h5
      subst h5
      exact ⟨⟨h3, h2, h4⟩, by simp⟩
  · rintro ⟨⟨h1, h2, h3⟩, rfl⟩
    refine ⟨csEncode l.length, (l.map enc).flatten ++ rest, by simp, csComplete_csEncode _, ?_⟩
    unfold vecCont
    rw [csEnd_csEncode _ _ h2, if_pos h1]
    exact (h.items _ _ _ _ _).mpr ⟨l, rfl, h3, by simp, rfl⟩

end Wire

/-- `P` then `k`; failures of `P` are renamed by `g`, running out of input while in `P` is reported as
`m`.  This is how the hand-written state machines sequence their sub-decoders. -/
def Parser.andThen {α β : Type} (P : Parser α) (g : DErr → DErr) (m : DErr) (k : α → Parser β) :
    Parser β := fun bs =>
  match P bs with
  | .done a r => k a r
  | .fail e => .fail (g e)
  | .more _ => .more m

theorem Parser.andThen_done {α β : Type} {P : Parser α} {g : DErr → DErr} {m : DErr}
    {k : α → Parser β} {bs : Bytes} {b : β} {rest : Bytes} :
    P.andThen g m k bs = .done b rest ↔ ∃ a r, P bs = .done a r ∧ k a r = .done b rest := by
  unfold Parser.andThen
  constructor
  · intro h
    split at h
    · rename_i a r ha; exact ⟨a, r, ha, h⟩
    · cases h
    · cases h
  · rintro ⟨a, r, h1, h2⟩
    rw [h1]; exact h2

end Btc
