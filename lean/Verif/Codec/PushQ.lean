import Verif.Codec.Laws
/-!
# `PushOk` against an arbitrary parser

Proof helper for hand-written state machines (witness, transaction, block decoders): the parser for
the rest of the input need not be the denotation of a state.
-/
namespace Btc

variable {α S : Type}

def PushOkQ (fin : S → Except DErr α) (inv : S → Prop) (den : S → Parser α) (Q : Parser α)
    (bs : Bytes) : Except DErr (S × Bytes × Status) → Prop
  | .error e => ∀ ext, Q (bs ++ ext) = .fail e
  | .ok (s', rest, .ready) => ∃ c, bs = c ++ rest ∧ ∀ ext, Q (c ++ ext) = .ofEnd (fin s') ext
  | .ok (s', rest, .needsMore) =>
      ∃ c, bs = c ++ rest ∧ inv s' ∧ (∀ ext, Q (c ++ ext) = den s' ext) ∧ (rest ≠ [] → c ≠ [])

theorem pushOk_iff {d : Dec α} {inv : d.S → Prop} {den : d.S → Parser α} {s : d.S} {bs : Bytes}
    {r : Except DErr (d.S × Bytes × Status)} :
    PushOk d inv den s bs r ↔ PushOkQ d.fin inv den (den s) bs r := by
  match r with
  | .error _ => exact Iff.rfl
  | .ok (_, _, .ready) => exact Iff.rfl
  | .ok (_, _, .needsMore) => exact Iff.rfl

/-- Consuming a prefix `c` first. -/
theorem PushOkQ.prepend {fin : S → Except DErr α} {inv : S → Prop} {den : S → Parser α}
    {Q Q' : Parser α} {bs c rest : Bytes} {r : Except DErr (S × Bytes × Status)}
    (hbs : bs = c ++ rest) (hQ : ∀ ext, Q (c ++ ext) = Q' ext) (h : PushOkQ fin inv den Q' rest r) :
    PushOkQ fin inv den Q bs r := by
  subst hbs
  match r with
  | .error e => exact fun ext => by rw [List.append_assoc, hQ]; exact h ext
  | .ok (s', rest', .ready) =>
    obtain ⟨c', h1, h2⟩ := h
    exact ⟨c ++ c', by rw [h1, List.append_assoc], fun ext => by rw [List.append_assoc, hQ, h2]⟩
  | .ok (s', rest', .needsMore) =>
    obtain ⟨c', h1, h2, h3, h4⟩ := h
    exact ⟨c ++ c', by rw [h1, List.append_assoc], h2,
      fun ext => by rw [List.append_assoc, hQ, h3],
      fun hr h0 => h4 hr (List.append_eq_nil_iff.mp h0).2⟩

end Btc
