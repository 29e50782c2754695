import Verif.Io.Bridge
import Verif.Props.C58
/-!
# C106: streams of the standard library
-/
namespace Btc
namespace Io

/-- A stream of the standard library delivers bytes, then the end or an error; interruptions lose nothing. -/
structure StdDelivers {P σ : Type} (S : Stream (StdErr P) σ) (bytes : σ → Bytes) (ending : σ → Option (StdErr P)) (size : σ → Nat) : Prop where
  ok : ∀ s n s' b, S.read s n = (s', .ok b) → b ≠ [] → b.length ≤ n ∧ bytes s = b ++ bytes s' ∧ ending s' = ending s ∧ size s' < size s
  eof : ∀ s n s', S.read s n = (s', .ok []) → (bytes s = [] ∧ ending s = none) ∨ (n = 0 ∧ bytes s ≠ [] ∧ bytes s' = bytes s ∧ ending s' = ending s)
  interrupted : ∀ s n s' e, S.read s n = (s', .error e) → e.kind = .interrupted → bytes s' = bytes s ∧ ending s' = ending s ∧ size s' < size s
  error : ∀ s n s' e, S.read s n = (s', .error e) → e.kind ≠ .interrupted → bytes s = [] ∧ ending s = some e

/-- The same through the buffer. -/
structure StdBuffers {P σ : Type} (S : Stream (StdErr P) σ) (bytes : σ → Bytes) (ending : σ → Option (StdErr P)) (size : σ → Nat) : Prop where
  eof : ∀ s s', S.fill s = (s', .ok []) → bytes s = [] ∧ ending s = none
  ok : ∀ s s' b, S.fill s = (s', .ok b) → b ≠ [] → (∃ r, bytes s = b ++ r) ∧ ∀ k, k ≤ b.length →
    ∃ s'', S.consume s' k = some s'' ∧ bytes s'' = (bytes s).drop k ∧ ending s'' = ending s ∧ size s'' ≤ size s ∧ (0 < k → size s'' < size s)
  interrupted : ∀ s s' e, S.fill s = (s', .error e) → e.kind = .interrupted → bytes s' = bytes s ∧ ending s' = ending s ∧ size s' < size s
  error : ∀ s s' e, S.fill s = (s', .error e) → e.kind ≠ .interrupted → bytes s = [] ∧ ending s = some e

/-- What the crate makes of the error that ends a stream. -/
def shown {P : Type} (e : StdErr P) : Kind := (IoErr.fromStd e).kind.toKind

/-! ### Errors -/

/-- Errors of the crate survive the standard library. -/
theorem C106_there_and_back {P : Type} (e : IoErr P) : IoErr.fromStd e.toStd = e := by
  obtain ⟨k, p⟩ := e
  cases p <;> cases k <;> rfl

/-- Errors of the standard library keep their payload, and their kind exactly if the crate lists it; otherwise it becomes `Other`.
Errors without payload keep nothing else: the code of the operating system is lost. -/
theorem C106_back_and_there {P : Type} (e : StdErr P) :
    (IoErr.fromStd e).toStd.kind = (match e.kind with
      | .unlisted _ => .other
      | k => k) ∧
    (IoErr.fromStd e).toStd.intoInner = e.intoInner ∧
    ((IoErr.fromStd e).toStd = e ↔ (∀ n, e.kind ≠ .unlisted n) ∧ ((∃ k p, e = .custom k p) ∨ ∃ k, e = .simple k)) := by
  cases e with
  | os c k => cases k <;> simp [IoErr.fromStd, IoErr.toStd, StdErr.kind, StdErr.intoInner, ErrKind.fromStd, ErrKind.toStd]
  | simple k => cases k <;> simp [IoErr.fromStd, IoErr.toStd, StdErr.kind, StdErr.intoInner, ErrKind.fromStd, ErrKind.toStd]
  | message k m => cases k <;> simp [IoErr.fromStd, IoErr.toStd, StdErr.kind, StdErr.intoInner, ErrKind.fromStd, ErrKind.toStd]
  | custom k p => cases k <;> simp [IoErr.fromStd, IoErr.toStd, StdErr.kind, StdErr.intoInner, ErrKind.fromStd, ErrKind.toStd]

/-- Interruptions stay interruptions, and nothing else becomes one. -/
theorem C106_interrupted {P : Type} (e : StdErr P) (e' : IoErr P) :
    ((IoErr.fromStd e).kind = .interrupted ↔ e.kind = .interrupted) ∧ (e'.toStd.kind = .interrupted ↔ e'.kind = .interrupted) ∧
    (shown e = .interrupted ↔ e.kind = .interrupted) := by
  refine ⟨?_, ?_, ?_⟩
  · simp only [IoErr.fromStd]
    cases e.kind <;> simp [ErrKind.fromStd]
  · obtain ⟨k, p⟩ := e'
    cases p <;> cases k <;> simp [IoErr.toStd, StdErr.kind, ErrKind.toStd]
  · simp only [shown, IoErr.fromStd]
    cases e.kind <;> simp [ErrKind.fromStd, ErrKind.toKind]

/-- Different kinds stay different for the crate. -/
theorem C106_kinds (k k' : ErrKind) : k.toKind = k'.toKind ↔ k = k' := by
  cases k <;> cases k' <;> simp [ErrKind.toKind]

/-! ### Streams -/

/-- Wrapping twice is the stream itself. -/
theorem C106_unwrap {P σ : Type} (S : Stream (IoErr P) σ) : FromStd (ToStd S) = S := by
  have key : ∀ {α : Type} (r : Except (IoErr P) α), mapErr IoErr.fromStd (mapErr IoErr.toStd r) = r := by
    intro α r
    cases r with
    | ok a => rfl
    | error e => simp only [mapErr, C106_there_and_back]
  obtain ⟨a, b, c, d, e⟩ := S
  simp only [FromStd, ToStd, key]

/-- A wrapped stream delivers the same bytes, with the kind of its last error. -/
theorem C106_delivers {P σ : Type} (S : Stream (StdErr P) σ) (bytes : σ → Bytes) (ending : σ → Option (StdErr P)) (size : σ → Nat) :
    (StdDelivers S bytes ending size → Delivers (FromStd S).reader.toReader bytes (fun s => (ending s).map shown) size) ∧
    (StdBuffers S bytes ending size → Buffers (FromStd S).reader bytes (fun s => (ending s).map shown) size) := by
  constructor
  · intro h
    have rd : ∀ s n, (FromStd S).reader.read s n = ((S.read s n).1, mapErr shown (S.read s n).2) := by
      intro s n
      simp only [Stream.reader, FromStd]
      cases (S.read s n).2 <;> rfl
    refine ⟨?_, ?_, ?_, ?_⟩
    · intro s n s' b hr hb
      rw [rd] at hr
      cases he : S.read s n with
      | mk t r =>
        rw [he] at hr
        cases r with
        | error e => simp [mapErr] at hr
        | ok x =>
          simp only [mapErr, Prod.mk.injEq, Except.ok.injEq] at hr
          obtain ⟨rfl, rfl⟩ := hr
          obtain ⟨h1, h2, h3, h4⟩ := h.ok s n t x he hb
          exact ⟨h1, h2, by rw [h3], h4⟩
    · intro s n s' hr
      rw [rd] at hr
      cases he : S.read s n with
      | mk t r =>
        rw [he] at hr
        cases r with
        | error e => simp [mapErr] at hr
        | ok x =>
          simp only [mapErr, Prod.mk.injEq, Except.ok.injEq] at hr
          obtain ⟨rfl, rfl⟩ := hr
          rcases h.eof s n t he with ⟨h1, h2⟩ | ⟨h1, h2, h3, h4⟩
          · exact Or.inl ⟨h1, by rw [h2]; rfl⟩
          · exact Or.inr ⟨h1, h2, h3, by rw [h4]⟩
    · intro s n s' hr
      rw [rd] at hr
      cases he : S.read s n with
      | mk t r =>
        rw [he] at hr
        cases r with
        | ok x => simp [mapErr] at hr
        | error e =>
          simp only [mapErr, Prod.mk.injEq, Except.error.injEq] at hr
          obtain ⟨rfl, h2⟩ := hr
          obtain ⟨h3, h4, h5⟩ := h.interrupted s n t e he ((C106_interrupted e ⟨.other, none⟩).2.2.1 h2)
          exact ⟨h3, by rw [h4], h5⟩
    · intro s n s' k hr hk
      rw [rd] at hr
      cases he : S.read s n with
      | mk t r =>
        rw [he] at hr
        cases r with
        | ok x => simp [mapErr] at hr
        | error e =>
          simp only [mapErr, Prod.mk.injEq, Except.error.injEq] at hr
          obtain ⟨rfl, rfl⟩ := hr
          obtain ⟨h3, h4⟩ := h.error s n t e he (fun hh => hk ((C106_interrupted e ⟨.other, none⟩).2.2.2 hh))
          exact ⟨h3, by rw [h4]; rfl⟩
  · intro h
    have rd : ∀ s, (FromStd S).reader.fill s = ((S.fill s).1, mapErr shown (S.fill s).2) := by
      intro s
      simp only [Stream.reader, FromStd]
      cases (S.fill s).2 <;> rfl
    refine ⟨?_, ?_, ?_, ?_⟩
    · intro s s' hr
      rw [rd] at hr
      cases he : S.fill s with
      | mk t r =>
        rw [he] at hr
        cases r with
        | error e => simp [mapErr] at hr
        | ok x =>
          simp only [mapErr, Prod.mk.injEq, Except.ok.injEq] at hr
          obtain ⟨rfl, rfl⟩ := hr
          obtain ⟨h1, h2⟩ := h.eof s t he
          exact ⟨h1, by rw [h2]; rfl⟩
    · intro s s' b hr hb
      rw [rd] at hr
      cases he : S.fill s with
      | mk t r =>
        rw [he] at hr
        cases r with
        | error e => simp [mapErr] at hr
        | ok x =>
          simp only [mapErr, Prod.mk.injEq, Except.ok.injEq] at hr
          obtain ⟨rfl, rfl⟩ := hr
          obtain ⟨h1, h2⟩ := h.ok s t x he hb
          refine ⟨h1, fun k hk => ?_⟩
          obtain ⟨s'', h3, h4, h5, h6, h7⟩ := h2 k hk
          exact ⟨s'', h3, h4, by rw [h5], h6, h7⟩
    · intro s s' hr
      rw [rd] at hr
      cases he : S.fill s with
      | mk t r =>
        rw [he] at hr
        cases r with
        | ok x => simp [mapErr] at hr
        | error e =>
          simp only [mapErr, Prod.mk.injEq, Except.error.injEq] at hr
          obtain ⟨rfl, h2⟩ := hr
          obtain ⟨h3, h4, h5⟩ := h.interrupted s t e he ((C106_interrupted e ⟨.other, none⟩).2.2.1 h2)
          exact ⟨h3, by rw [h4], h5⟩
    · intro s s' k hr hk
      rw [rd] at hr
      cases he : S.fill s with
      | mk t r =>
        rw [he] at hr
        cases r with
        | ok x => simp [mapErr] at hr
        | error e =>
          simp only [mapErr, Prod.mk.injEq, Except.error.injEq] at hr
          obtain ⟨rfl, rfl⟩ := hr
          obtain ⟨h3, h4⟩ := h.error s t e he (fun hh => hk ((C106_interrupted e ⟨.other, none⟩).2.2.2 hh))
          exact ⟨h3, by rw [h4]; rfl⟩

/-- An object at the start of a stream of the standard library is decoded through the wrapper, whatever the stream does, and the stream is
left after it. -/
theorem C106_decode {α P σ : Type} (S : Stream (StdErr P) σ) (bytes : σ → Bytes) (ending : σ → Option (StdErr P)) (size : σ → Nat)
    (h : StdBuffers S bytes ending size) {d : Dec α} (hd : IsLawful d) (f : Nat) (r : σ) (hf : size r < f) (a : α) (rest : Bytes)
    (ha : d.decodeSliceUnbounded (bytes r) = .ok a rest) :
    ∃ r', decodeFromRead (FromStd S).reader d f r d.init = some (.ok a r') ∧ bytes r' = rest := by
  obtain ⟨r', h1, h2, -⟩ := (C58_decode _ bytes _ size ((C106_delivers S bytes ending size).2 h) hd f r hf).1 a rest ha
  exact ⟨r', h1, h2⟩

/-- A write through a wrapper reaches the stream as it is; the answer is that of the stream. -/
theorem C106_write {P σ : Type} (S : Stream (StdErr P) σ) (s : σ) (b : Bytes) :
    ((FromStd S).write s b).1 = (S.write s b).1 ∧ (∀ n, ((FromStd S).write s b).2 = .ok n ↔ (S.write s b).2 = .ok n) ∧
    ((FromStd S).flush s).1 = (S.flush s).1 ∧ (((FromStd S).flush s).2 = .ok () ↔ (S.flush s).2 = .ok ()) := by
  refine ⟨rfl, fun n => ?_, rfl, ?_⟩
  · simp only [FromStd]
    cases (S.write s b).2 <;> simp [mapErr]
  · simp only [FromStd]
    cases (S.flush s).2 <;> simp [mapErr]

/-! ### Examples -/

/-- A socket that delivers three bytes one at a time with an interruption in front, then is reset with code 104. -/
def socket : Stream (StdErr String) (Bytes × Bool) where
  read s n := if s.2 then ((s.1, false), .error (.os 4 .interrupted)) else match s.1 with
    | [] => (s, .error (.os 104 .connectionReset))
    | b :: l => if n = 0 then (s, .ok []) else ((l, false), .ok [b])
  fill s := if s.2 then ((s.1, false), .error (.os 4 .interrupted)) else match s.1 with
    | [] => (s, .error (.os 104 .connectionReset))
    | b :: _ => (s, .ok [b])
  consume s n := if n = 0 then some s else if n = 1 then some (s.1.drop 1, s.2) else none
  write s b := (s, .ok b.length)
  flush s := (s, .error (.custom .brokenPipe "gone"))

theorem socket_buffers : StdBuffers socket (fun s => s.1) (fun _ => some (.os 104 .connectionReset)) (fun s => s.1.length + if s.2 then 1 else 0) := by
  refine ⟨?_, ?_, ?_, ?_⟩
  · rintro ⟨l, i⟩ s' h
    cases i <;> cases l <;> simp [socket] at h
  · rintro ⟨l, i⟩ s' b h hb
    cases i with
    | true => simp [socket] at h
    | false =>
      cases l with
      | nil => simp [socket] at h
      | cons x l =>
        simp only [socket, Bool.false_eq_true, if_false, Prod.mk.injEq, Except.ok.injEq] at h
        obtain ⟨rfl, rfl⟩ := h
        refine ⟨⟨l, rfl⟩, fun k hk => ?_⟩
        have : k = 0 ∨ k = 1 := by simp at hk; omega
        rcases this with rfl | rfl
        · exact ⟨_, rfl, rfl, rfl, by simp, by omega⟩
        · exact ⟨_, rfl, rfl, rfl, by simp, by simp⟩
  · rintro ⟨l, i⟩ s' e h he
    cases i with
    | true =>
      simp only [socket, if_true, Prod.mk.injEq] at h
      obtain ⟨rfl, -⟩ := h
      simp
    | false =>
      cases l with
      | nil =>
        simp only [socket, Bool.false_eq_true, if_false, Prod.mk.injEq, Except.error.injEq] at h
        rw [← h.2] at he
        cases he
      | cons x l => simp [socket] at h
  · rintro ⟨l, i⟩ s' e h he
    cases i with
    | true =>
      simp only [socket, if_true, Prod.mk.injEq, Except.error.injEq] at h
      rw [← h.2] at he
      exact absurd rfl he
    | false =>
      cases l with
      | nil =>
        simp only [socket, Bool.false_eq_true, if_false, Prod.mk.injEq, Except.error.injEq] at h
        exact ⟨rfl, by rw [h.2]⟩
      | cons x l => simp [socket] at h

example : ((FromStd socket).read ([], false) 5).2 = .error ⟨.connectionReset, none⟩ := rfl
example : ((FromStd socket).flush ([], false)).2 = .error ⟨.brokenPipe, some "gone"⟩ := rfl
example : ∃ r', decodeFromRead (FromStd socket).reader (byteVecDec 10) 9 ([2, 7, 8, 9], true) (byteVecDec 10).init = some (.ok [7, 8] r') ∧ r'.1 = [9] :=
  C106_decode socket _ _ _ socket_buffers (Built.byteVec 10).isLawful 9 ([2, 7, 8, 9], true) (by decide) [7, 8] [9] (by with_unfolding_all rfl)
example : (IoErr.fromStd (.os 28 (.unlisted 3) : StdErr String)).toStd = .simple .other := rfl

end Io
end Btc
