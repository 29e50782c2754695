import Verif.P2p.Errors
import Verif.P2p.MessageLaws
import Verif.Codec.Explain
import Verif.Props.C77
import Verif.Props.C88
import Verif.Props.C117
import Verif.Props.C121
/-!
# C125: the errors of peer to peer messages, addresses and network names
-/
namespace Btc
namespace P2p
namespace Errs

/-! ## Decoders that check their output -/

/-- What a decoder that checks its output reports. -/
theorem mapE_err {α β : Type} {d : Dec α} {P : Parser α} {bad short : Bytes → DErr → Prop} (L : Lawful d P) (T : Why.Tells P bad short)
    (f : α → Except DErr β) (bs : Bytes) (e : DErr) :
    (d.mapE f id).decodeSliceUnbounded bs = .err e ↔ bad bs e ∨ short bs e ∨ ∃ a r, P bs = .done a r ∧ f a = .error e := by
  obtain ⟨inv, den, L', hP⟩ := mapE_lawful L f id
  rw [L'.decodeSliceUnbounded_spec, hP, ← T.fail, ← T.more]
  unfold Parser.mapE
  cases hp : P bs with
  | done a r => cases hf : f a <;> simp [POut.ofEnd, POut.outcome, hf]
  | fail e' => simp [POut.outcome]
  | more e' => simp [POut.outcome]

theorem array_done (N : Nat) (bs a r : Bytes) : arrayParser N [] bs = .done a r ↔ bs = a ++ r ∧ a.length = N := by
  simp only [arrayParser, List.length_nil, Nat.sub_zero, List.nil_append]
  constructor
  · intro h
    split at h
    · cases h
      exact ⟨(List.take_append_drop N bs).symm, by rw [List.length_take]; omega⟩
    · cases h
  · rintro ⟨rfl, rfl⟩
    rw [if_pos (by simp)]
    simp

/-- A decoder of `N` bytes that checks them fails if bytes are missing, or with the error of the check. -/
theorem array_err {β : Type} (N : Nat) (hN : 0 < N) (f : Bytes → Except DErr β) (bs : Bytes) (e : DErr) :
    ((arrayDec N).mapE f id).decodeSliceUnbounded bs = .err e ↔
    (bs.length < N ∧ e = .eof (N - bs.length)) ∨ ∃ a r, bs = a ++ r ∧ a.length = N ∧ f a = .error e := by
  rw [mapE_err (arrayDec_lawful N hN) (Why.tells_array N)]
  constructor
  · rintro (h | h | ⟨a, r, h1, h2⟩)
    · cases h
    · cases h with
      | mk m h1 h2 => exact .inl ⟨by omega, by rw [show N - bs.length = m by omega]⟩
    · exact .inr ⟨a, r, ((array_done N bs a r).1 h1).1, ((array_done N bs a r).1 h1).2, h2⟩
  · rintro (⟨h, rfl⟩ | ⟨a, r, h1, h2, h3⟩)
    · exact .inr (.inl (.mk _ (by omega) (by omega)))
    · exact .inr (.inr ⟨a, r, (array_done N bs a r).2 ⟨h1, h2⟩, h3⟩)

/-! ## Commands -/

/-- A command: ASCII characters without the null character, then null characters. -/
def Command (b : Bytes) : Prop := ∃ name n, b = name ++ List.replicate n 0 ∧ ∀ c ∈ name, 0 < c.toNat ∧ c.toNat < 128

theorem command_iff (b : Bytes) : Command b ↔ isAscii b = true ∧ interiorNull b = false := by
  have hz : ∀ c : UInt8, c ≠ 0 ↔ 0 < c.toNat := by
    intro c
    rw [Nat.pos_iff_ne_zero, Ne, Ne, ← UInt8.toNat_inj]; rfl
  have hlt : ∀ c : UInt8, c < 128 ↔ c.toNat < 128 := fun c => UInt8.lt_iff_toNat_lt
  rw [interiorNull_iff]
  constructor
  · rintro ⟨name, n, rfl, h⟩
    refine ⟨?_, name, n, rfl, fun h0 => ?_⟩
    · rw [isAscii_append, isAscii_zeros, Bool.and_true]
      unfold isAscii
      rw [List.all_eq_true]
      intro c hc
      exact decide_eq_true ((hlt c).2 (h c hc).2)
    · exact absurd (h 0 h0).1 (by decide)
  · rintro ⟨ha, name, n, rfl, h0⟩
    refine ⟨name, n, rfl, fun c hc => ⟨(hz c).1 (fun e => h0 (e ▸ hc)), ?_⟩⟩
    rw [isAscii_append, Bool.and_eq_true] at ha
    have := List.all_eq_true.1 ha.1 c hc
    exact (hlt c).1 (of_decide_eq_true this)

theorem tryFrom_none (s : Bytes) : Cmd.tryFrom s = none ↔ 12 < s.length ∨ ¬ Command s := by
  unfold Cmd.tryFrom
  by_cases h1 : isAscii s = false ∨ s.length > 12
  · rw [if_pos h1]
    refine ⟨fun _ => ?_, fun _ => rfl⟩
    rcases h1 with h1 | h1
    · exact .inr fun h => by rw [((command_iff s).1 h).1] at h1; cases h1
    · exact .inl h1
  · rw [if_neg h1]
    have h2 : ¬ isAscii s = false := fun h => h1 (.inl h)
    have h3 : ¬ s.length > 12 := fun h => h1 (.inr h)
    have hlen : (s ++ List.replicate (12 - s.length) (0 : UInt8)).length = 12 := by
      rw [List.length_append, List.length_replicate]; omega
    have hc : Command s ↔ Command (s ++ List.replicate (12 - s.length) (0 : UInt8)) := by
      constructor
      · rintro ⟨name, n, rfl, h⟩
        exact ⟨name, n + (12 - (name ++ List.replicate n (0 : UInt8)).length), by rw [List.append_assoc, List.replicate_append_replicate], h⟩
      · rintro ⟨name, n, e, h⟩
        have h0 : 0 ∉ name := fun h0 => absurd (h 0 h0).1 (by decide)
        rcases List.append_eq_append_iff.1 e with ⟨t, e1, e2⟩ | ⟨t, e1, e2⟩
        · -- `name = s ++ t`, `t` begins with the zeros
          have ht : t = [] := by
            cases t with
            | nil => rfl
            | cons x t =>
              have : x ∈ List.replicate (12 - s.length) (0 : UInt8) := by rw [e2]; simp
              rw [List.eq_of_mem_replicate this] at e1
              exact absurd (e1 ▸ by simp) h0
          subst ht
          refine ⟨name, 0, by rw [e1]; simp, h⟩
        · have ht : t = List.replicate t.length 0 := by
            refine List.eq_replicate_iff.2 ⟨rfl, fun b hb => ?_⟩
            have : b ∈ List.replicate n (0 : UInt8) := by rw [e2]; simp [hb]
            exact List.eq_of_mem_replicate this
          exact ⟨name, t.length, by rw [← ht]; exact e1, h⟩
    simp only
    split
    · rename_i h
      constructor
      · intro h'; cases h'
      · rintro (h' | h')
        · exact absurd h' h3
        · exact absurd (hc.2 ((command_iff _).2 h.2)) h'
    · rename_i h
      refine ⟨fun _ => .inr fun h' => h ⟨hlen, (command_iff _).1 (hc.1 h')⟩, fun _ => rfl⟩

/-- A text is refused as a command exactly if it has more than 12 bytes or is not a command. -/
theorem C125_command (s e : String) : commandOf s = .error e ↔ e = s ∧ (12 < s.utf8ByteSize ∨ ¬ Command (utf8 s)) := by
  have hl : (utf8 s).length = s.utf8ByteSize := rfl
  rw [← hl, ← tryFrom_none]
  unfold commandOf
  cases hc : Cmd.tryFrom (utf8 s) with
  | none => simp [eq_comm]
  | some c => simp

example : commandOf "a\x00b" = .error "a\x00b" ∧ ¬ 12 < "a\x00b".utf8ByteSize := ⟨rfl, by decide +kernel⟩

/-- What is printed about a refused command. -/
inductive SaysCommand (s : String) : String → Prop
  | long : 12 < s.utf8ByteSize →
      SaysCommand s ("the command string '" ++ s ++ "' has length " ++ toString s.utf8ByteSize ++ " which is larger than 12")

/-- The text of a refused command is true if the command is a list of ASCII characters without interior null. -/
theorem C125_command_messages_partial (s e : String) (h : commandOf s = .error e) (hc : Command (utf8 s)) :
    SaysCommand s (commandMsg e) := by
  obtain ⟨rfl, h1 | h1⟩ := (C125_command s e).1 h
  · exact .long h1
  · exact absurd hc h1

example : ∃ e, commandOf "sendaddrv2000" = .error e ∧ Command (utf8 "sendaddrv2000") :=
  ⟨_, (C125_command _ _).2 ⟨rfl, .inl (by decide +kernel)⟩, (command_iff _).2 (by decide +kernel)⟩

/-- FALSE in general: short texts that are not ASCII, or have a null before another character, are said to be longer than 12. -/
theorem C125_command_length_fails : commandOf "é" = .error "é" ∧ commandOf "a\x00b" = .error "a\x00b" ∧
    commandMsg "é" = "the command string 'é' has length 2 which is larger than 12" ∧
    commandMsg "a\x00b" = "the command string 'a\x00b' has length 3 which is larger than 12" ∧
    ¬ SaysCommand "é" (commandMsg "é") ∧ ¬ SaysCommand "a\x00b" (commandMsg "a\x00b") := by
  refine ⟨(C125_command _ _).2 ⟨rfl, .inr fun h => ?_⟩, (C125_command _ _).2 ⟨rfl, .inr fun h => ?_⟩, by decide +kernel, by decide +kernel,
    fun h => ?_, fun h => ?_⟩
  · exact absurd ((command_iff _).1 h) (by decide +kernel)
  · exact absurd ((command_iff _).1 h) (by decide +kernel)
  · cases h; rename_i h; exact absurd h (by decide +kernel)
  · cases h; rename_i h; exact absurd h (by decide +kernel)

/-- Decoding a command fails exactly if there are less than 12 bytes, or the first 12 are not a command. -/
theorem C125_command_decoder (bs : Bytes) (e : DErr) : cmdDec.decodeSliceUnbounded bs = .err e ↔
    (bs.length < 12 ∧ e = .eof (12 - bs.length)) ∨ (12 ≤ bs.length ∧ ¬ Command (bs.take 12) ∧ e = .custom 50 0) := by
  unfold cmdDec
  rw [array_err 12 (by decide)]
  refine or_congr Iff.rfl ⟨?_, ?_⟩
  · rintro ⟨a, r, rfl, ha, h⟩
    have hta : (a ++ r).take 12 = a := by rw [← ha, List.take_left]
    rw [hta]
    split at h
    · cases h
    · rename_i hn
      cases h
      exact ⟨by simp; omega, fun hc => hn ⟨ha, (command_iff a).1 hc⟩, rfl⟩
  · rintro ⟨hl, hc, rfl⟩
    refine ⟨bs.take 12, bs.drop 12, (List.take_append_drop 12 bs).symm, by rw [List.length_take]; omega, ?_⟩
    rw [dif_neg fun h => hc ((command_iff _).2 h.2)]

/-- What is printed about bytes that are not a command. -/
inductive SaysCmdDec (bs : Bytes) : String → Prop
  | eof (n : Nat) : 0 < n → bs.length + n = 12 →
      SaysCmdDec bs ("unexpected end of data: " ++ ("not enough bytes for decoder, " ++ toString n ++ " more bytes required"))
  | ascii (c : UInt8) : c ∈ bs.take 12 → 128 ≤ c.toNat → SaysCmdDec bs "command string must be ASCII"

/-- The text is true unless all 12 bytes are ASCII. -/
theorem C125_command_decoder_messages_partial (bs : Bytes) (e : DErr) (h : cmdDec.decodeSliceUnbounded bs = .err e)
    (hb : bs.length < 12 ∨ ∃ c ∈ bs.take 12, 128 ≤ c.toNat) : SaysCmdDec bs (cmdDecMsg e) := by
  rcases (C125_command_decoder bs e).1 h with ⟨h1, rfl⟩ | ⟨h1, h2, rfl⟩
  · exact .eof (12 - bs.length) (by omega) (by omega)
  · rcases hb with hb | ⟨c, hc, h3⟩
    · omega
    · exact .ascii c hc h3

example : cmdDec.decodeSliceUnbounded (List.replicate 12 200) = .err (.custom 50 0) ∧ ∃ c ∈ (List.replicate 12 200 : Bytes).take 12, 128 ≤ c.toNat :=
  ⟨(C125_command_decoder _ _).2 (.inr ⟨by decide, fun h => absurd ((command_iff _).1 h) (by decide), rfl⟩), 200, by decide, by decide⟩

/-- FALSE in general: twelve ASCII bytes with a null before another character are said not to be ASCII. -/
theorem C125_command_ascii_fails : ∃ bs : Bytes, bs.length = 12 ∧ (∀ c ∈ bs, c.toNat < 128) ∧
    cmdDec.decodeSliceUnbounded bs = .err (.custom 50 0) ∧ cmdDecMsg (.custom 50 0) = "command string must be ASCII" ∧
    ¬ SaysCmdDec bs (cmdDecMsg (.custom 50 0)) := by
  refine ⟨[112, 105, 0, 110, 103, 0, 0, 0, 0, 0, 0, 0], rfl, by decide,
    (C125_command_decoder _ _).2 (.inr ⟨by decide, fun h => absurd ((command_iff _).1 h) (by decide), rfl⟩), rfl, fun h => ?_⟩
  generalize hm : cmdDecMsg (.custom 50 0) = m at h
  cases h with
  | eof n h1 h2 => simp at h2; omega
  | ascii c h1 h2 =>
    have : ∀ c ∈ ([112, 105, 0, 110, 103, 0, 0, 0, 0, 0, 0, 0] : Bytes), c.toNat < 128 := by decide
    exact absurd (this c h1) (by omega)

/-! ## Version 1 messages -/

/-- The error values belong to the decoder of the model: it accepts the same payloads. -/
theorem v1Finish_ok (H : Bytes → Arr 32) (h : V1Header) (sel : Sel) (s : (innerDec sel).S) (n : Nat) (w : Bytes) (m : V1Msg) :
    v1Finish H h sel s n w = .ok m ↔ v1EndPayload H h sel s n w = .ok m := by
  unfold v1Finish v1EndPayload
  split
  · simp
  · cases (innerDec sel).fin s with
    | error e => simp
    | ok p =>
      simp only
      split
      · simp
      · cases p.command with
        | none => simp
        | some c =>
          simp only
          cases headerNew H h.magic p.bytes c <;> simp

theorem v1Begin_ok (h : V1Header) (rest : Bytes) (r : V1St × Bytes × Status) : v1Begin h rest = .ok r ↔ v1AfterHeader h rest = .ok r := by
  unfold v1Begin v1AfterHeader
  split
  · simp
  · cases v1PushPayload h (v1Sel h.command h.length.toNat) (innerDec (v1Sel h.command h.length.toNat)).init 0 [] rest <;> simp

/-- The states of the decoder after a header and bytes `w` of the payload, cut in any way. -/
inductive Reached (H : Bytes → Arr 32) (h : V1Header) : V1St → Status → Bytes → Prop
  | start (bs rest : Bytes) (st : V1St) (q : Status) : v1AfterHeader h bs = .ok (st, rest, q) →
      Reached H h st q (bs.take (bs.length - rest.length))
  | push (st : V1St) (w bs rest : Bytes) (st' : V1St) (q : Status) : Reached H h st .needsMore w → (v1Dec H).push st bs = .ok (st', rest, q) →
      Reached H h st' q (w ++ bs.take (bs.length - rest.length))

theorem pushPayload_facts {h : V1Header} {sel : Sel} {s : (innerDec sel).S} {n : Nat} {w bs rest : Bytes} {st : V1St} {q : Status}
    (hp : v1PushPayload h sel s n w bs = .ok (st, rest, q)) (hn : n = w.length) :
    ∃ s', st = .payload h sel s' (w ++ bs.take (bs.length - rest.length)).length (w ++ bs.take (bs.length - rest.length)) ∧
      (innerDec sel).push s bs = .ok (s', rest, q) := by
  unfold v1PushPayload at hp
  cases hi : (innerDec sel).push s bs with
  | error e => rw [hi] at hp; cases hp
  | ok r =>
    obtain ⟨s', rest', q'⟩ := r
    rw [hi] at hp
    cases hp
    refine ⟨s', ?_, rfl⟩
    rw [hn, List.length_append, List.length_take, Nat.min_eq_left (Nat.sub_le _ _)]

/-- What is known of a state in which `w` has been decoded. -/
def Knows (sel : Sel) (x : ((innerDec sel).S → Prop) × ((innerDec sel).S → Rel Msg)) (s : (innerDec sel).S) (w : Bytes) : Status → Prop
  | .ready => ∀ ext a r, SelRel sel (w ++ ext) a r ↔ (innerDec sel).fin s = .ok a ∧ r = ext
  | .needsMore => x.1 s ∧ ∀ ext a r, SelRel sel (w ++ ext) a r ↔ x.2 s ext a r

theorem take_of_append {bs c rest : Bytes} (h : bs = c ++ rest) : bs.take (bs.length - rest.length) = c := by
  subst h
  rw [List.length_append, Nat.add_sub_cancel, List.take_left]

theorem knows_push {sel : Sel} {x : ((innerDec sel).S → Prop) × ((innerDec sel).S → Rel Msg)} {D : Rel Msg} {s' : (innerDec sel).S}
    {w bs rest : Bytes} {q : Status} (hD : ∀ ext a r, SelRel sel (w ++ ext) a r ↔ D ext a r)
    (h : PushOkA (innerDec sel).fin x.1 x.2 D bs (.ok (s', rest, q))) : Knows sel x s' (w ++ bs.take (bs.length - rest.length)) q := by
  cases q with
  | ready =>
    obtain ⟨c, hc, h2⟩ := h
    rw [take_of_append hc]
    intro ext a r
    rw [List.append_assoc, hD, h2]
  | needsMore =>
    obtain ⟨c, hc, h1, h2, _⟩ := h
    rw [take_of_append hc]
    exact ⟨h1, fun ext a r => by rw [List.append_assoc, hD, h2]⟩

theorem reached_facts {H : Bytes → Arr 32} {h : V1Header} {st : V1St} {q : Status} {w : Bytes}
    {x : ((innerDec (v1Sel h.command h.length.toNat)).S → Prop) × ((innerDec (v1Sel h.command h.length.toNat)).S → Rel Msg)}
    (L : AcceptsWith (innerDec (v1Sel h.command h.length.toNat)) x.1 x.2)
    (L0 : ∀ bs, PushOkA (innerDec (v1Sel h.command h.length.toNat)).fin x.1 x.2 (SelRel (v1Sel h.command h.length.toNat)) bs
        ((innerDec (v1Sel h.command h.length.toNat)).push (innerDec (v1Sel h.command h.length.toNat)).init bs))
    (hr : Reached H h st q w) :
    h.length.toNat ≤ MAX_MSG_SIZE ∧ ∃ s, st = .payload h (v1Sel h.command h.length.toNat) s w.length w ∧
      Knows (v1Sel h.command h.length.toNat) x s w q := by
  induction hr with
  | start bs rest st q h1 =>
    unfold v1AfterHeader at h1
    split at h1
    · cases h1
    · rename_i hm
      obtain ⟨s', e, hi⟩ := pushPayload_facts h1 rfl
      have h2 := L0 bs
      rw [hi] at h2
      exact ⟨by omega, s', e, knows_push (w := []) (fun ext a r => Iff.rfl) h2⟩
  | push st w bs rest st' q _ h1 ih =>
    obtain ⟨hm, s, rfl, hk⟩ := ih
    obtain ⟨s', e, hi⟩ := pushPayload_facts h1 rfl
    have h2 := L.push s bs hk.1
    rw [hi] at h2
    exact ⟨hm, s', e, knows_push hk.2 h2⟩

/-- What is printed at the end of a message whose header is `h` and whose payload bytes, as far as decoded, are `w`. -/
inductive SaysV1 (H : Bytes → Arr 32) (h : V1Header) (w : Bytes) : String → Prop
  | mismatch : w.length ≠ h.length.toNat →
      SaysV1 H h w ("payload length mismatch: expected " ++ toString h.length.toNat ++ " bytes, decoded " ++ toString w.length)
  | checksum (e : Bytes) : w.length = h.length.toNat → e.length = 4 → e <+: (H w).1 → e ≠ h.checksum.1 →
      SaysV1 H h w ("invalid checksum: expected " ++ hexText e ++ ", actual " ++ hexText h.checksum.1)
  | payload : w.length = h.length.toNat → (∀ m, ¬ SelForm (v1Sel h.command h.length.toNat) m w) → SaysV1 H h w "error decoding message payload"

theorem first4_prefix (x : Arr 32) : (first4 x).1 <+: x.1 := by
  unfold first4
  exact List.take_prefix 4 x.1

/-- At the end of a message the decoder names the length in the header and the number of bytes decoded if they differ, otherwise a payload
that is not the encoding of a message of the command, otherwise the checksum of the payload and the one in the header if they differ. -/
theorem C125_v1_messages (H : Bytes → Arr 32) (h : V1Header) (sel : Sel) (s : (innerDec sel).S) (n : Nat) (v w : Bytes) (q : Status)
    (hr : Reached H h (.payload h sel s n v) q w) (e : V1Err) (he : v1Finish H h sel s n v = .error e) (hp : e ≠ .panic) :
    SaysV1 H h w (v1Msg e) := by
  obtain ⟨x, L, L0⟩ := inner_accepts (v1Sel h.command h.length.toNat)
  obtain ⟨hm, s', e', hk⟩ := reached_facts L L0 hr
  cases e'
  unfold v1Finish at he
  split at he
  · rename_i hne
    cases he
    exact .mismatch hne
  · rename_i heq
    have heq : v.length = h.length.toNat := by omega
    cases hf : (innerDec (v1Sel h.command h.length.toNat)).fin s' with
    | error e1 =>
      rw [hf] at he
      cases he
      refine .payload heq fun m hm' => ?_
      have hrel : SelRel (v1Sel h.command h.length.toNat) (v ++ []) m [] := ⟨v, hm', rfl⟩
      cases q with
      | ready =>
        have := ((hk [] m []).1 hrel).1
        rw [hf] at this
        cases this
      | needsMore => exact L.not_nil hk.1 m [] ((hk.2 [] m []).1 hrel)
    | ok p =>
      rw [hf] at he
      simp only at he
      split at he
      · rename_i hne
        cases he
        exact .checksum _ heq (first4 (H v)).2 (first4_prefix _) (fun h => hne (Subtype.ext h))
      · split at he
        · cases he; exact absurd rfl hp
        · split at he
          · cases he; exact absurd rfl hp
          · cases he

/-- The header of a ping, and the state after three of its eight bytes. -/
def pingHeader : V1Header := ⟨⟨[0xF9, 0xBE, 0xB4, 0xD9], rfl⟩, ⟨[112, 105, 110, 103, 0, 0, 0, 0, 0, 0, 0, 0], by decide⟩, 8, ⟨[1, 2, 3, 4], rfl⟩⟩

example (H : Bytes → Arr 32) : ∃ sel s n v q, Reached H pingHeader (.payload pingHeader sel s n v) q [1, 2, 3] ∧
    v1Finish H pingHeader sel s n v = .error (.mismatch 8 3) :=
  ⟨_, _, _, _, _, .start [1, 2, 3] [] _ _ rfl, rfl⟩

/-- A payload refused while it is read is the beginning of no encoding of a message of the command. -/
theorem C125_v1_payload (H : Bytes → Arr 32) (h : V1Header) (st : V1St) (w bs : Bytes) (hr : Reached H h st .needsMore w) (e : DErr)
    (he : (v1Dec H).push st bs = .error e) (m : Msg) (v ext r : Bytes) (hv : SelForm (v1Sel h.command h.length.toNat) m v) :
    w ++ (bs ++ ext) ≠ v ++ r := by
  intro heq
  obtain ⟨x, L, L0⟩ := inner_accepts (v1Sel h.command h.length.toNat)
  obtain ⟨hm, s, rfl, hk⟩ := reached_facts L L0 hr
  have h1 : v1PushPayload h (v1Sel h.command h.length.toNat) s w.length w bs = .error e := he
  unfold v1PushPayload at h1
  cases hi : (innerDec (v1Sel h.command h.length.toNat)).push s bs with
  | error e1 =>
    have h2 := L.push s bs hk.1
    rw [hi] at h2
    exact h2 ext m r ((hk.2 (bs ++ ext) m r).1 ⟨v, hv, heq⟩)
  | ok r => rw [hi] at h1; cases h1

/-- A message is refused as too large exactly if its header announces more than five million bytes. -/
theorem C125_v1_too_large (h : V1Header) (rest : Bytes) : (v1Begin h rest = .error .tooLarge ↔ 5000000 < h.length.toNat) ∧
    ((∃ e, v1Begin h rest = .error e ∧ v1Msg e = "payload length exceeds maximum allowed message size") ↔ 5000000 < h.length.toNat) := by
  unfold v1Begin MAX_MSG_SIZE
  split
  · rename_i h1; exact ⟨⟨fun _ => h1, fun _ => rfl⟩, ⟨fun _ => h1, fun _ => ⟨_, rfl, rfl⟩⟩⟩
  · rename_i h1
    split
    · refine ⟨⟨fun h => (by cases h), fun h => absurd h h1⟩, ⟨?_, fun h => absurd h h1⟩⟩
      rintro ⟨e, he, ht⟩
      cases he
      first | exact absurd ht (by decide) | cases ht
    · refine ⟨⟨fun h => (by cases h), fun h => absurd h h1⟩, ⟨?_, fun h => absurd h h1⟩⟩
      rintro ⟨e, he, ht⟩
      cases he

example : v1Begin { pingHeader with length := 5000001 } [] = .error .tooLarge := (C125_v1_too_large _ _).1.2 (by decide)

/-- The short identifiers of BIP 324 (1 to 28) and BIP 434 (37). -/
def ShortIds : List Nat := [1, 2, 3, 4, 5, 6, 7, 8, 9, 10, 11, 12, 13, 14, 15, 16, 17, 18, 19, 20, 21, 22, 23, 24, 25, 26, 27, 28, 37]

/-- The error of a short identifier, as it is printed. -/
def shortIdErr (id : UInt8) : Option String := match v2ShortSel id with
  | .error _ => some (shortIdMsg id)
  | .ok _ => none

/-- A short identifier is called unknown exactly if the BIPs assign it to no message. -/
theorem C125_short_id (id : UInt8) (t : String) : shortIdErr id = some t ↔
    id.toNat ∉ ShortIds ∧ t = "unknown V2 message short ID: " ++ toString id.toNat := by
  have key : ∀ id : UInt8, (match v2ShortSel id with | .error _ => true | .ok _ => false) = decide (id.toNat ∉ ShortIds) := by
    set_option maxRecDepth 8000 in
    exact Scr.forall_u8 (by decide +kernel)
  have := key id
  unfold shortIdErr
  cases hv : v2ShortSel id with
  | error e =>
    rw [hv] at this
    simp only [Option.some.injEq]
    exact ⟨fun h => ⟨of_decide_eq_true this.symm, h.symm⟩, fun h => h.2.symm⟩
  | ok sel =>
    rw [hv] at this
    simp only [reduceCtorEq, false_iff]
    exact fun h => of_decide_eq_false this.symm h.1

example : shortIdErr 29 = some ("unknown V2 message short ID: " ++ toString 29) := (C125_short_id 29 _).2 ⟨by decide, rfl⟩

/-! ## Addresses -/

/-- The networks of BIP 155 with addresses of one length. -/
inductive Wants : UInt8 → Nat → Prop
  | ipv4 : Wants 1 4
  | ipv6 : Wants 2 16
  | torV3 : Wants 4 32
  | i2p : Wants 5 32
  | cjdns : Wants 6 16

/-- The error values belong to the decoder of the model: it accepts the same addresses. -/
theorem addrEnd_ok (net : UInt8) (b : Bytes) (a : AddrV2) : addrEnd net b = .ok a ↔ addrV2End net b = .ok a := by
  have hf : ∀ n, (∃ x, fixedSlice n b = .ok x ∧ fixedSize n b = .ok x) ∨
      ∃ e e', fixedSlice n b = .error e ∧ fixedSize n b = .error e' := by
    intro n
    unfold fixedSlice fixedSize
    by_cases h : b.length = n
    · rw [dif_pos h, dif_pos h]; exact .inl ⟨_, rfl, rfl⟩
    · rw [dif_neg h, dif_neg h]; exact .inr ⟨_, _, rfl, rfl⟩
  unfold addrEnd addrV2End
  split
  · simp
  split
  · rcases hf 4 with ⟨x, h1, h2⟩ | ⟨e, e', h1, h2⟩ <;> rw [h1, h2] <;> simp [Except.map]
  split
  · rcases hf 16 with ⟨x, h1, h2⟩ | ⟨e, e', h1, h2⟩ <;> rw [h1, h2]
    · simp only
      cases segsArr x.1 with
      | error e => simp
      | ok s =>
        simp only
        split
        · simp
        · split <;> simp
    · simp
  split
  · rcases hf 32 with ⟨x, h1, h2⟩ | ⟨e, e', h1, h2⟩ <;> rw [h1, h2] <;> simp [Except.map]
  split
  · rcases hf 32 with ⟨x, h1, h2⟩ | ⟨e, e', h1, h2⟩ <;> rw [h1, h2] <;> simp [Except.map]
  split
  · rcases hf 16 with ⟨x, h1, h2⟩ | ⟨e, e', h1, h2⟩ <;> rw [h1, h2]
    · simp only
      split
      · simp
      · cases segsArr x.1 <;> simp
    · simp
  · simp

/-- What is wrong with the bytes of an address. -/
inductive AddrBad (net : UInt8) (b : Bytes) : AddrErr → Prop
  | long : 512 < b.length → AddrBad net b (.length 512 b.length)
  | length (n : Nat) : b.length ≤ 512 → Wants net n → b.length ≠ n → AddrBad net b (.length n b.length)
  | onion : net = 2 → b.length = 16 → OnionCat b → AddrBad net b .onionCat
  | mapped : net = 2 → b.length = 16 → Mapped b → AddrBad net b .wrappedIpv4
  | cjdns : net = 6 → b.length = 16 → b.head? ≠ some 0xFC → AddrBad net b .notCjdns

theorem fixedSlice_ok {n : Nat} {b : Bytes} (h : b.length = n) : fixedSlice n b = .ok ⟨b, h⟩ := dif_pos h
theorem fixedSlice_err {n : Nat} {b : Bytes} (h : b.length ≠ n) : fixedSlice n b = .error (.length n b.length) := dif_neg h

theorem onion_not_mapped {b : Bytes} (h : OnionCat b) : ¬ Mapped b := by
  obtain ⟨t, rfl⟩ := h
  rintro ⟨u, hu⟩
  simp at hu

/-- An address is refused exactly for what the error says is wrong with it. -/
theorem C125_addr (net : UInt8) (b : Bytes) (e : AddrErr) : addrEnd net b = .error e ↔ AddrBad net b e := by
  have hfix : ∀ (n : Nat) (C : Arr n → AddrV2) (e : AddrErr), Wants net n → b.length ≤ 512 → net ≠ 2 → net ≠ 6 →
      ((fixedSlice n b).map C = .error e ↔ AddrBad net b e) := by
    intro n C e hw hl h2 h6
    by_cases hn : b.length = n
    · rw [fixedSlice_ok hn]
      simp only [Except.map, reduceCtorEq, false_iff]
      intro h
      cases h with
      | long h => omega
      | length m _ hw' hm => cases hw <;> cases hw' <;> exact hm hn
      | onion h => exact h2 h
      | mapped h => exact h2 h
      | cjdns h => exact h6 h
    · rw [fixedSlice_err hn]
      simp only [Except.map, Except.error.injEq]
      constructor
      · rintro rfl; exact .length n hl hw hn
      · intro h
        cases h with
        | long h => omega
        | length m _ hw' hm => cases hw <;> cases hw' <;> rfl
        | onion h => exact absurd h h2
        | mapped h => exact absurd h h2
        | cjdns h => exact absurd h h6
  unfold addrEnd
  by_cases h512 : b.length > 512
  · rw [if_pos h512]
    simp only [Except.error.injEq]
    constructor
    · rintro rfl; exact .long h512
    · intro h
      cases h <;> first | rfl | omega
  rw [if_neg h512]
  by_cases h1 : net = 1
  · subst h1; rw [if_pos rfl]; exact hfix 4 _ e .ipv4 (by omega) (by decide) (by decide)
  rw [if_neg h1]
  by_cases h2 : net = 2
  · subst h2
    rw [if_pos rfl]
    by_cases hn : b.length = 16
    · obtain ⟨s, hs, hb⟩ := segsArr_ok hn
      rw [fixedSlice_ok hn]
      simp only [hs]
      split
      · rename_i ho
        rw [onion_iff, hb] at ho
        simp only [Except.error.injEq]
        constructor
        · rintro rfl; exact .onion rfl hn ho
        · intro h
          cases h with
          | long h => omega
          | length m _ hw hm => cases hw; exact absurd hn hm
          | onion => rfl
          | mapped _ _ hm => exact absurd hm (onion_not_mapped ho)
          | cjdns h => exact absurd h (by decide)
      · rename_i ho
        rw [onion_iff, hb] at ho
        split
        · rename_i hm
          rw [mapped_iff, hb] at hm
          simp only [Except.error.injEq]
          constructor
          · rintro rfl; exact .mapped rfl hn hm
          · intro h
            cases h with
            | long h => omega
            | length m _ hw hm => cases hw; exact absurd hn hm
            | onion _ _ h => exact absurd h ho
            | mapped => rfl
            | cjdns h => exact absurd h (by decide)
        · rename_i hm
          rw [mapped_iff, hb] at hm
          simp only [reduceCtorEq, false_iff]
          intro h
          cases h with
          | long h => omega
          | length m _ hw hm => cases hw; exact absurd hn hm
          | onion _ _ h => exact absurd h ho
          | mapped _ _ h => exact absurd h hm
          | cjdns h => exact absurd h (by decide)
    · rw [fixedSlice_err hn]
      simp only [Except.error.injEq]
      constructor
      · rintro rfl; exact .length 16 (by omega) .ipv6 hn
      · intro h
        cases h with
        | long h => omega
        | length m _ hw hm => cases hw; rfl
        | onion _ h => exact absurd h hn
        | mapped _ h => exact absurd h hn
        | cjdns h => exact absurd h (by decide)
  rw [if_neg h2]
  by_cases h4 : net = 4
  · subst h4; rw [if_pos rfl]; exact hfix 32 _ e .torV3 (by omega) (by decide) (by decide)
  rw [if_neg h4]
  by_cases h5 : net = 5
  · subst h5; rw [if_pos rfl]; exact hfix 32 _ e .i2p (by omega) (by decide) (by decide)
  rw [if_neg h5]
  by_cases h6 : net = 6
  · subst h6
    rw [if_pos rfl]
    by_cases hn : b.length = 16
    · obtain ⟨s, hs, hb⟩ := segsArr_ok hn
      rw [fixedSlice_ok hn]
      simp only [hs]
      split
      · rename_i hc
        simp only [Except.error.injEq]
        constructor
        · rintro rfl; exact .cjdns rfl hn hc
        · intro h
          cases h with
          | long h => omega
          | length m _ hw hm => cases hw; exact absurd hn hm
          | onion h => exact absurd h (by decide)
          | mapped h => exact absurd h (by decide)
          | cjdns => rfl
      · rename_i hc
        simp only [reduceCtorEq, false_iff]
        intro h
        cases h with
        | long h => omega
        | length m _ hw hm => cases hw; exact absurd hn hm
        | onion h => exact absurd h (by decide)
        | mapped h => exact absurd h (by decide)
        | cjdns _ _ h => exact hc h
    · rw [fixedSlice_err hn]
      simp only [Except.error.injEq]
      constructor
      · rintro rfl; exact .length 16 (by omega) .cjdns hn
      · intro h
        cases h with
        | long h => omega
        | length m _ hw hm => cases hw; rfl
        | onion h => exact absurd h (by decide)
        | mapped h => exact absurd h (by decide)
        | cjdns _ h => exact absurd h hn
  rw [if_neg h6]
  simp only [reduceCtorEq, false_iff]
  intro h
  cases h with
  | long h => exact h512 h
  | length m _ hw hm => cases hw <;> contradiction
  | onion h => exact h2 h
  | mapped h => exact h2 h
  | cjdns h => exact h6 h

/-- What is printed about a refused address. -/
inductive SaysAddr (net : UInt8) (b : Bytes) : String → Prop
  | length (n : Nat) : Wants net n → b.length ≠ n →
      SaysAddr net b ("invalid length. expected " ++ toString n ++ ", got " ++ toString b.length)
  | onion : net = 2 → OnionCat b → SaysAddr net b "OnionCat address sent as IPv6 is invalid."
  | mapped : net = 2 → Mapped b → SaysAddr net b "wrapped IPv4 sent as IPv6 is invalid."
  | cjdns : net = 6 → b.head? ≠ some 0xFC → SaysAddr net b "CJDNS address must start with a reserved byte."

/-- The text of a refused address of at most 512 bytes is true. -/
theorem C125_addr_messages_partial (net : UInt8) (b : Bytes) (e : AddrErr) (h : addrEnd net b = .error e) (hl : b.length ≤ 512) :
    SaysAddr net b (addrMsg e) := by
  cases (C125_addr net b e).1 h with
  | long h => omega
  | length n _ hw hn => exact .length n hw hn
  | onion h1 _ h2 => exact .onion h1 h2
  | mapped h1 _ h2 => exact .mapped h1 h2
  | cjdns h1 _ h2 => exact .cjdns h1 h2

example : addrEnd 1 [127, 0, 0] = .error (.length 4 3) ∧ addrEnd 6 (List.replicate 16 0) = .error .notCjdns :=
  ⟨rfl, rfl⟩

/-- FALSE in general: of an IPv4 address of 513 bytes it says that 512 bytes are expected, which are refused as well: only 4 are accepted. -/
theorem C125_addr_length_fails : ∃ b : Bytes, b.length = 513 ∧ addrEnd 1 b = .error (.length 512 513) ∧
    addrMsg (.length 512 513) = "invalid length. expected " ++ toString 512 ++ ", got " ++ toString 513 ∧
    (∀ b' : Bytes, b'.length = 512 → ∃ e, addrEnd 1 b' = .error e) ∧ ¬ Wants 1 512 := by
  have hl : (List.replicate 513 (0 : UInt8)).length = 513 := List.length_replicate ..
  refine ⟨List.replicate 513 0, hl, ?_, rfl, fun b' hb => ⟨_, (C125_addr 1 b' (.length 4 b'.length)).2 (.length 4 (by omega) .ipv4 (by omega))⟩,
    fun h => by cases h⟩
  have := (C125_addr 1 (List.replicate 513 0) (.length 512 (List.replicate 513 (0 : UInt8)).length)).2 (.long (by rw [hl]; decide))
  rw [hl] at this
  exact this

/-- What is printed about an address that is no IP address. -/
inductive SaysRoute (a : AddrV2) : String → Prop
  | torV3 (x) : a = .torV3 x → SaysRoute a "Tor v3 addresses cannot be converted to IP addresses"
  | i2p (x) : a = .i2p x → SaysRoute a "I2P addresses cannot be converted to IP addresses"
  | cjdns (x) : a = .cjdns x → SaysRoute a "CJDNS addresses cannot be converted to IP addresses"
  | unknown (n b) : a = .unknown n b → SaysRoute a "unknown address type cannot be converted to IP addresses"

/-- What is printed about an address that is not of the IP version wanted (`v` names the type). -/
inductive SaysToIp (a : AddrV2) : String → String → Prop
  | ipv6 (x) : a = .ipv6 x → SaysToIp a "Ipv4Addr" "Ipv6 addresses cannot be converted to Ipv4Addr"
  | ipv4 (x) : a = .ipv4 x → SaysToIp a "Ipv6Addr" "Ipv4 addresses cannot be converted to Ipv6Addr"
  | torV3 (x) : a = .torV3 x → SaysToIp a v ("TorV3 addresses cannot be converted to " ++ v)
  | i2p (x) : a = .i2p x → SaysToIp a v ("I2P addresses cannot be converted to " ++ v)
  | cjdns (x) : a = .cjdns x → SaysToIp a v ("Cjdns addresses cannot be converted to " ++ v)
  | unknown (n b) : a = .unknown n b → SaysToIp a v ("Unknown address type cannot be converted to " ++ v)

/-- The texts of the conversions to IP addresses and sockets name the network of the address. -/
theorem C125_ip_messages (a : AddrV2) :
    (∀ e, a.toIp = .error e → SaysRoute a (routeMsg e)) ∧
    (∀ t sv p e, AddrV2Msg.socketAddr ⟨t, sv, a, p⟩ = .error e → SaysRoute a (routeMsg e)) ∧
    (∀ e, a.toV4 = .error e → SaysToIp a "Ipv4Addr" (toV4Msg e)) ∧ (∀ e, a.toV6 = .error e → SaysToIp a "Ipv6Addr" (toV6Msg e)) := by
  refine ⟨fun e h => ?_, fun t sv p e h => ?_, fun e h => ?_, fun e h => ?_⟩
  · cases a <;> cases h
    · exact .torV3 _ rfl
    · exact .i2p _ rfl
    · exact .cjdns _ rfl
    · exact .unknown _ _ rfl
  · cases a <;> cases h
    · exact .torV3 _ rfl
    · exact .i2p _ rfl
    · exact .cjdns _ rfl
    · exact .unknown _ _ rfl
  · cases a <;> cases h
    · exact .ipv6 _ rfl
    · exact .torV3 (v := "Ipv4Addr") _ rfl
    · exact .i2p (v := "Ipv4Addr") _ rfl
    · exact .cjdns (v := "Ipv4Addr") _ rfl
    · exact .unknown (v := "Ipv4Addr") _ _ rfl
  · cases a <;> cases h
    · exact .ipv4 _ rfl
    · exact .torV3 (v := "Ipv6Addr") _ rfl
    · exact .i2p (v := "Ipv6Addr") _ rfl
    · exact .cjdns (v := "Ipv6Addr") _ rfl
    · exact .unknown (v := "Ipv6Addr") _ _ rfl

example : (AddrV2.unknown 9 [1]).toV4 = .error .unknown := rfl

/-- The socket of a version 1 address fails exactly for an OnionCat address, and says so. -/
theorem C125_onion_message (a : NetAddr) (e : Unroutable) : a.socketAddr = .error e ↔
    OnionCat (segBytes a.address.1) ∧ e = .torV2 ∧ routeMsg e = "Tor v2 addresses cannot be converted to IP addresses" := by
  unfold NetAddr.socketAddr
  split
  · rename_i h
    rw [onion_iff] at h
    simp only [Except.error.injEq]
    exact ⟨fun h' => ⟨h, h'.symm, h' ▸ rfl⟩, fun h' => h'.2.1.symm⟩
  · rename_i h
    rw [onion_iff] at h
    split <;> simp [h]

/-! ## Values of one field -/

theorem u8_err {β : Type} (f : UInt8 → Except DErr β) (bs : Bytes) (e : DErr) :
    (u8Dec.mapE f id).decodeSliceUnbounded bs = .err e ↔ (bs = [] ∧ e = .eof 1) ∨ ∃ b r, bs = b :: r ∧ f b = .error e := by
  have hu : ∀ b : UInt8, UInt8.ofNat (leNat [b]) = b := by intro b; simp [leNat]
  have hd : ∀ b r, (arrayParser 1 []).mapE (fun b => .ok (UInt8.ofNat (leNat b))) id bs = .done b r ↔ bs = b :: r := by
    intro b r
    unfold Parser.mapE
    cases hp : arrayParser 1 [] bs with
    | done a t =>
      obtain ⟨h1, h2⟩ := (array_done 1 bs a t).1 hp
      obtain ⟨x, rfl⟩ := List.length_eq_one_iff.1 h2
      simp only [POut.ofEnd, hu, POut.done.injEq, h1, List.singleton_append, List.cons.injEq]
    | fail e =>
      simp only [reduceCtorEq, false_iff]
      intro h
      rw [(array_done 1 bs [b] r).2 ⟨h, rfl⟩] at hp; cases hp
    | more e =>
      simp only [reduceCtorEq, false_iff]
      intro h
      rw [(array_done 1 bs [b] r).2 ⟨h, rfl⟩] at hp; cases hp
  unfold u8Dec
  rw [mapE_err (mapE_lawful (arrayDec_lawful 1 (by decide)) _ id)
    (Why.tells_map (Wire.array 1) (Why.tells_array 1) (fun a _ => ⟨_, rfl⟩))]
  constructor
  · rintro (h | h | ⟨a, r, h1, h⟩)
    · cases h
    · cases h with
      | mk m h1 h2 => exact .inl ⟨List.eq_nil_of_length_eq_zero (by omega), by rw [show m = 1 by omega]⟩
    · exact .inr ⟨a, r, (hd a r).1 h1, h⟩
  · rintro (⟨rfl, rfl⟩ | ⟨b, r, h1, h⟩)
    · exact .inr (.inl (.mk _ (by decide) rfl))
    · exact .inr (.inr ⟨b, r, (hd b r).2 h1, h⟩)

/-- Bloom flags and reject codes are called unknown exactly if they are none of BIP 37 (0, 1, 2) and BIP 61; the text names the byte. -/
theorem C125_flags (bs : Bytes) (n : Nat) :
    ((∃ e, bloomDec.decodeSliceUnbounded bs = .err e ∧ fieldMsg e = "unknown bloomflag " ++ toString n ∧ ∃ v, e = .custom 44 v ∧ v = n) ↔
      ∃ b r, bs = b :: r ∧ b.toNat = n ∧ n ∉ [0, 1, 2]) ∧
    ((∃ e, rejectReasonDec.decodeSliceUnbounded bs = .err e ∧ fieldMsg e = "unknown reject code " ++ toString n ∧ ∃ v, e = .custom 47 v ∧ v = n) ↔
      ∃ b r, bs = b :: r ∧ b.toNat = n ∧ n ∉ [0x01, 0x10, 0x11, 0x12, 0x40, 0x41, 0x42, 0x43]) := by
  have hn : ∀ (b c : UInt8), b = c ↔ b.toNat = c.toNat := fun b c => UInt8.toNat_inj.symm
  constructor
  · unfold bloomDec
    constructor
    · rintro ⟨e, h, _, v, rfl, rfl⟩
      rcases (u8_err _ _ _).1 h with ⟨_, hb⟩ | ⟨b, r, rfl, hb⟩
      · cases hb
      · repeat' split at hb
        all_goals cases hb
        rename_i h0 h1 h2 _
        refine ⟨b, r, rfl, rfl, ?_⟩
        simp only [hn] at h0 h1 h2
        simp at h0 h1 h2 ⊢
        exact ⟨h0, h1, h2⟩
    · rintro ⟨b, r, rfl, rfl, h⟩
      refine ⟨.custom 44 b.toNat, (u8_err _ _ _).2 (.inr ⟨b, r, rfl, ?_⟩), rfl, _, rfl, rfl⟩
      simp at h
      rw [if_neg (by rw [hn]; exact h.1), if_neg (by rw [hn]; exact h.2.1), if_neg (by rw [hn]; exact h.2.2)]
  · unfold rejectReasonDec
    constructor
    · rintro ⟨e, h, _, v, rfl, rfl⟩
      rcases (u8_err _ _ _).1 h with ⟨_, hb⟩ | ⟨b, r, rfl, hb⟩
      · cases hb
      · repeat' split at hb
        all_goals cases hb
        rename_i h0 h1 h2 h3 h4 h5 h6 h7 _
        refine ⟨b, r, rfl, rfl, ?_⟩
        simp only [hn] at h0 h1 h2 h3 h4 h5 h6 h7
        simp at h0 h1 h2 h3 h4 h5 h6 h7 ⊢
        exact ⟨h0, h1, h2, h3, h4, h5, h6, h7⟩
    · rintro ⟨b, r, rfl, rfl, h⟩
      refine ⟨.custom 47 b.toNat, (u8_err _ _ _).2 (.inr ⟨b, r, rfl, ?_⟩), rfl, _, rfl, rfl⟩
      simp at h
      obtain ⟨h0, h1, h2, h3, h4, h5, h6, h7⟩ := h
      rw [if_neg (by rw [hn]; exact h0), if_neg (by rw [hn]; exact h1), if_neg (by rw [hn]; exact h2), if_neg (by rw [hn]; exact h3),
        if_neg (by rw [hn]; exact h4), if_neg (by rw [hn]; exact h5), if_neg (by rw [hn]; exact h6), if_neg (by rw [hn]; exact h7)]

example : ∃ e, bloomDec.decodeSliceUnbounded [3] = .err e ∧ fieldMsg e = "unknown bloomflag " ++ toString 3 ∧ ∃ v, e = .custom 44 v ∧ v = 3 :=
  (C125_flags [3] 3).1.2 ⟨3, [], rfl, rfl, by decide⟩

/-- A fee rate is called invalid exactly if it is above 21 million bitcoins (in satoshi) per kilobyte; the text names it. -/
theorem C125_fee_filter (bs : Bytes) (e : DErr) : feeFilterDec.decodeSliceUnbounded bs = .err e ↔
    (bs.length < 8 ∧ e = .eof (8 - bs.length)) ∨ ∃ v r, v < 2 ^ 64 ∧ bs = leBytes 8 v ++ r ∧ 21000000 * 100000000 < v ∧ e = .custom 46 v ∧
      fieldMsg e = "invalid fee rate value " ++ toString v := by
  unfold feeFilterDec
  rw [array_err 8 (by decide)]
  refine or_congr Iff.rfl ⟨?_, ?_⟩
  · rintro ⟨a, r, rfl, ha, h⟩
    have hlt := leNat_lt a
    have hle := leBytes_leNat a
    rw [ha] at hlt hle
    simp only at h
    split at h
    · rename_i hm
      cases h
      refine ⟨leNat a, r, hlt, by rw [hle], ?_, rfl, rfl⟩
      unfold MAX_MONEY_SAT at hm
      omega
    · rename_i hm
      unfold MAX_MONEY_SAT at hm
      rw [if_pos (by omega)] at h
      cases h
  · rintro ⟨v, r, hv, rfl, hm, rfl, _⟩
    have hle : leNat (leBytes 8 v) = v := leNat_leBytes 8 v hv
    refine ⟨leBytes 8 v, r, rfl, leBytes_length 8 v, ?_⟩
    simp only [hle]
    rw [if_pos (by unfold MAX_MONEY_SAT; omega)]

/-! ## Features -/

/-- What is printed about a refused feature identifier. -/
inductive SaysFeature (s : String) : String → Prop
  | ascii (c : UInt8) : c ∈ utf8 s → 128 ≤ c.toNat → SaysFeature s "feature id must contain only valid ascii."
  | length : s.utf8ByteSize < 4 ∨ 80 < s.utf8ByteSize → SaysFeature s ("expected string between 4 and 80 bytes, got " ++ toString s.utf8ByteSize ++ ".")

/-- The text of a refused feature identifier is true, and an identifier of 4 to 80 ASCII characters is not refused. -/
theorem C125_feature_id (s : String) :
    (∀ e, featureIdOf s = .error e → SaysFeature s (featureIdMsg e)) ∧
    (∀ b, featureIdOf s = .ok b ↔ b.1 = utf8 s ∧ (∀ c ∈ utf8 s, c.toNat < 128) ∧ 4 ≤ s.utf8ByteSize ∧ s.utf8ByteSize ≤ 80) := by
  have hl : (utf8 s).length = s.utf8ByteSize := rfl
  have ha : isAscii (utf8 s) = true ↔ ∀ c ∈ utf8 s, c.toNat < 128 := by
    unfold isAscii
    rw [List.all_eq_true]
    exact forall₂_congr fun c _ => by rw [decide_eq_true_iff, UInt8.lt_iff_toNat_lt]; rfl
  unfold featureIdOf
  refine ⟨fun e h => ?_, fun b => ?_⟩
  · split at h
    · split at h
      · cases h
      · rename_i hn
        cases h
        exact .length (by rw [← hl]; omega)
    · rename_i hn
      cases h
      rw [ha] at hn
      simp only [Classical.not_forall] at hn
      obtain ⟨c, hc, h⟩ := hn
      exact .ascii c hc (by omega)
  · rw [← ha, ← hl]
    split
    · rename_i h1
      split
      · rename_i h2
        simp only [Except.ok.injEq]
        exact ⟨fun h => h ▸ ⟨rfl, h1, h2⟩, fun h => Subtype.ext h.1.symm⟩
      · rename_i h2
        simp only [reduceCtorEq, false_iff]
        exact fun h => h2 h.2.2
    · rename_i h1
      simp only [reduceCtorEq, false_iff]
      exact fun h => h1 h.2.1

example : featureIdOf "ab" = .error (.length 2) ∧ SaysFeature "ab" "expected string between 4 and 80 bytes, got 2." := by
  refine ⟨by rw [featureIdOf, dif_pos (by decide +kernel), dif_neg (by decide +kernel)]; decide +kernel, ?_⟩
  have := SaysFeature.length (s := "ab") (.inl (by decide +kernel))
  rw [show "expected string between 4 and 80 bytes, got " ++ toString "ab".utf8ByteSize ++ "." =
    "expected string between 4 and 80 bytes, got 2." by decide +kernel] at this
  exact this

/-- Feature data is refused exactly if it is longer than 512 bytes; the text names the length. -/
theorem C125_feature_data (b : Bytes) (n : Nat) : featureDataNew b = .error n ↔ n = b.length ∧ 512 < b.length ∧
    featureDataMsg n = "feature data must be no more than 512 bytes, got " ++ toString b.length := by
  unfold featureDataNew
  split
  · rename_i h
    simp only [Except.error.injEq]
    exact ⟨fun e => ⟨e.symm, h, by rw [← e]; rfl⟩, fun e => e.1.symm⟩
  · rename_i h
    simp only [reduceCtorEq, false_iff]
    exact fun e => h e.2.1

example : featureDataNew (List.replicate 513 7) = .error 513 := by
  refine (C125_feature_data _ _).2 ⟨?_, ?_, ?_⟩
  · rw [List.length_replicate]
  · rw [List.length_replicate]; decide
  · rw [List.length_replicate]; decide +kernel

/-! ## Compact block announcements -/

/-- FALSE: without `std` the text of a `sendcmpct` error contains itself after a heading, so there is no such text: printing does not end. -/
theorem C125_sendcmpct_text_fails : ¬ ∃ t : String, t = sendCmpctNoStd t := by
  rintro ⟨t, h⟩
  have := congrArg String.length h
  unfold sendCmpctNoStd at this
  rw [String.length_append, String.length_append] at this
  have h15 : "sendcmpct error".length = 15 := by decide +kernel
  omega

/-! ## Networks -/

/-- A network name is refused exactly if it is none of the five; the text names it. -/
theorem C125_network (s e : String) : networkOf s = .error e ↔ e = s ∧
    (∀ n : Pow.Network, utf8 s ≠ Net.display n) ∧ networkMsg e = "failed to parse '" ++ s ++ "' as network" := by
  have hp : Net.parse (utf8 s) = none ↔ ∀ n : Pow.Network, utf8 s ≠ Net.display n := by
    unfold Net.parse
    constructor
    · intro h n
      repeat' split at h
      all_goals try cases h
      cases n <;> assumption
    · intro h
      have h1 := h .bitcoin
      have h2 := h .testnet3
      have h3 := h .testnet4
      have h4 := h .signet
      have h5 := h .regtest
      unfold Net.display at h1 h2 h3 h4 h5
      rw [if_neg h1, if_neg h2, if_neg h3, if_neg h4, if_neg h5]
  rw [← hp]
  unfold networkOf
  cases hn : Net.parse (utf8 s) with
  | none =>
    simp only [Except.error.injEq]
    exact ⟨fun h => h ▸ ⟨rfl, trivial, rfl⟩, fun h => h.1.symm⟩
  | some n => simp

example : networkOf "mainnet" = .error "mainnet" := (C125_network _ _).2 ⟨rfl, fun n => by cases n <;> decide +kernel, rfl⟩

/-- Magic bytes are refused as text exactly if the text is not eight hex digits; the text names it. -/
theorem C125_magic_text (s e : String) : magicOf s = .error e ↔ e = s ∧
    ¬ (s.utf8ByteSize = 8 ∧ ∀ c ∈ utf8 s, SigErr.HexDigit c) ∧ magicMsg e = "failed to parse " ++ s ++ " as network magic" := by
  have hl : (utf8 s).length = s.utf8ByteSize := rfl
  have hp : Genesis.magicParse (utf8 s) = none ↔ ¬ (s.utf8ByteSize = 8 ∧ ∀ c ∈ utf8 s, SigErr.HexDigit c) := by
    rw [← hl]
    unfold Genesis.magicParse
    have hu := SigErr.unhex_some (utf8 s)
    cases hx : unhex (utf8 s) with
    | none =>
      simp only [true_iff]
      rintro ⟨h8, hd⟩
      obtain ⟨b, hb⟩ := hu.2 ⟨by omega, hd⟩
      rw [hx] at hb; cases hb
    | some b =>
      have hd := (hu.1 ⟨b, hx⟩).2
      have hlen := unhex_length _ _ hx
      simp only
      split
      · rename_i h4
        simp only [reduceCtorEq, false_iff, Classical.not_not]
        exact ⟨by omega, hd⟩
      · rename_i h4
        simp only [true_iff]
        rintro ⟨h8, _⟩
        omega
  rw [← hp]
  unfold magicOf
  cases hn : Genesis.magicParse (utf8 s) with
  | none =>
    simp only [Except.error.injEq]
    exact ⟨fun h => h ▸ ⟨rfl, trivial, rfl⟩, fun h => h.1.symm⟩
  | some n => simp

example : magicOf "f9beb4dx" = .error "f9beb4dx" :=
  (C125_magic_text _ _).2 ⟨rfl, fun h => absurd (h.2 120 (by decide +kernel)) (by unfold SigErr.HexDigit; decide), rfl⟩

/-- Magic bytes and chain hashes are called unknown exactly if they are those of no network; the texts name them. -/
theorem C125_unknown (m m' : Arr 4) (c c' : Arr 32) :
    (networkOfMagic m = .error m' ↔ m' = m ∧ (∀ n, m ≠ Genesis.magic n) ∧ unknownMagicMsg m' = "unknown network magic " ++ hexText m.1) ∧
    (networkOfChainHash c = .error c' ↔ c' = c ∧ (∀ n, c ≠ Genesis.chainHash n) ∧
      unknownChainHashMsg c' = "unknown chain hash: " ++ hexText c.1) := by
  constructor
  · have h1 : ∀ n, Genesis.fromMagic m = some n ↔ m = Genesis.magic n := fun n => (Genesis.C77_magic m n []).1
    unfold networkOfMagic
    cases hf : Genesis.fromMagic m with
    | none =>
      simp only [Except.error.injEq]
      refine ⟨fun h => h ▸ ⟨rfl, fun n hn => ?_, rfl⟩, fun h => h.1.symm⟩
      rw [(h1 n).2 hn] at hf; cases hf
    | some n =>
      simp only [reduceCtorEq, false_iff]
      exact fun h => h.2.1 n ((h1 n).1 hf)
  · have h1 := Genesis.C77_chain_hash c
    unfold networkOfChainHash
    cases hf : Genesis.fromChainHash c with
    | none =>
      simp only [Except.error.injEq]
      refine ⟨fun h => h ▸ ⟨rfl, fun n hn => ?_, rfl⟩, fun h => h.1.symm⟩
      rw [(h1 n).2 hn] at hf; cases hf
    | some n =>
      simp only [reduceCtorEq, false_iff]
      exact fun h => h.2.1 n ((h1 n).1 hf)

/-- Bytes in messages are shown as lower case hexadecimal, first byte first. -/
theorem C125_hex_text : ∀ b : Bytes, LockErr.bytes (hexText b) = hexBytes b
  | [] => by decide +kernel
  | b :: bs => by
    have key : ∀ b : UInt8, LockErr.bytes (Sighash.Msg.hex02 b) = [hexDigit (b.toNat / 16), hexDigit (b.toNat % 16)] := by
      set_option maxRecDepth 8000 in
      exact Scr.forall_u8 (by decide +kernel)
    have happ : ∀ s t : String, LockErr.bytes (s ++ t) = LockErr.bytes s ++ LockErr.bytes t := by
      intro s t; simp [LockErr.bytes, String.toByteArray_append]
    rw [hexText, happ, key, C125_hex_text bs]
    rfl

example : networkOfMagic ⟨[0, 0, 0, 1], rfl⟩ = .error ⟨[0, 0, 0, 1], rfl⟩ ∧
    unknownMagicMsg ⟨[0, 0, 0, 1], rfl⟩ = "unknown network magic 00000001" :=
  ⟨(C125_unknown _ _ ⟨List.replicate 32 0, rfl⟩ ⟨List.replicate 32 0, rfl⟩).1.2 ⟨rfl, fun n => by cases n <;> decide, rfl⟩, by decide +kernel⟩

end Errs
end P2p
end Btc
