import Verif.P2p.Session
import Verif.Props.C53
/-!
# C109: conversations over a stream: every message is answered, and the handshake completes
-/
namespace Btc
namespace P2p

/-- What a program has to do with a list of messages, one after the other: how it ends, what it takes, what it writes. -/
inductive Ending where
  | waiting
  | stopped
  | failed
  deriving DecidableEq

def talk (H : Bytes → Arr 32) (magic : Arr 4) (react : Msg → Reaction) : List V1Msg → Ending × List V1Msg × Bytes
  | [] => (.waiting, [], [])
  | m :: ms =>
    match react m.payload with
    | .stop => (.stopped, [m], [])
    | .panic => (.failed, [m], [])
    | .send ps =>
      match sendAll H magic ps with
      | none => (.failed, [m], [])
      | some w => ((talk H magic react ms).1, m :: (talk H magic react ms).2.1, w ++ (talk H magic react ms).2.2)

theorem talk_append (H : Bytes → Arr 32) (magic : Arr 4) (react : Msg → Reaction) (b : List V1Msg) : ∀ a : List V1Msg,
    ((talk H magic react a).1 = .waiting → talk H magic react (a ++ b) =
      ((talk H magic react b).1, (talk H magic react a).2.1 ++ (talk H magic react b).2.1, (talk H magic react a).2.2 ++ (talk H magic react b).2.2)) ∧
    ((talk H magic react a).1 ≠ .waiting → talk H magic react (a ++ b) = talk H magic react a)
  | [] => ⟨fun _ => by simp [talk], fun h => (h rfl).elim⟩
  | m :: a => by
    have ih := talk_append H magic react b a
    cases hr : react m.payload with
    | stop =>
      simp only [List.cons_append, talk, hr]
      exact ⟨(by intro h; cases h), fun _ => trivial⟩
    | panic =>
      simp only [List.cons_append, talk, hr]
      exact ⟨(by intro h; cases h), fun _ => trivial⟩
    | send ps =>
      cases hw : sendAll H magic ps with
      | none =>
        simp only [List.cons_append, talk, hr, hw]
        exact ⟨(by intro h; cases h), fun _ => trivial⟩
      | some w =>
        simp only [List.cons_append, talk, hr, hw]
        refine ⟨fun h => ?_, fun h => ?_⟩
        · rw [ih.1 h]; simp
        · rw [ih.2 h]

/-- Messages with the bytes that carry them. -/
def Incoming (H : Bytes → Arr 32) (ms : List (V1Msg × Bytes)) : Prop := ∀ x ∈ ms, ∀ rest, V1Rel H (x.2 ++ rest) x.1 rest

def wire (ms : List (V1Msg × Bytes)) : Bytes := (ms.map (·.2)).flatten

/-- `q` is a beginning of the first message, not all of it. -/
def Begun (q : Bytes) : List (V1Msg × Bytes) → Prop
  | [] => q = []
  | x :: _ => ∃ y, y ≠ [] ∧ q ++ y = x.2

theorem prefix_cases {a b r : Bytes} (h : a <+: b ++ r) : (∃ y, y ≠ [] ∧ a ++ y = b) ∨ ∃ z, a = b ++ z ∧ z <+: r := by
  rcases List.prefix_or_prefix_of_prefix h (List.prefix_append b r) with h1 | h1
  · obtain ⟨y, hy⟩ := h1
    by_cases h0 : y = []
    · subst h0
      rw [List.append_nil] at hy
      exact .inr ⟨[], by simp [hy], List.nil_prefix⟩
    · exact .inl ⟨y, h0, hy⟩
  · obtain ⟨z, rfl⟩ := h1
    obtain ⟨t, ht⟩ := h
    refine .inr ⟨z, rfl, t, ?_⟩
    rw [List.append_assoc] at ht
    exact List.append_cancel_left ht

/-- Where a beginning of the stream ends. -/
theorem cut (y : Bytes) : ∀ ms : List (V1Msg × Bytes), y <+: wire ms →
    ∃ k q, y = wire (ms.take k) ++ q ∧ Begun q (ms.drop k) := by
  intro ms
  induction ms generalizing y with
  | nil =>
    intro h
    exact ⟨0, [], by simpa [wire] using h, rfl⟩
  | cons x ms ih =>
    intro h
    rcases prefix_cases (show y <+: x.2 ++ wire ms by simpa [wire] using h) with h1 | ⟨z, rfl, hz⟩
    · exact ⟨0, y, by simp [wire], h1⟩
    · obtain ⟨k, q, rfl, h2⟩ := ih z hz
      exact ⟨k + 1, q, by simp [wire], h2⟩

/-- How a run compares with an ending; a run that waits has taken `q` of the message in progress. -/
def Agrees (H : Bytes → Arr 32) (inv : (v1Dec H).S → Prop) (den : (v1Dec H).S → Rel V1Msg) (q : Bytes) : Ending → Run (v1Dec H).S → Prop
  | .waiting, .reading s => inv s ∧ ∀ ext a r, den s ext a r ↔ V1Rel H (q ++ ext) a r
  | .stopped, .stopped => True
  | .failed, .failed => True
  | _, _ => False

section
variable {H : Bytes → Arr 32} {inv : (v1Dec H).S → Prop} {den : (v1Dec H).S → Rel V1Msg}

theorem v1Rel_det (L : AcceptsWith (v1Dec H) inv den) (hi : inv (v1Dec H).init) (hd : den (v1Dec H).init = V1Rel H) {bs : Bytes} {a b : V1Msg} {r t : Bytes}
    (h1 : V1Rel H bs a r) (h2 : V1Rel H bs b t) : a = b ∧ r = t := by
  rw [← hd, ← L.decodeSliceUnbounded_ok hi] at h1 h2
  rw [h1] at h2
  cases h2
  exact ⟨rfl, rfl⟩

/-- **One delivery**: bytes that continue the stream of messages. -/
theorem serve_spec (L : AcceptsWith (v1Dec H) inv den) (hi : inv (v1Dec H).init) (hd : den (v1Dec H).init = V1Rel H)
    (magic : Arr 4) (react : Msg → Reaction) : ∀ (ms : List (V1Msg × Bytes)), Incoming H ms → ∀ (p bs : Bytes) (s : (v1Dec H).S),
    inv s → (∀ ext a r, den s ext a r ↔ V1Rel H (p ++ ext) a r) → Begun p ms → p ++ bs <+: wire ms →
    ∃ k q, p ++ bs = wire (ms.take k) ++ q ∧ Begun q (ms.drop k) ∧
      (serve H magic react s bs).received = (talk H magic react ((ms.take k).map (·.1))).2.1 ∧
      (serve H magic react s bs).written = (talk H magic react ((ms.take k).map (·.1))).2.2 ∧
      Agrees H inv den q (talk H magic react ((ms.take k).map (·.1))).1 (serve H magic react s bs).run := by
  intro ms
  induction ms with
  | nil =>
    intro _ p bs s hs hden hp hpre
    have hp' : p = [] := hp
    subst hp'
    have hb : bs = [] := by simpa [wire] using hpre
    subst hb
    refine ⟨0, [], rfl, rfl, ?_⟩
    have hserve : serve H magic react s [] = ⟨.reading s, [], []⟩ := by
      rw [serve]
      have : (v1Dec H).feed s [] = .needsMore s := by rw [Dec.feed]; simp
      rw [this]
    rw [hserve]
    exact ⟨rfl, rfl, hs, hden⟩
  | cons x ms ih =>
    intro hin p bs s hs hden hp hpre
    obtain ⟨y, hy, hxy⟩ := hp
    have hx : ∀ rest, V1Rel H (x.2 ++ rest) x.1 rest := hin x List.mem_cons_self
    have hpre' : p ++ bs <+: x.2 ++ wire ms := by simpa [wire] using hpre
    -- the bytes so far can be continued to a complete message
    have hext : ∃ ext z, p ++ bs ++ ext = x.2 ++ z := by
      rcases prefix_cases hpre' with ⟨e, -, he⟩ | ⟨z, hz, -⟩
      · exact ⟨e, [], by rw [he, List.append_nil]⟩
      · exact ⟨[], z, by rw [hz, List.append_nil]⟩
    have hfeed := L.feed_spec bs s hs
    rw [serve]
    cases hf : (v1Dec H).feed s bs with
    | stuck => rw [hf] at hfeed; exact hfeed.elim
    | err e =>
      rw [hf] at hfeed
      obtain ⟨ext, z, he⟩ := hext
      refine (hfeed ext x.1 z ?_).elim
      rw [hden, ← List.append_assoc, he]
      exact hx z
    | needsMore s' =>
      rw [hf] at hfeed
      obtain ⟨h1, h2⟩ := hfeed
      refine ⟨0, p ++ bs, by simp [wire], ?_, rfl, rfl, h1, fun ext a r => ?_⟩
      · rcases prefix_cases hpre' with ⟨e, e1, e2⟩ | ⟨z, hz, -⟩
        · exact ⟨e, e1, e2⟩
        · exfalso
          have := (h2 [] x.1 z).mp (by rw [hden, List.append_nil, hz]; exact hx z)
          exact L.not_nil h1 _ _ this
      · rw [← h2, hden, List.append_assoc]
    | ready s' rest =>
      rw [hf] at hfeed
      obtain ⟨c, hc, hrel⟩ := hfeed
      subst hc
      have hrel' : ∀ ext a r, V1Rel H (p ++ c ++ ext) a r ↔ (v1Dec H).fin s' = .ok a ∧ r = ext := by
        intro ext a r
        rw [List.append_assoc, ← hden]
        exact hrel ext a r
      -- exactly the message was taken
      have hpc : p ++ c <+: x.2 ++ wire ms := by
        refine List.IsPrefix.trans ?_ hpre'
        exact ⟨rest, by rw [List.append_assoc]⟩
      have hkey : p ++ c = x.2 ∧ (v1Dec H).fin s' = .ok x.1 := by
        rcases prefix_cases hpc with ⟨e, e1, e2⟩ | ⟨z, hz, -⟩
        · have h3 := (hrel' e x.1 []).mp (by rw [e2]; simpa using hx [])
          exact (e1 h3.2.symm).elim
        · have h3 := (hrel' [] x.1 z).mp (by rw [List.append_nil, hz]; exact hx z)
          obtain ⟨h4, rfl⟩ := h3
          exact ⟨by rw [hz, List.append_nil], h4⟩
      obtain ⟨hpx, hfin⟩ := hkey
      have hrest : rest <+: wire ms := by
        rw [← List.append_assoc, hpx] at hpre'
        obtain ⟨t, ht⟩ := hpre'
        exact ⟨t, List.append_cancel_left (by rw [← List.append_assoc]; exact ht)⟩
      have hc0 : c ≠ [] := by
        rintro rfl
        rw [List.append_nil] at hpx
        rw [← hpx] at hxy
        exact hy (List.append_right_eq_self.mp hxy)
      have hlt : rest.length < (c ++ rest).length := by
        have := List.length_pos_iff.mpr hc0
        rw [List.length_append]; omega
      have hsplit : ∀ k q, rest = wire (ms.take k) ++ q → p ++ (c ++ rest) = wire ((x :: ms).take (k + 1)) ++ q := by
        intro k q h
        rw [← List.append_assoc, hpx, h]
        simp [wire]
      simp only [hfin]
      cases hr : react x.1.payload with
      | stop =>
        obtain ⟨k, q, h1, h2⟩ := cut rest ms hrest
        refine ⟨k + 1, q, hsplit k q h1, h2, ?_⟩
        simp only [List.take_succ_cons, List.map_cons, talk, hr]
        exact ⟨trivial, trivial, trivial⟩
      | panic =>
        obtain ⟨k, q, h1, h2⟩ := cut rest ms hrest
        refine ⟨k + 1, q, hsplit k q h1, h2, ?_⟩
        simp only [List.take_succ_cons, List.map_cons, talk, hr]
        exact ⟨trivial, trivial, trivial⟩
      | send ps =>
        cases hw : sendAll H magic ps with
        | none =>
          obtain ⟨k, q, h1, h2⟩ := cut rest ms hrest
          refine ⟨k + 1, q, hsplit k q h1, h2, ?_⟩
          simp only [List.take_succ_cons, List.map_cons, talk, hr, hw]
          exact ⟨trivial, trivial, trivial⟩
        | some w =>
          have hb : Begun [] ms := by
            cases ms with
            | nil => rfl
            | cons z ms =>
              refine ⟨z.2, ?_, rfl⟩
              intro h0
              have := hin z (by simp) []
              rw [h0, ← hd] at this
              exact L.not_nil hi _ _ this
          obtain ⟨k, q, h1, h2, h3, h4, h5⟩ := ih (fun z hz => hin z (List.mem_cons_of_mem _ hz)) [] rest _ hi
            (fun ext a r => by rw [hd, List.nil_append]) hb (by simpa using hrest)
          refine ⟨k + 1, q, hsplit k q (by simpa using h1), h2, ?_⟩
          simp only [hw, if_pos hlt, List.take_succ_cons, List.map_cons, talk, hr]
          exact ⟨by rw [h3], by rw [h4], h5⟩

/-- The state of a program that has taken the bytes `x` of the stream. -/
def At (H : Bytes → Arr 32) (inv : (v1Dec H).S → Prop) (den : (v1Dec H).S → Rel V1Msg) (magic : Arr 4) (react : Msg → Reaction)
    (ms : List (V1Msg × Bytes)) (x : Bytes) (n : Node (v1Dec H).S) (out : Bytes) : Prop :=
  ∃ k q, x = wire (ms.take k) ++ q ∧ Begun q (ms.drop k) ∧ n.received = (talk H magic react ((ms.take k).map (·.1))).2.1 ∧
    out = (talk H magic react ((ms.take k).map (·.1))).2.2 ∧ Agrees H inv den q (talk H magic react ((ms.take k).map (·.1))).1 n.run

theorem begun_nil (L : AcceptsWith (v1Dec H) inv den) (hi : inv (v1Dec H).init) (hd : den (v1Dec H).init = V1Rel H)
    {ms : List (V1Msg × Bytes)} (hin : Incoming H ms) : Begun [] ms := by
  cases ms with
  | nil => rfl
  | cons z ms =>
    refine ⟨z.2, ?_, rfl⟩
    intro h0
    have := hin z (by simp) []
    rw [h0, ← hd] at this
    exact L.not_nil hi _ _ this

theorem at_start (L : AcceptsWith (v1Dec H) inv den) (hi : inv (v1Dec H).init) (hd : den (v1Dec H).init = V1Rel H)
    (magic : Arr 4) (react : Msg → Reaction) {ms : List (V1Msg × Bytes)} (hin : Incoming H ms) :
    At H inv den magic react ms [] (.start H) [] :=
  ⟨0, [], rfl, begun_nil L hi hd hin, rfl, rfl, hi, fun ext a r => by rw [hd]; rfl⟩

theorem at_recv (L : AcceptsWith (v1Dec H) inv den) (hi : inv (v1Dec H).init) (hd : den (v1Dec H).init = V1Rel H)
    (magic : Arr 4) (react : Msg → Reaction) {ms : List (V1Msg × Bytes)} (hin : Incoming H ms) {x : Bytes} {n : Node (v1Dec H).S} {out : Bytes}
    (h : At H inv den magic react ms x n out) (c : Bytes) (hc : x ++ c <+: wire ms) :
    At H inv den magic react ms (x ++ c) (n.recv H magic react c).1 (out ++ (n.recv H magic react c).2) := by
  obtain ⟨k, q, h1, h2, h3, h4, h5⟩ := h
  have hwire : wire ms = wire (ms.take k) ++ wire (ms.drop k) := by
    unfold wire
    rw [← List.flatten_append, ← List.map_append, List.take_append_drop]
  have hqc : q ++ c <+: wire (ms.drop k) := by
    rw [h1, hwire, List.append_assoc] at hc
    exact (List.prefix_append_right_inj _).mp hc
  have htake : ∀ j, ms.take (k + j) = ms.take k ++ (ms.drop k).take j := fun j => List.take_add
  cases hr : n.run with
  | reading s =>
    cases he : (talk H magic react ((ms.take k).map (·.1))).1 with
    | waiting =>
      rw [he, hr] at h5
      obtain ⟨k', q', g1, g2, g3, g4, g5⟩ := serve_spec L hi hd magic react (ms.drop k) (fun z hz => hin z (List.mem_of_mem_drop hz)) q c s h5.1 h5.2 h2 hqc
      have hta := (talk_append H magic react (((ms.drop k).take k').map (·.1)) ((ms.take k).map (·.1))).1 he
      refine ⟨k + k', q', ?_, by rw [← List.drop_drop]; exact g2, ?_⟩
      · rw [h1, List.append_assoc, g1, htake, ← List.append_assoc]
        simp [wire]
      · simp only [Node.recv, hr, htake, List.map_append, hta, h3, h4, g3, g4]
        exact ⟨trivial, trivial, g5⟩
    | stopped => rw [he, hr] at h5; exact h5.elim
    | failed => rw [he, hr] at h5; exact h5.elim
  | stopped =>
    obtain ⟨k', q', g1, g2⟩ := cut _ _ hqc
    have hne : (talk H magic react ((ms.take k).map (·.1))).1 ≠ .waiting := by
      intro he; rw [he, hr] at h5; exact h5
    have hta := (talk_append H magic react (((ms.drop k).take k').map (·.1)) ((ms.take k).map (·.1))).2 hne
    refine ⟨k + k', q', ?_, by rw [← List.drop_drop]; exact g2, ?_⟩
    · rw [h1, List.append_assoc, g1, htake, ← List.append_assoc]
      simp [wire]
    · simp only [Node.recv, hr, htake, List.map_append, hta, List.append_nil]
      refine ⟨h3, h4, ?_⟩
      rw [hr] at h5
      cases he : (talk H magic react ((ms.take k).map (·.1))).1 <;> rw [he] at h5
      · exact h5.elim
      · trivial
      · exact h5.elim
  | failed =>
    obtain ⟨k', q', g1, g2⟩ := cut _ _ hqc
    have hne : (talk H magic react ((ms.take k).map (·.1))).1 ≠ .waiting := by
      intro he; rw [he, hr] at h5; exact h5
    have hta := (talk_append H magic react (((ms.drop k).take k').map (·.1)) ((ms.take k).map (·.1))).2 hne
    refine ⟨k + k', q', ?_, by rw [← List.drop_drop]; exact g2, ?_⟩
    · rw [h1, List.append_assoc, g1, htake, ← List.append_assoc]
      simp [wire]
    · simp only [Node.recv, hr, htake, List.map_append, hta, List.append_nil]
      refine ⟨h3, h4, ?_⟩
      rw [hr] at h5
      cases he : (talk H magic react ((ms.take k).map (·.1))).1 <;> rw [he] at h5
      · exact h5.elim
      · exact h5.elim
      · trivial

end

/-! ### What is written can be read -/

/-- What the program writes for a message is what the encoder of the v1 message yields, and it carries the message. -/
theorem sendV1_spec (H : Bytes → Arr 32) (magic : Arr 4) (p : Msg) (hp : MsgOk p) (hl : p.bytes.length ≤ 5000000) :
    ∃ m w, V1New H magic p m ∧ m.payload = p ∧ m.header.magic = magic ∧ sendV1 H magic p = some w ∧ Drains v1Enc m.encoder w ∧ ∀ rest, V1Rel H (w ++ rest) m rest := by
  obtain ⟨⟨m, hm⟩, hall⟩ := C53_v1_round_trip H magic p hp hl
  obtain ⟨w, hw1, -, hw3⟩ := hall m hm
  obtain ⟨inv, den, L, hi, hd⟩ := v1_accepts H
  have hrel : ∀ rest, V1Rel H (w ++ rest) m rest := by
    intro rest
    rw [← hd, ← L.decodeSliceUnbounded_ok hi]
    exact hw3 rest
  have ht := ok_msg_typed hp
  obtain ⟨h32, c, hc, hmeq⟩ := (v1New_iff ht).mp hm
  refine ⟨m, w, hm, by rw [hmeq], by rw [hmeq], ?_, hw1, hrel⟩
  have hdr : Drains v1Enc m.encoder (v1HeaderBytes m.header ++ m.payload.bytes) := v1_drains m (by rw [hmeq]; exact ht)
  have hweq := Drains.det hw1 hdr
  unfold sendV1 headerNew
  simp only [hc, if_pos h32]
  rw [hweq, hmeq]
  simp [v1HeaderBytes]

/-- Messages a program writes or reads: within the limits of the format. -/
def Sendable (p : Msg) : Prop := MsgOk p ∧ p.bytes.length ≤ 5000000

/-- A peer's messages, each sent under some magic: the v1 messages and the bytes their encoders yield. -/
def Carried (H : Bytes → Arr 32) : List (Arr 4 × Msg) → List (V1Msg × Bytes) → Prop
  | [], ms => ms = []
  | x :: xs, ms => ∃ m w ms', ms = (m, w) :: ms' ∧ V1New H x.1 x.2 m ∧ Drains v1Enc m.encoder w ∧ Carried H xs ms'

theorem v1New_payload {H : Bytes → Arr 32} {magic : Arr 4} {p : Msg} {m : V1Msg} (h : V1New H magic p m) : m.payload = p ∧ m.header.magic = magic := by
  obtain ⟨n, w, c, hd, h1, h2, h3, rfl⟩ := h
  refine ⟨rfl, ?_⟩
  unfold headerNew at h3
  split at h3
  · cases h3; rfl
  · cases h3

theorem carried_exists (H : Bytes → Arr 32) : ∀ xs : List (Arr 4 × Msg), (∀ x ∈ xs, Sendable x.2) → ∃ ms, Carried H xs ms
  | [], _ => ⟨[], rfl⟩
  | x :: xs, h => by
    obtain ⟨m, w, h1, -, -, -, h2, -⟩ := sendV1_spec H x.1 x.2 (h x List.mem_cons_self).1 (h x List.mem_cons_self).2
    obtain ⟨ms, h3⟩ := carried_exists H xs fun y hy => h y (List.mem_cons_of_mem _ hy)
    exact ⟨(m, w) :: ms, m, w, ms, rfl, h1, h2, h3⟩

theorem carried_spec (H : Bytes → Arr 32) : ∀ (xs : List (Arr 4 × Msg)) (ms : List (V1Msg × Bytes)), (∀ x ∈ xs, Sendable x.2) → Carried H xs ms →
    Incoming H ms ∧ ms.map (fun y => (y.1.header.magic, y.1.payload)) = xs
  | [], ms, _, h => by
    have h' : ms = [] := h
    subst h'
    exact ⟨(by intro x hx; cases hx), rfl⟩
  | x :: xs, ms, hs, h => by
    obtain ⟨m, w, ms', rfl, h1, h2, h3⟩ := h
    obtain ⟨i1, i2⟩ := carried_spec H xs ms' (fun y hy => hs y (List.mem_cons_of_mem _ hy)) h3
    obtain ⟨m', w', g1, g2, g3, -, g4, g5⟩ := sendV1_spec H x.1 x.2 (hs x List.mem_cons_self).1 (hs x List.mem_cons_self).2
    have ht := ok_msg_typed (hs x List.mem_cons_self).1
    have hmm : m = m' := by
      obtain ⟨-, c, hc, e⟩ := (v1New_iff ht).mp h1
      obtain ⟨-, c', hc', e'⟩ := (v1New_iff ht).mp g1
      rw [hc] at hc'
      cases hc'
      rw [e, e']
    subst hmm
    have hww := Drains.det h2 g4
    subst hww
    refine ⟨?_, by simp [i2, g2, g3]⟩
    intro y hy rest
    rcases List.mem_cons.mp hy with rfl | hy
    · exact g5 rest
    · exact i1 y hy rest

/-- How a program stands. -/
def Run.ending {S : Type} : Run S → Ending
  | .reading _ => .waiting
  | .stopped => .stopped
  | .failed => .failed

theorem Agrees.ending {H : Bytes → Arr 32} {inv : (v1Dec H).S → Prop} {den : (v1Dec H).S → Rel V1Msg} {q : Bytes} {e : Ending} {r : Run (v1Dec H).S}
    (h : Agrees H inv den q e r) : r.ending = e := by
  cases e <;> cases r <;> first | rfl | exact h.elim

theorem at_recvAll {H : Bytes → Arr 32} {inv : (v1Dec H).S → Prop} {den : (v1Dec H).S → Rel V1Msg}
    (L : AcceptsWith (v1Dec H) inv den) (hi : inv (v1Dec H).init) (hd : den (v1Dec H).init = V1Rel H)
    (magic : Arr 4) (react : Msg → Reaction) {ms : List (V1Msg × Bytes)} (hin : Incoming H ms) : ∀ (cs : List Bytes) {x : Bytes} {n : Node (v1Dec H).S} {out : Bytes},
    At H inv den magic react ms x n out → x ++ cs.flatten <+: wire ms →
    At H inv den magic react ms (x ++ cs.flatten) (n.recvAll H magic react cs).1 (out ++ (n.recvAll H magic react cs).2)
  | [], x, n, out, h, _ => by simpa [Node.recvAll] using h
  | c :: cs, x, n, out, h, hp => by
    rw [List.flatten_cons, ← List.append_assoc] at hp ⊢
    have h1 := at_recv L hi hd magic react hin h c ((List.prefix_append _ _).trans hp)
    have h2 := at_recvAll L hi hd magic react hin cs h1 hp
    simpa [Node.recvAll, List.append_assoc] using h2

/-- **Any program of this shape, any peer.** However the bytes of the peer's messages arrive and however far they have come, the program
has taken exactly the messages that are complete (up to the one it stopped at), has written exactly its answers to them in order, and stands
where they lead. -/
theorem C109_serves (H : Bytes → Arr 32) (magic : Arr 4) (react : Msg → Reaction) (xs : List (Arr 4 × Msg)) (hs : ∀ x ∈ xs, Sendable x.2) :
    ∃ ms, Carried H xs ms ∧ ms.map (fun y => (y.1.header.magic, y.1.payload)) = xs ∧
      ∀ cs : List Bytes, cs.flatten <+: wire ms → ∃ k q, cs.flatten = wire (ms.take k) ++ q ∧ Begun q (ms.drop k) ∧
        ((Node.start H).recvAll H magic react cs).1.received = (talk H magic react ((ms.take k).map (·.1))).2.1 ∧
        ((Node.start H).recvAll H magic react cs).2 = (talk H magic react ((ms.take k).map (·.1))).2.2 ∧
        ((Node.start H).recvAll H magic react cs).1.run.ending = (talk H magic react ((ms.take k).map (·.1))).1 := by
  obtain ⟨ms, h1⟩ := carried_exists H xs hs
  obtain ⟨hin, h2⟩ := carried_spec H xs ms hs h1
  obtain ⟨inv, den, L, hi, hd⟩ := v1_accepts H
  refine ⟨ms, h1, h2, fun cs hcs => ?_⟩
  obtain ⟨k, q, g1, g2, g3, g4, g5⟩ := at_recvAll L hi hd magic react hin cs (at_start L hi hd magic react hin) (by simpa using hcs)
  exact ⟨k, q, by simpa using g1, g2, g3, by simpa using g4, g5.ending⟩

/-! ### The ping-pong program -/

/-- The answer to a message, if any; `none` for the messages the program does not implement. -/
def pongs : Msg → Option (List Msg)
  | .known .ping n => some [.known .pong n]
  | .known .version _ => some [.empty .verack]
  | .known .sendCmpct _ => some []
  | .known .feeFilter _ => some []
  | .empty .verack => some []
  | _ => none

theorem pongs_react {p : Msg} {r : List Msg} (h : pongs p = some r) : pingPongReact p = .send r := by
  unfold pongs at h
  split at h <;> first | (cases h; rfl) | cases h

theorem pongs_sendable {p : Msg} {r : List Msg} (h : pongs p = some r) : ∀ y ∈ r, Sendable y := by
  have hp : ∀ n : UInt64, Sendable (.known .pong n) := fun n => ⟨trivial, by show (u64le n).length ≤ _; simp⟩
  have hv : Sendable (.empty .verack) := ⟨trivial, by show ([] : Bytes).length ≤ _; simp⟩
  unfold pongs at h
  split at h <;> first
    | (cases h; intro y hy; rcases List.mem_singleton.mp hy with rfl; first | exact hv | exact hp _)
    | (cases h; intro y hy; cases hy)
    | cases h

theorem sendAll_append (H : Bytes → Arr 32) (magic : Arr 4) (b : List Msg) : ∀ a wa wb, sendAll H magic a = some wa → sendAll H magic b = some wb →
    sendAll H magic (a ++ b) = some (wa ++ wb)
  | [], wa, wb, h1, h2 => by
    have : wa = [] := (Option.some.inj h1).symm
    subst this
    simpa using h2
  | p :: a, wa, wb, h1, h2 => by
    simp only [sendAll] at h1
    cases hp : sendV1 H magic p with
    | none => rw [hp] at h1; cases h1
    | some w =>
      cases ha : sendAll H magic a with
      | none => rw [hp, ha] at h1; cases h1
      | some r =>
        rw [hp, ha] at h1
        cases h1
        simp only [List.cons_append, sendAll, hp, sendAll_append H magic b a r wb ha h2, List.append_assoc]

theorem sendAll_some (H : Bytes → Arr 32) (magic : Arr 4) : ∀ ps : List Msg, (∀ p ∈ ps, Sendable p) → ∃ w, sendAll H magic ps = some w
  | [], _ => ⟨[], rfl⟩
  | p :: ps, h => by
    obtain ⟨_, w, -, -, -, h1, -⟩ := sendV1_spec H magic p (h p List.mem_cons_self).1 (h p List.mem_cons_self).2
    obtain ⟨r, h2⟩ := sendAll_some H magic ps fun y hy => h y (List.mem_cons_of_mem _ hy)
    exact ⟨w ++ r, by simp only [sendAll, h1, h2]⟩

theorem talk_pong (H : Bytes → Arr 32) (magic : Arr 4) : ∀ ms : List V1Msg, (∀ m ∈ ms, (pongs m.payload).isSome) →
    (talk H magic pingPongReact ms).1 = .waiting ∧ (talk H magic pingPongReact ms).2.1 = ms ∧
      sendAll H magic (ms.flatMap fun m => (pongs m.payload).getD []) = some (talk H magic pingPongReact ms).2.2
  | [], _ => ⟨rfl, rfl, rfl⟩
  | m :: ms, h => by
    obtain ⟨h1, h2, h3⟩ := talk_pong H magic ms fun y hy => h y (List.mem_cons_of_mem _ hy)
    obtain ⟨r, hr⟩ := Option.isSome_iff_exists.mp (h m List.mem_cons_self)
    obtain ⟨w, hw⟩ := sendAll_some H magic r (pongs_sendable hr)
    simp only [talk, pongs_react hr, hw, h1, h2, List.flatMap_cons, hr, Option.getD_some]
    exact ⟨trivial, trivial, sendAll_append H magic _ _ _ _ hw h3⟩

/-- **The ping-pong program** never panics as long as the peer keeps to the five messages it knows, waits for more, and has written exactly one
`pong` with the nonce for every complete `ping` and one `verack` for every complete `version`, in order, and nothing else. -/
theorem C109_ping_pong (H : Bytes → Arr 32) (magic : Arr 4) (xs : List (Arr 4 × Msg)) (hs : ∀ x ∈ xs, Sendable x.2)
    (hk : ∀ x ∈ xs, (pongs x.2).isSome) :
    ∃ ms, Carried H xs ms ∧ ∀ cs : List Bytes, cs.flatten <+: wire ms → ∃ k q, cs.flatten = wire (ms.take k) ++ q ∧ Begun q (ms.drop k) ∧
      ((Node.start H).recvAll H magic pingPongReact cs).1.run.ending = .waiting ∧
      ((Node.start H).recvAll H magic pingPongReact cs).1.received.map (·.payload) = (xs.take k).map (·.2) ∧
      sendAll H magic ((xs.take k).flatMap fun x => (pongs x.2).getD []) = some ((Node.start H).recvAll H magic pingPongReact cs).2 := by
  obtain ⟨ms, h1, h2, h3⟩ := C109_serves H magic pingPongReact xs hs
  refine ⟨ms, h1, fun cs hcs => ?_⟩
  obtain ⟨k, q, g1, g2, g3, g4, g5⟩ := h3 cs hcs
  have hx : xs.take k = (ms.take k).map fun y => (y.1.header.magic, y.1.payload) := by rw [← h2, List.map_take]
  obtain ⟨t1, t2, t3⟩ := talk_pong H magic ((ms.take k).map (·.1)) (by
    intro m hm
    obtain ⟨y, hy, rfl⟩ := List.mem_map.mp hm
    have : (y.1.header.magic, y.1.payload) ∈ xs := by
      rw [← h2]; exact List.mem_map_of_mem (List.mem_of_mem_take hy)
    exact hk _ this)
  refine ⟨k, q, g1, g2, g5.trans t1, ?_, ?_⟩
  · rw [g3, t2, hx, List.map_map, List.map_map]; rfl
  · rw [g4, ← t3, hx, List.flatMap_map, List.flatMap_map]

/-! ### Two handshake programs -/

theorem version_sendable (v : VersionMsg) (h : v.userAgent.1.length ≤ MAX_VEC_SIZE) : Sendable (.known .version v) := by
  refine ⟨h, ?_⟩
  show (versionBytes v).length ≤ _
  have h1 := csEncode_length v.userAgent.1.length
  have h9 : csSize v.userAgent.1.length ≤ 9 := by unfold csSize; repeat' split
                                                  all_goals omega
  have hM : MAX_VEC_SIZE = 4000000 := rfl
  simp only [versionBytes, versionForm, netAddrBytes, List.length_append, h1, segs_len, u16be_length]
  simp
  omega

theorem verack_sendable : Sendable (.empty .verack) := ⟨trivial, by show ([] : Bytes).length ≤ _; simp⟩

theorem verack_length {H : Bytes → Arr 32} {magic : Arr 4} {w : Bytes} (h : sendV1 H magic (.empty .verack) = some w) : w.length = 24 := by
  unfold sendV1 at h
  cases hc : Msg.command (.empty .verack) with
  | none => rw [hc] at h; cases h
  | some c =>
    rw [hc] at h
    have hb : Msg.bytes (.empty .verack) = [] := rfl
    rw [hb] at h
    simp [headerNew] at h
    subst h
    have h1 := magic.2
    have h2 := c.2.1
    have h3 := (first4 (H [])).2
    simp only [List.length_append, h1, h2, h3, List.length_nil]
    simp

/-- The three situations of a handshake program that reads a `version` and a `verack`. -/
theorem handshake_cases {H : Bytes → Arr 32} {inv : (v1Dec H).S → Prop} {den : (v1Dec H).S → Rel V1Msg} {magic : Arr 4}
    {mv mk : V1Msg} {f k ka : Bytes} {v : VersionMsg} (hv : mv.payload = .known .version v) (hk : mk.payload = .empty .verack)
    (hka : sendV1 H magic (.empty .verack) = some ka) {x : Bytes} {n : Node (v1Dec H).S} {out : Bytes}
    (h : At H inv den magic handshakeReact [(mv, f), (mk, k)] x n out) :
    (x.length < f.length ∧ n.run.ending = .waiting ∧ n.received = [] ∧ out = []) ∨
    (f.length ≤ x.length ∧ x.length < f.length + k.length ∧ n.run.ending = .waiting ∧ n.received = [mv] ∧ out = ka) ∨
    (x.length = f.length + k.length ∧ n.run.ending = .stopped ∧ n.received = [mv, mk] ∧ out = ka) := by
  have hsend : sendAll H magic [.empty .verack] = some ka := by simp [sendAll, hka]
  obtain ⟨j, q, h1, h2, h3, h4, h5⟩ := h
  have h6 := h5.ending
  match j with
  | 0 =>
    obtain ⟨y, hy, hq⟩ := h2
    refine .inl ⟨?_, h6, h3, h4⟩
    have hxq : x = q := by simpa [wire] using h1
    have a1 := congrArg List.length hq
    have a2 := List.length_pos_iff.mpr hy
    rw [List.length_append] at a1
    have a3 : q.length + y.length = f.length := a1
    rw [hxq]
    omega
  | 1 =>
    obtain ⟨y, hy, hq⟩ := h2
    have hxq : x = f ++ q := by simpa [wire] using h1
    have a1 := congrArg List.length hq
    have a2 := List.length_pos_iff.mpr hy
    rw [List.length_append] at a1
    have ht : talk H magic handshakeReact ((List.take 1 [(mv, f), (mk, k)]).map (·.1)) = (.waiting, [mv], ka) := by
      simp [talk, hv, handshakeReact, hsend]
    rw [ht] at h3 h4 h6
    refine .inr (.inl ⟨?_, ?_, h6, h3, h4⟩)
    · rw [hxq, List.length_append]; omega
    · rw [hxq, List.length_append]
      have a3 : q.length + y.length = k.length := a1
      omega
  | j + 2 =>
    have htake : List.take (j + 2) [(mv, f), (mk, k)] = [(mv, f), (mk, k)] := by simp
    have hdrop : List.drop (j + 2) [(mv, f), (mk, k)] = [] := by simp
    rw [hdrop] at h2
    rw [htake] at h1 h3 h4 h6
    have hq : q = [] := h2
    subst hq
    have hxq : x = f ++ k := by simpa [wire] using h1
    have ht : talk H magic handshakeReact (([(mv, f), (mk, k)] : List (V1Msg × Bytes)).map (·.1)) = (.stopped, [mv, mk], ka) := by
      simp [talk, hv, hk, handshakeReact, hsend]
    rw [ht] at h3 h4 h6
    exact .inr (.inr ⟨by rw [hxq, List.length_append], h6, h3, h4⟩)

theorem ending_waiting {S : Type} {r : Run S} (h : r.ending = .waiting) : ∃ s, r = .reading s := by
  cases r with
  | reading s => exact ⟨s, rfl⟩
  | stopped => cases h
  | failed => cases h

/-- **The handshake.** Two handshake programs connected to each other, on whatever networks and with whatever version messages: whatever the
order in which the two run and the pieces in which the bytes arrive, neither panics, there are at most as many steps as bytes, and when nothing
more can happen both have ended regularly, each having received the other's `version` and then `verack`, and no byte is left under way. -/
theorem C109_handshake (H : Bytes → Arr 32) (magicA magicB : Arr 4) (vA vB : VersionMsg)
    (hA : vA.userAgent.1.length ≤ MAX_VEC_SIZE) (hB : vB.userAgent.1.length ≤ MAX_VEC_SIZE) :
    ∃ l0, Link.start H magicA magicB vA vB = some l0 ∧ ∀ n l, Link.Steps H magicA magicB handshakeReact l0 n l →
      n ≤ l0.toA.length + l0.toB.length + 48 ∧ l.a.run.ending ≠ .failed ∧ l.b.run.ending ≠ .failed ∧
      ((∀ l', ¬ Link.Step H magicA magicB handshakeReact l l') →
        l.a.run.ending = .stopped ∧ l.b.run.ending = .stopped ∧ l.toA = [] ∧ l.toB = [] ∧
        l.a.received.map (fun m => (m.header.magic, m.payload)) = [(magicB, .known .version vB), (magicB, .empty .verack)] ∧
        l.b.received.map (fun m => (m.header.magic, m.payload)) = [(magicA, .known .version vA), (magicA, .empty .verack)]) := by
  obtain ⟨mvA, fA, -, a1, a2, a3, -, a4⟩ := sendV1_spec H magicA _ (version_sendable vA hA).1 (version_sendable vA hA).2
  obtain ⟨mvB, fB, -, b1, b2, b3, -, b4⟩ := sendV1_spec H magicB _ (version_sendable vB hB).1 (version_sendable vB hB).2
  obtain ⟨mkA, kA, -, c1, c2, c3, -, c4⟩ := sendV1_spec H magicA _ verack_sendable.1 verack_sendable.2
  obtain ⟨mkB, kB, -, d1, d2, d3, -, d4⟩ := sendV1_spec H magicB _ verack_sendable.1 verack_sendable.2
  have hkA := verack_length c3
  have hkB := verack_length d3
  obtain ⟨inv, den, L, hi, hd⟩ := v1_accepts H
  have hinA : Incoming H [(mvA, fA), (mkA, kA)] := by
    intro x hx rest
    rcases List.mem_cons.mp hx with rfl | hx
    · exact a4 rest
    · rcases List.mem_singleton.mp hx with rfl; exact c4 rest
  have hinB : Incoming H [(mvB, fB), (mkB, kB)] := by
    intro x hx rest
    rcases List.mem_cons.mp hx with rfl | hx
    · exact b4 rest
    · rcases List.mem_singleton.mp hx with rfl; exact d4 rest
  have hwA : wire [(mvA, fA), (mkA, kA)] = fA ++ kA := by simp [wire]
  have hwB : wire [(mvB, fB), (mkB, kB)] = fB ++ kB := by simp [wire]
  refine ⟨⟨.start H, .start H, fB, fA⟩, by unfold Link.start; rw [a3, b3], ?_⟩
  -- the invariant of the executions
  have hinv : ∀ n l, Link.Steps H magicA magicB handshakeReact ⟨.start H, .start H, fB, fA⟩ n l →
      ∃ xA xB outA outB, At H inv den magicA handshakeReact [(mvB, fB), (mkB, kB)] xA l.a outA ∧
        At H inv den magicB handshakeReact [(mvA, fA), (mkA, kA)] xB l.b outB ∧
        xA ++ l.toA = fB ++ outB ∧ xB ++ l.toB = fA ++ outA ∧ n ≤ xA.length + xB.length := by
    intro n l hl
    induction hl with
    | zero => exact ⟨[], [], [], [], at_start L hi hd _ _ hinB, at_start L hi hd _ _ hinA, by simp, by simp, by simp⟩
    | step hl hstep ih =>
      obtain ⟨xA, xB, outA, outB, e1, e2, e3, e4, e5⟩ := ih
      have hoA : outA = [] ∨ outA = kA := by
        rcases handshake_cases b1 d1 c3 e1 with h | h | h
        · exact .inl h.2.2.2
        · exact .inr h.2.2.2.2
        · exact .inr h.2.2.2
      have hoB : outB = [] ∨ outB = kB := by
        rcases handshake_cases a1 c1 d3 e2 with h | h | h
        · exact .inl h.2.2.2
        · exact .inr h.2.2.2.2
        · exact .inr h.2.2.2
      cases hstep with
      | a s c rest g1 g2 g3 =>
        have hp : xA ++ c <+: wire [(mvB, fB), (mkB, kB)] := by
          rw [hwB]
          rw [g3, ← List.append_assoc] at e3
          refine (List.prefix_append _ rest).trans ?_
          rw [e3]
          rcases hoB with rfl | rfl
          · rw [List.append_nil]; exact List.prefix_append _ _
          · exact List.prefix_rfl
        refine ⟨xA ++ c, xB, _, outB, at_recv L hi hd magicA handshakeReact hinB e1 c hp, e2, ?_, ?_, ?_⟩
        · rw [← e3, g3]; simp
        · simp only; rw [← List.append_assoc, e4, List.append_assoc]
        · have := List.length_pos_iff.mpr g2
          rw [List.length_append]; omega
      | b s c rest g1 g2 g3 =>
        have hp : xB ++ c <+: wire [(mvA, fA), (mkA, kA)] := by
          rw [hwA]
          rw [g3, ← List.append_assoc] at e4
          refine (List.prefix_append _ rest).trans ?_
          rw [e4]
          rcases hoA with rfl | rfl
          · rw [List.append_nil]; exact List.prefix_append _ _
          · exact List.prefix_rfl
        refine ⟨xA, xB ++ c, outA, _, e1, at_recv L hi hd magicB handshakeReact hinA e2 c hp, ?_, ?_, ?_⟩
        · simp only; rw [← List.append_assoc, e3, List.append_assoc]
        · rw [← e4, g3]; simp
        · have := List.length_pos_iff.mpr g2
          rw [List.length_append]; omega
  intro n l hl
  obtain ⟨xA, xB, outA, outB, e1, e2, e3, e4, e5⟩ := hinv n l hl
  have hcA := handshake_cases b1 d1 c3 e1
  have hcB := handshake_cases a1 c1 d3 e2
  have l3 := congrArg List.length e3
  have l4 := congrArg List.length e4
  simp only [List.length_append] at l3 l4
  refine ⟨?_, ?_, ?_, fun hq => ?_⟩
  · have : xA.length ≤ fB.length + kB.length := by rcases hcA with h | h | h <;> omega
    have : xB.length ≤ fA.length + kA.length := by rcases hcB with h | h | h <;> omega
    show n ≤ fB.length + fA.length + 48
    omega
  · rcases hcA with h | h | h
    · rw [h.2.1]; decide
    · rw [h.2.2.1]; decide
    · rw [h.2.1]; decide
  · rcases hcB with h | h | h
    · rw [h.2.1]; decide
    · rw [h.2.2.1]; decide
    · rw [h.2.1]; decide
  · -- a program that waits has nothing to read
    have hnA : l.a.run.ending = .waiting → l.toA.length = 0 := by
      intro h
      obtain ⟨s, hs⟩ := ending_waiting h
      cases ht : l.toA with
      | nil => rfl
      | cons b t => exact (hq _ (.a l s (b :: t) [] hs (by simp) (by simp [ht]))).elim
    have hnB : l.b.run.ending = .waiting → l.toB.length = 0 := by
      intro h
      obtain ⟨s, hs⟩ := ending_waiting h
      cases ht : l.toB with
      | nil => rfl
      | cons b t => exact (hq _ (.b l s (b :: t) [] hs (by simp) (by simp [ht]))).elim
    have hlA : ∀ {o : Bytes}, o = kA → o.length = 24 := fun h => by rw [h]; exact hkA
    have hlB : ∀ {o : Bytes}, o = kB → o.length = 24 := fun h => by rw [h]; exact hkB
    have hl0 : ∀ {o : Bytes}, o = [] → o.length = 0 := fun h => by rw [h]; rfl
    have key : (xA.length = fB.length + kB.length ∧ l.a.run.ending = .stopped ∧ l.a.received = [mvB, mkB] ∧ outA = kA) ∧
        (xB.length = fA.length + kA.length ∧ l.b.run.ending = .stopped ∧ l.b.received = [mvA, mkA] ∧ outB = kB) := by
      rcases hcA with ⟨p1, p2, p3, p4⟩ | ⟨p0, p1, p2, p3, p4⟩ | h1
      · have := hnA p2; omega
      · have z1 := hnA p2
        rcases hcB with ⟨q1, q2, q3, q4⟩ | ⟨q0, q1, q2, q3, q4⟩ | ⟨q1, q2, q3, q4⟩
        · have := hnB q2; omega
        · have := hlB q4; omega
        · have := hlB q4; omega
      · refine ⟨h1, ?_⟩
        obtain ⟨p1, p2, p3, p4⟩ := h1
        rcases hcB with ⟨q1, q2, q3, q4⟩ | ⟨q0, q1, q2, q3, q4⟩ | h2
        · have := hnB q2; omega
        · have := hnB q2; have := hlA p4; omega
        · exact h2
    obtain ⟨⟨p1, p2, p3, p4⟩, ⟨q1, q2, q3, q4⟩⟩ := key
    have := hlA p4
    have := hlB q4
    refine ⟨p2, q2, List.length_eq_zero_iff.mp (by omega), List.length_eq_zero_iff.mp (by omega), ?_, ?_⟩
    · rw [p3]; simp [b1, b2, d1, d2]
    · rw [q3]; simp [a1, a2, c1, c2]

/-- Executions whose number of steps is bounded reach a state where nothing more can happen. -/
theorem steps_end {H : Bytes → Arr 32} {magicA magicB : Arr 4} {react : Msg → Reaction} {l0 : Link (v1Dec H).S} {N : Nat}
    (hN : ∀ n l, Link.Steps H magicA magicB react l0 n l → n ≤ N) : ∀ (d n : Nat) (l : Link (v1Dec H).S), N - n = d →
    Link.Steps H magicA magicB react l0 n l → ∃ n' l', Link.Steps H magicA magicB react l0 n' l' ∧ ∀ l'', ¬ Link.Step H magicA magicB react l' l''
  | d, n, l, hd, hl => by
    by_cases h : ∃ l', Link.Step H magicA magicB react l l'
    · obtain ⟨l', h⟩ := h
      have h1 := hN _ _ (hl.step h)
      match d, hd with
      | 0, hd => omega
      | d + 1, hd => exact steps_end hN d (n + 1) l' (by omega) (hl.step h)
    · exact ⟨n, l, hl, fun l'' h'' => h ⟨l'', h''⟩⟩

/-- … and from every state of every execution the handshake does get done. -/
theorem C109_completes (H : Bytes → Arr 32) (magicA magicB : Arr 4) (vA vB : VersionMsg)
    (hA : vA.userAgent.1.length ≤ MAX_VEC_SIZE) (hB : vB.userAgent.1.length ≤ MAX_VEC_SIZE) :
    ∃ l0, Link.start H magicA magicB vA vB = some l0 ∧ ∀ n l, Link.Steps H magicA magicB handshakeReact l0 n l →
      ∃ m l', Link.Steps H magicA magicB handshakeReact l m l' ∧ l'.a.run.ending = .stopped ∧ l'.b.run.ending = .stopped := by
  obtain ⟨l0, h0, h⟩ := C109_handshake H magicA magicB vA vB hA hB
  refine ⟨l0, h0, fun n l hl => ?_⟩
  have hcomp : ∀ m l', Link.Steps H magicA magicB handshakeReact l m l' → Link.Steps H magicA magicB handshakeReact l0 (n + m) l' := by
    intro m l' hs
    induction hs with
    | zero => exact hl
    | step _ g ih => exact ih.step g
  obtain ⟨m, l', g1, g2⟩ := steps_end (l0 := l) (fun m l' hs => Nat.le_trans (Nat.le_add_left m n) (h _ _ (hcomp m l' hs)).1) _ 0 l rfl .zero
  have g3 := (h _ _ (hcomp m l' g1)).2.2.2 g2
  exact ⟨m, l', g1, g3.1, g3.2.1⟩

/-- The message of handshake.rs 77-118, with a fixed time and a shorter user agent. -/
def exVersion : VersionMsg :=
  { version := 60000, services := 0, timestamp := 1700000000, receiver := ⟨0, ⟨[0, 0, 0, 0, 0, 0xffff, 0x7f00, 1], rfl⟩, 8333⟩,
    sender := ⟨0, ⟨[0, 0, 0, 0, 0, 0xffff, 0, 0], rfl⟩, 0⟩, nonce := 42, userAgent := ⟨[0x2f, 0x72, 0x2f], by decide⟩, startHeight := 0, relay := false }

/-- Two different networks and messages. -/
example (H : Bytes → Arr 32) :=
  C109_handshake H ⟨[0xf9, 0xbe, 0xb4, 0xd9], rfl⟩ ⟨[0x0b, 0x11, 0x09, 0x07], rfl⟩ exVersion { exVersion with nonce := 43, relay := true }
    (by unfold MAX_VEC_SIZE; decide) (by unfold MAX_VEC_SIZE; decide)

/-- The two sides take turns: an execution of the hypotheses exists, and it completes. -/
example (H : Bytes → Arr 32) :=
  C109_completes H ⟨[0xf9, 0xbe, 0xb4, 0xd9], rfl⟩ ⟨[0xf9, 0xbe, 0xb4, 0xd9], rfl⟩ exVersion exVersion
    (by unfold MAX_VEC_SIZE; decide) (by unfold MAX_VEC_SIZE; decide)

/-- A peer that sends its version, its `verack` and two pings. -/
def exPings : List (Arr 4 × Msg) :=
  [(⟨[0xf9, 0xbe, 0xb4, 0xd9], rfl⟩, .known .version exVersion), (⟨[0xf9, 0xbe, 0xb4, 0xd9], rfl⟩, .empty .verack),
    (⟨[0xf9, 0xbe, 0xb4, 0xd9], rfl⟩, .known .ping (7 : UInt64)), (⟨[0xf9, 0xbe, 0xb4, 0xd9], rfl⟩, .known .ping (8 : UInt64))]

theorem exPings_sendable : ∀ x ∈ exPings, Sendable x.2 := by
  intro x hx
  simp only [exPings, List.mem_cons, List.not_mem_nil, or_false] at hx
  rcases hx with rfl | rfl | rfl | rfl
  · exact version_sendable exVersion (by unfold MAX_VEC_SIZE; decide)
  · exact verack_sendable
  · exact ⟨trivial, by show (u64le 7).length ≤ _; simp⟩
  · exact ⟨trivial, by show (u64le 8).length ≤ _; simp⟩

example (H : Bytes → Arr 32) := C109_serves H ⟨[0xf9, 0xbe, 0xb4, 0xd9], rfl⟩ pingPongReact exPings exPings_sendable

example (H : Bytes → Arr 32) := C109_ping_pong H ⟨[0xf9, 0xbe, 0xb4, 0xd9], rfl⟩ exPings exPings_sendable (by
  intro x hx
  simp only [exPings, List.mem_cons, List.not_mem_nil, or_false] at hx
  rcases hx with rfl | rfl | rfl | rfl <;> rfl)

end P2p
end Btc
