import Verif.P2p.MessageLaws
import Verif.Props.C49
import Verif.Props.C62
/-!
# C53: network message framing is exact
-/
namespace Btc
namespace P2p
open Hashes (fips_sha256_length)
open Sha2 (sha256_eq)

/-! ### Command strings -/

/-- Constructing from a string: it must be ASCII, have at most 12 bytes, and after its first NUL only NULs. -/
theorem C53_command_try_from (s : Bytes) : (∃ c, Cmd.tryFrom s = some c) ↔
    (∀ b ∈ s, b < 128) ∧ s.length ≤ 12 ∧ ∃ t n, s = t ++ List.replicate n 0 ∧ 0 ∉ t := by
  have ha : isAscii s = true ↔ ∀ b ∈ s, b < 128 := by simp [isAscii]
  have hn : interiorNull (s ++ List.replicate (12 - s.length) 0) = false ↔ ∃ t n, s = t ++ List.replicate n 0 ∧ 0 ∉ t := by
    rw [interiorNull_iff]
    constructor
    · rintro ⟨t, n, h, ht⟩
      have hp : t <+: s := by
        have h1 : t <+: s ++ List.replicate (12 - s.length) 0 := ⟨_, h.symm⟩
        rcases List.prefix_or_prefix_of_prefix h1 (List.prefix_append s _) with h2 | h2
        · exact h2
        · obtain ⟨u, hu⟩ := h2
          have h3 : List.replicate (12 - s.length) 0 = u ++ List.replicate n 0 := by
            rw [← hu, List.append_assoc] at h
            exact List.append_cancel_left h
          cases u with
          | nil => rw [List.append_nil] at hu; rw [hu]; exact List.prefix_refl _
          | cons x u =>
            have : x = 0 := by
              have : x ∈ List.replicate (12 - s.length) (0 : UInt8) := by rw [h3]; simp
              exact (List.mem_replicate.mp this).2
            exfalso; apply ht; rw [← hu, this]; simp
      obtain ⟨u, hu⟩ := hp
      refine ⟨t, u.length, ?_, ht⟩
      rw [← hu]
      congr 1
      refine List.eq_replicate_iff.mpr ⟨rfl, fun y hy => ?_⟩
      rw [← hu, List.append_assoc] at h
      have h3 := List.append_cancel_left h
      have : y ∈ List.replicate n (0 : UInt8) := by rw [← h3]; simp [hy]
      exact (List.mem_replicate.mp this).2
    · rintro ⟨t, n, h, ht⟩
      refine ⟨t, n + (12 - s.length), ?_, ht⟩
      rw [← List.replicate_append_replicate, ← List.append_assoc, ← h]
  rw [← ha, ← hn]
  unfold Cmd.tryFrom
  constructor
  · rintro ⟨c, h⟩
    split at h
    · cases h
    · rename_i h1
      simp only [] at h
      split at h
      · rename_i h2
        exact ⟨by simpa using fun h' => h1 (.inl h'), by have := fun h' => h1 (.inr h'); omega, h2.2.2⟩
      · cases h
  · rintro ⟨h1, h2, h3⟩
    rw [if_neg (by simp [h1]; omega)]
    simp only []
    rw [dif_pos ⟨by simp; omega, by rw [isAscii_append, h1, isAscii_zeros]; rfl, h3⟩]
    exact ⟨_, rfl⟩

/-- The string of a command gives the command back, and a string without NUL is the string of its command. -/
theorem C53_command_round_trip (c : Cmd) : Cmd.tryFrom c.asRef = some c ∧
    ∀ s c', 0 ∉ s → Cmd.tryFrom s = some c' → c'.asRef = s :=
  ⟨tryFrom_asRef c, fun s c' hs h => (tryFrom_iff s hs c').mp h⟩

/-- Decoding accepts exactly the 12 bytes of a command, which encoding yields. -/
theorem C53_command_bytes (bs : Bytes) (c : Cmd) (rest : Bytes) :
    (cmdDec.decodeSliceUnbounded bs = .ok c rest ↔ bs = c.1 ++ rest) ∧ Drains bytesEnc c.1 c.1 ∧
      ∃ s, 0 ∉ s ∧ c.1 = s ++ List.replicate (12 - s.length) 0 := by
  obtain ⟨P, hl, hw⟩ := cmd_dw
  refine ⟨?_, C06_bytes _, c.asRef, (cmd_shape c).2.1, (cmd_shape c).1⟩
  rw [(Wire.dec hl hw).2]
  exact ⟨fun h => h.2, fun h => ⟨trivial, h⟩⟩

example : ∃ c, Cmd.tryFrom (ascii "getcfcheckpt") = some c ∧ c.asRef = ascii "getcfcheckpt" := ⟨_, rfl, by decide⟩
/-- A trailing NUL is accepted and dropped. -/
example : Cmd.tryFrom (ascii "ping" ++ [0]) = Cmd.tryFrom (ascii "ping") ∧
    Cmd.tryFrom (ascii "ping" ++ [0]) ≠ none := ⟨by decide, by decide⟩
example : Cmd.tryFrom (ascii "pi" ++ [0] ++ ascii "ng") = none ∧ Cmd.tryFrom (ascii "pi" ++ [200]) = none ∧
    Cmd.tryFrom (ascii "getcfcheckpts") = none := ⟨by decide, by decide, by decide⟩

/-! ### Messages -/

/-- `command()` never panics. -/
theorem command_total (m : Msg) : ∃ c, m.command = some c := by
  match m with
  | .known k _ =>
    refine Option.isSome_iff_exists.mp (?_ : (Cmd.tryFrom (ascii k.cmd)).isSome = true)
    cases k <;> decide
  | .empty e =>
    refine Option.isSome_iff_exists.mp (?_ : (Cmd.tryFrom (ascii e.cmd)).isSome = true)
    cases e <;> decide
  | .unknown c _ => exact ⟨c, rfl⟩

/-- The payload strings that stand for a message: the encoding of a payload within the decoder's limits (any relay
byte of the right truth value for `version`), nothing, or the raw bytes under a command that is not listed. -/
def MsgForm : Msg → Bytes → Prop
  | .known k p, w => k.Form p w
  | .empty _, w => w = []
  | .unknown c b, w => w = b ∧ Unlisted c

/-- Messages that survive the network: payload within the decoder's limits, and `Unknown` only under a command that
is not listed. -/
def MsgOk : Msg → Prop
  | .known k p => k.Ok p
  | .empty _ => True
  | .unknown c _ => Unlisted c

theorem sel_form (c : Cmd) (m : Msg) (w : Bytes) :
    SelForm (v1Sel c w.length) m w ↔ m.command = some c ∧ MsgForm m w := by
  unfold v1Sel
  match hl : lookupArm v1Arms c.asRef with
  | some (some k) =>
    have hn := lookup_eq_kind hl
    simp only []
    constructor
    · rintro ⟨p, rfl, hf⟩
      exact ⟨(tryFrom_iff _ (name_kind k) c).mpr hn, hf⟩
    · rintro ⟨h1, h2⟩
      match m with
      | .known k' p =>
        have h3 := (tryFrom_iff _ (name_kind k') c).mp h1
        rw [h3, lookup_kind] at hl
        cases hl
        exact ⟨p, rfl, h2⟩
      | .empty e =>
        have h3 := (tryFrom_iff _ (name_empty e) c).mp h1
        rw [h3, lookup_empty] at hl
        cases hl
      | .unknown c' b =>
        cases h1
        exact (h2.2.1 k hn).elim
  | some none =>
    obtain ⟨e, hn⟩ := lookup_eq_empty hl
    simp only []
    constructor
    · rintro ⟨e', h1, rfl, rfl⟩
      rw [hn, emptyOf_name] at h1
      cases h1
      exact ⟨(tryFrom_iff _ (name_empty e) c).mpr hn, rfl⟩
    · rintro ⟨h1, h2⟩
      match m with
      | .known k' p =>
        have h3 := (tryFrom_iff _ (name_kind k') c).mp h1
        rw [h3, lookup_kind] at hl
        cases hl
      | .empty e' =>
        have h3 := (tryFrom_iff _ (name_empty e') c).mp h1
        exact ⟨e', by rw [h3, emptyOf_name], rfl, h2⟩
      | .unknown c' b =>
        cases h1
        exact (h2.2.2 e hn).elim
  | none =>
    have hu := lookup_none.mp hl
    simp only []
    constructor
    · rintro ⟨rfl, _⟩
      exact ⟨rfl, rfl, hu⟩
    · rintro ⟨h1, h2⟩
      match m with
      | .known k' p => exact (hu.1 k' ((tryFrom_iff _ (name_kind k') c).mp h1)).elim
      | .empty e' => exact (hu.2 e' ((tryFrom_iff _ (name_empty e') c).mp h1)).elim
      | .unknown c' b =>
        cases h1
        obtain ⟨rfl, _⟩ := h2
        exact ⟨rfl, rfl⟩

theorem form_len {m : Msg} {w : Bytes} (h : MsgForm m w) : w.length = m.bytes.length := by
  match m with
  | .known k p => exact form_length k p w h
  | .empty e => rw [show w = [] from h]; rfl
  | .unknown c b => rw [h.1]; rfl

/-- The frame of payload bytes `w`. -/
def frame (H : Bytes → Arr 32) (magic : Arr 4) (c : Cmd) (w : Bytes) : Bytes :=
  magic.1 ++ c.1 ++ (u32le (UInt32.ofNat w.length) ++ (H w).1.take 4) ++ w

theorem v1Rel_iff (H : Bytes → Arr 32) (bs : Bytes) (m : V1Msg) (rest : Bytes) : V1Rel H bs m rest ↔
    ∃ magic c w, bs = frame H magic c w ++ rest ∧ m.payload.command = some c ∧ MsgForm m.payload w ∧
      w.length ≤ 5000000 ∧
      m.header = ⟨magic, c, UInt32.ofNat m.payload.bytes.length, first4 (H m.payload.bytes)⟩ := by
  have hM : MAX_MSG_SIZE = 5000000 := rfl
  constructor
  · rintro ⟨h, body, hbs, hlen, w, p, c, h', h1, ⟨w', h2, h2'⟩, h3, h4, h5, h6, rfl⟩
    have hw : w' = w := by rw [h1] at h2'; exact (List.append_cancel_right h2').symm
    subst hw
    simp only [Nat.zero_add] at h3
    rw [← h3, sel_form] at h2
    obtain ⟨h7, h8⟩ := h2
    rw [h5] at h7
    have hc : c = h.command := Option.some.inj h7
    unfold headerNew at h6
    have hl := form_len h8
    rw [if_pos (by omega)] at h6
    cases h6
    refine ⟨h.magic, c, w', ?_, h5, h8, by omega, rfl⟩
    rw [hbs, h1, frame, v1HeaderBytes, hc, ← h4]
    have h9 : UInt32.ofNat w'.length = h.length := by rw [h3]; simp
    rw [h9]
    simp [first4]
  · rintro ⟨magic, c, w, rfl, h1, h2, h3, h4⟩
    have hl := form_len h2
    have h9 : (UInt32.ofNat w.length).toNat = w.length := by
      rw [UInt32.toNat_ofNat']; exact Nat.mod_eq_of_lt (by omega)
    refine ⟨⟨magic, c, UInt32.ofNat w.length, first4 (H w)⟩, w ++ rest, ?_, by simp only [h9]; omega, w, m.payload, c,
      m.header, rfl, ⟨w, ?_, rfl⟩, by simp only [h9]; omega, rfl, h1, ?_, rfl⟩
    · simp [frame, v1HeaderBytes, first4]
    · simp only [h9]
      exact (sel_form c m.payload w).mpr ⟨h1, h2⟩
    · unfold headerNew
      rw [if_pos (by omega), h4]

/-- **Decoding a v1 message accepts exactly the well-formed frames**, however the bytes are split: magic, the command
of the message, the length of the payload bytes, the first four bytes of their hash, and payload bytes that stand for
the message, at most 5,000,000 of them.  The header returned is that of the message. -/
theorem C53_v1_decode (H : Bytes → Arr 32) (cs : List Bytes) (m : V1Msg) (rest : Bytes) :
    (v1Dec H).feedChunks (v1Dec H).init cs = .ok m rest ↔
    ∃ magic c w, cs.flatten = frame H magic c w ++ rest ∧ m.payload.command = some c ∧ MsgForm m.payload w ∧
      w.length ≤ 5000000 ∧
      m.header = ⟨magic, c, UInt32.ofNat m.payload.bytes.length, first4 (H m.payload.bytes)⟩ := by
  obtain ⟨inv, den, L, hi, hd⟩ := v1_accepts H
  rw [L.feedChunks_ok cs _ hi, hd, v1Rel_iff]

/-- A reader (without a buffer, with reads of any size, interrupted at will) gives the same messages, and has taken
exactly the frame from the source. -/
theorem C53_v1_read (H : Bytes → Arr 32) (cap : Nat) (hcap : 0 < cap) (src : Bytes) (evs : List ReadEvent)
    (hev : .fatal ∉ evs) (m : V1Msg) (rest : Bytes) :
    (v1Dec H).decodeReadUnbuffered cap (v1Dec H).init src evs = .ok m rest ↔
    ∃ magic c w, src = frame H magic c w ++ rest ∧ m.payload.command = some c ∧ MsgForm m.payload w ∧
      w.length ≤ 5000000 ∧
      m.header = ⟨magic, c, UInt32.ofNat m.payload.bytes.length, first4 (H m.payload.bytes)⟩ := by
  obtain ⟨inv, den, L, hi, hd⟩ := v1_accepts H
  rw [L.decodeReadUnbuffered_ok cap hcap src evs _ hi hev, hd, v1Rel_iff]

theorem ok_form {m : Msg} (h : MsgOk m) : MsgForm m m.bytes := by
  match m with
  | .known k p => exact form_bytes k p h
  | .empty _ => rfl
  | .unknown c b => exact ⟨rfl, h⟩

theorem ok_msg_typed {m : Msg} (h : MsgOk m) : m.Typed := by
  match m with
  | .known k p => exact ok_typed k p h
  | .empty _ => trivial
  | .unknown c b => trivial

theorem v1New_iff {H : Bytes → Arr 32} {magic : Arr 4} {p : Msg} (ht : p.Typed) {m : V1Msg} :
    V1New H magic p m ↔ p.bytes.length < 2 ^ 32 ∧ ∃ c, p.command = some c ∧
      m = ⟨⟨magic, c, UInt32.ofNat p.bytes.length, first4 (H p.bytes)⟩, p⟩ := by
  constructor
  · rintro ⟨n, w, c, h, h1, h2, h3, rfl⟩
    have hw : w = p.bytes := Drains.det ⟨n, h1⟩ (msg_drains p ht)
    subst hw
    unfold headerNew at h3
    split at h3
    · cases h3
      exact ⟨by assumption, c, h2, rfl⟩
    · cases h3
  · rintro ⟨hl, c, h1, rfl⟩
    obtain ⟨n, hn⟩ := msg_drains p ht
    exact ⟨n, p.bytes, c, _, hn, h1, by unfold headerNew; rw [if_pos hl], rfl⟩

theorem v1_drains (m : V1Msg) (ht : m.payload.Typed) :
    Drains v1Enc m.encoder (v1HeaderBytes m.header ++ m.payload.bytes) :=
  dtuple (dcons (v1Header_drains _) (dcons (msg_drains _ ht) dnil)) (by simp) (by simp)

/-- **Round trip**: a message within the limits can be framed, and the bytes its encoder yields are decoded to it. -/
theorem C53_v1_round_trip (H : Bytes → Arr 32) (magic : Arr 4) (p : Msg) (hp : MsgOk p) (hl : p.bytes.length ≤ 5000000) :
    (∃ m, V1New H magic p m) ∧ ∀ m, V1New H magic p m → ∃ w, Drains v1Enc m.encoder w ∧
      (v1Dec H).decodeSlice w = .ok m ∧ ∀ rest, (v1Dec H).decodeSliceUnbounded (w ++ rest) = .ok m rest := by
  have ht := ok_msg_typed hp
  have key : ∀ m, V1New H magic p m → ∀ rest,
      V1Rel H (v1HeaderBytes m.header ++ m.payload.bytes ++ rest) m rest := by
    intro m hm rest
    obtain ⟨_, c, hc, rfl⟩ := (v1New_iff ht).mp hm
    rw [v1Rel_iff]
    exact ⟨magic, c, p.bytes, by simp [frame, v1HeaderBytes, first4], hc, ok_form hp, hl, rfl⟩
  refine ⟨?_, fun m hm => ⟨v1HeaderBytes m.header ++ m.payload.bytes, ?_, ?_, ?_⟩⟩
  · obtain ⟨c, hc⟩ := command_total p
    exact ⟨_, (v1New_iff ht).mpr ⟨by omega, c, hc, rfl⟩⟩
  · refine v1_drains m ?_
    obtain ⟨_, c, _, rfl⟩ := (v1New_iff ht).mp hm
    exact ht
  · obtain ⟨inv, den, L, hi, hd⟩ := v1_accepts H
    rw [L.decodeSlice_ok hi, hd]
    simpa using key m hm []
  · intro rest
    obtain ⟨inv, den, L, hi, hd⟩ := v1_accepts H
    rw [L.decodeSliceUnbounded_ok hi, hd]
    exact key m hm rest

/-- **Bad frames are rejected** (with an error, not a panic of the driver): announced length above 5,000,000, fewer
bytes than announced, a checksum that is not the hash of the announced number of bytes, or announced bytes that stand
for no message of that command. -/
theorem C53_v1_rejects (H : Bytes → Arr 32) (h : V1Header) (body : Bytes)
    (hbad : h.length.toNat > 5000000 ∨ body.length < h.length.toNat ∨
      (H (body.take h.length.toNat)).1.take 4 ≠ h.checksum.1 ∨
      ∀ m, m.command = some h.command → ¬ MsgForm m (body.take h.length.toNat))
    (cs : List Bytes) (hcs : cs.flatten = v1HeaderBytes h ++ body) :
    ∃ e, (v1Dec H).feedChunks (v1Dec H).init cs = .err e := by
  match hf : (v1Dec H).feedChunks (v1Dec H).init cs with
  | .err e => exact ⟨e, rfl⟩
  | .stuck =>
    obtain ⟨inv, den, L, hi, hd⟩ := v1_accepts H
    exact (L.feedChunks_not_stuck cs _ hi hf).elim
  | .ok m rest =>
    exfalso
    obtain ⟨magic, c, w, h1, h2, h3, h4, _⟩ := (C53_v1_decode H cs m rest).mp hf
    rw [hcs] at h1
    have e0 : frame H magic c w ++ rest = v1HeaderBytes ⟨magic, c, UInt32.ofNat w.length, first4 (H w)⟩ ++ (w ++ rest) := by
      simp [frame, v1HeaderBytes, first4]
    rw [e0] at h1
    obtain ⟨P, hl, hw⟩ := v1Header_dw
    have e1 := (hw _ h body).mpr ⟨trivial, h1.symm⟩
    rw [(hw _ ⟨magic, c, UInt32.ofNat w.length, first4 (H w)⟩ (w ++ rest)).mpr ⟨trivial, rfl⟩] at e1
    cases e1
    have h9 : (UInt32.ofNat w.length).toNat = w.length := by
      rw [UInt32.toNat_ofNat']; exact Nat.mod_eq_of_lt (by omega)
    simp only [h9, List.take_left, List.length_append] at hbad
    rcases hbad with hb | hb | hb | hb
    · omega
    · omega
    · exact hb rfl
    · exact hb m.payload h2 h3

/-- A frame with one bit of the checksum wrong is rejected whatever the payload. -/
theorem C53_v1_checksum (H : Bytes → Arr 32) (magic : Arr 4) (c : Cmd) (w : Bytes) (hw : w.length < 2 ^ 32) (sum : Arr 4)
    (hs : sum.1 ≠ (H w).1.take 4) (rest : Bytes) (m : V1Msg) (left : Bytes) :
    (v1Dec H).decodeSliceUnbounded (magic.1 ++ c.1 ++ (u32le (UInt32.ofNat w.length) ++ sum.1) ++ w ++ rest) ≠ .ok m left := by
  intro h
  have h9 : (UInt32.ofNat w.length).toNat = w.length := by
    rw [UInt32.toNat_ofNat']; exact Nat.mod_eq_of_lt hw
  obtain ⟨e, he⟩ := C53_v1_rejects H ⟨magic, c, UInt32.ofNat w.length, sum⟩ (w ++ rest)
    (.inr (.inr (.inl (by simp only [h9, List.take_left]; exact fun h => hs h.symm))))
    [magic.1 ++ c.1 ++ (u32le (UInt32.ofNat w.length) ++ sum.1) ++ w ++ rest] (by simp [v1HeaderBytes])
  obtain ⟨inv, den, L, hi, hd⟩ := v1_accepts H
  rw [L.decodeSliceUnbounded_ok hi] at h
  have := (L.feedChunks_ok [magic.1 ++ c.1 ++ (u32le (UInt32.ofNat w.length) ++ sum.1) ++ w ++ rest] _ hi m left).mpr
    (by simpa using h)
  rw [he] at this
  cases this

/-! #### Concrete messages -/

def sha256d (m : Bytes) : Arr 32 := ⟨Fips.sha256 (Fips.sha256 m), fips_sha256_length _⟩

theorem sha256d_empty : (sha256d []).1.take 4 = [0x5d, 0xf6, 0xe0, 0xe2] := by
  show (Fips.sha256 (Fips.sha256 [])).take 4 = _
  rw [← sha256_eq [] (by decide), ← sha256_eq _ (by rw [sha256_eq [] (by decide), fips_sha256_length]; decide)]
  decide +kernel


/-- A `verack` frame on the main network, in two pieces, followed by other bytes. -/
example (rest : Bytes) : ∃ m, m.payload = .empty .verack ∧
    (v1Dec sha256d).feedChunks (v1Dec sha256d).init
      [[0xf9, 0xbe, 0xb4, 0xd9] ++ ascii "verack", [0, 0, 0, 0, 0, 0, 0, 0, 0, 0, 0x5d, 0xf6, 0xe0, 0xe2] ++ rest] =
      .ok m rest := by
  obtain ⟨c, hc⟩ := command_total (.empty .verack)
  have hc' : c.1 = ascii "verack" ++ [0, 0, 0, 0, 0, 0] := by
    have h : (Cmd.tryFrom (ascii "verack")).map (·.1) = some (ascii "verack" ++ [0, 0, 0, 0, 0, 0]) := by decide
    rw [show Cmd.tryFrom (ascii "verack") = some c from hc] at h
    exact Option.some.inj h
  refine ⟨⟨⟨⟨[0xf9, 0xbe, 0xb4, 0xd9], rfl⟩, c, 0, first4 (sha256d [])⟩, .empty .verack⟩, rfl, (C53_v1_decode _ _ _ _).mpr
    ⟨⟨[0xf9, 0xbe, 0xb4, 0xd9], rfl⟩, c, [], ?_, hc, rfl, by decide, rfl⟩⟩
  simp only [frame, sha256d_empty, hc']
  simp [u32le, leBytes]

/-- A `ping` within the limits. -/
example : MsgOk (.known .ping (7 : UInt64)) ∧ (Msg.known .ping (7 : UInt64)).bytes.length ≤ 5000000 :=
  ⟨trivial, by decide⟩

/-! ### Version 2 -/

/-- The name is none of those the v2 decoder expects after short id 0. -/
def V2Unlisted (c : Cmd) : Prop :=
  (∀ k : Kind, k.shortId = 0 → c.asRef ≠ ascii k.cmd) ∧ ∀ e : EKind, e.shortId = 0 → c.asRef ≠ ascii e.cmd

theorem lookup2_kind (k : Kind) (h : k.shortId = 0) : lookupArm v2Arms (ascii k.cmd) = some (some k) := by
  cases k <;> first | (exfalso; revert h; decide) | decide
theorem lookup2_empty (e : EKind) (h : e.shortId = 0) : lookupArm v2Arms (ascii e.cmd) = some none := by
  cases e <;> first | (exfalso; revert h; decide) | decide
theorem arms2_kind : ∀ a ∈ v2Arms, ∀ k, a.2 = some k → a.1 = k.cmd ∧ k.shortId = 0 := by decide +revert
theorem arms2_empty : ∀ a ∈ v2Arms, a.2 = none → ∃ e : EKind, a.1 = e.cmd ∧ e.shortId = 0 := by
  simp only [v2Arms, List.forall_mem_cons]
  refine ⟨?_, ?_, ?_, ?_, ?_, ?_, ?_⟩
  · intro h; cases h
  · exact fun _ => ⟨.verack, rfl, rfl⟩
  · exact fun _ => ⟨.sendHeaders, rfl, rfl⟩
  · exact fun _ => ⟨.getAddr, rfl, rfl⟩
  · exact fun _ => ⟨.wtxidRelay, rfl, rfl⟩
  · exact fun _ => ⟨.sendAddrV2, rfl, rfl⟩
  · simp

theorem lookup2_eq_kind {name : Bytes} {k : Kind} (h : lookupArm v2Arms name = some (some k)) :
    name = ascii k.cmd ∧ k.shortId = 0 := by
  obtain ⟨s, h1, h2⟩ := find_mem h
  obtain ⟨h3, h4⟩ := arms2_kind _ h1 k rfl
  exact ⟨by rw [← h2]; exact congrArg ascii h3, h4⟩

theorem lookup2_eq_empty {name : Bytes} (h : lookupArm v2Arms name = some none) :
    ∃ e : EKind, name = ascii e.cmd ∧ e.shortId = 0 := by
  obtain ⟨s, h1, h2⟩ := find_mem h
  obtain ⟨e, h3, h4⟩ := arms2_empty _ h1 rfl
  exact ⟨e, by rw [← h2]; exact congrArg ascii h3, h4⟩

theorem lookup2_none {c : Cmd} : lookupArm v2Arms c.asRef = none ↔ V2Unlisted c := by
  constructor
  · intro h
    refine ⟨fun k h0 hk => ?_, fun e h0 he => ?_⟩
    · rw [hk, lookup2_kind k h0] at h; cases h
    · rw [he, lookup2_empty e h0] at h; cases h
  · rintro ⟨h1, h2⟩
    match h : lookupArm v2Arms c.asRef with
    | none => rfl
    | some (some k) =>
      obtain ⟨h3, h4⟩ := lookup2_eq_kind h
      exact (h1 k h4 h3).elim
    | some none =>
      obtain ⟨e, he, h0⟩ := lookup2_eq_empty h
      exact (h2 e h0 he).elim

theorem short_kind (k : Kind) (h : k.shortId ≠ 0) : v2ShortSel k.shortId = .ok (.kind k) := by
  cases k <;> first | rfl | exact (h rfl).elim

theorem short_empty (e : EKind) (h : e.shortId ≠ 0) (c : Cmd) (hc : Cmd.tryFrom (ascii e.cmd) = some c) :
    v2ShortSel e.shortId = .ok (.empty c) := by
  cases e
  case memPool =>
    show (match Cmd.tryFrom (ascii "mempool") with | some c => Except.ok (Sel.empty c) | none => Except.error payloadErr) = _
    rw [show Cmd.tryFrom (ascii "mempool") = some c from hc]
  case filterClear =>
    show (match Cmd.tryFrom (ascii "filterclear") with | some c => Except.ok (Sel.empty c) | none => Except.error payloadErr) = _
    rw [show Cmd.tryFrom (ascii "filterclear") = some c from hc]
  all_goals exact (h rfl).elim

theorem short_arms : ∀ a ∈ v2ShortArms, (∀ k, a.2 = .inl k → k.shortId = a.1) ∧
    ∀ s, a.2 = .inr s → (a.1 = 7 ∧ s = EKind.filterClear.cmd) ∨ (a.1 = 15 ∧ s = EKind.memPool.cmd) := by
  simp only [v2ShortArms, List.forall_mem_cons]
  refine ⟨?_, ?_, ?_, ?_, ?_, ?_, ?_, ?_, ?_, ?_, ?_, ?_, ?_, ?_, ?_, ?_, ?_, ?_, ?_, ?_, ?_, ?_, ?_, ?_, ?_, ?_, ?_,
    ?_, ?_, ?_⟩
  all_goals first
    | exact ⟨fun k h => (by cases h; rfl), fun s h => by cases h⟩
    | simp [EKind.cmd]

theorem short_sel {id : UInt8} {sel : Sel} (h : v2ShortSel id = .ok sel) :
    (∃ k, sel = .kind k ∧ k.shortId = id) ∨ ∃ e c, sel = .empty c ∧ Cmd.tryFrom (ascii e.cmd) = some c ∧ EKind.shortId e = id := by
  unfold v2ShortSel at h
  cases hf : v2ShortArms.find? fun a => a.1 == id with
  | none => rw [hf] at h; cases h
  | some a =>
    have h1 : a.1 = id := by simpa using List.find?_some hf
    obtain ⟨ha, hb⟩ := short_arms a (List.mem_of_find?_eq_some hf)
    rw [hf] at h
    simp only [Option.map_some] at h
    cases h2 : a.2 with
    | inl k =>
      rw [h2] at h
      cases h
      exact .inl ⟨k, rfl, by rw [ha k h2, h1]⟩
    | inr s =>
      rw [h2] at h
      simp only at h
      cases hc : Cmd.tryFrom (ascii s) with
      | none => rw [hc] at h; cases h
      | some c =>
        rw [hc] at h
        cases h
        rcases hb s h2 with ⟨h3, h4⟩ | ⟨h3, h4⟩
        · exact .inr ⟨.filterClear, c, rfl, by rw [← h4]; exact hc, by rw [← h1, h3]; rfl⟩
        · exact .inr ⟨.memPool, c, rfl, by rw [← h4]; exact hc, by rw [← h1, h3]; rfl⟩

/-- First bytes of a v2 message: its short id, or 0 and the command. -/
def V2Head (m : Msg) (pre : Bytes) : Prop :=
  (m.shortId ≠ 0 ∧ pre = [m.shortId]) ∨ (m.shortId = 0 ∧ ∃ c, m.command = some c ∧ pre = 0 :: c.1)

/-- Payload bytes of a v2 message.  An `Unknown` message is always decoded with an empty payload. -/
def V2Form : Msg → Bytes → Prop
  | .known k p, w => k.Form p w
  | .empty _, w => w = []
  | .unknown c b, w => b = [] ∧ w = [] ∧ V2Unlisted c

theorem v2Rel_iff (bs : Bytes) (m : Msg) (rest : Bytes) : V2Rel bs m rest ↔
    ∃ pre w, V2Head m pre ∧ V2Form m w ∧ bs = pre ++ w ++ rest := by
  constructor
  · rintro ⟨id, body, rfl, h⟩
    replace h : if id = 0 then v2CmdRel body m rest else ∃ sel, v2ShortSel id = .ok sel ∧ SelRel sel body m rest := h
    by_cases h0 : id = 0
    · rw [if_pos h0] at h
      obtain ⟨c, body', rfl, w, hf, rfl⟩ := h
      unfold v2CmdSel at hf
      subst h0
      match hl : lookupArm v2Arms c.asRef with
      | some (some k) =>
        obtain ⟨hn, hs⟩ := lookup2_eq_kind hl
        rw [hl] at hf
        obtain ⟨p, rfl, hf⟩ := hf
        exact ⟨0 :: c.1, w, .inr ⟨hs, c, (tryFrom_iff _ (name_kind k) c).mpr hn, rfl⟩, hf, by simp⟩
      | some none =>
        obtain ⟨e, hn, hs⟩ := lookup2_eq_empty hl
        rw [hl] at hf
        obtain ⟨e', h1, rfl, rfl⟩ := hf
        rw [hn, emptyOf_name] at h1
        cases h1
        exact ⟨0 :: c.1, [], .inr ⟨hs, c, (tryFrom_iff _ (name_empty e) c).mpr hn, rfl⟩, rfl, by simp⟩
      | none =>
        rw [hl] at hf
        obtain ⟨rfl, hw⟩ := hf
        have hw' := List.length_eq_zero_iff.mp hw
        subst hw'
        exact ⟨0 :: c.1, [], .inr ⟨rfl, c, rfl, rfl⟩, ⟨rfl, rfl, lookup2_none.mp hl⟩, by simp⟩
    · rw [if_neg h0] at h
      obtain ⟨sel, hs, w, hf, rfl⟩ := h
      rcases short_sel hs with ⟨k, rfl, rfl⟩ | ⟨e, c, rfl, hc, rfl⟩
      · obtain ⟨p, rfl, hf⟩ := hf
        exact ⟨[k.shortId], w, .inl ⟨h0, rfl⟩, hf, by simp⟩
      · obtain ⟨e', h1, rfl, rfl⟩ := hf
        rw [(tryFrom_iff _ (name_empty e) c).mp hc, emptyOf_name] at h1
        cases h1
        exact ⟨[e.shortId], [], .inl ⟨h0, rfl⟩, rfl, by simp⟩
  · rintro ⟨pre, w, h1, h2, rfl⟩
    rcases h1 with ⟨h0, rfl⟩ | ⟨h0, c, hc, rfl⟩
    · refine ⟨m.shortId, w ++ rest, by simp, ?_⟩
      unfold v2AfterShort
      rw [if_neg (by simpa using h0)]
      simp only [List.headD_cons]
      match m with
      | .known k p => exact ⟨.kind k, short_kind k h0, w, ⟨p, rfl, h2⟩, rfl⟩
      | .empty e =>
        obtain ⟨c, hc⟩ := command_total (.empty e)
        refine ⟨.empty c, short_empty e h0 c hc, w, ⟨e, ?_, rfl, h2⟩, rfl⟩
        rw [(tryFrom_iff _ (name_empty e) c).mp hc, emptyOf_name]
      | .unknown c b => exact (h0 rfl).elim
    · refine ⟨0, c.1 ++ (w ++ rest), by simp, ?_⟩
      unfold v2AfterShort
      rw [if_pos (by simp)]
      refine ⟨c, w ++ rest, rfl, w, ?_, rfl⟩
      unfold v2CmdSel
      match m with
      | .known k p =>
        rw [(tryFrom_iff _ (name_kind k) c).mp hc, lookup2_kind k h0]
        exact ⟨p, rfl, h2⟩
      | .empty e =>
        have hn := (tryFrom_iff _ (name_empty e) c).mp hc
        rw [hn, lookup2_empty e h0]
        exact ⟨e, by rw [hn, emptyOf_name], rfl, h2⟩
      | .unknown c' b =>
        cases hc
        obtain ⟨rfl, rfl, hu⟩ := h2
        rw [lookup2_none.mpr hu]
        exact ⟨rfl, rfl⟩

/-- **Decoding a v2 message**, however the bytes are split: short id (or 0 and the command) and payload bytes that
stand for the message. -/
theorem C53_v2_decode (cs : List Bytes) (m : Msg) (rest : Bytes) :
    v2Dec.feedChunks v2Dec.init cs = .ok m rest ↔
    ∃ pre w, V2Head m pre ∧ V2Form m w ∧ cs.flatten = pre ++ w ++ rest := by
  obtain ⟨inv, den, L, hi, hd⟩ := v2_accepts
  rw [L.feedChunks_ok cs _ hi, hd, v2Rel_iff]

/-- Messages that survive version 2: payload within the decoder's limits; `Unknown` only without payload. -/
def V2Ok : Msg → Prop
  | .known k p => k.Ok p
  | .empty _ => True
  | .unknown c b => b = [] ∧ V2Unlisted c

theorem drain_short : ∀ (n : Nat) (s : v2ShortEnc.S), v2Enc.drain n (.shortId s) = v2ShortEnc.drain n s
  | 0, _ => rfl
  | n + 1, s => by
    have ih := drain_short n (v2ShortEnc.adv s).1
    have h1 : v2Enc.adv (.shortId s) = (.shortId (v2ShortEnc.adv s).1, (v2ShortEnc.adv s).2) := rfl
    have h2 : v2Enc.cur (.shortId s) = v2ShortEnc.cur s := rfl
    simp only [Enc.drain]
    rw [h1, h2]
    revert ih
    generalize v2ShortEnc.adv s = r
    obtain ⟨s', b⟩ := r
    intro ih
    cases b
    · rfl
    · simp only [ih]

theorem drain_full : ∀ (n : Nat) (s : v2FullEnc.S), v2Enc.drain n (.full s) = v2FullEnc.drain n s
  | 0, _ => rfl
  | n + 1, s => by
    have ih := drain_full n (v2FullEnc.adv s).1
    have h1 : v2Enc.adv (.full s) = (.full (v2FullEnc.adv s).1, (v2FullEnc.adv s).2) := rfl
    have h2 : v2Enc.cur (.full s) = v2FullEnc.cur s := rfl
    simp only [Enc.drain]
    rw [h1, h2]
    revert ih
    generalize v2FullEnc.adv s = r
    obtain ⟨s', b⟩ := r
    intro ih
    cases b
    · rfl
    · simp only [ih]

/-- The v2 encoder yields head and payload. -/
theorem v2_drains (m : Msg) (ht : m.Typed) : ∃ e pre, m.v2Encoder = some e ∧ V2Head m pre ∧
    Drains v2Enc e (pre ++ m.bytes) := by
  unfold Msg.v2Encoder
  by_cases h0 : m.shortId = 0
  · obtain ⟨c, hc⟩ := command_total m
    rw [if_pos h0, hc]
    refine ⟨_, 0 :: c.1, rfl, .inr ⟨h0, c, hc, rfl⟩, ?_⟩
    obtain ⟨n, hn⟩ : Drains v2FullEnc (0, [m.shortId], (0, c.1, m.encoder, ()), ()) (0 :: c.1 ++ m.bytes) :=
      dtuple (dcons (C06_bytes _) (dcons (dtuple (es := [bytesEnc, msgEnc]) (dcons (C06_bytes _)
        (dcons (msg_drains m ht) dnil)) (by simp) rfl) dnil)) (by simp) (by simp [h0])
    exact ⟨n, (drain_full n _).trans hn⟩
  · rw [if_neg h0]
    refine ⟨_, [m.shortId], rfl, .inl ⟨h0, rfl⟩, ?_⟩
    obtain ⟨n, hn⟩ : Drains v2ShortEnc (0, [m.shortId], m.encoder, ()) ([m.shortId] ++ m.bytes) :=
      dtuple (dcons (C06_bytes _) (dcons (msg_drains m ht) dnil)) (by simp) (by simp)
    exact ⟨n, (drain_short n _).trans hn⟩

/-- **Round trip in version 2.** -/
theorem C53_v2_round_trip (m : Msg) (hm : V2Ok m) : ∃ e w, m.v2Encoder = some e ∧ Drains v2Enc e w ∧
    v2Dec.decodeSlice w = .ok m ∧ ∀ rest, v2Dec.decodeSliceUnbounded (w ++ rest) = .ok m rest := by
  have ht : m.Typed := by
    match m with
    | .known k p => exact ok_typed k p hm
    | .empty _ => trivial
    | .unknown c b => trivial
  have hf : V2Form m m.bytes := by
    match m with
    | .known k p => exact form_bytes k p hm
    | .empty _ => rfl
    | .unknown c b => exact ⟨hm.1, hm.1, hm.2⟩
  obtain ⟨e, pre, h1, h2, h3⟩ := v2_drains m ht
  obtain ⟨inv, den, L, hi, hd⟩ := v2_accepts
  refine ⟨e, _, h1, h3, ?_, fun rest => ?_⟩
  · rw [L.decodeSlice_ok hi, hd, v2Rel_iff]
    exact ⟨pre, m.bytes, h2, hf, by simp⟩
  · rw [L.decodeSliceUnbounded_ok hi, hd, v2Rel_iff]
    exact ⟨pre, m.bytes, h2, hf, rfl⟩

/-- No two kinds of message share a short id. -/
theorem C53_short_ids (m m' : Msg) (h : m.shortId = m'.shortId) (h0 : m.shortId ≠ 0) : m.command = m'.command := by
  have hk : ∀ k k' : Kind, k.shortId = k'.shortId → k.shortId ≠ 0 → k = k' := by
    intro k k' h h0
    have h1 := short_kind k h0
    rw [h, short_kind k' (h ▸ h0)] at h1
    cases h1; rfl
  have hke : ∀ (k : Kind) (e : EKind), k.shortId = e.shortId → k.shortId ≠ 0 → False := by
    intro k e h h0
    obtain ⟨c, hc⟩ := command_total (.empty e)
    have h1 := short_kind k h0
    rw [h, short_empty e (h ▸ h0) c hc] at h1
    cases h1
  have he : ∀ e e' : EKind, e.shortId = e'.shortId → e.shortId ≠ 0 → e = e' := by
    intro e e'
    cases e <;> cases e' <;> decide
  match m, m' with
  | .known k p, .known k' p' =>
    have := hk k k' h h0
    subst this; rfl
  | .known k p, .empty e => exact (hke k e h h0).elim
  | .empty e, .known k p =>
    have h' : e.shortId = k.shortId := h
    exact (hke k e h'.symm (h' ▸ (h0 : e.shortId ≠ 0))).elim
  | .empty e, .empty e' =>
    have := he e e' h h0
    subst this; rfl
  | .unknown _ _, _ => exact (h0 rfl).elim
  | .known k p, .unknown _ _ => exact (h0 h).elim
  | .empty e, .unknown _ _ => exact (h0 h).elim

/-! ### What does not round-trip -/

def fooCmd : Cmd := ⟨ascii "foo" ++ List.replicate 9 0, by decide⟩
def pingCmd : Cmd := ⟨ascii "ping" ++ List.replicate 8 0, by decide⟩

theorem foo_unlisted : Unlisted fooCmd := by
  have h : fooCmd.asRef = ascii "foo" := by decide
  refine ⟨fun k => ?_, fun e => ?_⟩
  · rw [h]; cases k <;> decide
  · rw [h]; cases e <;> decide

/-- Version 2 loses the payload of every `Unknown` message: decoding its encoding gives the message without its
payload and leaves the payload behind as the start of the next message. -/
theorem C53_v2_unknown_payload_lost (c : Cmd) (hc : V2Unlisted c) (b : Bytes) (hb : b ≠ []) :
    ∃ e w, (Msg.unknown c b).v2Encoder = some e ∧ Drains v2Enc e w ∧
      v2Dec.decodeSliceUnbounded w = .ok (.unknown c []) b ∧ ∀ m, v2Dec.decodeSlice w ≠ .ok m := by
  obtain ⟨e, pre, h1, h2, h3⟩ := v2_drains (.unknown c b) trivial
  obtain ⟨inv, den, L, hi, hd⟩ := v2_accepts
  have key : v2Dec.decodeSliceUnbounded (pre ++ b) = .ok (.unknown c []) b := by
    rw [L.decodeSliceUnbounded_ok hi, hd, v2Rel_iff]
    exact ⟨pre, [], h2, ⟨rfl, rfl, hc⟩, by simp⟩
  refine ⟨e, _, h1, h3, key, fun m hm => ?_⟩
  have h4 : v2Dec.decodeSliceUnbounded (pre ++ b) = .ok m [] := by
    rw [L.decodeSliceUnbounded_ok hi]
    exact (L.decodeSlice_ok hi _ _).mp hm
  rw [key] at h4
  cases h4
  exact hb rfl

example : V2Unlisted fooCmd := ⟨fun k _ => foo_unlisted.1 k, fun e _ => foo_unlisted.2 e⟩

/-- An `Unknown` message under a listed name is never the result of decoding a v1 frame. -/
theorem C53_unknown_listed (H : Bytes → Arr 32) (c : Cmd) (hc : ¬ Unlisted c) (b : Bytes) (cs : List Bytes) (h : V1Header)
    (rest : Bytes) : (v1Dec H).feedChunks (v1Dec H).init cs ≠ .ok ⟨h, .unknown c b⟩ rest := by
  intro hx
  obtain ⟨_, _, w, _, _, h3, _⟩ := (C53_v1_decode H cs _ rest).mp hx
  exact hc h3.2

example : ¬ Unlisted pingCmd := fun h => h.1 .ping (by decide)

/-- A payload of more than 5,000,000 bytes can be framed, but the frame is rejected. -/
theorem C53_too_long (H : Bytes → Arr 32) (magic : Arr 4) (p : Msg) (ht : p.Typed) (hl : 5000000 < p.bytes.length)
    (hl' : p.bytes.length < 2 ^ 32) : ∃ m w, V1New H magic p m ∧ Drains v1Enc m.encoder w ∧
      ∀ cs, cs.flatten = w → ∃ e, (v1Dec H).feedChunks (v1Dec H).init cs = .err e := by
  obtain ⟨c, hc⟩ := command_total p
  refine ⟨_, _, (v1New_iff ht).mpr ⟨hl', c, hc, rfl⟩, v1_drains _ ht, fun cs hcs => ?_⟩
  refine C53_v1_rejects H _ _ (.inl ?_) cs hcs
  have h9 : (UInt32.ofNat p.bytes.length).toNat = p.bytes.length := by
    rw [UInt32.toNat_ofNat']; exact Nat.mod_eq_of_lt hl'
  simp only [h9]; omega

example : ∃ b : Bytes, (Msg.unknown fooCmd b).Typed ∧ 5000000 < (Msg.unknown fooCmd b).bytes.length ∧
    (Msg.unknown fooCmd b).bytes.length < 2 ^ 32 :=
  ⟨List.replicate 5000001 0, trivial, by show 5000000 < (List.replicate 5000001 (0 : UInt8)).length; rw [List.length_replicate]; decide,
    by show (List.replicate 5000001 (0 : UInt8)).length < _; rw [List.length_replicate]; decide⟩

/-- A fee rate that is not a whole number of satoshi per kvB is rounded up on the way; one above 21 million bitcoin
per kvB is refused on arrival. -/
theorem C53_fee_filter_lossy : ∃ w, Drains bytesEnc (feeFilterBytes 1) w ∧ feeFilterDec.decodeSlice w = .ok 1000 := by
  obtain ⟨P, hl, hw⟩ := feeFilter_dw
  refine ⟨_, C06_bytes _, ((Wire.dec hl hw).1 _ _).mpr ⟨⟨by decide, by decide⟩, by decide⟩⟩

/-- Two wire forms of one `version` message: the relay byte may be any non-zero byte. -/
theorem C53_version_relay (v : VersionMsg) (hv : v.userAgent.1.length ≤ 4000000) (hr : v.relay = true) :
    ∃ w w', w ≠ w' ∧ versionDec.decodeSlice w = .ok v ∧ versionDec.decodeSlice w' = .ok v := by
  obtain ⟨P, ⟨inv, den, L, hP⟩, h⟩ := version_df
  have key : ∀ r : UInt8, r ≠ 0 → versionDec.decodeSlice (versionForm v r) = .ok v := by
    intro r h0
    rw [L.decodeSlice_ok_iff, hP, h]
    exact ⟨_, ⟨hv, r, by rw [hr]; simp [h0], rfl⟩, by simp⟩
  refine ⟨versionForm v 1, versionForm v 2, ?_, key 1 (by decide), key 2 (by decide)⟩
  intro he
  have := congrArg List.getLast? he
  simp [versionForm] at this

end P2p
end Btc
