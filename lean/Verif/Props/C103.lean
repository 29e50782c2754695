import Verif.Primitives.HexText
import Verif.Props.C13_C17
import Verif.Props.C18_C19
/-!
# C103: hexadecimal text of transactions, blocks, headers, witnesses and scripts
-/
namespace Btc
namespace HexText

/-- Hexadecimal digits of a string, two a byte, most significant first: the specification. -/
def hexDigits : List Char := "0123456789abcdef".toList
def hexDigitsUpper : List Char := "0123456789ABCDEF".toList
def Digits (c : Case) (bs : Bytes) : List Char :=
  let ds := match c with
    | .lower => hexDigits
    | .upper => hexDigitsUpper
  (bs.map fun b => [ds.getD (b.toNat / 16) '?', ds.getD (b.toNat % 16) '?']).flatten

/-! ### Lemmas -/

theorem digit_eq (c : Case) (n : Nat) (h : n < 16) : digit c n = (match c with
    | .lower => hexDigits
    | .upper => hexDigitsUpper).getD n '?' := by
  have key : ∀ n : Fin 16, ∀ c, digit c n.1 = (match c with
    | .lower => hexDigits
    | .upper => hexDigitsUpper).getD n.1 '?' := by
    intro n c
    cases c <;> revert n <;> decide +kernel
  exact key ⟨n, h⟩ c

theorem Digits_cons (c : Case) (b : UInt8) (bs : Bytes) : Digits c (b :: bs) = (pair c b).1 :: (pair c b).2 :: Digits c bs := by
  have := b.toNat_lt
  simp only [Digits, pair, List.map_cons, List.flatten_cons, List.cons_append, List.nil_append]
  rw [digit_eq c _ (by omega), digit_eq c _ (by omega)]

theorem Digits_length (c : Case) (bs : Bytes) : (Digits c bs).length = 2 * bs.length := by
  induction bs with
  | nil => rfl
  | cons b bs ih => rw [Digits_cons, List.length_cons, List.length_cons, ih, List.length_cons]; omega

theorem digitLoop_eq (c : Case) : ∀ (bs : Bytes) (r : Nat), digitLoop c r bs = (Digits c bs).take r
  | [], r => by simp [digitLoop, Digits]
  | b :: bs, r => by
    rw [Digits_cons]
    unfold digitLoop
    match r with
    | 0 => simp
    | 1 => simp
    | r + 2 => simp [digitLoop_eq c bs r]

theorem flatMap_digits (c : Case) (bs : Bytes) : (bs.flatMap fun b => [(pair c b).1, (pair c b).2]) = Digits c bs := by
  induction bs with
  | nil => rfl
  | cons b bs ih => rw [Digits_cons, List.flatMap_cons, ih]; rfl

theorem hexVal_lt (c : Char) (v : Nat) (h : hexVal c = some v) : v < 16 := by
  simp only [hexVal] at h
  (repeat' split at h) <;> first | cases h; omega | cases h

theorem hexVal_iff (c : Char) (v : Nat) : hexVal c = some v ↔ v < 16 ∧ c.toLower = digit .lower v := by
  have small : ∀ n : Fin 128, ∀ v : Fin 16, hexVal (Char.ofNat n.1) = some v.1 ↔ (Char.ofNat n.1).toLower = digit .lower v.1 := by
    decide +kernel
  have dsmall : ∀ v : Fin 16, (digit .lower v.1).toNat < 128 := by decide +kernel
  by_cases hc : c.toNat < 128
  · have := small ⟨c.toNat, hc⟩
    simp only [Char.ofNat_toNat] at this
    constructor
    · intro h
      have hv := hexVal_lt c v h
      exact ⟨hv, (this ⟨v, hv⟩).1 h⟩
    · rintro ⟨hv, h⟩
      exact (this ⟨v, hv⟩).2 h
  · constructor
    · intro h
      simp only [hexVal] at h
      (repeat' split at h) <;> first | omega | cases h
    · rintro ⟨hv, h⟩
      exfalso
      have hl : c.toLower = c := by
        unfold Char.toLower
        rw [dif_neg]
        rintro ⟨_, h2⟩
        have : c.val.toNat ≤ 90 := h2
        exact hc (by rw [Char.toNat]; omega)
      have := dsmall ⟨v, hv⟩
      rw [← h, hl] at this
      exact hc this

theorem hexPair_iff (a b : Char) (x : UInt8) :
    hexPair a b = some x ↔ a.toLower = (pair .lower x).1 ∧ b.toLower = (pair .lower x).2 := by
  have hx := x.toNat_lt
  simp only [hexPair, pair]
  constructor
  · intro h
    split at h
    · next u v hu hv =>
      obtain ⟨h1, h2⟩ := (hexVal_iff a u).1 hu
      obtain ⟨h3, h4⟩ := (hexVal_iff b v).1 hv
      cases h
      rw [UInt8.toNat_ofNat_of_lt' (by simp [UInt8.size]; omega)]
      rw [show (16 * u + v) / 16 = u by omega, show (16 * u + v) % 16 = v by omega]
      exact ⟨h2, h4⟩
    · cases h
  · rintro ⟨h1, h2⟩
    rw [(hexVal_iff a _).2 ⟨by omega, h1⟩, (hexVal_iff b _).2 ⟨by omega, h2⟩]
    simp only [Option.some.injEq]
    apply UInt8.toNat_inj.1
    rw [UInt8.toNat_ofNat_of_lt' (by simp [UInt8.size]; omega)]
    omega

theorem hexDecode_iff : ∀ (s : List Char) (bs : Bytes), hexDecode s = some bs ↔ s.map Char.toLower = Digits .lower bs
  | [], bs => by
    cases bs with
    | nil => simp [hexDecode, Digits]
    | cons b bs => simp [hexDecode, Digits_cons]
  | [a], bs => by
    cases bs with
    | nil => simp [hexDecode, Digits]
    | cons b bs => simp [hexDecode, Digits_cons]
  | a :: b :: s, bs => by
    cases bs with
    | nil =>
      simp only [hexDecode]
      constructor
      · intro h; split at h <;> simp at h
      · intro h; simp [Digits] at h
    | cons x bs =>
      rw [Digits_cons]
      simp only [hexDecode, List.map_cons, List.cons.injEq]
      constructor
      · intro h
        split at h
        · next hp hd =>
          simp only [Option.some.injEq, List.cons.injEq] at h
          obtain ⟨rfl, rfl⟩ := h
          exact ⟨((hexPair_iff a b _).1 hp).1, ((hexPair_iff a b _).1 hp).2, (hexDecode_iff s _).1 hd⟩
        · cases h
      · rintro ⟨h1, h2, h3⟩
        rw [(hexPair_iff a b x).2 ⟨h1, h2⟩, (hexDecode_iff s bs).2 h3]

theorem Digits_toLower (c : Case) (bs : Bytes) : (Digits c bs).map Char.toLower = Digits .lower bs := by
  have key : ∀ n : Fin 16, ∀ c, (digit c n.1).toLower = digit .lower n.1 := by
    intro n c
    cases c <;> revert n <;> decide +kernel
  induction bs with
  | nil => rfl
  | cons b bs ih =>
    have := b.toNat_lt
    rw [Digits_cons, Digits_cons, List.map_cons, List.map_cons, ih]
    simp only [pair]
    rw [key ⟨b.toNat / 16, by omega⟩, key ⟨b.toNat % 16, by omega⟩]

theorem Digits_inj (bs bs' : Bytes) (h : Digits .lower bs = Digits .lower bs') : bs = bs' := by
  have h1 := (hexDecode_iff (Digits .lower bs) bs).2 (Digits_toLower .lower bs)
  have h2 := (hexDecode_iff (Digits .lower bs) bs').2 (by rw [Digits_toLower]; exact h)
  rw [h1] at h2
  exact Option.some.inj h2

/-! ### Writing -/

/-- The prefix of the `#` flag. -/
def altPrefix (c : Case) : List Char := match c with
  | .lower => "0x".toList
  | .upper => "0X".toList

/-- What `{}`, `{:x}` and `{:X}` write with any options: the digits of the encoding, truncated to the precision less the
prefix, after the prefix of `#`, between fill characters.  The fill is what the width exceeds the untruncated text by:
behind it without an alignment or with `<`, before it with `>`, and with `^` half of it rounded down before. -/
theorem C103_format {e : Enc} {s : e.S} {bs : Bytes} (h : Drains e s bs) : ∃ f, ∀ fuel ≥ f, ∀ (c : Case) (o : Opts),
    ∃ l r, fmtHex e fuel s c o = some (List.replicate l o.fill ++
        ((if o.alternate then altPrefix c else []) ++ (match o.precision with
          | none => Digits c bs
          | some p => (Digits c bs).take (p - if o.alternate then 2 else 0))) ++ List.replicate r o.fill) ∧
      l + r = o.width.getD 0 - (2 * bs.length + if o.alternate then 2 else 0) ∧
      ((o.align = none ∨ o.align = some .left) → l = 0) ∧ (o.align = some .right → r = 0) ∧
      (o.align = some .center → l ≤ r ∧ r ≤ l + 1) := by
  obtain ⟨f, hf⟩ := C06_byte_iter h
  refine ⟨f, fun fuel hfuel c o => ?_⟩
  unfold fmtHex
  rw [hf fuel hfuel]
  obtain ⟨width, precision, align, fill, alternate⟩ := o
  simp only [Option.map_some, digitLoop_eq]
  have htot : width.getD (bs.length * 2 + if alternate = true then 2 else 0) - (bs.length * 2 + if alternate = true then 2 else 0) =
      width.getD 0 - (2 * bs.length + if alternate = true then 2 else 0) := by
    cases width with
    | none => simp
    | some w => simp only [Option.getD_some]; omega
  rw [htot]
  generalize width.getD 0 - (2 * bs.length + if alternate = true then 2 else 0) = d
  have htake : (Digits c bs).take (truncWidth precision (bs.length * 2) (if alternate = true then 2 else 0)) = (match precision with
      | none => Digits c bs
      | some p => (Digits c bs).take (p - if alternate = true then 2 else 0)) := by
    cases precision with
    | none =>
      simp only [truncWidth]
      rw [show bs.length * 2 = (Digits c bs).length by rw [Digits_length]; omega]
      exact List.take_length
    | some v => rfl
  rw [htake]
  have hpre : altChars c = altPrefix c := by cases c <;> rfl
  rw [hpre]
  rcases align with _ | al
  · exact ⟨0, d, by simp [leftPad], by omega, by simp, by simp, by simp⟩
  · cases al with
    | left => exact ⟨0, d, by simp [leftPad], by omega, by simp, by simp, by simp⟩
    | right => exact ⟨d, 0, by simp [leftPad], by omega, by simp, by simp, by simp⟩
    | center => exact ⟨d / 2, d - d / 2, by simp [leftPad], by omega, by simp, by simp, fun _ => by omega⟩

/-- Without options all writers give the digits of the encoding; with a width (and no precision) the text has that many
characters, or its own length if that is more. -/
theorem C103_plain {e : Enc} {s : e.S} {bs : Bytes} (h : Drains e s bs) : ∃ f, ∀ fuel ≥ f,
    display e fuel s {} = some (Digits .lower bs) ∧
    (∀ c, fmtHex e fuel s c {} = some (Digits c bs) ∧ drainToHex e fuel s c = some (Digits c bs)) ∧
    ∀ (c : Case) (o : Opts) (w : Nat), o.precision = none → o.width = some w →
      (fmtHex e fuel s c o).map List.length = some (max w (2 * bs.length + if o.alternate then 2 else 0)) := by
  obtain ⟨f1, h1⟩ := C103_format h
  obtain ⟨f2, h2⟩ := C06_byte_iter h
  refine ⟨max f1 f2, fun fuel hfuel => ?_⟩
  have plain : ∀ c, fmtHex e fuel s c {} = some (Digits c bs) := by
    intro c
    obtain ⟨l, r, h3, h4, _⟩ := h1 fuel (by omega) c {}
    have : l = 0 ∧ r = 0 := by simp at h4; omega
    rw [h3, this.1, this.2]
    simp
  refine ⟨plain .lower, fun c => ⟨plain c, ?_⟩, fun c o w hp hw => ?_⟩
  · unfold drainToHex
    rw [h2 fuel (by omega), Option.map_some, flatMap_digits]
  · obtain ⟨l, r, h3, h4, _⟩ := h1 fuel (by omega) c o
    rw [h3, hp]
    rw [hw] at h4
    have ha : (altPrefix c).length = 2 := by cases c <;> rfl
    simp only [Option.getD_some] at h4
    simp only [Option.map_some, List.length_append, List.length_replicate, Digits_length, Option.some.injEq]
    cases hal : o.alternate <;> rw [hal] at h4 <;> simp [ha] at h4 ⊢ <;> omega

/-- With a precision the width is not kept to: fill is counted from the whole text, not from what is written. -/
theorem C103_width_precision : ∃ (h : Header) (o : Opts) (f : Nat), ∀ fuel ≥ f, ∃ t, display headerEnc fuel h.encoder o = some t ∧
    o.width = some 20 ∧ o.precision = some 4 ∧ t.length = 4 := by
  obtain ⟨f, hf⟩ := C103_format (headerEnc_drains sampleHeader)
  refine ⟨sampleHeader, { width := some 20, precision := some 4 }, f, fun fuel hfuel => ?_⟩
  obtain ⟨l, r, h1, h2, _⟩ := hf fuel hfuel .lower { width := some 20, precision := some 4 }
  refine ⟨_, h1, rfl, rfl, ?_⟩
  simp only [headerBytes_length, Option.getD_some] at h2
  simp only [List.length_append, List.length_replicate, List.length_take, Digits_length, headerBytes_length]
  simp at h2 ⊢
  omega

/-! ### Reading -/

theorem decodeHex_iff {α : Type} {d : Dec α} (hd : IsLawful d) (s : List Char) (a : α) :
    d.decodeHex s = .ok a ↔ ∃ bs, s.map Char.toLower = Digits .lower bs ∧ d.decodeSlice bs = .ok a := by
  rw [C04_hex hd 4096 (by omega)]
  simp only [hexDecode_iff]

/-- The texts read as a transaction are, up to the case of letters, the digits of its encoding; so the texts written in
either case are read back. -/
theorem C103_transaction (s : List Char) (tx : Tx) :
    (parseTx s = .ok tx ↔ Decodable tx ∧ ∃ bs, Drains txEnc tx.encoder bs ∧ s.map Char.toLower = Digits .lower bs) ∧
    (Decodable tx → ∃ f, ∀ fuel ≥ f, ∀ c, ∃ t, fmtHex txEnc fuel tx.encoder c {} = some t ∧ parseTx t = .ok tx) := by
  have key : ∀ s, parseTx s = .ok tx ↔ Decodable tx ∧ ∃ bs, Drains txEnc tx.encoder bs ∧ s.map Char.toLower = Digits .lower bs := by
    intro s
    unfold parseTx
    rw [decodeHex_iff txDec_isLawful]
    constructor
    · rintro ⟨bs, h1, h2⟩
      exact ⟨C10_sane bs tx h2, bs, C09_canonical bs tx h2, h1⟩
    · rintro ⟨h1, bs, h2, h3⟩
      obtain ⟨bs', h4, h5, _⟩ := C08_roundtrip tx h1
      exact ⟨bs, h3, by rw [h2.det h4]; exact h5⟩
  refine ⟨key s, fun hd => ?_⟩
  obtain ⟨f, hf⟩ := C103_plain (txEnc_drains tx)
  exact ⟨f, fun fuel h c => ⟨_, ((hf fuel h).2.1 c).1, (key _).2 ⟨hd, _, txEnc_drains tx, Digits_toLower c _⟩⟩⟩

/-- The same for blocks. -/
theorem C103_block (s : List Char) (b : Block) :
    (parseBlock s = .ok b ↔ (b.txs.length ≤ 4000000 ∧ ∀ tx ∈ b.txs, Decodable tx) ∧
      ∃ bs, Drains blockEnc b.encoder bs ∧ s.map Char.toLower = Digits .lower bs) ∧
    (b.txs.length ≤ 4000000 → (∀ tx ∈ b.txs, Decodable tx) → ∃ f, ∀ fuel ≥ f, ∀ c, ∃ t,
      fmtHex blockEnc fuel b.encoder c {} = some t ∧ parseBlock t = .ok b) := by
  have key : ∀ s, parseBlock s = .ok b ↔ (b.txs.length ≤ 4000000 ∧ ∀ tx ∈ b.txs, Decodable tx) ∧
      ∃ bs, Drains blockEnc b.encoder bs ∧ s.map Char.toLower = Digits .lower bs := by
    intro s
    unfold parseBlock
    rw [decodeHex_iff ⟨_, blockDec_lawful⟩]
    constructor
    · rintro ⟨bs, h1, h2⟩
      exact ⟨(C17_canonical bs b h2).2, bs, (C17_canonical bs b h2).1, h1⟩
    · rintro ⟨⟨h0, h1⟩, bs, h2, h3⟩
      obtain ⟨bs', h4, h5, _⟩ := C17_roundtrip b h0 h1
      exact ⟨bs, h3, by rw [h2.det h4]; exact h5⟩
  refine ⟨key s, fun hn hd => ?_⟩
  obtain ⟨f, hf⟩ := C103_plain (blockEnc_drains b)
  exact ⟨f, fun fuel h c => ⟨_, ((hf fuel h).2.1 c).1, (key _).2 ⟨⟨hn, hd⟩, _, blockEnc_drains b, Digits_toLower c _⟩⟩⟩

/-- The same for headers; every text of 160 hexadecimal digits is a header. -/
theorem C103_header (s : List Char) :
    (∀ h, parseHeader s = .ok h ↔ ∃ bs, Drains headerEnc h.encoder bs ∧ s.map Char.toLower = Digits .lower bs) ∧
    (∀ h : Header, ∃ f, ∀ fuel ≥ f, ∀ c, ∃ t, fmtHex headerEnc fuel h.encoder c {} = some t ∧ t.length = 160 ∧ parseHeader t = .ok h) ∧
    ((∃ h, parseHeader s = .ok h) ↔ s.length = 160 ∧ ∀ x ∈ s, x.toLower ∈ hexDigits) := by
  have key : ∀ s h, parseHeader s = .ok h ↔ ∃ bs, Drains headerEnc h.encoder bs ∧ s.map Char.toLower = Digits .lower bs := by
    intro s h
    unfold parseHeader
    rw [decodeHex_iff ⟨_, headerDec_lawful⟩]
    constructor
    · rintro ⟨bs, h1, h2⟩
      rw [headerDec_ok_iff] at h2
      exact ⟨bs, h2 ▸ headerEnc_drains h, h1⟩
    · rintro ⟨bs, h2, h3⟩
      exact ⟨bs, h3, (headerDec_ok_iff _ _).2 (h2.det (headerEnc_drains h))⟩
  refine ⟨key s, fun h => ?_, ?_⟩
  · obtain ⟨f, hf⟩ := C103_plain (headerEnc_drains h)
    exact ⟨f, fun fuel hfu c => ⟨_, ((hf fuel hfu).2.1 c).1, by rw [Digits_length, headerBytes_length],
      (key _ _).2 ⟨_, headerEnc_drains h, Digits_toLower c _⟩⟩⟩
  · constructor
    · rintro ⟨h, hh⟩
      obtain ⟨bs, h1, h2⟩ := (key s h).1 hh
      have hb : bs = headerBytes h := h1.det (headerEnc_drains h)
      have hl := congrArg List.length h2
      rw [Digits_length, List.length_map, hb, headerBytes_length] at hl
      refine ⟨hl, fun x hx => ?_⟩
      have hm : x.toLower ∈ Digits .lower bs := h2 ▸ List.mem_map.2 ⟨x, hx, rfl⟩
      simp only [Digits, List.mem_flatten, List.mem_map] at hm
      obtain ⟨l, ⟨b, _, rfl⟩, hm⟩ := hm
      have hd : ∀ n, n < 16 → hexDigits.getD n '?' ∈ hexDigits := by
        intro n hn
        have : n < hexDigits.length := by rw [show hexDigits.length = 16 by decide]; exact hn
        rw [List.getD_eq_getElem?_getD, List.getElem?_eq_getElem this]
        exact List.getElem_mem _
      have := b.toNat_lt
      simp only [List.mem_cons, List.not_mem_nil, or_false] at hm
      rcases hm with hm | hm <;> rw [hm] <;> exact hd _ (by omega)
    · rintro ⟨hl, hx⟩
      have dig : ∀ x : Char, x.toLower ∈ hexDigits → ∃ v, hexVal x = some v := by
        intro x hx
        obtain ⟨i, hi, he⟩ := List.getElem_of_mem hx
        have hi' : i < 16 := by rw [show hexDigits.length = 16 by decide] at hi; exact hi
        refine ⟨i, (hexVal_iff x i).2 ⟨hi', ?_⟩⟩
        rw [digit_eq .lower i hi', List.getD_eq_getElem?_getD, List.getElem?_eq_getElem hi, ← he]
        rfl
      have dec : ∀ (n : Nat) (s : List Char), s.length = 2 * n → (∀ x ∈ s, x.toLower ∈ hexDigits) →
          ∃ bs, hexDecode s = some bs ∧ bs.length = n := by
        intro n
        induction n with
        | zero =>
          intro s h _
          cases s with
          | nil => exact ⟨[], rfl, rfl⟩
          | cons => simp at h
        | succ n ih =>
          intro s h hx
          match s, h, hx with
          | a :: b :: s, h, hx =>
            obtain ⟨bs, h1, h2⟩ := ih s (by simp at h; omega) (fun x hxs => hx x (by simp [hxs]))
            obtain ⟨u, hu⟩ := dig a (hx a (by simp))
            obtain ⟨v, hv⟩ := dig b (hx b (by simp))
            exact ⟨UInt8.ofNat (16 * u + v) :: bs, by simp [hexDecode, hexPair, hu, hv, h1], by simp [h2]⟩
          | [a], h, hx => simp at h; omega
          | [], h, hx => simp at h
      obtain ⟨bs, h1, h2⟩ := dec 80 s hl hx
      obtain ⟨h, h3, h4, _⟩ := (C16_total bs).1 h2
      exact ⟨h, (key s h).2 ⟨bs, h4, (hexDecode_iff s bs).1 h1⟩⟩

/-- Text written with `#` is not read. -/
theorem C103_alternate (c : Case) (r : List Char) :
    (∀ tx, parseTx (altPrefix c ++ r) ≠ .ok tx) ∧ (∀ b, parseBlock (altPrefix c ++ r) ≠ .ok b) ∧
    ∀ h, parseHeader (altPrefix c ++ r) ≠ .ok h := by
  have hx : hexDecode (altPrefix c ++ r) = none := by
    have h0 : ∀ c : Case, altPrefix c = ['0', 'x'] ∨ altPrefix c = ['0', 'X'] := by intro c; cases c <;> simp [altPrefix]
    have hp : hexPair '0' 'x' = none ∧ hexPair '0' 'X' = none := by decide
    rcases h0 c with h | h <;> rw [h] <;> simp [hexDecode, hp]
  have key : ∀ {α : Type} {d : Dec α} (_ : IsLawful d) (a : α), d.decodeHex (altPrefix c ++ r) ≠ .ok a := by
    intro α d hd a h
    obtain ⟨bs, h1, _⟩ := (C04_hex hd 4096 (by omega) _ a).1 h
    rw [hx] at h1
    cases h1
  exact ⟨key txDec_isLawful, key ⟨_, blockDec_lawful⟩, key ⟨_, headerDec_lawful⟩⟩

/-! ### Scripts -/

theorem scriptDec_ok (bs s : Bytes) : scriptDec.decodeSlice bs = .ok s ↔ s.length ≤ 4000000 ∧ bs = csEncode s.length ++ s := by
  obtain ⟨inv, den, L, hP⟩ := byteVecDec_lawful MAX_VEC_SIZE
  unfold scriptDec
  rw [L.decodeSlice_ok_iff, hP, byteVec_wire]
  simp [MAX_VEC_SIZE]

/-- Scripts as text, with the length and without. -/
theorem C103_script (s : Bytes) (t : List Char) :
    (scriptFromHexPrefixed t = .ok s ↔ s.length ≤ 4000000 ∧ t.map Char.toLower = Digits .lower (csEncode s.length ++ s)) ∧
    (scriptFromHex t = some s ↔ t.map Char.toLower = Digits .lower s) ∧
    scriptHex s = Digits .lower s ∧ scriptFromHex (scriptHex s) = some s ∧
    (∃ f, ∀ fuel ≥ f, scriptHexPrefixed fuel s = some (Digits .lower (csEncode s.length ++ s)) ∧
      (s.length ≤ 4000000 → ∃ t, scriptHexPrefixed fuel s = some t ∧ scriptFromHexPrefixed t = .ok s)) := by
  have key : ∀ t, scriptFromHexPrefixed t = .ok s ↔ s.length ≤ 4000000 ∧ t.map Char.toLower = Digits .lower (csEncode s.length ++ s) := by
    intro t
    unfold scriptFromHexPrefixed
    rw [decodeHex_iff (d := scriptDec) ⟨_, byteVecDec_lawful _⟩]
    constructor
    · rintro ⟨bs, h1, h2⟩
      obtain ⟨h3, rfl⟩ := (scriptDec_ok bs s).1 h2
      exact ⟨h3, h1⟩
    · rintro ⟨h1, h2⟩
      exact ⟨_, h2, (scriptDec_ok _ s).2 ⟨h1, rfl⟩⟩
  refine ⟨key t, hexDecode_iff t s, flatMap_digits .lower s, ?_, ?_⟩
  · unfold scriptFromHex scriptHex
    rw [flatMap_digits]
    exact (hexDecode_iff _ _).2 (Digits_toLower .lower s)
  · obtain ⟨f, hf⟩ := C103_plain (C06_prefixed_bytes s)
    refine ⟨f, fun fuel h => ⟨((hf fuel h).2.1 .lower).2, fun hl => ⟨_, ((hf fuel h).2.1 .lower).2, (key _).2 ⟨hl, Digits_toLower .lower _⟩⟩⟩⟩

/-- Reading the one form as the other never gives the script back. -/
theorem C103_script_mixed (s : Bytes) (t t' : List Char) (ht : t.map Char.toLower = Digits .lower s)
    (ht' : t'.map Char.toLower = Digits .lower (csEncode s.length ++ s)) :
    scriptFromHexPrefixed t ≠ .ok s ∧ scriptFromHex t' ≠ some s := by
  have hlen : s ≠ csEncode s.length ++ s := by
    intro h
    have h1 := congrArg List.length h
    rw [List.length_append] at h1
    have : 0 < (csEncode s.length).length := by
      rw [csEncode_length]
      unfold csSize
      repeat' split
      all_goals omega
    omega
  constructor
  · intro h
    have h1 := (((C103_script s t).1).1 h).2
    rw [ht] at h1
    exact hlen (Digits_inj _ _ h1)
  · intro h
    have h1 := ((C103_script s t').2.1).1 h
    rw [ht'] at h1
    exact hlen (Digits_inj _ _ h1).symm

/-! ### Examples -/

example : Digits .lower [0x0A, 0xff, 0x10] = "0aff10".toList := by decide
example : Digits .upper [0x0A, 0xff, 0x10] = "0AFF10".toList := by decide
example : fmtHex bytesEnc 9 ([0xab, 0xcd] : Bytes) .upper { width := some 11, align := some .center, fill := '*', alternate := true } =
    some "**0XABCD***".toList := by decide +kernel
example : fmtHex bytesEnc 9 ([0xab, 0xcd] : Bytes) .lower { width := some 6, precision := some 3 } = some "abc  ".toList := by decide +kernel
example : fmtHex bytesEnc 9 ([0xab, 0xcd] : Bytes) .lower { precision := some 3, alternate := true } = some "0xa".toList := by decide +kernel
example : ∃ f, ∀ fuel ≥ f, ∀ c, ∃ t, fmtHex txEnc fuel sampleTx.encoder c {} = some t ∧ parseTx t = .ok sampleTx :=
  (C103_transaction [] sampleTx).2 sampleTx_decodable
example : ∃ f, ∀ fuel ≥ f, ∀ c, ∃ t, fmtHex blockEnc fuel (Block.encoder ⟨sampleHeader, [sampleTx, sampleTx]⟩) c {} = some t ∧
    parseBlock t = .ok ⟨sampleHeader, [sampleTx, sampleTx]⟩ :=
  (C103_block [] ⟨sampleHeader, [sampleTx, sampleTx]⟩).2 (by decide) (by
    intro tx h
    simp at h
    subst h
    exact sampleTx_decodable)
example : ∃ h, parseHeader (List.replicate 80 'a' ++ List.replicate 80 'F') = .ok h :=
  (C103_header _).2.2.2 ⟨by simp, by decide +kernel⟩
example : scriptFromHexPrefixed "0351aC6a".toList = .ok [0x51, 0xac, 0x6a] :=
  ((C103_script [0x51, 0xac, 0x6a] "0351aC6a".toList).1).2 ⟨by decide, by decide +kernel⟩
example : scriptFromHexPrefixed "51aC6a".toList ≠ .ok [0x51, 0xac, 0x6a] :=
  (C103_script_mixed [0x51, 0xac, 0x6a] "51aC6a".toList "0351aC6a".toList (by decide +kernel) (by decide +kernel)).1
example (l : List Bytes) (w : Wit) (bs : Bytes) (_ : Wit.fromSlice l = some w) (h : Drains Wit.enc w.encoder bs) :
    ∃ f, ∀ fuel ≥ f, fmtHex Wit.enc fuel w.encoder .upper {} = some (Digits .upper bs) :=
  let ⟨f, hf⟩ := C103_plain h
  ⟨f, fun fuel hfu => ((hf fuel hfu).2.1 .upper).1⟩

end HexText
end Btc
