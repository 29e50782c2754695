import Verif.Codec.CompactSize
import Verif.Codec.Drivers
/-!
# C01–C05: compact sizes and the decoding framework
-/
namespace Btc

/-! ## C01, C02: compact sizes -/

/-- Specification: the four wire forms of an integer in Bitcoin's variable length format, whether
minimal or not. -/
inductive CsForm : Bytes → Nat → Prop
  | one (v : Nat) : v < 0xFD → CsForm [UInt8.ofNat v] v
  | two (v : Nat) : v < 2 ^ 16 → CsForm (0xFD :: leBytes 2 v) v
  | four (v : Nat) : v < 2 ^ 32 → CsForm (0xFE :: leBytes 4 v) v
  | eight (v : Nat) : v < 2 ^ 64 → CsForm (0xFF :: leBytes 8 v) v

/-- The encoder emits a wire form of `v`, the shortest one, and `encoded_size` is its length. -/
theorem C01_encode_shortest (v : Nat) (hv : v < 2 ^ 64) :
    CsForm (csEncode v) v ∧ (∀ bs, CsForm bs v → (csEncode v).length ≤ bs.length) ∧
    (csEncode v).length = csSize v := by
  refine ⟨?_, ?_, csEncode_length v⟩
  · unfold csEncode
    split
    · exact .one v (by omega)
    · split
      · exact .two v (by omega)
      · split
        · exact .four v (by omega)
        · exact .eight v hv
  · intro bs h
    rw [csEncode_length]
    unfold csSize
    cases h with
    | one h => rw [if_pos (by omega)]; simp
    | two h => split; simp; rw [if_pos (by omega)]; simp
    | four h => split; simp; split; simp; rw [if_pos (by omega)]; simp
    | eight h => split; simp; split; simp; split <;> simp

/-- Encode then decode, with any bytes following. -/
theorem C01_roundtrip (v : Nat) (hv : v < 2 ^ 64) (rest : Bytes) :
    csU64Dec.decodeSliceUnbounded (csEncode v ++ rest) = .ok v rest := by
  obtain ⟨inv, den, L, hP⟩ := csU64Dec_lawful
  rw [L.decodeSliceUnbounded_spec, hP, (csParser_u64_done _ v rest).mpr ⟨rfl, hv⟩]
  rfl

/-- The decoder accepts exactly the shortest wire form; non-minimal forms are rejected. -/
theorem C01_canonical (bs : Bytes) (v : Nat) :
    csU64Dec.decodeSlice bs = .ok v ↔
      CsForm bs v ∧ ∀ bs', CsForm bs' v → bs.length ≤ bs'.length := by
  obtain ⟨inv, den, L, hP⟩ := csU64Dec_lawful
  rw [L.decodeSlice_ok_iff, hP, csParser_u64_done]
  simp only [List.append_nil]
  constructor
  · rintro ⟨rfl, hv⟩
    obtain ⟨h1, h2, _⟩ := C01_encode_shortest v hv
    exact ⟨h1, h2⟩
  · rintro ⟨h1, h2⟩
    have hv : v < 2 ^ 64 := by cases h1 <;> omega
    obtain ⟨h3, h4, h5⟩ := C01_encode_shortest v hv
    have hlen : bs.length = csSize v := by
      have := h2 _ h3
      have := h4 _ h1
      omega
    refine ⟨?_, hv⟩
    unfold csSize at hlen
    unfold csEncode
    cases h1 with
    | one h => rw [if_pos (by omega)]
    | two h =>
      simp only [List.length_cons, leBytes_length] at hlen
      split at hlen
      · omega
      · rw [if_neg (by omega), if_pos (by omega)]
    | four h =>
      simp only [List.length_cons, leBytes_length] at hlen
      split at hlen
      · omega
      · split at hlen
        · omega
        · rw [if_neg (by omega), if_neg (by omega), if_pos (by omega)]
    | eight h =>
      simp only [List.length_cons, leBytes_length] at hlen
      split at hlen
      · omega
      · split at hlen
        · omega
        · split at hlen
          · omega
          · rw [if_neg (by omega), if_neg (by omega), if_neg (by omega)]

example : csU64Dec.decodeSlice [0xFD, 0xFF, 0x01] = .ok 511 :=
  (C01_canonical _ 511).mpr ⟨.two 511 (by omega), fun bs' h => by cases h <;> simp at *⟩

/-- The length-prefix decoder accepts `v` exactly when its limit allows it. -/
theorem C02_limit (lim : Nat) (bs : Bytes) (v : Nat) :
    (csDec lim).decodeSlice bs = .ok v ↔ csU64Dec.decodeSlice bs = .ok v ∧ v ≤ lim := by
  obtain ⟨inv, den, L, hP⟩ := csDec_lawful lim
  obtain ⟨inv', den', L', hP'⟩ := csU64Dec_lawful
  rw [L.decodeSlice_ok_iff, hP, csParser_lim_done, L'.decodeSlice_ok_iff, hP', csParser_u64_done]
  simp only [and_assoc]

/-- Above the limit the error names the limit and the value (`error.rs` `ValueExceedsLimit`). -/
theorem C02_exceeds (lim v : Nat) (hv : v < 2 ^ 64) (hl : lim < v) (rest : Bytes) :
    (csDec lim).decodeSliceUnbounded (csEncode v ++ rest) = .err (.exceeds lim v) := by
  obtain ⟨inv, den, L, hP⟩ := csDec_lawful lim
  rw [L.decodeSliceUnbounded_spec, hP]
  unfold csParser csThen
  rw [List.nil_append, csView_csEncode]
  simp only [csEnd_csEncode lim v hv]
  rw [if_neg (by omega)]
  rfl

example : (csDec MAX_COMPACT_SIZE).decodeSliceUnbounded (csEncode 0x02000001 ++ [7]) =
    .err (.exceeds 0x02000000 0x02000001) := C02_exceeds _ _ (by omega) (by decide) _

/-! ## C03–C05: the decoding framework -/

/-- A decoder behaves like a parser of complete byte strings. -/
def IsLawful {α : Type} (d : Dec α) : Prop := ∃ P, Lawful d P

/-- The decoders that can be built from the crate's combinators. -/
inductive Built : ∀ {α : Type}, Dec α → Prop
  | array (N : Nat) : 0 < N → Built (arrayDec N)
  | csU64 : Built csU64Dec
  | cs (lim : Nat) : Built (csDec lim)
  | byteVec (lim : Nat) : Built (byteVecDec lim)
  | exactVec {α : Type} (d : Dec α) (n : Nat) : 0 < n → Built d → Built (exactVecDec d n)
  | vec {α : Type} (d : Dec α) (lim : Nat) : Built d → Built (vecDec d lim)
  | pair {α β : Type} (a : Dec α) (b : Dec β) : Built a → Built b → Built (dec2 a b)
  | newtype {α β : Type} (d : Dec α) (f : α → Except DErr β) (g : DErr → DErr) :
      Built d → Built (d.mapE f g)

theorem Built.isLawful {α : Type} {d : Dec α} (h : Built d) : IsLawful d := by
  induction h with
  | array N hN => exact ⟨_, arrayDec_lawful N hN⟩
  | csU64 => exact ⟨_, csU64Dec_lawful⟩
  | cs lim => exact ⟨_, csDec_lawful lim⟩
  | byteVec lim => exact ⟨_, byteVecDec_lawful lim⟩
  | exactVec d n hn _ ih => obtain ⟨P, h⟩ := ih; exact ⟨_, exactVecDec_lawful h n hn⟩
  | vec d lim _ ih => obtain ⟨P, h⟩ := ih; exact ⟨_, vecDec_lawful h lim⟩
  | pair a b _ _ iha ihb =>
    obtain ⟨P, ha⟩ := iha; obtain ⟨Q, hb⟩ := ihb; exact ⟨_, dec2_lawful ha hb⟩
  | newtype d f g _ ih => obtain ⟨P, h⟩ := ih; exact ⟨_, mapE_lawful h f g⟩

theorem Built.dec3 {α β γ : Type} {a : Dec α} {b : Dec β} {c : Dec γ} (ha : Built a)
    (hb : Built b) (hc : Built c) : Built (dec3 a b c) :=
  .newtype _ _ _ (.pair _ _ (.pair _ _ ha hb) hc)

theorem Built.dec4 {α β γ δ : Type} {a : Dec α} {b : Dec β} {c : Dec γ} {e : Dec δ} (ha : Built a)
    (hb : Built b) (hc : Built c) (he : Built e) : Built (dec4 a b c e) :=
  .newtype _ _ _ (.pair _ _ (.pair _ _ ha hb) (.pair _ _ hc he))

theorem Built.dec6 {α β γ δ ε ζ : Type} {a : Dec α} {b : Dec β} {c : Dec γ} {e : Dec δ}
    {f : Dec ε} {g : Dec ζ} (ha : Built a) (hb : Built b) (hc : Built c) (he : Built e)
    (hf : Built f) (hg : Built g) : Built (dec6 a b c e f g) :=
  .newtype _ _ _ (.pair _ _ (.dec3 ha hb hc) (.dec3 he hf hg))

/-- Feeding the same bytes in any two partitions into chunks gives the same value or error and the
same unconsumed bytes; the loop never gets stuck. -/
theorem C03_split {α : Type} {d : Dec α} (h : IsLawful d) (cs cs' : List Bytes)
    (heq : cs.flatten = cs'.flatten) :
    d.feedChunks d.init cs = d.feedChunks d.init cs' ∧ d.feedChunks d.init cs ≠ .stuck := by
  obtain ⟨P, inv, den, L, hP⟩ := h
  rw [L.feedChunks_spec cs d.init L.init, L.feedChunks_spec cs' d.init L.init, heq]
  refine ⟨rfl, ?_⟩
  cases den d.init cs'.flatten <;> simp [POut.outcome]

/-- In particular for every decoder built from the crate's combinators. -/
theorem C03_split_built {α : Type} {d : Dec α} (h : Built d) (cs cs' : List Bytes)
    (heq : cs.flatten = cs'.flatten) :
    d.feedChunks d.init cs = d.feedChunks d.init cs' ∧ d.feedChunks d.init cs ≠ .stuck :=
  C03_split h.isLawful cs cs' heq

example : (vecDec (byteVecDec 100) 100).feedChunks (vecDec (byteVecDec 100) 100).init
      [[2, 3], [], [1, 2], [3, 0, 9]] =
    (vecDec (byteVecDec 100) 100).feedChunks (vecDec (byteVecDec 100) 100).init
      [[2], [3], [1], [2, 3, 0], [9]] :=
  (C03_split_built (.vec _ 100 (.byteVec 100)) [[2, 3], [], [1, 2], [3, 0, 9]]
    [[2], [3], [1], [2, 3, 0], [9]] rfl).1

/-- `decode_from_slice` succeeds exactly when the streaming decoder succeeds on the bytes (in any
partition) and nothing is left over. -/
theorem C04_slice {α : Type} {d : Dec α} (h : IsLawful d) (cs : List Bytes) (a : α) :
    d.decodeSlice cs.flatten = .ok a ↔ d.feedChunks d.init cs = .ok a [] := by
  obtain ⟨P, inv, den, L, hP⟩ := h
  rw [L.decodeSlice_ok_iff, L.feedChunks_spec cs d.init L.init]
  cases den d.init cs.flatten <;> simp [POut.outcome]

/-- `decode_from_slice` rejects trailing bytes: no accepted string is a proper prefix of another
string decoding to anything. -/
theorem C04_no_trailing {α : Type} {d : Dec α} (h : IsLawful d) (bs ext : Bytes) (a b : α)
    (h1 : d.decodeSlice bs = .ok a) (h2 : d.decodeSlice (bs ++ ext) = .ok b) : ext = [] ∧ a = b := by
  obtain ⟨P, inv, den, L, hP⟩ := h
  rw [L.decodeSlice_ok_iff] at h1 h2
  have := L.den_extend d.init L.init bs a [] h1 ext
  rw [this] at h2
  simp at h2
  exact ⟨h2.2, h2.1⟩

/-- The hex driver accepts exactly the hex strings of accepted byte strings, with the same value,
for every size of its internal buffer. -/
theorem C04_hex {α : Type} {d : Dec α} (h : IsLawful d) (cap : Nat) (hcap : 0 < cap)
    (hex : List Char) (a : α) :
    d.decodeHex hex cap = .ok a ↔ ∃ bs, hexDecode hex = some bs ∧ d.decodeSlice bs = .ok a := by
  obtain ⟨P, inv, den, L, hP⟩ := h
  exact L.decodeHex_ok_iff cap hcap hex a

example : (byteVecDec 10).decodeHex "02aBcD".toList = .ok [0xAB, 0xCD] :=
  (C04_hex (Built.byteVec 10).isLawful 4096 (by omega) _ _).mpr
    ⟨[2, 0xAB, 0xCD], by decide, by
      obtain ⟨inv, den, L, hP⟩ := byteVecDec_lawful 10
      rw [L.decodeSlice_ok_iff, hP]; decide⟩

/-- The buffered reader: for every script of buffers and interrupts (and fatal errors that come too
late to matter), it returns a value exactly when the slice driver does on the delivered bytes, and
the reader is left at exactly the first byte after the object. -/
theorem C04_read {α : Type} {d : Dec α} (h : IsLawful d) (es : List BufEvent) (a : α)
    (rest : Bytes) :
    d.decodeSliceUnbounded (bufContent es) = .ok a rest ↔
      ∃ b es', d.decodeRead d.init es = .ok a (.buffer b :: es') ∧ b ++ bufContent es' = rest := by
  obtain ⟨P, inv, den, L, hP⟩ := h
  rw [L.decodeSliceUnbounded_spec]
  have := L.decodeRead_spec es d.init L.init
  match hd : den d.init (bufContent es) with
  | .done b r =>
    rw [hd] at this
    obtain ⟨x, es', h1, h2⟩ := this
    constructor
    · intro h
      simp only [POut.outcome, Outcome.ok.injEq] at h
      exact ⟨x, es', by rw [h1, h.1], by rw [h2, h.2]⟩
    · rintro ⟨x', es'', h3, h4⟩
      rw [h1] at h3
      simp only [ReadOut.ok.injEq, List.cons.injEq, BufEvent.buffer.injEq] at h3
      obtain ⟨rfl, rfl, rfl⟩ := h3
      simp [POut.outcome, ← h2, ← h4]
  | .fail e => rw [hd] at this; simp [POut.outcome, this]
  | .more e =>
    rw [hd] at this
    simp only [this, POut.outcome, reduceCtorEq, false_iff, not_exists, not_and]
    intro x es' h
    split at h <;> cases h

/-- A decoding error of the slice driver is the one the buffered reader reports, unless the reader
itself fails first. -/
theorem C04_read_error {α : Type} {d : Dec α} (h : IsLawful d) (es : List BufEvent) (e : DErr)
    (hf : hitsFatal es = false) :
    d.decodeSliceUnbounded (bufContent es) = .err e ↔ d.decodeRead d.init es = .decode e := by
  obtain ⟨P, inv, den, L, hP⟩ := h
  rw [L.decodeSliceUnbounded_spec]
  have := L.decodeRead_spec es d.init L.init
  match hd : den d.init (bufContent es) with
  | .done b r =>
    rw [hd] at this
    obtain ⟨x, es', h1, h2⟩ := this
    simp [h1, POut.outcome]
  | .fail e => rw [hd] at this; simp [POut.outcome, this]
  | .more e => rw [hd] at this; simp [POut.outcome, this, hf]

example : ∃ b es', (byteVecDec 10).decodeRead (byteVecDec 10).init
      [.buffer [2], .interrupted, .buffer [7, 8, 9, 1], .fatal] = .ok [7, 8] (.buffer b :: es') ∧
      b ++ bufContent es' = [9, 1] :=
  (C04_read (Built.byteVec 10).isLawful _ _ _).mp (by
    obtain ⟨inv, den, L, hP⟩ := byteVecDec_lawful 10
    rw [L.decodeSliceUnbounded_spec, hP]; decide)

/-- A read error can only turn the result into an I/O error; otherwise it comes too late. -/
theorem unbuffered_fatal {α : Type} (d : Dec α) (cap : Nat) (s : d.S) (src : Bytes)
    (evs : List ReadEvent) : d.decodeReadUnbuffered cap s src evs = .io ∨
      d.decodeReadUnbuffered cap s src evs =
        d.decodeReadUnbuffered cap s src (evs.takeWhile (· != .fatal)) := by
  by_cases hl : d.limit s = 0
  · right
    rw [Dec.decodeReadUnbuffered.eq_def]
    conv => rhs; rw [Dec.decodeReadUnbuffered.eq_def]
    simp only [hl, if_true]
  · match evs with
    | [] => exact .inr rfl
    | .interrupted :: evs =>
      rw [List.takeWhile_cons, if_pos (by rfl), Dec.decodeReadUnbuffered.eq_def]
      conv => rhs; rhs; rw [Dec.decodeReadUnbuffered.eq_def]
      simp only [hl, if_false]
      exact unbuffered_fatal d cap s src evs
    | .fatal :: evs =>
      left
      rw [Dec.decodeReadUnbuffered.eq_def]
      simp only [hl, if_false]
    | .take k :: evs =>
      rw [List.takeWhile_cons, if_pos (by rfl), Dec.decodeReadUnbuffered.eq_def]
      conv => rhs; rhs; rw [Dec.decodeReadUnbuffered.eq_def]
      simp only [hl, if_false, List.tail_cons, readSize]
      by_cases hg : src.take (min (k + 1) (min (d.limit s) cap)) = []
      · refine Or.inr ((dif_pos hg).trans ?_); symm; exact dif_pos hg
      · rcases hfe : d.feed s (src.take (min (k + 1) (min (d.limit s) cap))) with s' | ⟨s', r⟩ | e | _
        · rcases unbuffered_fatal d cap s' (src.drop (min (k + 1) (min (d.limit s) cap))) evs with h | h
          · exact Or.inl ((dif_neg hg).trans h)
          · refine Or.inr (((dif_neg hg).trans h).trans ?_); symm; exact dif_neg hg
        · refine Or.inr ((dif_neg hg).trans ?_); symm; exact dif_neg hg
        · refine Or.inr ((dif_neg hg).trans ?_); symm; exact dif_neg hg
        · refine Or.inr ((dif_neg hg).trans ?_); symm; exact dif_neg hg
termination_by evs.length

/-- The unbuffered reader, for every buffer size and every schedule of short reads and interrupts:
it returns a value exactly when the slice driver does. -/
theorem C04_unbuffered {α : Type} {d : Dec α} (h : IsLawful d) (cap : Nat) (hcap : 0 < cap)
    (src : Bytes) (evs : List ReadEvent) (hf : ReadEvent.fatal ∉ evs) (a : α) (rest : Bytes) :
    d.decodeSliceUnbounded src = .ok a rest ↔
      d.decodeReadUnbuffered cap d.init src evs = .ok a rest := by
  obtain ⟨P, inv, den, L, hP⟩ := h
  rw [L.decodeSliceUnbounded_spec]
  have := L.decodeReadUnbuffered_spec cap hcap src evs d.init L.init hf
  match hd : den d.init src with
  | .done b r => rw [hd] at this; simp [POut.outcome, this]
  | .fail e => rw [hd] at this; simp [POut.outcome, this]
  | .more e => rw [hd] at this; simp [POut.outcome, this]

/-- Whenever the unbuffered reader succeeds (whatever the reader did, including failing later), the
bytes it took are exactly an encoding that the slice driver accepts with the same value, and
everything after the object is still in the reader. -/
theorem C05_no_overread {α : Type} {d : Dec α} (h : IsLawful d) (cap : Nat) (hcap : 0 < cap)
    (src : Bytes) (evs : List ReadEvent) (a : α) (left : Bytes)
    (hr : d.decodeReadUnbuffered cap d.init src evs = .ok a left) :
    ∃ obj, src = obj ++ left ∧ d.decodeSlice obj = .ok a := by
  have hnf : ReadEvent.fatal ∉ evs.takeWhile (· != .fatal) := by
    intro hm
    have : ∀ l : List ReadEvent, ReadEvent.fatal ∉ l.takeWhile (· != .fatal) := by
      intro l
      induction l with
      | nil => simp
      | cons x l ih =>
        rw [List.takeWhile_cons]
        split
        · rename_i hx
          simp only [List.mem_cons, not_or]
          exact ⟨fun h => by simp [← h] at hx, ih⟩
        · simp
    exact this _ hm
  rcases unbuffered_fatal d cap d.init src evs with h1 | h1
  · rw [h1] at hr; cases hr
  · rw [h1] at hr
    rw [← C04_unbuffered h cap hcap src _ hnf] at hr
    obtain ⟨P, inv, den, L, hP⟩ := h
    rw [L.decodeSliceUnbounded_spec] at hr
    match hd : den d.init src with
    | .done b r =>
      rw [hd] at hr
      simp only [POut.outcome, Outcome.ok.injEq] at hr
      obtain ⟨rfl, rfl⟩ := hr
      obtain ⟨c, hc⟩ := L.den_suffix d.init L.init src b r hd
      refine ⟨c, hc, ?_⟩
      rw [L.decodeSlice_ok_iff]
      rw [hc] at hd
      exact L.den_shrink d.init L.init c b r hd
    | .fail e => rw [hd] at hr; cases hr
    | .more e => rw [hd] at hr; cases hr

/-- No request to the reader asks for more than what is still missing from the object: after any
prefix `got` of an object's encoding was fed, `read_limit` is positive and at most the number of
missing bytes. -/
theorem C05_limit {α : Type} {d : Dec α} (h : IsLawful d) (got missing : Bytes) (a : α)
    (hm : missing ≠ []) (hd : d.decodeSlice (got ++ missing) = .ok a) :
    ∃ s, d.feed d.init got = .needsMore s ∧ 0 < d.limit s ∧ d.limit s ≤ missing.length := by
  obtain ⟨P, inv, den, L, hP⟩ := h
  rw [L.decodeSlice_ok_iff] at hd
  have := L.feed_spec got d.init L.init
  match hf : d.feed d.init got with
  | .needsMore s' =>
    rw [hf] at this
    have h2 := this.2 missing
    rw [hd] at h2
    have h3 := L.limit s' missing a [] this.1 h2.symm
    exact ⟨s', rfl, (L.more s' this.1).1, by simpa using h3⟩
  | .ready s' rest' =>
    rw [hf] at this
    obtain ⟨c, hc, hd'⟩ := this
    have h2 := hd' (rest' ++ missing)
    rw [← List.append_assoc, ← hc, hd] at h2
    cases hr : d.fin s' with
    | ok b => rw [hr] at h2; simp [POut.ofEnd] at h2; exact absurd h2.2.2 hm
    | error e => rw [hr] at h2; cases h2
  | .err e =>
    rw [hf] at this
    have h2 := this missing
    rw [hd] at h2
    cases h2
  | .stuck => rw [hf] at this; exact this.elim

example : ∃ obj, ([2, 7, 8, 9, 1] : Bytes) = obj ++ [9, 1] ∧
    (byteVecDec 10).decodeSlice obj = .ok [7, 8] :=
  C05_no_overread (Built.byteVec 10).isLawful 4096 (by omega) [2, 7, 8, 9, 1]
    [.take 0, .interrupted, .take 5] [7, 8] [9, 1]
    ((C04_unbuffered (Built.byteVec 10).isLawful 4096 (by omega) _ _ (by simp) _ _).mp (by
      obtain ⟨inv, den, L, hP⟩ := byteVecDec_lawful 10
      rw [L.decodeSliceUnbounded_spec, hP]; decide))

end Btc
