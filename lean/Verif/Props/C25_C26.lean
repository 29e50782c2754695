import Verif.Bitcoin.BitLaws
import Verif.Props.C01_C05
/-!
# C25, C26: block filters, bit streams and Golomb-Rice codes (`bitcoin/src/bip158.rs`)
-/
namespace Btc
namespace Bip158

/-! ### C26: bit streams -/

/-- Writing a sequence of (value, width) pairs; the second component is the number of bytes written. -/
def writeAll (w : BitWriter) (k : Nat) : List (Nat × Nat) → Except BitErr (BitWriter × Nat)
  | [] => .ok (w, k)
  | (v, n) :: l =>
    match w.write v n with
    | .error e => .error e
    | .ok (w', j) => writeAll w' (k + j) l

/-- Reading a sequence of widths. -/
def readAll (r : BitReader) : List Nat → Except BitErr (List Nat × BitReader)
  | [] => .ok ([], r)
  | n :: l =>
    match r.read n with
    | .error e => .error e
    | .ok (v, r') =>
      match readAll r' l with
      | .error e => .error e
      | .ok (vs, r'') => .ok (v :: vs, r'')

theorem writeAll_spec (l : List (Nat × Nat)) : ∀ (w : BitWriter) (k : Nat), w.Inv → (∀ x ∈ l, x.2 ≤ 64) →
    ∃ w' k', writeAll w k l = .ok (w', k') ∧ w'.Inv ∧ w'.abs = w.abs ++ l.flatMap (fun x => bits x.2 x.1)
      ∧ w'.out.length + k = w.out.length + k' ∧ ∃ t, w'.out = w.out ++ t := by
  induction l with
  | nil => intro w k hw _; exact ⟨w, k, rfl, hw, by simp, rfl, [], by simp⟩
  | cons x l ih =>
    intro w k hw h
    obtain ⟨v, n⟩ := x
    obtain ⟨w1, k1, a1, a2, a3, a4, t1, a5⟩ := write_spec w v n (h _ List.mem_cons_self) hw
    obtain ⟨w2, k2, b1, b2, b3, b4, t2, b5⟩ := ih w1 (k + k1) a2 (fun y hy => h y (List.mem_cons_of_mem _ hy))
    refine ⟨w2, k2, ?_, b2, by rw [b3, a3]; simp, by omega, t1 ++ t2, by rw [b5, a5]; simp⟩
    unfold writeAll
    rw [a1]
    exact b1

theorem readAll_spec (l : List (Nat × Nat)) : ∀ (r : BitReader) (tl : List Bool), r.offset ≤ 8 → (∀ x ∈ l, x.2 ≤ 64) →
    r.abs = l.flatMap (fun x => bits x.2 x.1) ++ tl →
    ∃ r', readAll r (l.map (·.2)) = .ok (l.map (fun x => x.1 % 2 ^ x.2), r') ∧ r'.offset ≤ 8 ∧ r'.abs = tl := by
  induction l with
  | nil => intro r tl ho _ ha; exact ⟨r, rfl, ho, by simpa using ha⟩
  | cons x l ih =>
    intro r tl ho h ha
    obtain ⟨v, n⟩ := x
    simp only [List.flatMap_cons, List.append_assoc] at ha
    obtain ⟨r1, a1, a2, a3⟩ := (read_spec r n (h _ List.mem_cons_self) ho).1 (by rw [ha]; simp [bits_length])
    rw [ha, List.drop_left' (bits_length _ _)] at a3
    rw [ha, List.take_left' (bits_length _ _), val_bits] at a1
    obtain ⟨r2, b1, b2, b3⟩ := ih r1 tl a2 (fun y hy => h y (List.mem_cons_of_mem _ hy)) a3
    refine ⟨r2, ?_, b2, b3⟩
    simp only [List.map_cons]
    unfold readAll
    rw [a1]
    simp only
    rw [b1]

theorem byteBits_inj_prefix {pre body x : Bytes} {z : List Bool} (h : x = pre ++ body)
    (hb : byteBits x = byteBits pre ++ z) : byteBits body = z := by
  subst h
  rw [byteBits_append] at hb
  exact List.append_cancel_left hb

/-- C26: writing any sequence of values in widths up to 64 after any bytes already in the output, and flushing, appends a
body whose bits, most significant first, are the concatenated values followed by fewer than eight zero bits.  The number
of bytes reported by the calls is the length of that body. -/
theorem C26_written (pre : Bytes) (l : List (Nat × Nat)) (h : ∀ x ∈ l, x.2 ≤ 64) :
    ∃ w k body z, writeAll (BitWriter.new pre) 0 l = .ok (w, k) ∧ w.flush.1.out = pre ++ body ∧ body.length = k + w.flush.2
      ∧ z < 8 ∧ byteBits body = l.flatMap (fun x => bits x.2 x.1) ++ List.replicate z false := by
  obtain ⟨w, k, a1, a2, a3, a4, t1, a5⟩ := writeAll_spec l (BitWriter.new pre) 0 (BitWriter.new_inv pre) h
  obtain ⟨z, hz, b1, b2, _, _, t2, b3⟩ := flush_spec w a2
  have hout : w.flush.1.out = pre ++ (t1 ++ t2) := by rw [b3, a5]; simp [BitWriter.new]
  refine ⟨w, k, t1 ++ t2, z, a1, hout, ?_, hz, ?_⟩
  · have h1 : w.flush.1.out.length = pre.length + (t1 ++ t2).length := by rw [hout, List.length_append]
    have h2 : (BitWriter.new pre).out.length = pre.length := rfl
    omega
  · apply byteBits_inj_prefix hout
    rw [b1, a3, BitWriter.new_abs, List.append_assoc]

/-- C26: reading the body back, whatever follows it, in the same widths gives the values (reduced to their widths). -/
theorem C26_round_trip (pre : Bytes) (l : List (Nat × Nat)) (h : ∀ x ∈ l, x.2 ≤ 64) (tail : Bytes) :
    ∃ w k body, writeAll (BitWriter.new pre) 0 l = .ok (w, k) ∧ w.flush.1.out = pre ++ body
      ∧ ∃ r z, readAll (BitReader.new (body ++ tail)) (l.map (·.2)) = .ok (l.map (fun x => x.1 % 2 ^ x.2), r)
        ∧ z < 8 ∧ r.abs = List.replicate z false ++ byteBits tail := by
  obtain ⟨w, k, body, z, a1, a2, _, hz, a3⟩ := C26_written pre l h
  obtain ⟨r, b1, _, b3⟩ := readAll_spec l (BitReader.new (body ++ tail)) (List.replicate z false ++ byteBits tail)
    (by simp [BitReader.new]) h (by rw [BitReader.new_abs, byteBits_append, a3, List.append_assoc])
  exact ⟨w, k, body, a1, a2, r, z, b1, hz, b3⟩

/-- C26: for values that fit their widths the values themselves come back. -/
theorem C26_round_trip_exact (pre : Bytes) (l : List (Nat × Nat)) (h : ∀ x ∈ l, x.2 ≤ 64 ∧ x.1 < 2 ^ x.2) (tail : Bytes) :
    ∃ w k body r, writeAll (BitWriter.new pre) 0 l = .ok (w, k) ∧ w.flush.1.out = pre ++ body
      ∧ readAll (BitReader.new (body ++ tail)) (l.map (·.2)) = .ok (l.map (·.1), r) := by
  obtain ⟨w, k, body, a1, a2, r, z, a3, _⟩ := C26_round_trip pre l (fun x hx => (h x hx).1) tail
  refine ⟨w, k, body, r, a1, a2, ?_⟩
  rw [a3]
  congr 2
  exact List.map_congr_left fun x hx => Nat.mod_eq_of_lt (h x hx).2

/-- C26: a read of `n ≤ 64` bits from the start of a byte string returns its first `n` bits when there are that many, and
fails with the end-of-input error otherwise; after `k` bits have been read the next read continues at bit `k`. -/
theorem C26_read (src : Bytes) (k n : Nat) (hk : k ≤ 64) (hn : n ≤ 64) (hl : k ≤ 8 * src.length) :
    ∃ v r, (BitReader.new src).read k = .ok (v, r) ∧ v = val ((byteBits src).take k)
      ∧ (k + n ≤ 8 * src.length → ∃ r', r.read n = .ok (val (((byteBits src).drop k).take n), r'))
      ∧ (8 * src.length < k + n → r.read n = .error .eof) := by
  have hab := BitReader.new_abs src
  obtain ⟨r, a1, a2, a3⟩ := (read_spec (BitReader.new src) k hk (by simp [BitReader.new])).1 (by rw [hab, byteBits_length]; omega)
  rw [hab] at a1 a3
  obtain ⟨b1, b2⟩ := read_spec r n hn a2
  rw [a3] at b1 b2
  simp only [List.length_drop, byteBits_length] at b1 b2
  refine ⟨_, r, a1, rfl, ?_, fun h => b2 (by omega)⟩
  intro h
  obtain ⟨r', c1, _, _⟩ := b1 (by omega)
  exact ⟨r', c1⟩

/-- C26: widths above 64 are refused on both sides. -/
theorem C26_too_many (w : BitWriter) (r : BitReader) (v n : Nat) (hn : 64 < n) :
    w.write v n = .error .tooManyBits ∧ r.read n = .error .tooManyBits := by
  unfold BitWriter.write BitReader.read
  rw [if_pos hn, if_pos hn]
  exact ⟨rfl, rfl⟩

/-! ### C26: Golomb-Rice -/

/-- Encoding a sequence of values. -/
def encodeAll (p : Nat) (w : BitWriter) (k : Nat) : List Nat → Option (Except BitErr (BitWriter × Nat))
  | [] => some (.ok (w, k))
  | n :: l =>
    match golombEncode p w n with
    | none => none
    | some (.error e) => some (.error e)
    | some (.ok (w', j)) => encodeAll p w' (k + j) l

/-- Decoding a number of values. -/
def decodeAll (p : Nat) (r : BitReader) : Nat → Except BitErr (List Nat × BitReader)
  | 0 => .ok ([], r)
  | k + 1 =>
    match golombDecode p r with
    | .error e => .error e
    | .ok (v, r') =>
      match decodeAll p r' k with
      | .error e => .error e
      | .ok (vs, r'') => .ok (v :: vs, r'')

theorem encodeAll_spec (p : Nat) (hp : p < 64) (l : List Nat) : ∀ (w : BitWriter) (k : Nat), w.Inv →
    ∃ w' k', encodeAll p w k l = some (.ok (w', k')) ∧ w'.Inv ∧ w'.abs = w.abs ++ l.flatMap (code p)
      ∧ w'.out.length + k = w.out.length + k' ∧ ∃ t, w'.out = w.out ++ t := by
  induction l with
  | nil => intro w k hw; exact ⟨w, k, rfl, hw, by simp, rfl, [], by simp⟩
  | cons n l ih =>
    intro w k hw
    obtain ⟨w1, k1, a1, a2, a3, a4, t1, a5⟩ := golombEncode_spec p w n hp hw
    obtain ⟨w2, k2, b1, b2, b3, b4, t2, b5⟩ := ih w1 (k + k1) a2
    refine ⟨w2, k2, ?_, b2, by rw [b3, a3]; simp, by omega, t1 ++ t2, by rw [b5, a5]; simp⟩
    unfold encodeAll
    rw [a1]
    exact b1

theorem decodeAll_spec (p : Nat) (hp : p < 64) (l : List Nat) : ∀ (r : BitReader) (tl : List Bool), r.offset ≤ 8 →
    (∀ n ∈ l, n < 2 ^ 64) → r.abs = l.flatMap (code p) ++ tl →
    ∃ r', decodeAll p r l.length = .ok (l, r') ∧ r'.offset ≤ 8 ∧ r'.abs = tl := by
  induction l with
  | nil => intro r tl ho _ ha; exact ⟨r, rfl, ho, by simpa using ha⟩
  | cons n l ih =>
    intro r tl ho h ha
    simp only [List.flatMap_cons, List.append_assoc] at ha
    obtain ⟨r1, a1, a2, a3⟩ := golombDecode_code p r n _ hp (h _ List.mem_cons_self) ho ha
    obtain ⟨r2, b1, b2, b3⟩ := ih r1 tl a2 (fun y hy => h y (List.mem_cons_of_mem _ hy)) a3
    refine ⟨r2, ?_, b2, b3⟩
    simp only [List.length_cons]
    unfold decodeAll
    rw [a1]
    simp only
    rw [b1]

/-- C26: for every parameter below 64 and every sequence of `u64` values, encoding writes for each value its quotient by
2^p in unary (ones ended by a zero) and its `p` low bits, and decoding the flushed body gives the sequence back. -/
theorem C26_golomb (p : Nat) (hp : p < 64) (pre : Bytes) (l : List Nat) (h : ∀ n ∈ l, n < 2 ^ 64) (tail : Bytes) :
    ∃ w k body z, encodeAll p (BitWriter.new pre) 0 l = some (.ok (w, k)) ∧ w.flush.1.out = pre ++ body
      ∧ body.length = k + w.flush.2 ∧ z < 8
      ∧ byteBits body = l.flatMap (fun n => List.replicate (n / 2 ^ p) true ++ [false] ++ bits p n) ++ List.replicate z false
      ∧ ∃ r, decodeAll p (BitReader.new (body ++ tail)) l.length = .ok (l, r) := by
  obtain ⟨w, k, a1, a2, a3, a4, t1, a5⟩ := encodeAll_spec p hp l (BitWriter.new pre) 0 (BitWriter.new_inv pre)
  obtain ⟨z, hz, b1, b2, _, _, t2, b3⟩ := flush_spec w a2
  have hout : w.flush.1.out = pre ++ (t1 ++ t2) := by rw [b3, a5]; simp [BitWriter.new]
  have hbits : byteBits (t1 ++ t2) = l.flatMap (code p) ++ List.replicate z false := by
    apply byteBits_inj_prefix hout
    rw [b1, a3, BitWriter.new_abs, List.append_assoc]
  refine ⟨w, k, t1 ++ t2, z, a1, hout, ?_, hz, hbits, ?_⟩
  · have h1 : w.flush.1.out.length = pre.length + (t1 ++ t2).length := by rw [hout, List.length_append]
    have h2 : (BitWriter.new pre).out.length = pre.length := rfl
    omega
  · obtain ⟨r, c1, _, _⟩ := decodeAll_spec p hp l (BitReader.new (t1 ++ t2 ++ tail)) (List.replicate z false ++ byteBits tail)
      (by simp [BitReader.new]) h (by rw [BitReader.new_abs, byteBits_append, hbits, List.append_assoc])
    exact ⟨r, c1⟩

/-- C26: decoding an arbitrary stream: `k` ones, a zero and `p` more bits give `k * 2^p mod 2^64` plus those bits. -/
theorem C26_golomb_decode (p : Nat) (hp : p < 64) (src : Bytes) (k : Nat) (v tl : List Bool) (hv : v.length = p)
    (h : byteBits src = List.replicate k true ++ false :: (v ++ tl)) :
    ∃ r, golombDecode p (BitReader.new src) = .ok (k * 2 ^ p % 2 ^ 64 + val v, r) ∧ r.abs = tl := by
  obtain ⟨r, a1, _, a3⟩ := golombDecode_spec p (BitReader.new src) k v tl hp (by simp [BitReader.new]) hv
    (by rw [BitReader.new_abs, h])
  exact ⟨r, a1, a3⟩

/-- C26: a stream of ones only, or with fewer than `p` bits after the first zero, is refused. -/
theorem C26_golomb_eof (p : Nat) (hp : p < 64) (src : Bytes) (k : Nat) :
    (byteBits src = List.replicate k true → golombDecode p (BitReader.new src) = .error .eof)
    ∧ (∀ v, v.length < p → byteBits src = List.replicate k true ++ false :: v → golombDecode p (BitReader.new src) = .error .eof) := by
  constructor
  · intro h
    unfold golombDecode
    rw [countOnes_eof k _ (BitReader.new src) 0 (by simp [BitReader.new]) (by rw [BitReader.new_abs, h])]
  · intro v hv h
    obtain ⟨r1, a1, a2, a3⟩ := countOnes_spec k ((BitReader.new src).left + 1) (BitReader.new src) 0 v (by simp [BitReader.new])
      (by rw [BitReader.new_abs, h]) (by rw [← BitReader.abs_length, BitReader.new_abs, h]; simp; omega)
    unfold golombDecode
    rw [a1]
    simp only
    rw [(read_spec r1 p (by omega) a2).2 (by rw [a3]; exact hv)]

/-- C26 finding: the quotient is not checked against overflow, so different code words decode to the same value; with
`p = 63` two leading ones are lost. -/
theorem C26_golomb_not_injective : ∃ a b : Bytes, (byteBits a).take 1 = [false] ∧ (byteBits b).take 3 = [true, true, false]
    ∧ (∃ ra, golombDecode 63 (BitReader.new a) = .ok (0, ra)) ∧ (∃ rb, golombDecode 63 (BitReader.new b) = .ok (0, rb)) := by
  obtain ⟨ra, a1, _⟩ := C26_golomb_decode 63 (by omega) (List.replicate 9 0) 0 (List.replicate 63 false) (List.replicate 8 false)
    (by simp) (by decide)
  obtain ⟨rb, b1, _⟩ := C26_golomb_decode 63 (by omega) (0xC0 :: List.replicate 8 0) 2 (List.replicate 63 false) (List.replicate 6 false)
    (by simp) (by decide)
  exact ⟨_, _, by decide, by decide, ⟨ra, a1⟩, ⟨rb, b1⟩⟩

/-- C26: the encoder panics for `p ≥ 64` (the shift `n >> p`). -/
theorem C26_golomb_param (p : Nat) (w : BitWriter) (n : Nat) : golombEncode p w n = none ↔ 64 ≤ p := by
  unfold golombEncode
  by_cases h : p ≥ 64
  · rw [if_pos h]; simp [h]
  · rw [if_neg h]; simp; omega

/-! ### C25 -/

/-- The bits of the gaps between consecutive values, starting from `last`. -/
def gapBits (p : Nat) : Nat → List Nat → List Bool
  | _, [] => []
  | last, v :: vs => code p (v - last) ++ gapBits p v vs

/-- `body` holds the values `vs` as the Golomb-Rice codes of their gaps, with anything after them. -/
def Holds (p : Nat) (body : Bytes) (vs : List Nat) : Prop := ∃ tl, byteBits body = gapBits p 0 vs ++ tl

theorem anyLoop_spec (checks : Bool) (p : Nat) (hp : p < 64) : ∀ (k : Nat) (mapped : List Nat) (data : Nat) (rest : List Nat) (r : BitReader) (tl : List Bool),
    mapped.length + rest.length = k → r.offset ≤ 8 → r.abs = gapBits p data rest ++ tl → (data :: rest).Pairwise (· ≤ ·) →
    (∀ v ∈ rest, v < 2 ^ 64) → mapped.Pairwise (· ≤ ·) →
    anyLoop checks p mapped data rest.length r = some (.ok (decide (∃ x ∈ mapped, x ∈ data :: rest))) := by
  intro k
  induction k with
  | zero =>
    intro mapped data rest r tl hk ho ha hs hv hm
    have : mapped = [] := List.length_eq_zero_iff.1 (by omega)
    subst this
    unfold anyLoop; simp
  | succ k ih =>
    intro mapped data rest r tl hk ho ha hs hv hm
    unfold anyLoop
    cases mapped with
    | nil => simp
    | cons x xs =>
      simp only
      by_cases h1 : data = x
      · rw [if_pos h1]; subst h1; simp
      · rw [if_neg h1]
        by_cases h2 : data < x
        · rw [if_pos h2]
          cases rest with
          | nil =>
            simp only [List.length_nil]
            congr 2
            symm
            apply decide_eq_false
            rintro ⟨y, hy, hd⟩
            simp only [List.mem_singleton] at hd
            rcases List.mem_cons.1 hy with rfl | hy
            · omega
            · have := (List.pairwise_cons.1 hm).1 y hy; omega
          | cons v vs =>
            simp only [List.length_cons]
            have hdv : data ≤ v := (List.pairwise_cons.1 hs).1 v List.mem_cons_self
            have hv64 := hv v List.mem_cons_self
            obtain ⟨r', e1, e2, e3⟩ := golombDecode_code p r (v - data) _ hp (by omega) ho (by rw [ha, gapBits, List.append_assoc])
            rw [e1]
            simp only
            have : add64 checks data (v - data) = some v := by
              unfold add64; rw [if_pos (by omega)]; congr 1; omega
            rw [this]
            simp only
            rw [ih (x :: xs) v vs r' tl (by simp only [List.length_cons] at hk ⊢; omega) e2 e3 (List.pairwise_cons.1 hs).2
              (fun y hy => hv y (List.mem_cons_of_mem _ hy)) hm]
            congr 2
            apply decide_eq_decide.2
            constructor
            · rintro ⟨y, hy, hd⟩; exact ⟨y, hy, List.mem_cons_of_mem _ hd⟩
            · rintro ⟨y, hy, hd⟩
              refine ⟨y, hy, ?_⟩
              rcases List.mem_cons.1 hd with rfl | hd
              · rcases List.mem_cons.1 hy with rfl | hy
                · omega
                · have := (List.pairwise_cons.1 hm).1 y hy; omega
              · exact hd
        · rw [if_neg h2, ih xs data rest r tl (by simp only [List.length_cons] at hk; omega) ho ha hs hv (List.pairwise_cons.1 hm).2]
          congr 2
          apply decide_eq_decide.2
          constructor
          · rintro ⟨y, hy, hd⟩; exact ⟨y, List.mem_cons_of_mem _ hy, hd⟩
          · rintro ⟨y, hy, hd⟩
            rcases List.mem_cons.1 hy with rfl | hy
            · exfalso
              rcases List.mem_cons.1 hd with rfl | hd
              · omega
              · have := (List.pairwise_cons.1 hs).1 y hd; omega
            · exact ⟨y, hy, hd⟩

theorem allLoop_spec (checks : Bool) (p : Nat) (hp : p < 64) : ∀ (k : Nat) (mapped : List Nat) (data : Nat) (rest : List Nat) (r : BitReader) (tl : List Bool),
    mapped.length + rest.length = k → r.offset ≤ 8 → r.abs = gapBits p data rest ++ tl → (data :: rest).Pairwise (· ≤ ·) →
    (∀ v ∈ rest, v < 2 ^ 64) → mapped.Pairwise (· ≤ ·) →
    allLoop checks p mapped data rest.length r = some (.ok (decide (∀ x ∈ mapped, x ∈ data :: rest))) := by
  intro k
  induction k with
  | zero =>
    intro mapped data rest r tl hk ho ha hs hv hm
    have : mapped = [] := List.length_eq_zero_iff.1 (by omega)
    subst this
    unfold allLoop; simp
  | succ k ih =>
    intro mapped data rest r tl hk ho ha hs hv hm
    unfold allLoop
    cases mapped with
    | nil => simp
    | cons x xs =>
      simp only
      by_cases h1 : data = x
      · rw [if_pos h1, ih xs data rest r tl (by simp only [List.length_cons] at hk; omega) ho ha hs hv (List.pairwise_cons.1 hm).2]
        congr 2
        apply decide_eq_decide.2
        constructor
        · intro h y hy
          rcases List.mem_cons.1 hy with rfl | hy
          · rw [h1]; exact List.mem_cons_self
          · exact h y hy
        · intro h y hy; exact h y (List.mem_cons_of_mem _ hy)
      · rw [if_neg h1]
        by_cases h2 : data < x
        · rw [if_pos h2]
          cases rest with
          | nil =>
            simp only [List.length_nil]
            congr 2
            symm
            apply decide_eq_false
            intro h
            have := h x List.mem_cons_self
            simp only [List.mem_singleton] at this
            omega
          | cons v vs =>
            simp only [List.length_cons]
            have hdv : data ≤ v := (List.pairwise_cons.1 hs).1 v List.mem_cons_self
            have hv64 := hv v List.mem_cons_self
            obtain ⟨r', e1, e2, e3⟩ := golombDecode_code p r (v - data) _ hp (by omega) ho (by rw [ha, gapBits, List.append_assoc])
            rw [e1]
            simp only
            have : add64 checks data (v - data) = some v := by
              unfold add64; rw [if_pos (by omega)]; congr 1; omega
            rw [this]
            simp only
            rw [ih (x :: xs) v vs r' tl (by simp only [List.length_cons] at hk ⊢; omega) e2 e3 (List.pairwise_cons.1 hs).2
              (fun y hy => hv y (List.mem_cons_of_mem _ hy)) hm]
            congr 2
            apply decide_eq_decide.2
            constructor
            · intro h y hy; exact List.mem_cons_of_mem _ (h y hy)
            · intro h y hy
              rcases List.mem_cons.1 (h y hy) with rfl | hd
              · rcases List.mem_cons.1 hy with rfl | hy
                · omega
                · have := (List.pairwise_cons.1 hm).1 y hy; omega
              · exact hd
        · rw [if_neg h2]
          congr 2
          symm
          apply decide_eq_false
          intro h
          rcases List.mem_cons.1 (h x List.mem_cons_self) with rfl | hd
          · omega
          · have := (List.pairwise_cons.1 hs).1 x hd; omega

theorem sort_perm (l : List Nat) : (sort l).Perm l := List.mergeSort_perm _ _

theorem sort_sorted (l : List Nat) : (sort l).Pairwise (· ≤ ·) := by
  have := List.pairwise_mergeSort (le := fun a b : Nat => decide (a ≤ b)) (by intro a b c; simp; omega) (by intro a b; simp; omega) l
  exact this.imp (by intro a b h; simpa using h)

theorem dedup_mem (l : List Nat) (x : Nat) : x ∈ dedup l ↔ x ∈ l := by
  induction l with
  | nil => simp [dedup]
  | cons a l ih =>
    cases l with
    | nil => simp [dedup]
    | cons b l =>
      unfold dedup
      by_cases h : a = b
      · rw [if_pos h, ih, h]; simp
      · rw [if_neg h, List.mem_cons, ih, List.mem_cons (a := x) (b := a)]

theorem dedup_sorted (l : List Nat) (h : l.Pairwise (· ≤ ·)) : (dedup l).Pairwise (· ≤ ·) := by
  induction l with
  | nil => simp [dedup]
  | cons a l ih =>
    cases l with
    | nil => simp [dedup]
    | cons b l =>
      unfold dedup
      obtain ⟨h1, h2⟩ := List.pairwise_cons.1 h
      by_cases hab : a = b
      · rw [if_pos hab]; exact ih h2
      · rw [if_neg hab]
        exact List.pairwise_cons.2 ⟨fun y hy => h1 y ((dedup_mem _ _).1 hy), ih h2⟩

/-- The value an element with hash `h` has in a filter of `n` elements with parameter `m`. -/
def hashValue (n m h : Nat) : Nat := h * (n * m % 2 ^ 64) / 2 ^ 64

theorem mul64_some {checks : Bool} {a b c : Nat} (h : mul64 checks a b = some c) : c = a * b % 2 ^ 64 := by
  unfold mul64 at h
  split at h
  · cases h; rw [Nat.mod_eq_of_lt (by assumption)]
  · split at h
    · cases h
    · cases h; rfl

theorem mul64_ok {checks : Bool} {a b : Nat} (h : checks = true → a * b < 2 ^ 64) : mul64 checks a b = some (a * b % 2 ^ 64) := by
  unfold mul64
  by_cases hl : a * b < 2 ^ 64
  · rw [if_pos hl, Nat.mod_eq_of_lt hl]
  · rw [if_neg hl]
    cases checks with
    | true => exact absurd (h rfl) hl
    | false => rfl

/-- C25: on any filter contents whose header is `n` and whose body holds `n` values in order, `match_any` is true exactly
when some query's hash value is among them, and `match_all` exactly when every query's is.  In particular the empty query
gives false and true.  (`checks`: overflow checks on; then `n * m` must fit, or both panic.) -/
theorem C25_match (S : Bytes → Nat) (checks : Bool) (m p : Nat) (hp : p < 64) (vs : List Nat) (body : Bytes) (query : List Bytes)
    (hn : vs.length < 2 ^ 64) (hv : ∀ v ∈ vs, v < 2 ^ 64) (hs : vs.Pairwise (· ≤ ·)) (hb : Holds p body vs)
    (hm : checks = true → vs.length * m < 2 ^ 64) :
    matchAny S checks m p (csEncode vs.length ++ body) query
        = some (.ok (decide (∃ q ∈ query, hashValue vs.length m (S q) ∈ vs)))
    ∧ matchAll S checks m p (csEncode vs.length ++ body) query
        = some (.ok (decide (∀ q ∈ query, hashValue vs.length m (S q) ∈ vs))) := by
  have hmap : ∀ q, mapToRange (S q) (vs.length * m % 2 ^ 64) = hashValue vs.length m (S q) := by
    intro q; unfold mapToRange hashValue; rw [Nat.shiftRight_eq_div_pow]
  obtain ⟨tl, hb⟩ := hb
  have hmem1 : ∀ x, x ∈ sort (query.map fun e => mapToRange (S e) (vs.length * m % 2 ^ 64)) ↔ ∃ q ∈ query, hashValue vs.length m (S q) = x := by
    intro x
    rw [(sort_perm _).mem_iff, List.mem_map]
    simp only [hmap]
  constructor
  · unfold matchAny
    rw [C01_roundtrip _ hn]
    simp only
    rw [mul64_ok hm]
    simp only
    have hso := sort_sorted (query.map fun e => mapToRange (S e) (vs.length * m % 2 ^ 64))
    generalize sort (query.map fun e => mapToRange (S e) (vs.length * m % 2 ^ 64)) = mapped at hmem1 hso ⊢
    have hiff : (∃ x ∈ mapped, x ∈ vs) ↔ ∃ q ∈ query, hashValue vs.length m (S q) ∈ vs := by
      constructor
      · rintro ⟨x, hx, hxv⟩
        obtain ⟨q, hq, rfl⟩ := (hmem1 x).1 hx
        exact ⟨q, hq, hxv⟩
      · rintro ⟨q, hq, hxv⟩
        exact ⟨_, (hmem1 _).2 ⟨q, hq, rfl⟩, hxv⟩
    have hdec : decide (∃ x ∈ mapped, x ∈ vs) = decide (∃ q ∈ query, hashValue vs.length m (S q) ∈ vs) := decide_eq_decide.2 hiff
    rw [← hdec]
    cases hmp : mapped with
    | nil => simp
    | cons x xs =>
      rw [if_neg (by simp)]
      cases vs with
      | nil => simp
      | cons v vs =>
        rw [if_neg (by simp)]
        obtain ⟨r, e1, e2, e3⟩ := golombDecode_code p (BitReader.new body) (v - 0) (gapBits p v vs ++ tl) hp
          (hv v List.mem_cons_self) (by simp [BitReader.new]) (by rw [BitReader.new_abs, hb, gapBits, List.append_assoc])
        rw [e1]
        simp only [List.length_cons, Nat.add_sub_cancel, Nat.sub_zero]
        exact anyLoop_spec checks p hp _ (x :: xs) v vs r tl rfl e2 e3 hs (fun y hy => hv y (List.mem_cons_of_mem _ hy)) (hmp ▸ hso)
  · unfold matchAll
    rw [C01_roundtrip _ hn]
    simp only
    rw [mul64_ok hm]
    simp only
    have hso := dedup_sorted _ (sort_sorted (query.map fun e => mapToRange (S e) (vs.length * m % 2 ^ 64)))
    have hmem2 := fun x => (dedup_mem _ x).trans (hmem1 x)
    generalize dedup (sort (query.map fun e => mapToRange (S e) (vs.length * m % 2 ^ 64))) = mapped at hmem2 hso ⊢
    have hiff : (∀ x ∈ mapped, x ∈ vs) ↔ ∀ q ∈ query, hashValue vs.length m (S q) ∈ vs := by
      constructor
      · intro h q hq
        exact h _ ((hmem2 _).2 ⟨q, hq, rfl⟩)
      · intro h x hx
        obtain ⟨q, hq, rfl⟩ := (hmem2 x).1 hx
        exact h q hq
    have hdec : decide (∀ x ∈ mapped, x ∈ vs) = decide (∀ q ∈ query, hashValue vs.length m (S q) ∈ vs) := decide_eq_decide.2 hiff
    rw [← hdec]
    cases hmp : mapped with
    | nil => simp
    | cons x xs =>
      rw [if_neg (by simp)]
      cases vs with
      | nil =>
        rw [if_pos List.length_nil, decide_eq_false]
        intro h
        exact absurd (h x List.mem_cons_self) (by simp)
      | cons v vs =>
        rw [if_neg (by simp)]
        obtain ⟨r, e1, e2, e3⟩ := golombDecode_code p (BitReader.new body) (v - 0) (gapBits p v vs ++ tl) hp
          (hv v List.mem_cons_self) (by simp [BitReader.new]) (by rw [BitReader.new_abs, hb, gapBits, List.append_assoc])
        rw [e1]
        simp only [List.length_cons, Nat.add_sub_cancel, Nat.sub_zero]
        exact allLoop_spec checks p hp _ (x :: xs) v vs r tl rfl e2 e3 hs (fun y hy => hv y (List.mem_cons_of_mem _ hy)) (hmp ▸ hso)

theorem deltaLoop_spec (p : Nat) (hp : p < 64) (ds : List Nat) : ∀ (last : Nat) (w : BitWriter) (k : Nat), w.Inv →
    ∃ w' k', deltaLoop p ds last w k = some (.ok (w', k')) ∧ w'.Inv ∧ w'.abs = w.abs ++ gapBits p last ds
      ∧ w'.out.length + k = w.out.length + k' ∧ ∃ t, w'.out = w.out ++ t := by
  induction ds with
  | nil => intro last w k hw; exact ⟨w, k, rfl, hw, by simp [gapBits], rfl, [], by simp⟩
  | cons d ds ih =>
    intro last w k hw
    obtain ⟨w1, k1, a1, a2, a3, a4, t1, a5⟩ := golombEncode_spec p w (d - last) hp hw
    obtain ⟨w2, k2, b1, b2, b3, b4, t2, b5⟩ := ih d w1 (k + k1) a2
    refine ⟨w2, k2, ?_, b2, by rw [b3, a3, gapBits]; simp, by omega, t1 ++ t2, by rw [b5, a5]; simp⟩
    unfold deltaLoop
    rw [a1]
    exact b1

/-- C25: for `p < 64`, writing a filter succeeds unless the overflow check on `n * m` panics, returns the number of bytes
written, and the bytes are the compact size of the number of elements followed by a body holding the sorted hash values
of the elements (with repetitions). -/
theorem C25_written (S : Bytes → Nat) (checks : Bool) (m p : Nat) (hp : p < 64) (es : List Bytes) :
    (finish S checks m p es = none ↔ checks = true ∧ 2 ^ 64 ≤ es.length * m)
    ∧ (¬ (checks = true ∧ 2 ^ 64 ≤ es.length * m) → ∃ body vs, finish S checks m p es = some (.ok (csEncode es.length ++ body, (csEncode es.length ++ body).length))
      ∧ vs.Pairwise (· ≤ ·) ∧ vs.Perm (es.map fun e => hashValue es.length m (S e)) ∧ Holds p body vs) := by
  have main : ¬ (checks = true ∧ 2 ^ 64 ≤ es.length * m) → ∃ body vs, finish S checks m p es = some (.ok (csEncode es.length ++ body, (csEncode es.length ++ body).length))
      ∧ vs.Pairwise (· ≤ ·) ∧ vs.Perm (es.map fun e => hashValue es.length m (S e)) ∧ Holds p body vs := by
    intro h
    have hm : mul64 checks es.length m = some (es.length * m % 2 ^ 64) := mul64_ok (fun hc => Nat.lt_of_not_le fun hl => h ⟨hc, hl⟩)
    have hmapeq : (es.map fun e => mapToRange (S e) (es.length * m % 2 ^ 64)) = es.map fun e => hashValue es.length m (S e) :=
      List.map_congr_left fun q _ => by unfold mapToRange hashValue; rw [Nat.shiftRight_eq_div_pow]
    unfold finish
    rw [hm]
    simp only
    rw [hmapeq]
    have hperm := sort_perm (es.map fun e => hashValue es.length m (S e))
    have hsort := sort_sorted (es.map fun e => hashValue es.length m (S e))
    have hlen : (sort (es.map fun e => hashValue es.length m (S e))).length = es.length := by rw [hperm.length_eq, List.length_map]
    generalize sort (es.map fun e => hashValue es.length m (S e)) = vs at hperm hsort hlen ⊢
    rw [hlen]
    obtain ⟨w, k, a1, a2, a3, a4, t1, a5⟩ := deltaLoop_spec p hp vs 0 (BitWriter.new (csEncode es.length)) (csEncode es.length).length (BitWriter.new_inv _)
    obtain ⟨z, hz, b1, b2, _, _, t2, b3⟩ := flush_spec w a2
    rw [a1]
    simp only
    have hout : w.flush.1.out = csEncode es.length ++ (t1 ++ t2) := by rw [b3, a5]; simp [BitWriter.new]
    refine ⟨t1 ++ t2, vs, ?_, hsort, hperm, List.replicate z false, ?_⟩
    · have h1 : w.flush.1.out.length = (csEncode es.length ++ (t1 ++ t2)).length := by rw [hout]
      have h2 : (BitWriter.new (csEncode es.length)).out.length = (csEncode es.length).length := rfl
      rw [hout]
      congr 3
      omega
    · apply byteBits_inj_prefix hout
      rw [b1, a3, BitWriter.new_abs, List.append_assoc]
  refine ⟨⟨?_, ?_⟩, main⟩
  · intro h
    exact Classical.byContradiction fun hc => by
      obtain ⟨_, _, e, _⟩ := main hc
      rw [h] at e; cases e
  · rintro ⟨hc, hl⟩
    unfold finish mul64
    rw [if_neg (by omega), if_pos hc]

theorem hashValue_lt {n m h : Nat} (hh : h < 2 ^ 64) : hashValue n m h < 2 ^ 64 := by
  unfold hashValue
  have h1 : n * m % 2 ^ 64 < 2 ^ 64 := Nat.mod_lt _ (by omega)
  apply Nat.div_lt_of_lt_mul
  generalize n * m % 2 ^ 64 = x at h1
  calc h * x ≤ h * 2 ^ 64 := Nat.mul_le_mul_left _ (by omega)
    _ < 2 ^ 64 * 2 ^ 64 := Nat.mul_lt_mul_of_pos_right hh (by omega)

/-- C25: on a filter written from `es`, `match_any` answers whether some query has the hash value of some element, and
`match_all` whether all queries have. -/
theorem C25_filter (S : Bytes → Nat) (hS : ∀ x, S x < 2 ^ 64) (checks : Bool) (m p : Nat) (hp : p < 64) (es query : List Bytes)
    (hlen : es.length < 2 ^ 64) (content : Bytes) (count : Nat) (h : finish S checks m p es = some (.ok (content, count))) :
    count = content.length
    ∧ matchAny S checks m p content query
        = some (.ok (decide (∃ q ∈ query, ∃ e ∈ es, hashValue es.length m (S q) = hashValue es.length m (S e))))
    ∧ matchAll S checks m p content query
        = some (.ok (decide (∀ q ∈ query, ∃ e ∈ es, hashValue es.length m (S q) = hashValue es.length m (S e)))) := by
  obtain ⟨h1, h2⟩ := C25_written S checks m p hp es
  have hn : ¬ (checks = true ∧ 2 ^ 64 ≤ es.length * m) := fun hc => by rw [h1.2 hc] at h; cases h
  obtain ⟨body, vs, e, hsort, hperm, hb⟩ := h2 hn
  rw [h] at e
  injection e with e; injection e with e
  injection e with e1 e2
  have hvl : vs.length = es.length := by rw [hperm.length_eq, List.length_map]
  have hv : ∀ v ∈ vs, v < 2 ^ 64 := by
    intro v hv
    obtain ⟨e, _, rfl⟩ := List.mem_map.1 (hperm.mem_iff.1 hv)
    exact hashValue_lt (hS e)
  have := C25_match S checks m p hp vs body query (by omega) hv hsort hb (fun hc => by rw [hvl]; exact Nat.lt_of_not_le fun hl => hn ⟨hc, hl⟩)
  rw [hvl, ← e1] at this
  have hmem : ∀ q, hashValue es.length m (S q) ∈ vs ↔ ∃ e ∈ es, hashValue es.length m (S q) = hashValue es.length m (S e) := by
    intro q
    rw [hperm.mem_iff, List.mem_map]
    exact ⟨fun ⟨e, he, heq⟩ => ⟨e, he, heq.symm⟩, fun ⟨e, he, heq⟩ => ⟨e, he, heq.symm⟩⟩
  refine ⟨by rw [e2, e1], ?_, ?_⟩
  · rw [this.1]
    congr 2
    exact decide_eq_decide.2 ⟨fun ⟨q, hq, hx⟩ => ⟨q, hq, (hmem q).1 hx⟩, fun ⟨q, hq, hx⟩ => ⟨q, hq, (hmem q).2 hx⟩⟩
  · rw [this.2]
    congr 2
    exact decide_eq_decide.2 ⟨fun h q hq => (hmem q).1 (h q hq), fun h q hq => (hmem q).2 (h q hq)⟩

/-- C25: no false negatives, whatever the hash does. -/
theorem C25_no_false_negatives (S : Bytes → Nat) (hS : ∀ x, S x < 2 ^ 64) (checks : Bool) (m p : Nat) (hp : p < 64) (es query : List Bytes)
    (hlen : es.length < 2 ^ 64) (content : Bytes) (count : Nat) (h : finish S checks m p es = some (.ok (content, count))) :
    ((∃ q ∈ query, q ∈ es) → matchAny S checks m p content query = some (.ok true))
    ∧ ((∀ q ∈ query, q ∈ es) → matchAll S checks m p content query = some (.ok true)) := by
  obtain ⟨_, h1, h2⟩ := C25_filter S hS checks m p hp es query hlen content count h
  constructor
  · rintro ⟨q, hq, he⟩
    rw [h1, decide_eq_true ⟨q, hq, q, he, rfl⟩]
  · intro hq
    rw [h2, decide_eq_true (fun q hq' => ⟨q, hq q hq', rfl⟩)]

/-- C25: the elements added are the distinct non-empty ones. -/
theorem C25_elements (l es : List Bytes) (hes : es.Nodup) :
    (l.foldl addElement es).Nodup ∧ ∀ x, x ∈ l.foldl addElement es ↔ x ∈ es ∨ (x ∈ l ∧ x ≠ []) := by
  induction l generalizing es with
  | nil => exact ⟨hes, fun x => by simp⟩
  | cons a l ih =>
    have hstep : (addElement es a).Nodup ∧ ∀ x, x ∈ addElement es a ↔ x ∈ es ∨ (x = a ∧ x ≠ []) := by
      unfold addElement
      cases a with
      | nil => exact ⟨hes, fun x => by simp⟩
      | cons c a =>
        simp only [List.isEmpty_cons, Bool.false_eq_true, if_false]
        by_cases hc : es.contains (c :: a) = true
        · rw [if_pos hc]
          rw [List.contains_iff_mem] at hc
          refine ⟨hes, fun x => ⟨Or.inl, ?_⟩⟩
          rintro (h | ⟨rfl, _⟩)
          · exact h
          · exact hc
        · rw [if_neg hc]
          rw [List.contains_iff_mem] at hc
          constructor
          · rw [List.nodup_append]
            refine ⟨hes, by simp, ?_⟩
            intro x hx y hy
            simp only [List.mem_singleton] at hy
            rintro rfl
            exact hc (hy ▸ hx)
          · intro x
            simp only [List.mem_append, List.mem_singleton]
            constructor
            · rintro (h | rfl)
              · exact .inl h
              · exact .inr ⟨rfl, by simp⟩
            · rintro (h | ⟨h, _⟩)
              · exact .inl h
              · exact .inr h
    obtain ⟨i1, i2⟩ := ih (addElement es a) hstep.1
    refine ⟨i1, fun x => ?_⟩
    rw [List.foldl_cons, i2, hstep.2, List.mem_cons]
    constructor
    · rintro ((h | ⟨h, h'⟩) | ⟨h, h'⟩)
      · exact .inl h
      · exact .inr ⟨.inl h, h'⟩
      · exact .inr ⟨.inr h, h'⟩
    · rintro (h | ⟨h | h, h'⟩)
      · exact .inl (.inl h)
      · exact .inl (.inr ⟨h, h'⟩)
      · exact .inr ⟨h, h'⟩

/-! ### Block filters -/

/-- The scripts a basic block filter is about: the non-empty output scripts that are not `OP_RETURN`, and the non-empty
scripts of the outputs spent by all transactions but the first. -/
def Relevant (txs : List Tx) (coin : OutPoint → Except FErr Bytes) (s : Bytes) : Prop :=
  s ≠ [] ∧ ((∃ t ∈ txs, ∃ o ∈ t.outputs, o.spk = s ∧ s.head? ≠ some 0x6a)
    ∨ (∃ t ∈ txs.drop 1, ∃ i ∈ t.inputs, coin i.prev = .ok s))

theorem foldl_if_filter (p : Bytes → Bool) (l : List Bytes) (es : List Bytes) :
    l.foldl (fun es s => if p s then es else addElement es s) es = (l.filter (fun s => !p s)).foldl addElement es := by
  induction l generalizing es with
  | nil => rfl
  | cons a l ih =>
    simp only [List.foldl_cons, ih]
    cases h : p a <;> simp [h]

theorem addInputLoop_spec (coin : OutPoint → Except FErr Bytes) (os : List OutPoint) : ∀ es,
    (∃ ss : List Bytes, os.map coin = ss.map Except.ok ∧ addInputLoop coin os es = .ok (ss.foldl addElement es))
    ∨ (∃ o ∈ os, ∃ e, coin o = .error e ∧ addInputLoop coin os es = .error e) := by
  induction os with
  | nil => intro es; exact .inl ⟨[], rfl, rfl⟩
  | cons o os ih =>
    intro es
    unfold addInputLoop
    cases hc : coin o with
    | error e => exact .inr ⟨o, List.mem_cons_self, e, hc, rfl⟩
    | ok s =>
      rcases ih (addElement es s) with ⟨ss, h1, h2⟩ | ⟨o', ho, e, h1, h2⟩
      · exact .inl ⟨s :: ss, by simp [hc, h1], h2⟩
      · exact .inr ⟨o', List.mem_cons_of_mem _ ho, e, h1, h2⟩

theorem isOpReturn_iff (s : Bytes) : Scr.isOpReturn s = true ↔ s.head? = some 0x6a := by
  unfold Scr.isOpReturn
  cases s with
  | nil => simp
  | cons b s => simp [Scr.OP_RETURN]

/-- C25: the elements of the filter of a block are exactly the relevant scripts, each once; building fails exactly when
some coin spent by a transaction other than the first is not found. -/
theorem C25_block_elements (txs : List Tx) (coin : OutPoint → Except FErr Bytes) :
    (∃ es, addInputScripts coin txs (addOutputScripts txs []) = .ok es ∧ es.Nodup ∧ (∀ s, s ∈ es ↔ Relevant txs coin s)
      ∧ ∀ t ∈ txs.drop 1, ∀ i ∈ t.inputs, ∃ s, coin i.prev = .ok s)
    ∨ (∃ e, addInputScripts coin txs (addOutputScripts txs []) = .error e ∧ ∃ t ∈ txs.drop 1, ∃ i ∈ t.inputs, coin i.prev = .error e) := by
  unfold addInputScripts addOutputScripts
  rw [foldl_if_filter]
  rcases addInputLoop_spec coin ((txs.drop 1).flatMap fun t => t.inputs.map (·.prev))
    (((txs.flatMap fun t => t.outputs.map (·.spk)).filter (fun s => !Scr.isOpReturn s)).foldl addElement []) with ⟨ss, h1, h2⟩ | ⟨o, ho, e, h1, h2⟩
  · left
    obtain ⟨n1, m1⟩ := C25_elements ((txs.flatMap fun t => t.outputs.map (·.spk)).filter (fun s => !Scr.isOpReturn s)) [] List.nodup_nil
    obtain ⟨n2, m2⟩ := C25_elements ss _ n1
    have hss : ∀ s, s ∈ ss ↔ ∃ t ∈ txs.drop 1, ∃ i ∈ t.inputs, coin i.prev = .ok s := by
      intro s
      have : s ∈ ss ↔ (Except.ok s : Except FErr Bytes) ∈ ss.map Except.ok := by simp
      rw [this, ← h1]
      simp only [List.mem_map, List.mem_flatMap]
      constructor
      · rintro ⟨o, ⟨t, ht, i, hi, rfl⟩, hc⟩; exact ⟨t, ht, i, hi, hc⟩
      · rintro ⟨t, ht, i, hi, hc⟩; exact ⟨_, ⟨t, ht, i, hi, rfl⟩, hc⟩
    refine ⟨_, h2, n2, ?_, ?_⟩
    · intro s
      rw [m2, m1, hss]
      unfold Relevant
      simp only [List.not_mem_nil, false_or, List.mem_filter, List.mem_flatMap, List.mem_map, Bool.not_eq_true', ← Bool.not_eq_true, isOpReturn_iff]
      constructor
      · rintro (⟨⟨⟨t, ht, o, ho, rfl⟩, hr⟩, hne⟩ | ⟨h, hne⟩)
        · exact ⟨hne, .inl ⟨t, ht, o, ho, rfl, hr⟩⟩
        · exact ⟨hne, .inr h⟩
      · rintro ⟨hne, (⟨t, ht, o, ho, rfl, hr⟩ | h)⟩
        · exact .inl ⟨⟨⟨t, ht, o, ho, rfl⟩, hr⟩, hne⟩
        · exact .inr ⟨h, hne⟩
    · intro t ht i hi
      have : coin i.prev ∈ ss.map Except.ok := by
        rw [← h1]
        exact List.mem_map.2 ⟨_, List.mem_flatMap.2 ⟨t, ht, List.mem_map.2 ⟨i, hi, rfl⟩⟩, rfl⟩
      obtain ⟨s, _, hs⟩ := List.mem_map.1 this
      exact ⟨s, hs.symm⟩
  · right
    obtain ⟨t, ht, ho⟩ := List.mem_flatMap.1 ho
    obtain ⟨i, hi, rfl⟩ := List.mem_map.1 ho
    exact ⟨e, h2, t, ht, i, hi, h1⟩

/-- C25: a filter built for a block matches, under that block's hash, every query that contains one of its relevant
scripts; when all queried scripts are relevant `match_all` is true too.  The bound on the number of scripts is the one the
multiplication by `M` needs. -/
theorem C25_block (sip : Nat → Nat → Bytes → Nat) (hS : ∀ a b x, sip a b x < 2 ^ 64) (checks : Bool) (blockHash : Arr 32) (txs : List Tx)
    (coin : OutPoint → Except FErr Bytes) (content : Bytes) (h : newScriptFilter sip checks blockHash txs coin = some (.ok content))
    (es : List Bytes) (hes : addInputScripts coin txs (addOutputScripts txs []) = .ok es) (hlen : es.length < 2 ^ 64) (query : List Bytes) :
    ((∃ s ∈ query, Relevant txs coin s) → filterMatchAny sip checks content blockHash query = some (.ok true))
    ∧ ((∀ s ∈ query, Relevant txs coin s) → filterMatchAll sip checks content blockHash query = some (.ok true)) := by
  have hrel : ∀ s, s ∈ es ↔ Relevant txs coin s := by
    rcases C25_block_elements txs coin with ⟨es', h1, _, h2, _⟩ | ⟨e, h1, _⟩
    · rw [h1] at hes; cases hes; exact h2
    · rw [h1] at hes; cases hes
  unfold newScriptFilter at h
  rw [hes] at h
  simp only at h
  split at h
  · cases h
  · cases h
  · rename_i out count hf
    injection h with h; injection h with h
    subst h
    have := C25_no_false_negatives (sip (keys blockHash).1 (keys blockHash).2) (hS _ _) checks M P (by decide) es query hlen out count hf
    unfold filterMatchAny filterMatchAll
    refine ⟨fun ⟨s, hs, hr⟩ => this.1 ⟨s, hs, (hrel s).2 hr⟩, fun hr => this.2 fun s hs => (hrel s).2 (hr s hs)⟩

/-- The keys are the first two little-endian words of the block hash. -/
theorem C25_keys (k0 k1 : Nat) (h0 : k0 < 2 ^ 64) (h1 : k1 < 2 ^ 64) (rest : Bytes) (h : (leBytes 8 k0 ++ leBytes 8 k1 ++ rest).length = 32) :
    keys ⟨leBytes 8 k0 ++ leBytes 8 k1 ++ rest, h⟩ = (k0, k1) := by
  unfold keys
  simp only [List.append_assoc]
  rw [List.take_left' (leBytes_length _ _), List.drop_left' (leBytes_length _ _), List.take_left' (leBytes_length _ _),
    leNat_leBytes 8 k0 (by omega), leNat_leBytes 8 k1 (by omega)]

/-! ### Examples -/

/-- Five pairs of different widths, starting in the middle of a byte, are covered by `C26_round_trip_exact`. -/
example : ∀ x ∈ [(5, 3), (0, 0), (0x1ff, 9), (2 ^ 63 + 1, 64), (1, 1)], x.2 ≤ 64 ∧ x.1 < 2 ^ x.2 := by decide

/-- A stream written by hand: `101` `1` and padding is 0xB0. -/
example : byteBits [0xB0] = bits 3 5 ++ bits 1 1 ++ List.replicate 4 false := by decide

/-- The values 1, 1 and 6 with `p = 1`: gaps 1, 0, 5, so `0 1`, `0 0`, `110 1`. -/
example : Holds 1 [0x4D] [1, 1, 6] := ⟨[], by decide⟩
example : ([1, 1, 6] : List Nat).Pairwise (· ≤ ·) ∧ ∀ v ∈ [1, 1, 6], v < 2 ^ 64 := by decide

/-- `C25_match` at that filter: an element hashing to 2^63 has value 1 in a filter of 3 elements with `m = 1`. -/
example : hashValue 3 1 (2 ^ 63) = 1 := by decide
example (S : Bytes → Nat) (q : Bytes) (h : S q = 2 ^ 63) : matchAny S true 1 1 (csEncode 3 ++ [0x4D]) [q] = some (.ok true) := by
  refine (C25_match S true 1 1 (by omega) [1, 1, 6] [0x4D] [q] (by decide) (by decide) (by decide) ⟨[], by decide⟩ (by decide)).1.trans ?_
  have : ∃ x ∈ [q], hashValue ([1, 1, 6] : List Nat).length 1 (S x) ∈ [1, 1, 6] := ⟨q, List.mem_singleton.2 rfl, by rw [h]; decide⟩
  rw [decide_eq_true this]

/-- The set of elements is never too large for the basic filter parameters in practice. -/
example : ¬ ((true : Bool) = true ∧ 2 ^ 64 ≤ [[0x51], [0x00, 0x14]].length * M) := by decide

/-- A relevant and an irrelevant script. -/
example : Relevant [⟨1, 0, [], [⟨⟨5, by decide⟩, [0x51]⟩, ⟨⟨0, by decide⟩, [0x6a]⟩]⟩] (fun _ => .error .utxoMissing) [0x51] :=
  ⟨by simp, .inl ⟨_, List.mem_singleton.2 rfl, ⟨⟨5, by decide⟩, [0x51]⟩, by simp, rfl, by decide⟩⟩
example : ¬ Relevant [⟨1, 0, [], [⟨⟨5, by decide⟩, [0x51]⟩, ⟨⟨0, by decide⟩, [0x6a]⟩]⟩] (fun _ => .error .utxoMissing) [0x6a] := by
  rintro ⟨_, (⟨t, ht, o, ho, h, h'⟩ | ⟨t, ht, _⟩)⟩
  · exact h' rfl
  · simp at ht

end Bip158
end Btc
