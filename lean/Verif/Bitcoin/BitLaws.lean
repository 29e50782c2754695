import Verif.Bitcoin.Bip158
/-! # Bit streams as lists of bits (used by `Props/C25_C26.lean`) -/
namespace Btc
namespace Bip158

/-- The `w` low bits of `v`, most significant first. -/
def bits : Nat → Nat → List Bool
  | 0, _ => []
  | w + 1, v => v.testBit w :: bits w v

/-- The number written by a list of bits, most significant first. -/
def val (l : List Bool) : Nat := l.foldl (fun a b => 2 * a + b.toNat) 0

/-- The bits of a byte string, each byte from its most significant bit. -/
def byteBits (bs : Bytes) : List Bool := bs.flatMap fun b => bits 8 b.toNat

theorem bits_length (w v : Nat) : (bits w v).length = w := by
  induction w with
  | zero => rfl
  | succ w ih => simp [bits, ih]

theorem bits_append (a b v : Nat) : bits (a + b) v = bits a (v >>> b) ++ bits b v := by
  induction a with
  | zero => simp [bits]
  | succ a ih =>
    rw [show a + 1 + b = (a + b) + 1 by omega]
    simp only [bits, List.cons_append, ih, Nat.testBit_shiftRight]
    rw [Nat.add_comm b a]

theorem bits_congr {w v v' : Nat} (h : ∀ i < w, v.testBit i = v'.testBit i) : bits w v = bits w v' := by
  induction w with
  | zero => rfl
  | succ w ih =>
    simp only [bits]
    rw [h w (by omega), ih (fun i hi => h i (by omega))]

theorem val_aux (l : List Bool) (a : Nat) : l.foldl (fun a b => 2 * a + b.toNat) a = a * 2 ^ l.length + val l := by
  induction l generalizing a with
  | nil => simp [val]
  | cons b l ih =>
    simp only [List.foldl_cons, List.length_cons, val]
    rw [ih, ih (2 * 0 + b.toNat), Nat.pow_succ]
    simp only [Nat.mul_zero, Nat.zero_add, Nat.add_mul]
    rw [Nat.mul_comm 2 a, Nat.mul_assoc, Nat.mul_comm 2 (2 ^ l.length)]
    omega

theorem val_append (l m : List Bool) : val (l ++ m) = val l * 2 ^ m.length + val m := by
  unfold val
  rw [List.foldl_append, val_aux]; rfl

theorem val_cons (b : Bool) (l : List Bool) : val (b :: l) = b.toNat * 2 ^ l.length + val l := by
  rw [show b :: l = [b] ++ l from rfl, val_append]
  simp [val]

theorem val_lt (l : List Bool) : val l < 2 ^ l.length := by
  induction l with
  | nil => simp [val]
  | cons b l ih =>
    rw [val_cons, List.length_cons, Nat.pow_succ]
    cases b <;> simp <;> omega

theorem val_bits (w v : Nat) : val (bits w v) = v % 2 ^ w := by
  induction w with
  | zero => simp [bits, val, Nat.mod_one]
  | succ w ih =>
    rw [bits, val_cons, ih, bits_length, Nat.pow_succ, Nat.mod_mul, Nat.mul_comm, Nat.add_comm, Nat.testBit_eq_decide_div_mod_eq]
    congr 2
    rcases Nat.mod_two_eq_zero_or_one (v / 2 ^ w) with h | h <;> simp [h]

theorem bits_mod {w v k : Nat} (h : w ≤ k) : bits w (v % 2 ^ k) = bits w v :=
  bits_congr fun i hi => by rw [Nat.testBit_mod_two_pow]; simp; omega

theorem bits_zero (w : Nat) : bits w 0 = List.replicate w false := by
  induction w with
  | zero => rfl
  | succ w ih => simp [bits, ih, List.replicate_succ]

theorem bits_ones {w k : Nat} (h : w ≤ k) : bits w (2 ^ k - 1) = List.replicate w true := by
  induction w with
  | zero => rfl
  | succ w ih =>
    rw [bits, ih (by omega), List.replicate_succ, Nat.testBit_two_pow_sub_one]
    simp; omega

theorem byteBits_append (a b : Bytes) : byteBits (a ++ b) = byteBits a ++ byteBits b := by
  simp [byteBits]

theorem byteBits_length (a : Bytes) : (byteBits a).length = 8 * a.length := by
  induction a with
  | nil => rfl
  | cons b a ih =>
    rw [show b :: a = [b] ++ a from rfl, byteBits_append, List.length_append, ih]
    simp [byteBits, bits_length]; omega

/-! ### The writer -/

/-- The bits written so far, including those still in the buffer. -/
def BitWriter.abs (w : BitWriter) : List Bool := byteBits w.out ++ bits w.offset (w.buffer.toNat >>> (8 - w.offset))

/-- Reachable states: less than one byte buffered, the rest of the buffer zero. -/
def BitWriter.Inv (w : BitWriter) : Prop := w.offset < 8 ∧ ∀ i < 8 - w.offset, w.buffer.toNat.testBit i = false

theorem BitWriter.new_inv (out : Bytes) : (BitWriter.new out).Inv := ⟨by simp [new], fun i _ => by simp [new]⟩
theorem BitWriter.new_abs (out : Bytes) : (BitWriter.new out).abs = byteBits out := by simp [new, abs, bits]

theorem chunk_testBit (data nbits offset i : Nat) (h1 : 0 < nbits) (h2 : nbits ≤ 64) (ho : offset < 8) :
    (((data <<< (64 - nbits)) % 2 ^ 64) >>> (64 - 8 + offset)).testBit i
      = (decide (i < 8 - offset) && decide (8 - offset ≤ i + nbits) && data.testBit (i + nbits - (8 - offset))) := by
  rw [Nat.testBit_shiftRight, Nat.testBit_mod_two_pow, Nat.testBit_shiftLeft]
  by_cases a : i < 8 - offset
  · by_cases b : 8 - offset ≤ i + nbits
    · rw [decide_eq_true a, decide_eq_true b, decide_eq_true (by omega : 64 - 8 + offset + i < 64),
        decide_eq_true (by omega : 64 - 8 + offset + i ≥ 64 - nbits),
        show 64 - 8 + offset + i - (64 - nbits) = i + nbits - (8 - offset) by omega]; simp
    · rw [decide_eq_false b, decide_eq_false (by omega : ¬ 64 - 8 + offset + i ≥ 64 - nbits)]; simp
  · rw [decide_eq_false a, decide_eq_false (by omega : ¬ 64 - 8 + offset + i < 64)]; simp

theorem writeLoop_spec (data : Nat) : ∀ (nbits : Nat) (w : BitWriter) (wrote : Nat), nbits ≤ 64 → w.Inv →
    (w.writeLoop data nbits wrote).1.Inv ∧ (w.writeLoop data nbits wrote).1.abs = w.abs ++ bits nbits data
      ∧ (w.writeLoop data nbits wrote).1.out.length + wrote = w.out.length + (w.writeLoop data nbits wrote).2
      ∧ ∃ t, (w.writeLoop data nbits wrote).1.out = w.out ++ t := by
  intro nbits
  induction nbits using Nat.strongRecOn with
  | ind nbits ih =>
    intro w wrote h64 hinv
    obtain ⟨ho, hz⟩ := hinv
    unfold BitWriter.writeLoop
    by_cases h0 : nbits > 0
    · rw [dif_pos ⟨h0, ho⟩]
      have hbd : min (8 - w.offset) nbits ≤ 8 - w.offset := Nat.min_le_left _ _
      have hbn : min (8 - w.offset) nbits ≤ nbits := Nat.min_le_right _ _
      have hor : min (8 - w.offset) nbits = 8 - w.offset ∨ min (8 - w.offset) nbits = nbits := by omega
      generalize hb : min (8 - w.offset) nbits = b at hbd hbn hor
      simp only
      have hX := fun i => chunk_testBit data nbits w.offset i h0 h64 ho
      generalize ((data <<< (64 - nbits)) % 2 ^ 64) >>> (64 - 8 + w.offset) = X at hX ⊢
      have hn : ∀ i, (w.buffer ||| UInt8.ofNat X).toNat.testBit i = (w.buffer.toNat.testBit i || (decide (i < 8) && X.testBit i)) := by
        intro i
        rw [UInt8.toNat_or, Nat.testBit_or, UInt8.toNat_ofNat', Nat.testBit_mod_two_pow]
      generalize w.buffer ||| UInt8.ofNat X = nb at hn ⊢
      have key : bits (w.offset + b) (nb.toNat >>> (8 - (w.offset + b)))
          = bits w.offset (w.buffer.toNat >>> (8 - w.offset)) ++ bits b (data >>> (nbits - b)) := by
        rw [bits_append]
        congr 1
        · apply bits_congr
          intro i hi
          rw [← Nat.shiftRight_add, Nat.testBit_shiftRight, Nat.testBit_shiftRight, hn, hX,
            decide_eq_false (by omega : ¬ (8 - (w.offset + b) + b + i < 8 - w.offset)),
            show 8 - (w.offset + b) + b + i = 8 - w.offset + i by omega]
          simp
        · apply bits_congr
          intro i hi
          rw [Nat.testBit_shiftRight, Nat.testBit_shiftRight, hn, hX, hz _ (by omega),
            decide_eq_true (by omega : 8 - (w.offset + b) + i < 8), decide_eq_true (by omega : 8 - (w.offset + b) + i < 8 - w.offset),
            decide_eq_true (by omega : 8 - w.offset ≤ 8 - (w.offset + b) + i + nbits),
            show 8 - (w.offset + b) + i + nbits - (8 - w.offset) = nbits - b + i by omega]
          simp
      have hsplit : bits nbits data = bits b (data >>> (nbits - b)) ++ bits (nbits - b) data := by
        rw [← bits_append]; congr 1; omega
      have hzn : ∀ i < 8 - (w.offset + b), nb.toNat.testBit i = false := by
        intro i hi
        rw [hn, hX, hz _ (by omega), decide_eq_false (by omega : ¬ 8 - w.offset ≤ i + nbits)]; simp
      by_cases h8 : w.offset + b = 8
      · rw [if_pos h8]
        have hflush : (BitWriter.mk nb (w.offset + b) w.out).flush = (⟨0, 0, w.out ++ [nb]⟩, 1) := by
          unfold BitWriter.flush; rw [if_pos (by show w.offset + b > 0; omega)]
        rw [hflush]
        obtain ⟨i1, i2, i3, t, i4⟩ := ih (nbits - b) (by omega) ⟨0, 0, w.out ++ [nb]⟩ (wrote + 1) (by omega)
          ⟨by show 0 < 8; omega, fun i _ => by simp⟩
        refine ⟨i1, ?_, ?_, [nb] ++ t, ?_⟩
        · rw [i2, hsplit]
          show byteBits (w.out ++ [nb]) ++ bits 0 _ ++ _ = byteBits w.out ++ _ ++ _
          rw [byteBits_append]
          have : byteBits [nb] = bits (w.offset + b) (nb.toNat >>> (8 - (w.offset + b))) := by
            rw [h8]; simp [byteBits]
          rw [this, key]
          simp [bits]
        · simp only [List.length_append, List.length_singleton] at i3 ⊢
          omega
        · rw [i4]; simp
      · rw [if_neg h8]
        obtain ⟨i1, i2, i3, i4⟩ := ih (nbits - b) (by omega) ⟨nb, w.offset + b, w.out⟩ wrote (by omega)
          ⟨by show w.offset + b < 8; omega, hzn⟩
        refine ⟨i1, ?_, i3, i4⟩
        rw [i2, hsplit]
        show byteBits w.out ++ bits (w.offset + b) (nb.toNat >>> (8 - (w.offset + b))) ++ _ = byteBits w.out ++ _ ++ _
        rw [key]; simp
    · rw [dif_neg (by omega)]
      have : nbits = 0 := by omega
      subst this
      exact ⟨⟨ho, hz⟩, by simp [bits], rfl, [], by simp⟩

/-- `write` appends the low `n` bits of the value. -/
theorem write_spec (w : BitWriter) (data n : Nat) (hn : n ≤ 64) (hw : w.Inv) :
    ∃ w' k, w.write data n = .ok (w', k) ∧ w'.Inv ∧ w'.abs = w.abs ++ bits n data ∧ w'.out.length = w.out.length + k
      ∧ ∃ t, w'.out = w.out ++ t := by
  have := writeLoop_spec data n w 0 hn hw
  refine ⟨(w.writeLoop data n 0).1, (w.writeLoop data n 0).2, ?_, this.1, this.2.1, by have := this.2.2.1; omega, this.2.2.2⟩
  unfold BitWriter.write
  rw [if_neg (by omega)]

/-- `flush` pads the last byte with zero bits. -/
theorem flush_spec (w : BitWriter) (hw : w.Inv) :
    ∃ z, z < 8 ∧ byteBits w.flush.1.out = w.abs ++ List.replicate z false ∧ w.flush.1.out.length = w.out.length + w.flush.2
      ∧ w.flush.1.Inv ∧ w.flush.1.offset = 0 ∧ ∃ t, w.flush.1.out = w.out ++ t := by
  unfold BitWriter.flush
  by_cases h : w.offset > 0
  · rw [if_pos h]
    refine ⟨8 - w.offset, by omega, ?_, by simp, ⟨by show 0 < 8; omega, fun i _ => by simp⟩, rfl, [w.buffer], rfl⟩
    show byteBits (w.out ++ [w.buffer]) = _
    rw [byteBits_append, BitWriter.abs, List.append_assoc]
    congr 1
    show bits 8 w.buffer.toNat ++ [] = _
    have := hw.1
    conv => lhs; rw [show 8 = w.offset + (8 - w.offset) by omega]
    rw [bits_append, List.append_nil, ← bits_zero]
    congr 1
    apply bits_congr
    intro i hi
    rw [hw.2 i hi]; simp
  · rw [if_neg h]
    have h0 : w.offset = 0 := by omega
    exact ⟨0, by omega, by simp [BitWriter.abs, h0, bits], rfl, hw, h0, [], by simp⟩

/-! ### The reader -/

/-- The bits not yet read. -/
def BitReader.abs (r : BitReader) : List Bool := (bits 8 r.buffer.toNat).drop r.offset ++ byteBits r.rest

theorem BitReader.new_abs (src : Bytes) : (BitReader.new src).abs = byteBits src := by
  simp [abs, new, bits_length, List.drop_of_length_le]

theorem BitReader.abs_length (r : BitReader) : r.abs.length = r.left := by
  simp [abs, bits_length, byteBits_length, left]

theorem drop_bits (a b v : Nat) (h : a ≤ b) : (bits b v).drop a = bits (b - a) v := by
  have := bits_append a (b - a) v
  rw [show a + (b - a) = b by omega] at this
  rw [this, List.drop_left' (bits_length _ _)]

theorem take_bits (a b v : Nat) (h : a ≤ b) : (bits b v).take a = bits a (v >>> (b - a)) := by
  have := bits_append a (b - a) v
  rw [show a + (b - a) = b by omega] at this
  rw [this, List.take_left' (bits_length _ _)]

theorem refill_spec (r : BitReader) (ho : r.offset ≤ 8) :
    (r.abs = [] ∧ r.refill = .error .eof) ∨ (∃ r', r.refill = .ok r' ∧ r'.offset < 8 ∧ r'.abs = r.abs) := by
  unfold BitReader.refill
  by_cases h : r.offset = 8
  · rw [if_pos h]
    cases hr : r.rest with
    | nil => left; exact ⟨by simp [BitReader.abs, h, hr, bits_length, byteBits, List.drop_of_length_le], rfl⟩
    | cons b rest =>
      right
      refine ⟨_, rfl, by show 0 < 8; omega, ?_⟩
      simp [BitReader.abs, h, hr, byteBits, bits_length]
  · rw [if_neg h]; right; exact ⟨r, rfl, by omega, rfl⟩

theorem readLoop_spec : ∀ (n : Nat) (r : BitReader) (data : Nat), n ≤ 64 → r.offset ≤ 8 → data < 2 ^ (64 - n) →
    (n ≤ r.abs.length → ∃ r', r.readLoop n data = .ok (data * 2 ^ n + val (r.abs.take n), r') ∧ r'.offset ≤ 8
      ∧ r'.abs = r.abs.drop n)
    ∧ (r.abs.length < n → r.readLoop n data = .error .eof) := by
  intro n
  induction n using Nat.strongRecOn with
  | ind n ih =>
    intro r data h64 ho hd
    unfold BitReader.readLoop
    by_cases h0 : n > 0
    · rw [dif_pos ⟨h0, ho⟩]
      rcases refill_spec r ho with ⟨habs, hr⟩ | ⟨r', hr, ho', habs⟩
      · constructor
        · intro h; rw [habs] at h; simp at h; omega
        · intro _
          split
          · rename_i e he; rw [hr] at he; cases he; rfl
          · rename_i r' he; rw [hr] at he; cases he
      · have hbd : min (8 - r'.offset) n ≤ 8 - r'.offset := Nat.min_le_left _ _
        have hbn : min (8 - r'.offset) n ≤ n := Nat.min_le_right _ _
        have hb0 : 0 < min (8 - r'.offset) n := by omega
        have hgoal : ∀ (d' : Nat), d' = ((data <<< min (8 - r'.offset) n) % 2 ^ 64) ||| ((r'.buffer.toNat <<< r'.offset) % 256) >>> (8 - min (8 - r'.offset) n) →
            (n ≤ r.abs.length → ∃ r'', (BitReader.mk r'.buffer (r'.offset + min (8 - r'.offset) n) r'.rest).readLoop (n - min (8 - r'.offset) n) d'
                = .ok (data * 2 ^ n + val (r.abs.take n), r'') ∧ r''.offset ≤ 8 ∧ r''.abs = r.abs.drop n)
            ∧ (r.abs.length < n → (BitReader.mk r'.buffer (r'.offset + min (8 - r'.offset) n) r'.rest).readLoop (n - min (8 - r'.offset) n) d' = .error .eof) := by
          intro d' hd'
          generalize min (8 - r'.offset) n = b at hbd hbn hb0 hd' ⊢
          have hpow : data * 2 ^ b < 2 ^ (64 - (n - b)) := by
            rw [show 64 - (n - b) = 64 - n + b by omega, Nat.pow_add]
            exact Nat.mul_lt_mul_of_pos_right hd (Nat.two_pow_pos b)
          have hpow64 : data * 2 ^ b < 2 ^ 64 := Nat.lt_of_lt_of_le hpow (Nat.pow_le_pow_right (by omega) (by omega))
          have hsmall : ((r'.buffer.toNat <<< r'.offset) % 256) >>> (8 - b) = (r'.buffer.toNat >>> (8 - r'.offset - b)) % 2 ^ b := by
            apply Nat.eq_of_testBit_eq
            intro i
            rw [show (256 : Nat) = 2 ^ 8 from rfl, Nat.testBit_shiftRight, Nat.testBit_mod_two_pow, Nat.testBit_shiftLeft,
              Nat.testBit_mod_two_pow, Nat.testBit_shiftRight]
            by_cases hi : i < b
            · rw [decide_eq_true hi, decide_eq_true (by omega : 8 - b + i < 8), decide_eq_true (by omega : 8 - b + i ≥ r'.offset),
                show 8 - b + i - r'.offset = 8 - r'.offset - b + i by omega]; simp
            · rw [decide_eq_false hi, decide_eq_false (by omega : ¬ 8 - b + i < 8)]; simp
          have hd2 : d' = data * 2 ^ b + (r'.buffer.toNat >>> (8 - r'.offset - b)) % 2 ^ b := by
            rw [hd', hsmall, Nat.shiftLeft_eq, Nat.mod_eq_of_lt hpow64, ← Nat.shiftLeft_eq,
              ← Nat.shiftLeft_add_eq_or_of_lt (Nat.mod_lt _ (Nat.two_pow_pos b)), Nat.shiftLeft_eq]
          have hlt : d' < 2 ^ (64 - (n - b)) := by
            rw [hd2, show 64 - (n - b) = 64 - n + b by omega, Nat.pow_add]
            have h1 : (data + 1) * 2 ^ b ≤ 2 ^ (64 - n) * 2 ^ b := Nat.mul_le_mul_right _ hd
            have h2 := Nat.mod_lt (r'.buffer.toNat >>> (8 - r'.offset - b)) (Nat.two_pow_pos b)
            rw [Nat.add_mul] at h1
            omega
          have habs' : r.abs = bits b (r'.buffer.toNat >>> (8 - r'.offset - b)) ++ (BitReader.mk r'.buffer (r'.offset + b) r'.rest).abs := by
            rw [← habs]
            unfold BitReader.abs
            simp only
            rw [drop_bits _ _ _ (by omega), drop_bits _ _ _ (by omega), ← List.append_assoc]
            congr 1
            have := bits_append b (8 - r'.offset - b) r'.buffer.toNat
            rw [show b + (8 - r'.offset - b) = 8 - r'.offset by omega] at this
            rw [this, Nat.sub_sub]
          obtain ⟨j1, j2⟩ := ih (n - b) (by omega) ⟨r'.buffer, r'.offset + b, r'.rest⟩ d' (by omega)
            (by show r'.offset + b ≤ 8; omega) hlt
          have hlen : r.abs.length = b + (BitReader.mk r'.buffer (r'.offset + b) r'.rest).abs.length := by
            rw [habs', List.length_append, bits_length]
          constructor
          · intro hl
            obtain ⟨r'', e1, e2, e3⟩ := j1 (by omega)
            refine ⟨r'', ?_, e2, ?_⟩
            · rw [e1]
              congr 2
              rw [habs', List.take_append, bits_length, List.take_of_length_le (l := bits b _) (by rw [bits_length]; omega), val_append, val_bits, hd2, Nat.add_mul,
                List.length_take, Nat.min_eq_left (by omega), Nat.mul_assoc, ← Nat.pow_add, show b + (n - b) = n by omega,
                Nat.add_assoc]
            · rw [e3, habs', List.drop_append, bits_length, List.drop_of_length_le (l := bits b _) (by rw [bits_length]; omega)]; rfl
          · intro hl; exact j2 (by omega)
        have := hgoal _ rfl
        split
        · rename_i e he; rw [hr] at he; cases he
        · rename_i r2 he; rw [hr] at he; cases he; exact this
    · rw [dif_neg (by omega)]
      have : n = 0 := by omega
      subst this
      exact ⟨fun _ => ⟨r, by simp [val], ho, by simp⟩, fun h => by omega⟩

theorem read_spec (r : BitReader) (n : Nat) (hn : n ≤ 64) (ho : r.offset ≤ 8) :
    (n ≤ r.abs.length → ∃ r', r.read n = .ok (val (r.abs.take n), r') ∧ r'.offset ≤ 8 ∧ r'.abs = r.abs.drop n)
    ∧ (r.abs.length < n → r.read n = .error .eof) := by
  have := readLoop_spec n r 0 hn ho (Nat.two_pow_pos _)
  unfold BitReader.read
  rw [if_neg (by omega)]
  simpa using this

/-! ### Golomb-Rice -/

theorem unary_spec : ∀ (q : Nat) (w : BitWriter) (wrote : Nat), w.Inv →
    ∃ w' k, unaryLoop w q wrote = .ok (w', k) ∧ w'.Inv ∧ w'.abs = w.abs ++ List.replicate q true
      ∧ w'.out.length + wrote = w.out.length + k ∧ ∃ t, w'.out = w.out ++ t := by
  intro q
  induction q using Nat.strongRecOn with
  | ind q ih =>
    intro w wrote hw
    unfold unaryLoop
    by_cases h : q > 0
    · rw [dif_pos h]
      obtain ⟨w1, k1, e1, e2, e3, e4, t, e5⟩ := write_spec w (2 ^ 64 - 1) (min q 64) (Nat.min_le_right _ _) hw
      simp only
      rw [e1]
      have hb := Nat.min_le_left q 64
      have hb0 : 0 < min q 64 := by omega
      obtain ⟨w2, k2, f1, f2, f3, f4, t2, f5⟩ := ih (q - min q 64) (by omega) w1 (wrote + k1) e2
      refine ⟨w2, k2, f1, f2, ?_, by omega, t ++ t2, by rw [f5, e5]; simp⟩
      rw [f3, e3, bits_ones (Nat.min_le_right _ _), List.append_assoc, List.replicate_append_replicate]
      congr 2; omega
    · rw [dif_neg h]
      have : q = 0 := by omega
      subst this
      exact ⟨w, wrote, rfl, hw, by simp, rfl, [], by simp⟩

/-- The code word of `n`. -/
def code (p n : Nat) : List Bool := List.replicate (n / 2 ^ p) true ++ [false] ++ bits p n

theorem golombEncode_spec (p : Nat) (w : BitWriter) (n : Nat) (hp : p < 64) (hw : w.Inv) :
    ∃ w' k, golombEncode p w n = some (.ok (w', k)) ∧ w'.Inv ∧ w'.abs = w.abs ++ code p n
      ∧ w'.out.length = w.out.length + k ∧ ∃ t, w'.out = w.out ++ t := by
  obtain ⟨w1, k1, a1, a2, a3, a4, t1, a5⟩ := unary_spec (n >>> p) w 0 hw
  obtain ⟨w2, k2, b1, b2, b3, b4, t2, b5⟩ := write_spec w1 0 1 (by omega) a2
  obtain ⟨w3, k3, c1, c2, c3, c4, t3, c5⟩ := write_spec w2 n p (by omega) b2
  refine ⟨w3, k1 + k2 + k3, ?_, c2, ?_, by omega, t1 ++ t2 ++ t3, by rw [c5, b5, a5]; simp⟩
  · unfold golombEncode
    rw [if_neg (by omega), a1]
    simp only
    rw [b1]
    simp only
    rw [c1]
  · rw [c3, b3, a3, code, Nat.shiftRight_eq_div_pow]
    simp [bits]

theorem countOnes_spec : ∀ (k : Nat) (fuel : Nat) (r : BitReader) (q : Nat) (tl : List Bool), r.offset ≤ 8 →
    r.abs = List.replicate k true ++ false :: tl → k < fuel →
    ∃ r', countOnes fuel r q = .ok (q + k, r') ∧ r'.offset ≤ 8 ∧ r'.abs = tl := by
  intro k
  induction k with
  | zero =>
    intro fuel r q tl ho ha hf
    cases fuel with
    | zero => omega
    | succ fuel =>
      obtain ⟨r', e1, e2, e3⟩ := (read_spec r 1 (by omega) ho).1 (by rw [ha]; simp; try omega)
      refine ⟨r', ?_, e2, by rw [e3, ha]; rfl⟩
      unfold countOnes
      rw [e1, ha]
      simp [val]
  | succ k ih =>
    intro fuel r q tl ho ha hf
    cases fuel with
    | zero => omega
    | succ fuel =>
      obtain ⟨r', e1, e2, e3⟩ := (read_spec r 1 (by omega) ho).1 (by rw [ha]; simp; try omega)
      obtain ⟨r2, f1, f2, f3⟩ := ih fuel r' (q + 1) tl e2 (by rw [e3, ha]; simp [List.replicate_succ]) (by omega)
      refine ⟨r2, ?_, f2, f3⟩
      unfold countOnes
      rw [e1, show val (r.abs.take 1) = 1 by rw [ha]; rfl]
      simp only
      rw [if_pos trivial, f1]
      congr 2; omega

theorem countOnes_eof : ∀ (k : Nat) (fuel : Nat) (r : BitReader) (q : Nat), r.offset ≤ 8 →
    r.abs = List.replicate k true → countOnes fuel r q = .error .eof := by
  intro k
  induction k with
  | zero =>
    intro fuel r q ho ha
    cases fuel with
    | zero => rfl
    | succ fuel => unfold countOnes; rw [(read_spec r 1 (by omega) ho).2 (by rw [ha]; simp)]
  | succ k ih =>
    intro fuel r q ho ha
    cases fuel with
    | zero => rfl
    | succ fuel =>
      obtain ⟨r', e1, e2, e3⟩ := (read_spec r 1 (by omega) ho).1 (by rw [ha]; simp; try omega)
      unfold countOnes
      rw [e1, show val (r.abs.take 1) = 1 by rw [ha]; rfl]
      simp only
      rw [if_pos trivial]
      exact ih fuel r' (q + 1) e2 (by rw [e3, ha]; simp [List.replicate_succ])

/-- Decoding a stream that begins with `k` one bits, a zero bit and at least `p` more bits. -/
theorem golombDecode_spec (p : Nat) (r : BitReader) (k : Nat) (v tl : List Bool) (hp : p < 64) (ho : r.offset ≤ 8)
    (hv : v.length = p) (ha : r.abs = List.replicate k true ++ false :: (v ++ tl)) :
    ∃ r', golombDecode p r = .ok (k * 2 ^ p % 2 ^ 64 + val v, r') ∧ r'.offset ≤ 8 ∧ r'.abs = tl := by
  obtain ⟨r1, a1, a2, a3⟩ := countOnes_spec k (r.left + 1) r 0 (v ++ tl) ho ha (by
    rw [← BitReader.abs_length, ha]; simp; omega)
  obtain ⟨r2, b1, b2, b3⟩ := (read_spec r1 p (by omega) a2).1 (by rw [a3]; simp; omega)
  refine ⟨r2, ?_, b2, by rw [b3, a3, List.drop_left' hv]⟩
  unfold golombDecode
  rw [a1]
  simp only
  rw [b1, a3, List.take_left' hv, Nat.shiftLeft_eq, Nat.zero_add]

theorem golombDecode_code (p : Nat) (r : BitReader) (n : Nat) (tl : List Bool) (hp : p < 64) (hn : n < 2 ^ 64) (ho : r.offset ≤ 8)
    (ha : r.abs = code p n ++ tl) :
    ∃ r', golombDecode p r = .ok (n, r') ∧ r'.offset ≤ 8 ∧ r'.abs = tl := by
  obtain ⟨r', e1, e2, e3⟩ := golombDecode_spec p r (n / 2 ^ p) (bits p n) tl hp ho (bits_length _ _) (by rw [ha, code]; simp)
  refine ⟨r', ?_, e2, e3⟩
  rw [e1, val_bits, Nat.mod_eq_of_lt (Nat.lt_of_le_of_lt (Nat.div_mul_le_self _ _) hn), Nat.mul_comm, Nat.div_add_mod]

end Bip158
end Btc
