import Verif.Hashes.Siphash
import Verif.Props.C48
/-!
# C64: the SipHash engine computes SipHash-2-4 however it is fed
-/
namespace Btc
namespace Hashes
namespace Sip

/-! ## The definition (Aumasson, Bernstein: SipHash, 2012, section 2) -/
/-- SipRound, figure 2.1: the two halves side by side. -/
def sipRound (s : State) : State :=
  let a := s.v0 + s.v1
  let c := s.v2 + s.v3
  let b := s.v1.rotateLeft 13 ^^^ a
  let d := s.v3.rotateLeft 16 ^^^ c
  let a := a.rotateLeft 32
  let c := c + b
  let a := a + d
  let b := b.rotateLeft 17 ^^^ c
  let d := d.rotateLeft 21 ^^^ a
  let c := c.rotateLeft 32
  ⟨a, b, c, d⟩
/-- Compression with `c` rounds. -/
def sipMix (c : Nat) (s : State) (m : BitVec 64) : State :=
  let s := (List.replicate c sipRound).foldl (fun s f => f s) ⟨s.v0, s.v1, s.v2, s.v3 ^^^ m⟩
  ⟨s.v0 ^^^ m, s.v1, s.v2, s.v3⟩
/-- The message filled up with zero bytes and its length modulo 256 to a multiple of 8 bytes. -/
def sipPad (m : Bytes) : Bytes := m ++ List.replicate (7 - m.length % 8) 0 ++ [UInt8.ofNat m.length]
def ascii (s : List Char) : BitVec 64 := BitVec.ofNat 64 (beNat (s.map fun c => UInt8.ofNat c.toNat))
/-- SipHash-c-d. -/
def siphash (c d : Nat) (k0 k1 : BitVec 64) (m : Bytes) : BitVec 64 :=
  let s : State := ⟨k0 ^^^ ascii ['s', 'o', 'm', 'e', 'p', 's', 'e', 'u'], k1 ^^^ ascii ['d', 'o', 'r', 'a', 'n', 'd', 'o', 'm'],
    k0 ^^^ ascii ['l', 'y', 'g', 'e', 'n', 'e', 'r', 'a'], k1 ^^^ ascii ['t', 'e', 'd', 'b', 'y', 't', 'e', 's']⟩
  let s := (Fips.blocks 8 (sipPad m)).foldl (fun s b => sipMix c s (BitVec.ofNat 64 (leNat b))) s
  let s := (List.replicate d sipRound).foldl (fun s f => f s) ⟨s.v0, s.v1, s.v2 ^^^ 0xff, s.v3⟩
  s.v0 ^^^ s.v1 ^^^ s.v2 ^^^ s.v3

/-! ## Words -/
def comp (s : State) (b : Bytes) : State := mix s (BitVec.ofNat 64 (leNat b))

theorem or_shift (a b : BitVec 64) (k : Nat) (ha : a.toNat < 2 ^ k) (hb : 2 ^ k * b.toNat < 2 ^ 64) :
    (a ||| (b <<< k)).toNat = a.toNat + 2 ^ k * b.toNat := by
  rw [BitVec.toNat_or, BitVec.toNat_shiftLeft, Nat.mod_eq_of_lt (by rw [Nat.shiftLeft_eq, Nat.mul_comm]; exact hb), Nat.or_comm,
    ← Nat.shiftLeft_add_eq_or_of_lt ha, Nat.shiftLeft_eq, Nat.mul_comm]
  omega

theorem loadLe_toNat (buf : Bytes) (i n : Nat) (hn : n ≤ 8) : (loadLe buf i n).toNat = leNat ((buf.drop i).take n) := by
  unfold loadLe
  rw [BitVec.toNat_ofNat]
  apply Nat.mod_eq_of_lt
  have h := leNat_lt ((buf.drop i).take n)
  have h2 : 256 ^ ((buf.drop i).take n).length ≤ 256 ^ 8 := Nat.pow_le_pow_right (by omega) (by rw [List.length_take]; omega)
  omega

theorem take_split (l : Bytes) (a b : Nat) (h : a + b ≤ l.length) :
    leNat (l.take (a + b)) = leNat (l.take a) + 256 ^ a * leNat ((l.drop a).take b) := by
  rw [List.take_add, leNat_append, List.length_take, Nat.min_eq_left (by omega)]

theorem leNat_take_lt (l : Bytes) (n : Nat) (h : n ≤ l.length) : leNat (l.take n) < 256 ^ n := by
  have := leNat_lt (l.take n); rwa [List.length_take, Nat.min_eq_left h] at this

/-- `u8to64_le` reads the little endian number. -/
theorem u8to64le_toNat (buf : Bytes) (start len : Nat) (hlen : len < 8) (h : start + len ≤ buf.length) :
    (u8to64le buf start len).toNat = leNat ((buf.drop start).take len) := by
  have hl : len ≤ (buf.drop start).length := by rw [List.length_drop]; omega
  have hd : ∀ i, buf.drop (start + i) = (buf.drop start).drop i := fun i => by rw [List.drop_drop]
  have hload : ∀ i n, n ≤ 8 → (loadLe buf (start + i) n).toNat = leNat (((buf.drop start).drop i).take n) := fun i n hn => by
    rw [loadLe_toNat _ _ _ hn, hd]
  generalize buf.drop start = l at hl hload
  have hb : ∀ i n, i + n ≤ len → leNat ((l.drop i).take n) < 256 ^ n := fun i n hi => leNat_take_lt _ _ (by rw [List.length_drop]; omega)
  have h0 : (0 : BitVec 64).toNat = 0 := rfl
  have hz : l.take 0 = [] := by simp
  -- by the number of bytes
  have hcases : len = 0 ∨ len = 1 ∨ len = 2 ∨ len = 3 ∨ len = 4 ∨ len = 5 ∨ len = 6 ∨ len = 7 := by omega
  have hd0 : l.drop 0 = l := rfl
  unfold u8to64le
  rcases hcases with rfl | rfl | rfl | rfl | rfl | rfl | rfl | rfl
  · simp [hz, leNat]
  · have := hb 0 1 (by omega)
    simp only [show ¬ (0 + 3 < 1) by omega, if_false, show ¬ (0 + 1 < 1) by omega, show 0 < 1 by omega, if_true, Nat.zero_mul]
    rw [or_shift _ _ _ (by rw [h0]; omega) (by rw [hload 0 1 (by omega)]; omega), hload 0 1 (by omega)]
    simp
  · have := hb 0 2 (by omega)
    simp only [show ¬ (0 + 3 < 2) by omega, if_false, show (0 + 1 < 2) by omega, show ¬ (0 + 2 < 2) by omega, if_true, Nat.zero_mul]
    rw [or_shift _ _ _ (by rw [h0]; omega) (by rw [hload 0 2 (by omega)]; omega), hload 0 2 (by omega)]
    simp
  · have a := hb 0 2 (by omega)
    have b := hb 2 1 (by omega)
    have e1 : (0#64 ||| (loadLe buf (start + 0) 2 <<< 0)).toNat = leNat (l.take 2) := by
      rw [or_shift _ _ _ (by simp) (by rw [hload 0 2 (by omega)]; omega), hload 0 2 (by omega)]; simp
    simp only [show ¬ (0 + 3 < 3) by omega, if_false, show (0 + 1 < 3) by omega, show (0 + 2 < 3) by omega, if_true, Nat.zero_mul,
      Nat.zero_add, Nat.reduceMul]
    rw [or_shift _ _ _ (by rw [show (0 : BitVec 64) = 0#64 from rfl]; rw [e1]; rw [hd0] at a; omega)
      (by rw [hload 2 1 (by omega)]; omega), hload 2 1 (by omega)]
    rw [show (0 : BitVec 64) = 0#64 from rfl]
    rw [e1, take_split l 2 1 (by omega)]
  · simp only [show (0 + 3 < 4) by omega, if_false, show ¬ (4 + 1 < 4) by omega, show ¬ (4 < 4) by omega, if_true]
    exact hload 0 4 (by omega)
  · have a := hb 0 4 (by omega)
    have b := hb 4 1 (by omega)
    have e0 := hload 0 4 (by omega)
    rw [hd0] at e0 a
    simp only [show (0 + 3 < 5) by omega, if_false, show ¬ (4 + 1 < 5) by omega, show (4 < 5) by omega, if_true, Nat.reduceMul]
    rw [or_shift _ _ _ (by rw [e0]; omega) (by rw [hload 4 1 (by omega)]; omega), hload 4 1 (by omega), e0, take_split l 4 1 (by omega)]
  · have a := hb 0 4 (by omega)
    have b := hb 4 2 (by omega)
    have e0 := hload 0 4 (by omega)
    rw [hd0] at e0 a
    simp only [show (0 + 3 < 6) by omega, if_false, show (4 + 1 < 6) by omega, show ¬ (4 + 2 < 6) by omega, if_true, Nat.reduceMul]
    rw [or_shift _ _ _ (by rw [e0]; omega) (by rw [hload 4 2 (by omega)]; omega), hload 4 2 (by omega), e0, take_split l 4 2 (by omega)]
  · have a := hb 0 4 (by omega)
    have b := hb 4 2 (by omega)
    have c := hb 6 1 (by omega)
    have e0 := hload 0 4 (by omega)
    rw [hd0] at e0 a
    have e1 : (loadLe buf (start + 0) 4 ||| (loadLe buf (start + 4) 2 <<< 32)).toNat = leNat (l.take 6) := by
      rw [or_shift _ _ _ (by rw [e0]; omega) (by rw [hload 4 2 (by omega)]; omega), hload 4 2 (by omega), e0, take_split l 4 2 (by omega)]
    have a6 := hb 0 6 (by omega)
    rw [hd0] at a6
    simp only [show (0 + 3 < 7) by omega, if_false, show (4 + 1 < 7) by omega, show (4 + 2 < 7) by omega, if_true, Nat.reduceMul, Nat.reduceAdd]
    rw [or_shift _ _ _ (by rw [e1]; omega) (by rw [hload 6 1 (by omega)]; omega), hload 6 1 (by omega), e1, take_split l 6 1 (by omega)]

/-! ## The engine -/
theorem loop_eq (msg : Bytes) (needed : Nat) (hn : needed < 8) (k : Nat) (r j fuel : Nat) (hr : j + r = k)
    (hm : needed + 8 * k ≤ msg.length) (hf : r < fuel ∨ (r = 0 ∧ fuel = 0)) (s : State) :
    loop msg (8 * k) fuel s (needed + 8 * j) =
      (processBlocks 8 comp s ((msg.drop (needed + 8 * j)).take (8 * r)), needed + 8 * k) := by
  induction r generalizing j fuel s with
  | zero =>
    have : j = k := by omega
    subst this
    cases fuel with
    | zero => simp [loop, processBlocks, blocksLoop]
    | succ fuel => rw [loop, if_neg (by omega)]; simp [processBlocks, blocksLoop]
  | succ r ih =>
    cases fuel with
    | zero => omega
    | succ fuel =>
      rw [loop, if_pos (by omega), show needed + 8 * j + 8 = needed + 8 * (j + 1) by omega, ih (j + 1) fuel (by omega) (by omega)]
      congr 1
      have hl : ((msg.drop (needed + 8 * j)).take 8).length = 8 := by rw [List.length_take, List.length_drop]; omega
      rw [show 8 * (r + 1) = 8 + 8 * r by omega, List.take_add, processBlocks_append 8 (by omega) comp s _ _ (by rw [hl]),
        processBlocks_one 8 (by omega) comp s _ hl, List.drop_drop]
      rfl

/-- What an engine that has been fed `m` looks like. -/
def SipRep (s0 : State) (e : Engine) (m : Bytes) : Prop :=
  e.bytesHashed = m.length % 2 ^ 64 ∧
  ∃ f t, m = f ++ t ∧ f.length % 8 = 0 ∧ t.length < 8 ∧ e.ntail = t.length ∧ e.tail = BitVec.ofNat 64 (leNat t) ∧
    e.state = processBlocks 8 comp s0 f

theorem tail_lt (t : Bytes) (ht : t.length ≤ 8) : leNat t < 2 ^ 64 := by
  have h := leNat_lt t
  have h2 : 256 ^ t.length ≤ 256 ^ 8 := Nat.pow_le_pow_right (by omega) ht
  omega

theorem pow256 (n : Nat) : 256 ^ n = 2 ^ (8 * n) := by rw [Nat.pow_mul]

theorem rest_rep (s0 : State) (e : Engine) (f msg : Bytes) (needed : Nat) (hn : needed < 8) (hm : needed ≤ msg.length)
    (hf : f.length % 8 = 0) (hs : e.state = processBlocks 8 comp s0 f) (hb : e.bytesHashed = (f.length + (msg.length - needed)) % 2 ^ 64) :
    SipRep s0 (inputRest e msg needed) (f ++ msg.drop needed) := by
  have hdiv := Nat.div_add_mod (msg.length - needed) 8
  have hlt := Nat.mod_lt (msg.length - needed) (show 8 > 0 by omega)
  have hk : msg.length - needed - (msg.length - needed) % 8 = 8 * ((msg.length - needed) / 8) := by omega
  have hloop := loop_eq msg needed hn ((msg.length - needed) / 8) ((msg.length - needed) / 8) 0 msg.length (by omega) (by omega)
    (by omega) e.state
  rw [Nat.mul_zero, Nat.add_zero] at hloop
  unfold inputRest
  simp only [hk, hloop]
  refine ⟨by simp only [List.length_append, List.length_drop]; exact hb,
    f ++ (msg.drop needed).take (8 * ((msg.length - needed) / 8)), (msg.drop needed).drop (8 * ((msg.length - needed) / 8)),
    by rw [List.append_assoc, List.take_append_drop], ?_, ?_, ?_, ?_, ?_⟩
  · rw [List.length_append, List.length_take, List.length_drop]; omega
  · rw [List.length_drop, List.length_drop]; omega
  · show (msg.length - needed) % 8 = _
    rw [List.length_drop, List.length_drop]; omega
  · apply BitVec.eq_of_toNat_eq
    have hl : ((msg.drop needed).drop (8 * ((msg.length - needed) / 8))).length = (msg.length - needed) % 8 := by
      rw [List.length_drop, List.length_drop]; omega
    rw [u8to64le_toNat _ _ _ hlt (by omega), BitVec.toNat_ofNat, Nat.mod_eq_of_lt (tail_lt _ (by omega)), ← List.drop_drop,
      List.take_of_length_le (by omega)]
  · rw [processBlocks_append 8 (by omega) comp s0 _ _ hf, hs]

theorem input_rep (s0 : State) (e : Engine) (m msg : Bytes) (hr : SipRep s0 e m) : SipRep s0 (input e msg) (m ++ msg) := by
  obtain ⟨hb, f, t, hm, hf, ht, hnt, htl, hs⟩ := hr
  have hb2 : (e.bytesHashed + msg.length) % 2 ^ 64 = (m.length + msg.length) % 2 ^ 64 := by rw [hb]; omega
  unfold input
  simp only [hb2]
  by_cases h0 : t.length = 0
  · have htn : t = [] := List.eq_nil_of_length_eq_zero h0
    subst htn
    rw [if_neg (by rw [hnt]; simp)]
    have hmf : m = f := by rw [hm]; simp
    rw [hmf]
    have := rest_rep s0 { e with bytesHashed := (m.length + msg.length) % 2 ^ 64 } f msg 0 (by omega) (by omega) hf hs (by rw [hmf]; rfl)
    rw [List.drop_zero] at this
    rw [hmf] at this
    exact this
  · rw [if_pos (by rw [hnt]; exact h0)]
    rw [hnt, htl]
    have hsh : ∀ n, n ≤ msg.length → t.length + n ≤ 8 → n < 8 →
        BitVec.ofNat 64 (leNat t) ||| (u8to64le msg 0 n <<< (8 * t.length)) = BitVec.ofNat 64 (leNat (t ++ msg.take n)) := by
      intro n hn htn hn8
      apply BitVec.eq_of_toNat_eq
      have htlt := leNat_lt t
      have hmn := leNat_take_lt msg n hn
      have hp : 2 ^ (8 * t.length) * leNat (msg.take n) < 2 ^ 64 := by
        have h1 : 2 ^ (8 * t.length) * leNat (msg.take n) < 2 ^ (8 * t.length) * 256 ^ n :=
          Nat.mul_lt_mul_of_pos_left hmn (Nat.two_pow_pos _)
        rw [pow256, ← Nat.pow_add] at h1
        exact Nat.lt_of_lt_of_le h1 (Nat.pow_le_pow_right (by omega) (by omega))
      have e1 : (BitVec.ofNat 64 (leNat t)).toNat = leNat t := by rw [BitVec.toNat_ofNat, Nat.mod_eq_of_lt (tail_lt t (by omega))]
      have e2 : (u8to64le msg 0 n).toNat = leNat (msg.take n) := by rw [u8to64le_toNat _ _ _ hn8 (by omega)]; rfl
      rw [or_shift _ _ _ (by rw [e1, ← pow256]; exact htlt) (by rw [e2]; exact hp), e1, e2, BitVec.toNat_ofNat,
        Nat.mod_eq_of_lt (tail_lt _ (by rw [List.length_append, List.length_take]; omega)), leNat_append, pow256]
    by_cases hlt : msg.length < 8 - t.length
    · rw [if_pos hlt, Nat.min_eq_left (by omega), hsh _ (by omega) (by omega) (by omega), List.take_length]
      exact ⟨by simp, f, t ++ msg, by rw [hm, List.append_assoc], hf, by rw [List.length_append]; omega,
        by simp, rfl, hs⟩
    · rw [if_neg hlt, Nat.min_eq_right (by omega), hsh _ (by omega) (by omega) (by omega)]
      have hfl : (t ++ msg.take (8 - t.length)).length = 8 := by rw [List.length_append, List.length_take]; omega
      have := rest_rep s0 { e with
          bytesHashed := (m.length + msg.length) % 2 ^ 64,
          state := mix e.state (BitVec.ofNat 64 (leNat (t ++ msg.take (8 - t.length)))),
          tail := BitVec.ofNat 64 (leNat (t ++ msg.take (8 - t.length))), ntail := 0 }
        (f ++ (t ++ msg.take (8 - t.length))) msg (8 - t.length) (by omega) (by omega)
        (by rw [List.length_append, hfl]; omega)
        (by
          rw [processBlocks_append 8 (by omega) comp s0 _ _ hf, processBlocks_one 8 (by omega) comp _ _ hfl, ← hs]
          rfl)
        (by
          simp only
          rw [List.length_append, hfl, hm, List.length_append]
          congr 1; omega)
      rw [List.append_assoc, List.append_assoc, List.take_append_drop, ← List.append_assoc f, ← hm] at this
      exact this

/-- The engine, fed a message in any pieces, computes SipHash-2-4 of the whole. -/
theorem C64_siphash (k0 k1 : BitVec 64) (xs : List Bytes) :
    finish (xs.foldl input (withKeys k0 k1)) = siphash 2 4 k0 k1 xs.flatten ∧
    fromEngine (xs.foldl input (withKeys k0 k1)) = leBytes 8 (siphash 2 4 k0 k1 xs.flatten).toNat := by
  have hmain : finish (xs.foldl input (withKeys k0 k1)) = siphash 2 4 k0 k1 xs.flatten := by
    have hrep : ∀ (ys : List Bytes) (e : Engine) (m : Bytes), SipRep (withKeys k0 k1).state e m →
        SipRep (withKeys k0 k1).state (ys.foldl input e) (m ++ ys.flatten) := by
      intro ys
      induction ys with
      | nil => intro e m h; simpa using h
      | cons y ys ih =>
        intro e m h
        rw [List.foldl_cons, List.flatten_cons, ← List.append_assoc]
        exact ih _ _ (input_rep _ _ _ _ h)
    have h0 : SipRep (withKeys k0 k1).state (withKeys k0 k1) [] :=
      ⟨rfl, [], [], rfl, rfl, by simp, rfl, rfl, by simp [processBlocks, blocksLoop]⟩
    have h := hrep xs _ _ h0
    rw [List.nil_append] at h
    generalize xs.foldl input (withKeys k0 k1) = e at h
    generalize xs.flatten = m at h
    obtain ⟨hb, f, t, hm, hf, ht, hnt, htl, hs⟩ := h
    have hmod : m.length % 8 = t.length := by rw [hm, List.length_append]; omega
    have hlast : (BitVec.ofNat 64 (e.bytesHashed % 256) <<< 56) ||| e.tail =
        BitVec.ofNat 64 (leNat (t ++ List.replicate (7 - t.length) 0 ++ [UInt8.ofNat m.length])) := by
      have hz : ∀ n, leNat (List.replicate n 0) = 0 := by
        intro n; induction n with
        | zero => rfl
        | succ n ih => rw [List.replicate_succ, leNat, ih]; rfl
      have hval : leNat (t ++ List.replicate (7 - t.length) 0 ++ [UInt8.ofNat m.length]) = leNat t + 2 ^ 56 * (m.length % 256) := by
        rw [leNat_append, leNat_append, hz, List.length_append, List.length_replicate, show t.length + (7 - t.length) = 7 by omega]
        simp [leNat]
      have htlt := leNat_lt t
      have h7 : 256 ^ t.length ≤ 256 ^ 7 := Nat.pow_le_pow_right (by omega) (by omega)
      have e1 : e.tail.toNat = leNat t := by rw [htl, BitVec.toNat_ofNat, Nat.mod_eq_of_lt (tail_lt t (by omega))]
      have e2 : (BitVec.ofNat 64 (e.bytesHashed % 256)).toNat = m.length % 256 := by
        rw [BitVec.toNat_ofNat, hb]; omega
      apply BitVec.eq_of_toNat_eq
      rw [BitVec.or_comm, or_shift _ _ _ (by rw [e1]; omega) (by rw [e2]; omega), e1, e2, BitVec.toNat_ofNat, hval]
      omega
    have hround : ∀ s, compress s = sipRound s := fun s => by
      unfold compress sipRound
      rfl
    have hmix : ∀ s x, sipMix 2 s x = mix s x := fun s x => by
      unfold sipMix mix cRounds; simp only [hround]; rfl
    unfold finish siphash
    rw [hlast]
    have hpad : sipPad m = f ++ (t ++ List.replicate (7 - t.length) 0 ++ [UInt8.ofNat m.length]) := by
      unfold sipPad; rw [hmod, hm]; simp
    have hll : (t ++ List.replicate (7 - t.length) 0 ++ [UInt8.ofNat m.length]).length = 8 := by simp; omega
    have hcomp : (fun s (b : Bytes) => sipMix 2 s (BitVec.ofNat 64 (leNat b))) = comp := by
      funext s b; rw [hmix]; rfl
    have hinit : (⟨k0 ^^^ ascii ['s', 'o', 'm', 'e', 'p', 's', 'e', 'u'], k1 ^^^ ascii ['d', 'o', 'r', 'a', 'n', 'd', 'o', 'm'],
        k0 ^^^ ascii ['l', 'y', 'g', 'e', 'n', 'e', 'r', 'a'], k1 ^^^ ascii ['t', 'e', 'd', 'b', 'y', 't', 'e', 's']⟩ : State) =
        (withKeys k0 k1).state := by
      have h1 : ascii ['s', 'o', 'm', 'e', 'p', 's', 'e', 'u'] = 0x736f6d6570736575 := by decide
      have h2 : ascii ['d', 'o', 'r', 'a', 'n', 'd', 'o', 'm'] = 0x646f72616e646f6d := by decide
      have h3 : ascii ['l', 'y', 'g', 'e', 'n', 'e', 'r', 'a'] = 0x6c7967656e657261 := by decide
      have h4 : ascii ['t', 'e', 'd', 'b', 'y', 't', 'e', 's'] = 0x7465646279746573 := by decide
      rw [h1, h2, h3, h4]; rfl
    rw [hcomp, hinit]
    simp only []
    rw [← processBlocks_foldl, hpad, processBlocks_append 8 (by omega) comp _ _ _ hf, ← hs,
      processBlocks_one 8 (by omega) comp _ _ hll]
    have hd : ∀ s, (List.replicate 4 sipRound).foldl (fun s f => f s) s = dRounds s := fun s => by
      unfold dRounds; simp only [hround]; rfl
    rw [hd]
    unfold comp mix
    generalize BitVec.ofNat 64 (leNat (t ++ List.replicate (7 - t.length) 0 ++ [UInt8.ofNat m.length])) = b
    generalize cRounds { e.state with v3 := e.state.v3 ^^^ b } = s
    rfl
  refine ⟨hmain, ?_⟩
  unfold fromEngine; rw [hmain]

/-- The reference vector of the SipHash paper (appendix A): key 00..0f, message 00..0e, in three pieces. -/
example : finish ([[0, 1, 2], [3, 4, 5, 6, 7, 8], [9, 10, 11, 12, 13, 14]].foldl input
    (withKeys 0x0706050403020100 0x0f0e0d0c0b0a0908)) = 0xa129ca6149be45e5 := by decide +kernel
example : siphash 2 4 0x0706050403020100 0x0f0e0d0c0b0a0908 [0, 1, 2, 3, 4, 5, 6, 7, 8, 9, 10, 11, 12, 13, 14] = 0xa129ca6149be45e5 := by
  decide +kernel

end Sip
end Hashes
end Btc
