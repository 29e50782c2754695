import Verif.ChaCha.ChaCha20
/-!
# C59: the ChaCha20 stream

The specification is RFC 8439, sections 2.1 to 2.4: sixteen words in a row, quarter rounds on indices into them.
-/
namespace Btc
namespace ChaCha

/-! ## RFC 8439 -/
namespace Rfc

/-- 2.1: the quarter round of four words. -/
def quarter (a b c d : W32) : W32 × W32 × W32 × W32 :=
  let a := a + b; let d := d ^^^ a; let d := d.rotateLeft 16
  let c := c + d; let b := b ^^^ c; let b := b.rotateLeft 12
  let a := a + b; let d := d ^^^ a; let d := d.rotateLeft 8
  let c := c + d; let b := b ^^^ c; let b := b.rotateLeft 7
  (a, b, c, d)

/-- 2.2: `QUARTERROUND(x, y, z, w)` of a state. -/
def quarterRound (x y z w : Nat) (s : List W32) : List W32 :=
  let q := quarter (s.getD x 0) (s.getD y 0) (s.getD z 0) (s.getD w 0)
  (((s.set x q.1).set y q.2.1).set z q.2.2.1).set w q.2.2.2

/-- 2.3.1: `inner_block`. -/
def innerBlock (s : List W32) : List W32 :=
  let s := quarterRound 0 4 8 12 s
  let s := quarterRound 1 5 9 13 s
  let s := quarterRound 2 6 10 14 s
  let s := quarterRound 3 7 11 15 s
  let s := quarterRound 0 5 10 15 s
  let s := quarterRound 1 6 11 12 s
  let s := quarterRound 2 7 8 13 s
  quarterRound 3 4 9 14 s

/-- Bytes as little-endian words. -/
def words : Bytes → List W32
  | a :: b :: c :: d :: rest => BitVec.ofNat 32 (a.toNat + 256 * b.toNat + 65536 * c.toNat + 16777216 * d.toNat) :: words rest
  | _ => []

/-- "expand 32-byte k". -/
def constants : Bytes := [0x65, 0x78, 0x70, 0x61, 0x6e, 0x64, 0x20, 0x33, 0x32, 0x2d, 0x62, 0x79, 0x74, 0x65, 0x20, 0x6b]

/-- 2.3: the state of a key, counter and nonce. -/
def initial (key : Arr 32) (counter : Nat) (nonce : Arr 12) : List W32 :=
  words constants ++ words key.1 ++ [BitVec.ofNat 32 counter] ++ words nonce.1

/-- 2.3.1: `chacha20_block`. -/
def block (key : Arr 32) (counter : Nat) (nonce : Arr 12) : Bytes :=
  let s := initial key counter nonce
  (List.zipWith (· + ·) s (Nat.repeat innerBlock 10 s)).flatMap fun w => leBytes 4 w.toNat

/-- Byte `pos` of the stream of blocks 0, 1, 2, ... -/
def streamByte (key : Arr 32) (nonce : Arr 12) (pos : Nat) : UInt8 := (block key (pos / 64) nonce).getD (pos % 64) 0

/-- 2.4: the bytes, from position `pos` of the stream, XORed with it. -/
def crypt (key : Arr 32) (nonce : Arr 12) : Nat → Bytes → Bytes
  | _, [] => []
  | pos, b :: bs => (b ^^^ streamByte key nonce pos) :: crypt key nonce (pos + 1) bs

end Rfc

/-! ## The block function -/

def State.toList (s : State) : List W32 :=
  [s.a.w0, s.a.w1, s.a.w2, s.a.w3, s.b.w0, s.b.w1, s.b.w2, s.b.w3, s.c.w0, s.c.w1, s.c.w2, s.c.w3, s.d.w0, s.d.w1, s.d.w2, s.d.w3]

def diagonal (s : State) : State :=
  let s := quarterRound ⟨s.a, s.b.left 1, s.c.left 2, s.d.left 3⟩
  ⟨s.a, s.b.right 1, s.c.right 2, s.d.right 3⟩

section
attribute [local irreducible] Rfc.quarter
theorem qr0 (x0 x1 x2 x3 x4 x5 x6 x7 x8 x9 x10 x11 x12 x13 x14 x15 : W32) : Rfc.quarterRound 0 4 8 12 [x0, x1, x2, x3, x4, x5, x6, x7, x8, x9, x10, x11, x12, x13, x14, x15] =
    [(Rfc.quarter x0 x4 x8 x12).1, x1, x2, x3, (Rfc.quarter x0 x4 x8 x12).2.1, x5, x6, x7, (Rfc.quarter x0 x4 x8 x12).2.2.1, x9, x10, x11, (Rfc.quarter x0 x4 x8 x12).2.2.2, x13, x14, x15] := rfl
theorem qr1 (x0 x1 x2 x3 x4 x5 x6 x7 x8 x9 x10 x11 x12 x13 x14 x15 : W32) : Rfc.quarterRound 1 5 9 13 [x0, x1, x2, x3, x4, x5, x6, x7, x8, x9, x10, x11, x12, x13, x14, x15] =
    [x0, (Rfc.quarter x1 x5 x9 x13).1, x2, x3, x4, (Rfc.quarter x1 x5 x9 x13).2.1, x6, x7, x8, (Rfc.quarter x1 x5 x9 x13).2.2.1, x10, x11, x12, (Rfc.quarter x1 x5 x9 x13).2.2.2, x14, x15] := rfl
theorem qr2 (x0 x1 x2 x3 x4 x5 x6 x7 x8 x9 x10 x11 x12 x13 x14 x15 : W32) : Rfc.quarterRound 2 6 10 14 [x0, x1, x2, x3, x4, x5, x6, x7, x8, x9, x10, x11, x12, x13, x14, x15] =
    [x0, x1, (Rfc.quarter x2 x6 x10 x14).1, x3, x4, x5, (Rfc.quarter x2 x6 x10 x14).2.1, x7, x8, x9, (Rfc.quarter x2 x6 x10 x14).2.2.1, x11, x12, x13, (Rfc.quarter x2 x6 x10 x14).2.2.2, x15] := rfl
theorem qr3 (x0 x1 x2 x3 x4 x5 x6 x7 x8 x9 x10 x11 x12 x13 x14 x15 : W32) : Rfc.quarterRound 3 7 11 15 [x0, x1, x2, x3, x4, x5, x6, x7, x8, x9, x10, x11, x12, x13, x14, x15] =
    [x0, x1, x2, (Rfc.quarter x3 x7 x11 x15).1, x4, x5, x6, (Rfc.quarter x3 x7 x11 x15).2.1, x8, x9, x10, (Rfc.quarter x3 x7 x11 x15).2.2.1, x12, x13, x14, (Rfc.quarter x3 x7 x11 x15).2.2.2] := rfl
theorem qr4 (x0 x1 x2 x3 x4 x5 x6 x7 x8 x9 x10 x11 x12 x13 x14 x15 : W32) : Rfc.quarterRound 0 5 10 15 [x0, x1, x2, x3, x4, x5, x6, x7, x8, x9, x10, x11, x12, x13, x14, x15] =
    [(Rfc.quarter x0 x5 x10 x15).1, x1, x2, x3, x4, (Rfc.quarter x0 x5 x10 x15).2.1, x6, x7, x8, x9, (Rfc.quarter x0 x5 x10 x15).2.2.1, x11, x12, x13, x14, (Rfc.quarter x0 x5 x10 x15).2.2.2] := rfl
theorem qr5 (x0 x1 x2 x3 x4 x5 x6 x7 x8 x9 x10 x11 x12 x13 x14 x15 : W32) : Rfc.quarterRound 1 6 11 12 [x0, x1, x2, x3, x4, x5, x6, x7, x8, x9, x10, x11, x12, x13, x14, x15] =
    [x0, (Rfc.quarter x1 x6 x11 x12).1, x2, x3, x4, x5, (Rfc.quarter x1 x6 x11 x12).2.1, x7, x8, x9, x10, (Rfc.quarter x1 x6 x11 x12).2.2.1, (Rfc.quarter x1 x6 x11 x12).2.2.2, x13, x14, x15] := rfl
theorem qr6 (x0 x1 x2 x3 x4 x5 x6 x7 x8 x9 x10 x11 x12 x13 x14 x15 : W32) : Rfc.quarterRound 2 7 8 13 [x0, x1, x2, x3, x4, x5, x6, x7, x8, x9, x10, x11, x12, x13, x14, x15] =
    [x0, x1, (Rfc.quarter x2 x7 x8 x13).1, x3, x4, x5, x6, (Rfc.quarter x2 x7 x8 x13).2.1, (Rfc.quarter x2 x7 x8 x13).2.2.1, x9, x10, x11, x12, (Rfc.quarter x2 x7 x8 x13).2.2.2, x14, x15] := rfl
theorem qr7 (x0 x1 x2 x3 x4 x5 x6 x7 x8 x9 x10 x11 x12 x13 x14 x15 : W32) : Rfc.quarterRound 3 4 9 14 [x0, x1, x2, x3, x4, x5, x6, x7, x8, x9, x10, x11, x12, x13, x14, x15] =
    [x0, x1, x2, (Rfc.quarter x3 x4 x9 x14).1, (Rfc.quarter x3 x4 x9 x14).2.1, x5, x6, x7, x8, (Rfc.quarter x3 x4 x9 x14).2.2.1, x10, x11, x12, x13, (Rfc.quarter x3 x4 x9 x14).2.2.2, x15] := rfl
end

theorem columns_eq (s : State) : (quarterRound s).toList =
    Rfc.quarterRound 3 7 11 15 (Rfc.quarterRound 2 6 10 14 (Rfc.quarterRound 1 5 9 13 (Rfc.quarterRound 0 4 8 12 s.toList))) := by
  obtain ⟨⟨a0, a1, a2, a3⟩, ⟨b0, b1, b2, b3⟩, ⟨c0, c1, c2, c3⟩, ⟨d0, d1, d2, d3⟩⟩ := s
  simp only [State.toList]
  rw [qr0, qr1, qr2, qr3]
  simp only [quarterRound, Rfc.quarter, V4.add, V4.xor, V4.rotateLeft]

theorem diagonal_eq (s : State) : (diagonal s).toList =
    Rfc.quarterRound 3 4 9 14 (Rfc.quarterRound 2 7 8 13 (Rfc.quarterRound 1 6 11 12 (Rfc.quarterRound 0 5 10 15 s.toList))) := by
  obtain ⟨⟨a0, a1, a2, a3⟩, ⟨b0, b1, b2, b3⟩, ⟨c0, c1, c2, c3⟩, ⟨d0, d1, d2, d3⟩⟩ := s
  simp only [State.toList]
  rw [qr4, qr5, qr6, qr7]
  simp only [diagonal, quarterRound, Rfc.quarter, V4.add, V4.xor, V4.rotateLeft, V4.left, V4.right]

theorem doubleRound_eq (s : State) : (doubleRound s).toList = Rfc.innerBlock s.toList := by
  show (diagonal (quarterRound s)).toList = _
  rw [diagonal_eq, columns_eq]
  rfl

theorem rounds_eq : ∀ (n : Nat) (s : State), (rounds n s).toList = Nat.repeat Rfc.innerBlock n s.toList
  | 0, _ => rfl
  | n + 1, s => by
    have comm : ∀ (n : Nat) (l : List W32), Nat.repeat Rfc.innerBlock n (Rfc.innerBlock l) = Rfc.innerBlock (Nat.repeat Rfc.innerBlock n l) := by
      intro n l
      induction n with
      | zero => rfl
      | succ n ih => exact congrArg Rfc.innerBlock ih
    show (rounds n (doubleRound s)).toList = Rfc.innerBlock (Nat.repeat Rfc.innerBlock n s.toList)
    rw [rounds_eq n, doubleRound_eq, comm]

theorem word_cons (a b c d : UInt8) (rest : Bytes) : word (a :: b :: c :: d :: rest) 0 =
    BitVec.ofNat 32 (a.toNat + 256 * b.toNat + 65536 * c.toNat + 16777216 * d.toNat) := by
  unfold word
  congr 1
  simp [leNat]
  omega

theorem word_drop (bs : Bytes) (i j : Nat) : word (bs.drop i) j = word bs (i + j) := by
  unfold word; rw [List.drop_drop]

theorem words_step (bs : Bytes) (h : 4 ≤ bs.length) : Rfc.words bs = word bs 0 :: Rfc.words (bs.drop 4) := by
  match bs, h with
  | a :: b :: c :: d :: rest, _ => rw [word_cons]; rfl

theorem words_key (k : Arr 32) : Rfc.words k.1 = [word k.1 0, word k.1 4, word k.1 8, word k.1 12, word k.1 16, word k.1 20, word k.1 24, word k.1 28] := by
  have h := k.2
  rw [words_step _ (by omega), words_step _ (by simp; omega), words_step _ (by simp; omega), words_step _ (by simp; omega),
    words_step _ (by simp; omega), words_step _ (by simp; omega), words_step _ (by simp; omega), words_step _ (by simp; omega)]
  simp only [List.drop_drop, word_drop, Nat.reduceAdd]
  rw [List.drop_eq_nil_of_le (by omega)]
  rfl

theorem words_nonce (k : Arr 12) : Rfc.words k.1 = [word k.1 0, word k.1 4, word k.1 8] := by
  have h := k.2
  rw [words_step _ (by omega), words_step _ (by simp; omega), words_step _ (by simp; omega)]
  simp only [List.drop_drop, word_drop, Nat.reduceAdd]
  rw [List.drop_eq_nil_of_le (by omega)]
  rfl

theorem initial_eq (key : Arr 32) (nonce : Arr 12) (n : Nat) : (State.new key nonce (BitVec.ofNat 32 n)).toList = Rfc.initial key n nonce := by
  unfold Rfc.initial
  rw [words_key, words_nonce]
  rfl

theorem block_eq (key : Arr 32) (nonce : Arr 12) (n : Nat) : (State.new key nonce (BitVec.ofNat 32 n)).chachaBlock.keystream = Rfc.block key n nonce := by
  unfold Rfc.block
  simp only
  rw [← initial_eq, ← rounds_eq]
  generalize State.new key nonce (BitVec.ofNat 32 n) = s
  unfold State.chachaBlock State.keystream
  simp only
  generalize rounds 10 s = w
  simp only [State.toList, List.zipWith_cons_cons, List.zipWith_nil_left, List.flatMap_cons, List.flatMap_nil, List.append_nil, V4.toLeBytes, V4.add,
    List.append_assoc, BitVec.add_comm]

theorem keystreamAt_eq (c : ChaCha20) (b : UInt32) : c.keystreamAtBlock b = Rfc.block c.key b.toNat c.nonce := by
  unfold ChaCha20.keystreamAtBlock
  rw [← block_eq]
  congr 3
  apply BitVec.eq_of_toNat_eq
  simp

theorem block_length (key : Arr 32) (nonce : Arr 12) (n : Nat) : (Rfc.block key n nonce).length = 64 := by
  rw [← block_eq]
  simp [State.keystream, V4.toLeBytes]

/-! ## The stream -/

theorem crypt_length (key : Arr 32) (nonce : Arr 12) : ∀ (bs : Bytes) (pos : Nat), (Rfc.crypt key nonce pos bs).length = bs.length
  | [], _ => rfl
  | b :: bs, pos => by simp [Rfc.crypt, crypt_length key nonce bs]

theorem crypt_append (key : Arr 32) (nonce : Arr 12) : ∀ (a b : Bytes) (pos : Nat),
    Rfc.crypt key nonce pos (a ++ b) = Rfc.crypt key nonce pos a ++ Rfc.crypt key nonce (pos + a.length) b
  | [], b, pos => rfl
  | x :: a, b, pos => by
    simp only [List.cons_append, Rfc.crypt, List.length_cons]
    rw [crypt_append key nonce a b (pos + 1), show pos + 1 + a.length = pos + (a.length + 1) by omega]

/-- Within a block. -/
theorem xorInto_eq (key : Arr 32) (nonce : Arr 12) (n : Nat) : ∀ (bs : Bytes) (k : Nat), k + bs.length ≤ 64 →
    ChaCha20.xorInto bs ((Rfc.block key n nonce).drop k) = Rfc.crypt key nonce (64 * n + k) bs
  | [], k, _ => by simp [ChaCha20.xorInto, Rfc.crypt]
  | b :: bs, k, h => by
    simp only [List.length_cons] at h
    have hl := block_length key nonce n
    have ih := xorInto_eq key nonce n bs (k + 1) (by omega)
    rw [List.drop_eq_getElem_cons (by omega)]
    unfold ChaCha20.xorInto at ih ⊢
    simp only [List.zipWith_cons_cons, List.cons_append, List.length_cons, List.drop_succ_cons, Rfc.crypt]
    have hb : Rfc.streamByte key nonce (64 * n + k) = (Rfc.block key n nonce)[k]'(by omega) := by
      unfold Rfc.streamByte
      rw [show (64 * n + k) / 64 = n by omega, show (64 * n + k) % 64 = k by omega, List.getD_eq_getElem?_getD, List.getElem?_eq_getElem (by omega)]
      rfl
    rw [ih, hb, Nat.add_assoc]

/-- The position in the stream. -/
def ChaCha20.pos (c : ChaCha20) : Nat := 64 * c.blockCount.toNat + c.seekOffset

/-- The cipher of a key and nonce at a position. -/
def at_ (key : Arr 32) (nonce : Arr 12) (pos : Nat) : ChaCha20 := ⟨key, nonce, UInt32.ofNat (pos / 64), pos % 64⟩

theorem incBlock_eq (c : ChaCha20) : c.incBlock = if c.blockCount.toNat + 1 < 2 ^ 32 then some ⟨c.key, c.nonce, UInt32.ofNat (c.blockCount.toNat + 1), c.seekOffset⟩ else none := by
  unfold ChaCha20.incBlock
  by_cases h : c.blockCount.toNat + 1 < 2 ^ 32
  · rw [if_pos h, if_pos h]
    have : c.blockCount + 1 = UInt32.ofNat (c.blockCount.toNat + 1) := by
      apply UInt32.toNat_inj.mp
      rw [UInt32.toNat_add]
      rfl
    rw [this]
  · rw [if_neg h, if_neg h]

theorem fullBlocks_eq (key : Arr 32) (nonce : Arr 12) : ∀ (n m : Nat) (buf : Bytes), 64 * n ≤ buf.length → m < 2 ^ 32 →
    ChaCha20.fullBlocks n ⟨key, nonce, UInt32.ofNat m, 0⟩ buf =
      if m + n < 2 ^ 32 then some (⟨key, nonce, UInt32.ofNat (m + n), 0⟩, Rfc.crypt key nonce (64 * m) (buf.take (64 * n)), buf.drop (64 * n)) else none
  | 0, m, buf, _, hm => by
    rw [if_pos (by omega)]
    simp [ChaCha20.fullBlocks, Rfc.crypt]
  | n + 1, m, buf, h, hm => by
    have hmn : (UInt32.ofNat m).toNat = m := by exact Nat.mod_eq_of_lt hm
    unfold ChaCha20.fullBlocks
    rw [incBlock_eq]
    simp only [hmn]
    by_cases h1 : m + 1 < 2 ^ 32
    · rw [if_pos h1]
      simp only
      rw [fullBlocks_eq key nonce n (m + 1) (buf.drop 64) (by simp; omega) h1]
      by_cases h2 : m + (n + 1) < 2 ^ 32
      · rw [if_pos (by omega), if_pos h2]
        simp only [Option.map_some, Option.some.injEq, Prod.mk.injEq]
        refine ⟨by rw [show m + 1 + n = m + (n + 1) by omega], ?_, by rw [List.drop_drop, show 64 + 64 * n = 64 * (n + 1) by omega]⟩
        rw [keystreamAt_eq]
        simp only [hmn]
        have hx := xorInto_eq key nonce m (buf.take 64) 0 (by simp; omega)
        rw [List.drop_zero] at hx
        rw [hx, show 64 * (n + 1) = 64 + 64 * n by omega, List.take_add, crypt_append]
        have hl : (buf.take 64).length = 64 := by simp; omega
        rw [hl, show 64 * m + 0 + 64 = 64 * (m + 1) by omega]
        simp
      · rw [if_neg (by omega), if_neg h2]
        rfl
    · rw [if_neg h1, if_neg (by omega)]

theorem applyAligned_eq (key : Arr 32) (nonce : Arr 12) (m : Nat) (buf : Bytes) (hm : m < 2 ^ 32) :
    ChaCha20.applyAligned ⟨key, nonce, UInt32.ofNat m, 0⟩ buf =
      if 64 * m + buf.length < 2 ^ 38 then some (at_ key nonce (64 * m + buf.length), Rfc.crypt key nonce (64 * m) buf) else none := by
  unfold ChaCha20.applyAligned
  rw [fullBlocks_eq key nonce _ m buf (by omega) hm]
  by_cases h : 64 * m + buf.length < 2 ^ 38
  · have h2 : m + buf.length / 64 < 2 ^ 32 := by omega
    rw [if_pos h, if_pos h2]
    simp only [Option.map_some]
    have hsplit := crypt_append key nonce (buf.take (64 * (buf.length / 64))) (buf.drop (64 * (buf.length / 64))) (64 * m)
    rw [List.take_append_drop] at hsplit
    have hlen : (buf.take (64 * (buf.length / 64))).length = 64 * (buf.length / 64) := by simp; omega
    rw [hlen, show 64 * m + 64 * (buf.length / 64) = 64 * (m + buf.length / 64) by omega] at hsplit
    by_cases he : (buf.drop (64 * (buf.length / 64))).isEmpty
    · rw [if_pos he]
      rw [List.isEmpty_iff, ] at he
      rw [he] at hsplit
      have hz : buf.length % 64 = 0 := by
        have := congrArg List.length he
        simp only [List.length_drop, List.length_nil] at this
        omega
      rw [hsplit]
      simp only [Rfc.crypt, List.append_nil]
      unfold at_
      rw [show (64 * m + buf.length) / 64 = m + buf.length / 64 by omega, show (64 * m + buf.length) % 64 = 0 by omega]
    · rw [if_neg he, keystreamAt_eq]
      have hc : (UInt32.ofNat (m + buf.length / 64)).toNat = m + buf.length / 64 := by exact Nat.mod_eq_of_lt h2
      simp only [hc]
      have hx := xorInto_eq key nonce (m + buf.length / 64) (buf.drop (64 * (buf.length / 64))) 0 (by simp; omega)
      rw [List.drop_zero, Nat.add_zero] at hx
      rw [hx, hsplit]
      unfold at_
      rw [show (64 * m + buf.length) / 64 = m + buf.length / 64 by omega, List.length_drop, show (64 * m + buf.length) % 64 = buf.length - 64 * (buf.length / 64) by omega]
  · rw [if_neg h, if_neg (by omega)]
    rfl

/-! ## Theorems -/

/-- The keystream of a block is the ChaCha20 block function of RFC 8439. -/
theorem C59_block (c : ChaCha20) (b : UInt32) : c.getKeystream b = Rfc.block c.key b.toNat c.nonce := keystreamAt_eq c b

/-- `apply_keystream` XORs the buffer with the stream from the cipher's position on and moves the position past it; it panics exactly
when that position is past the last block (or at its end). -/
theorem C59_apply (c : ChaCha20) (buf : Bytes) (hc : c.seekOffset < 64) :
    c.applyKeystream buf = if c.pos + buf.length < 2 ^ 38
      then some (at_ c.key c.nonce (c.pos + buf.length), Rfc.crypt c.key c.nonce c.pos buf) else none := by
  obtain ⟨key, nonce, b, off⟩ := c
  have hb := b.toNat_lt
  have hbb : UInt32.ofNat b.toNat = b := by apply UInt32.toNat_inj.mp; exact Nat.mod_eq_of_lt hb
  unfold ChaCha20.applyKeystream
  obtain ⟨pos, hpos⟩ : ∃ pos, pos = ChaCha20.pos ⟨key, nonce, b, off⟩ := ⟨_, rfl⟩
  rw [← hpos]
  replace hpos : pos = 64 * b.toNat + off := hpos
  replace hc : off < 64 := hc
  simp only
  by_cases h0 : off = 0
  · subst h0
    rw [if_neg (by simp)]
    have := applyAligned_eq key nonce b.toNat buf hb
    rw [hbb] at this
    rw [this, hpos]
    rfl
  · rw [if_pos h0, keystreamAt_eq]
    simp only
    by_cases h1 : min buf.length (64 - off) < 64 - off
    · rw [if_pos h1, if_pos (by omega)]
      have hmin : min buf.length (64 - off) = buf.length := by omega
      rw [hmin, List.take_length, List.drop_length, List.append_nil, xorInto_eq key nonce b.toNat buf off (by omega), ← hpos]
      unfold at_
      rw [show (pos + buf.length) / 64 = b.toNat by omega, show (pos + buf.length) % 64 = off + buf.length by omega, hbb]
    · rw [if_neg h1, incBlock_eq]
      simp only
      have hmin : min buf.length (64 - off) = 64 - off := by omega
      by_cases h2 : b.toNat + 1 < 2 ^ 32
      · rw [if_pos h2]
        simp only
        rw [applyAligned_eq key nonce (b.toNat + 1) _ h2, hmin, List.length_drop,
          show 64 * (b.toNat + 1) + (buf.length - (64 - off)) = pos + buf.length by omega]
        by_cases h3 : pos + buf.length < 2 ^ 38
        · rw [if_pos h3, if_pos h3]
          simp only [Option.map_some, Option.some.injEq, Prod.mk.injEq, true_and]
          rw [xorInto_eq key nonce b.toNat _ off (by simp; omega)]
          have hsplit := crypt_append key nonce (buf.take (64 - off)) (buf.drop (64 - off)) pos
          rw [List.take_append_drop] at hsplit
          have hlen : (buf.take (64 - off)).length = 64 - off := by simp; omega
          rw [hlen, show pos + (64 - off) = 64 * (b.toNat + 1) by omega] at hsplit
          rw [← hpos]
          exact hsplit.symm
        · rw [if_neg h3, if_neg h3]
          rfl
      · rw [if_neg h2, if_neg (by omega)]

theorem at_pos (key : Arr 32) (nonce : Arr 12) (p : Nat) (h : p < 2 ^ 38) : (at_ key nonce p).pos = p ∧ (at_ key nonce p).seekOffset < 64 := by
  have : (UInt32.ofNat (p / 64)).toNat = p / 64 := Nat.mod_eq_of_lt (by omega)
  unfold at_ ChaCha20.pos
  simp only [this]
  omega

/-- What a user does with a cipher. -/
inductive Op where
  | apply (buf : Bytes)
  | seek (pos : UInt32)
  | block (b : UInt32)

/-- A sequence of operations on the cipher, and the buffers that result. -/
def ops (c : ChaCha20) : List Op → Option (List Bytes)
  | [] => some []
  | .apply buf :: rest => match c.applyKeystream buf with
    | none => none
    | some (c, out) => (ops c rest).map (out :: ·)
  | .seek p :: rest => ops (c.seek p) rest
  | .block b :: rest => ops (c.block b) rest

/-- The same on a position in the stream. -/
def specOps (key : Arr 32) (nonce : Arr 12) (pos : Nat) : List Op → Option (List Bytes)
  | [] => some []
  | .apply buf :: rest => if pos + buf.length < 2 ^ 38 then (specOps key nonce (pos + buf.length) rest).map (Rfc.crypt key nonce pos buf :: ·) else none
  | .seek p :: rest => specOps key nonce p.toNat rest
  | .block b :: rest => specOps key nonce (64 * b.toNat) rest

theorem ops_eq : ∀ (l : List Op) (c : ChaCha20), c.seekOffset < 64 → ops c l = specOps c.key c.nonce c.pos l
  | [], _, _ => rfl
  | .apply buf :: rest, c, h => by
    simp only [ops, specOps]
    rw [C59_apply c buf h]
    by_cases h1 : c.pos + buf.length < 2 ^ 38
    · rw [if_pos h1, if_pos h1]
      simp only
      obtain ⟨hp, ho⟩ := at_pos c.key c.nonce _ h1
      rw [ops_eq rest _ ho, hp]
      rfl
    · rw [if_neg h1, if_neg h1]
  | .seek p :: rest, c, _ => by
    simp only [ops, specOps]
    have h1 : (c.seek p).seekOffset < 64 := by
      simp only [ChaCha20.seek, UInt32.toNat_mod]
      exact Nat.mod_lt _ (by decide)
    have h2 : (c.seek p).pos = p.toNat := by
      simp only [ChaCha20.seek, ChaCha20.pos, UInt32.toNat_mod, UInt32.toNat_div]
      exact Nat.div_add_mod p.toNat 64
    rw [ops_eq rest _ h1, h2]
    rfl
  | .block b :: rest, c, _ => by
    simp only [ops, specOps]
    rw [ops_eq rest _ (by simp [ChaCha20.block])]
    rfl

/-- Every sequence of seeks and applications, from a position in bytes. -/
theorem C59_sequence (key : Arr 32) (nonce : Arr 12) (seek : UInt32) (l : List Op) :
    ops (ChaCha20.new key nonce seek) l = specOps key nonce seek.toNat l := by
  have h1 : (ChaCha20.new key nonce seek).seekOffset < 64 := by
    simp only [ChaCha20.new, UInt32.toNat_mod]
    exact Nat.mod_lt _ (by decide)
  have h2 : (ChaCha20.new key nonce seek).pos = seek.toNat := by
    simp only [ChaCha20.new, ChaCha20.pos, UInt32.toNat_mod, UInt32.toNat_div]
    exact Nat.div_add_mod seek.toNat 64
  rw [ops_eq l _ h1, h2]
  rfl

/-- The same from a block. -/
theorem C59_sequence_block (key : Arr 32) (nonce : Arr 12) (b : UInt32) (l : List Op) :
    ops (ChaCha20.newFromBlock key nonce b) l = specOps key nonce (64 * b.toNat) l :=
  ops_eq l _ (by simp [ChaCha20.newFromBlock])

theorem crypt_crypt (key : Arr 32) (nonce : Arr 12) : ∀ (bs : Bytes) (pos : Nat), Rfc.crypt key nonce pos (Rfc.crypt key nonce pos bs) = bs
  | [], _ => rfl
  | b :: bs, pos => by
    simp only [Rfc.crypt]
    rw [crypt_crypt key nonce bs (pos + 1), UInt8.xor_assoc, UInt8.xor_self, UInt8.xor_zero]

/-- Applying the keystream twice from the same position gives the bytes back. -/
theorem C59_twice (c c' d : ChaCha20) (buf out : Bytes) (hc : c.seekOffset < 64) (h : c.applyKeystream buf = some (d, out))
    (hk : c'.key = c.key) (hn : c'.nonce = c.nonce) (hp : c'.pos = c.pos) (hc' : c'.seekOffset < 64) : c'.applyKeystream out = some (d, buf) := by
  rw [C59_apply c buf hc] at h
  by_cases h1 : c.pos + buf.length < 2 ^ 38
  · rw [if_pos h1] at h
    simp only [Option.some.injEq, Prod.mk.injEq] at h
    obtain ⟨h2, h3⟩ := h
    subst h2 h3
    rw [C59_apply c' _ hc', crypt_length, hk, hn, hp, if_pos h1, crypt_crypt]
  · rw [if_neg h1] at h
    cases h

/-- In pieces or at once. -/
theorem C59_pieces (c : ChaCha20) (a b : Bytes) (hc : c.seekOffset < 64) :
    c.applyKeystream (a ++ b) = match c.applyKeystream a with
      | none => none
      | some (c, x) => (c.applyKeystream b).map fun (c, y) => (c, x ++ y) := by
  rw [C59_apply c _ hc, C59_apply c a hc, List.length_append]
  by_cases h1 : c.pos + a.length < 2 ^ 38
  · rw [if_pos h1]
    simp only
    obtain ⟨hp, ho⟩ := at_pos c.key c.nonce _ h1
    rw [C59_apply _ b ho, hp, show c.pos + (a.length + b.length) = c.pos + a.length + b.length by omega]
    by_cases h2 : c.pos + a.length + b.length < 2 ^ 38
    · rw [if_pos h2, if_pos h2, crypt_append]
      rfl
    · rw [if_neg h2, if_neg h2]
      rfl
  · rw [if_neg h1, if_neg (by omega)]

/-- Finding: a buffer that ends exactly with the last block of the stream, the most RFC 8439 allows, panics (with overflow checks) when
the counter is moved past it. -/
theorem C59_last_block (key : Arr 32) (nonce : Arr 12) (buf : Bytes) (h : buf.length = 64) :
    (ChaCha20.newFromBlock key nonce 0xffffffff).applyKeystream buf = none := by
  rw [C59_apply _ _ (by simp [ChaCha20.newFromBlock])]
  have h2 : (0xffffffff : UInt32).toNat = 4294967295 := by decide
  have : (ChaCha20.newFromBlock key nonce 0xffffffff).pos = 64 * 4294967295 := by
    simp only [ChaCha20.newFromBlock, ChaCha20.pos, h2]
  rw [this, h, if_neg (by decide)]

/-! ## Examples -/

/-- RFC 8439, 2.3.2. -/
def key0 : Arr 32 := ⟨(List.range 32).map UInt8.ofNat, by decide⟩
example : (ChaCha20.newFromBlock key0 ⟨[0, 0, 0, 9, 0, 0, 0, 0x4a, 0, 0, 0, 0], by decide⟩ 1).getKeystream 1 =
    [0x10, 0xf1, 0xe7, 0xe4, 0xd1, 0x3b, 0x59, 0x15, 0x50, 0x0f, 0xdd, 0x1f, 0xa3, 0x20, 0x71, 0xc4,
     0xc7, 0xd1, 0xf4, 0xc7, 0x33, 0xc0, 0x68, 0x03, 0x04, 0x22, 0xaa, 0x9a, 0xc3, 0xd4, 0x6c, 0x4e,
     0xd2, 0x82, 0x64, 0x46, 0x07, 0x9f, 0xaa, 0x09, 0x14, 0xc2, 0xd7, 0x05, 0xd9, 0x8b, 0x02, 0xa2,
     0xb5, 0x12, 0x9c, 0xd1, 0xde, 0x16, 0x4e, 0xb9, 0xcb, 0xd0, 0x83, 0xe8, 0xa2, 0x50, 0x3c, 0x4e] := by decide +kernel
example (buf : Bytes) (h : buf.length = 100) : (ChaCha20.new key0 ⟨List.replicate 12 0, by decide⟩ 70).applyKeystream buf =
    some (at_ key0 ⟨List.replicate 12 0, by decide⟩ 170, Rfc.crypt key0 ⟨List.replicate 12 0, by decide⟩ 70 buf) := by
  rw [C59_apply _ _ (by decide), show (ChaCha20.new key0 ⟨List.replicate 12 0, by decide⟩ 70).pos = 70 from rfl, h]
  rfl
example (a : Bytes) (h : a.length = 10) : ∃ x, ops (ChaCha20.new key0 ⟨List.replicate 12 0, by decide⟩ 70) [.apply a, .seek 75, .apply (a.drop 5), .block 1, .seek 70] = some x := by
  rw [C59_sequence]
  simp [specOps, h]

end ChaCha
end Btc
