import Verif.Hashes.Sha2Laws
import Verif.Props.C06
/-!
# C48: hash engines do not depend on how input is split

For any compression function `comp`, any block size `B` and any initial value.
-/
namespace Btc
namespace Hashes
variable {σ : Type}

theorem blocksLoop_foldl (B : Nat) (comp : σ → Bytes → σ) (k : Nat) (h : σ) (bs : Bytes) :
    blocksLoop B comp k h bs = ((List.range k).map fun i => (bs.drop (B * i)).take B).foldl comp h := by
  induction k generalizing h bs with
  | zero => rfl
  | succ k ih =>
    rw [blocksLoop, ih, List.range_succ_eq_map, List.map_cons, List.foldl_cons, List.map_map, Nat.mul_zero, List.drop_zero]
    congr 1
    apply List.map_congr_left
    intro i _
    simp only [Function.comp, List.drop_drop, Nat.succ_eq_add_one, Nat.mul_add, Nat.mul_one]
    rw [Nat.add_comm]

theorem processBlocks_foldl (B : Nat) (comp : σ → Bytes → σ) (h : σ) (bs : Bytes) :
    processBlocks B comp h bs = (Fips.blocks B bs).foldl comp h := blocksLoop_foldl B comp _ h bs

/-- The padding of FIPS 180-4 fills the last block, and with fewer zero bytes it would not. -/
theorem C48_padding (B L : Nat) (hL : 0 < L) (hB : L < B) (len : Nat → Bytes) (hlen : ∀ n, (len n).length = L) (msg : Bytes) :
    (Fips.pad B L len msg).length % B = 0 ∧
    ∀ z, z < Fips.zeros B L msg.length → (msg ++ 0x80 :: List.replicate z 0 ++ len (8 * msg.length)).length % B ≠ 0 := by
  have hr := Nat.mod_lt msg.length (show 0 < B by omega)
  have hdm := Nat.div_add_mod msg.length B
  generalize hq : msg.length / B = q at hdm
  generalize hrr : msg.length % B = r at hdm hr
  have hz : Fips.zeros B L msg.length = if r ≥ B - L then 2 * B - 1 - L - r else B - 1 - L - r := by
    unfold Fips.zeros
    rw [hrr]
    split
    · exact Nat.mod_eq_of_lt (by omega)
    · rw [show 2 * B - 1 - L - r = (B - 1 - L - r) + B by omega, Nat.add_mod_right, Nat.mod_eq_of_lt (by omega)]
  have hl : ∀ z, (msg ++ 0x80 :: List.replicate z 0 ++ len (8 * msg.length)).length = B * q + (r + 1 + z + L) := by
    intro z; simp [hlen]; omega
  unfold Fips.pad
  constructor
  · rw [hl, Nat.mul_add_mod, hz]
    split
    · rw [show r + 1 + (2 * B - 1 - L - r) + L = B + B by omega]; simp
    · rw [show r + 1 + (B - 1 - L - r) + L = B by omega]; simp
  · intro z hlt
    rw [hl, Nat.mul_add_mod]
    rw [hz] at hlt
    split at hlt
    · rw [show r + 1 + z + L = (r + 1 + z + L - B) + B by omega, Nat.add_mod_right, Nat.mod_eq_of_lt (by omega)]; omega
    · rw [Nat.mod_eq_of_lt (by omega)]; omega

/-- Any sequence of `input` calls on a new engine, then `from_engine`: the compression function folded over the blocks of the
padded concatenation.  `enc` is the eight-byte length the engine writes, `len` the textbook's `L`-byte length field.  SHA-256, SHA-1:
64, 8; RIPEMD-160: 64, 8 and little endian; SHA-512: 128, 16. -/
theorem C48_engine (B L : Nat) (hL : 8 ≤ L) (hB : L < B) (enc : Nat → Bytes) (henc : ∀ n, (enc n).length = 8)
    (comp : σ → Bytes → σ) (iv : σ) (xs : List Bytes) (hlen : xs.flatten.length < 2 ^ 61) :
    (xs.foldl (fun e x => e.input B comp x) (Eng.new B iv)).finish B L enc comp =
      (Fips.blocks B (Fips.pad B L (fun n => List.replicate (L - 8) 0 ++ enc n) xs.flatten)).foldl comp iv := by
  have h := rep_inputs B (by omega) comp iv xs _ [] (rep_new B (by omega) comp iv) (by simp only [List.nil_append]; omega)
  rw [List.nil_append] at h
  rw [rep_finish B L hL hB enc henc comp iv _ _ h (by omega), processBlocks_foldl]
  rfl

/-- The SHA-3 engine: `pad10*1` with the two domain bits (FIPS 202 B.2: `0x06 00.. 80`, or `0x86` when one byte is left). -/
theorem C48_sha3_engine (B : Nat) (hB : 1 < B) (comp : σ → Bytes → σ) (iv : σ) (xs : List Bytes)
    (hlen : xs.flatten.length < 2 ^ 64) :
    (xs.foldl (fun e x => e.input B comp x) (Eng.new B iv)).finishSha3 B comp =
      (Fips.blocks B (xs.flatten ++ if xs.flatten.length % B = B - 1 then [0x86]
        else 0x06 :: List.replicate (B - 2 - xs.flatten.length % B) 0 ++ [0x80])).foldl comp iv := by
  have h := rep_inputs B (by omega) comp iv xs _ [] (rep_new B (by omega) comp iv) (by simpa using hlen)
  rw [List.nil_append] at h
  rw [rep_finishSha3 B hB comp iv _ _ h, processBlocks_foldl]

/-- `n_bytes_hashed` is the number of bytes fed. -/
theorem C48_bytes_hashed (B : Nat) (hB : 0 < B) (comp : σ → Bytes → σ) (iv : σ) (xs : List Bytes)
    (hlen : xs.flatten.length < 2 ^ 64) :
    (xs.foldl (fun e x => e.input B comp x) (Eng.new B iv)).bytesHashed = xs.flatten.length := by
  have h := rep_inputs B hB comp iv xs _ [] (rep_new B hB comp iv) (by simpa using hlen)
  rw [List.nil_append] at h
  exact h.2.1

/-- Two ways of cutting the same bytes give the same digest. -/
theorem C48_split (B L : Nat) (hL : 8 ≤ L) (hB : L < B) (enc : Nat → Bytes) (henc : ∀ n, (enc n).length = 8)
    (comp : σ → Bytes → σ) (iv : σ) (xs ys : List Bytes) (hlen : xs.flatten.length < 2 ^ 61) (h : xs.flatten = ys.flatten) :
    (xs.foldl (fun e x => e.input B comp x) (Eng.new B iv)).finish B L enc comp =
      (ys.foldl (fun e x => e.input B comp x) (Eng.new B iv)).finish B L enc comp := by
  rw [C48_engine B L hL hB enc henc comp iv xs hlen, C48_engine B L hL hB enc henc comp iv ys (h ▸ hlen), h]

/-- `drain_to_engine` (lib.rs 214-226): `none` when the encoder does not finish in `n` rounds. -/
def drainTo (B : Nat) (comp : σ → Bytes → σ) (enc : Enc) : Nat → enc.S → Eng σ → Option (Eng σ)
  | 0, _, _ => none
  | n + 1, s, e =>
    let e := e.input B comp (enc.cur s)
    match enc.adv s with
    | (s', true) => drainTo B comp enc n s' e
    | (_, false) => some e

/-- Feeding an encoder's chunks to an engine gives the hash of the encoding, whatever the chunks are. -/
theorem C48_drain (B L : Nat) (hL : 8 ≤ L) (hB : L < B) (len : Nat → Bytes) (hlen : ∀ n, (len n).length = 8)
    (comp : σ → Bytes → σ) (iv : σ) (enc : Enc) (s : enc.S) (bs : Bytes) (hd : Drains enc s bs) (hbs : bs.length < 2 ^ 61) :
    ∃ n e, drainTo B comp enc n s (Eng.new B iv) = some e ∧ e.finish B L len comp =
      (Fips.blocks B (Fips.pad B L (fun n => List.replicate (L - 8) 0 ++ len n) bs)).foldl comp iv := by
  obtain ⟨n, hn⟩ := hd
  have key : ∀ (n : Nat) (s : enc.S) (bs : Bytes) (e : Eng σ) (m : Bytes), enc.drain n s = some bs → Rep B comp iv e m →
      (m ++ bs).length < 2 ^ 64 → ∃ e', drainTo B comp enc n s e = some e' ∧ Rep B comp iv e' (m ++ bs) := by
    intro n
    induction n with
    | zero => intro s bs e m h; simp [Enc.drain] at h
    | succ n ih =>
      intro s bs e m h hr hl
      simp only [Enc.drain] at h
      simp only [drainTo]
      cases ha : enc.adv s with
      | mk s' b =>
        rw [ha] at h
        cases b with
        | true =>
          cases hrest : enc.drain n s' with
          | none => simp [hrest] at h
          | some rest =>
            have hbs : bs = enc.cur s ++ rest := by simpa [hrest] using h.symm
            subst hbs
            rw [← List.append_assoc] at hl ⊢
            exact ih s' rest _ _ hrest (rep_input B (by omega) comp iv e m _ hr (by simp at hl ⊢; omega)) hl
        | false =>
          have hbs : bs = enc.cur s := by simpa using h.symm
          subst hbs
          exact ⟨_, rfl, rep_input B (by omega) comp iv e m _ hr hl⟩
  obtain ⟨e, h1, h2⟩ := key n s bs _ [] hn (rep_new B (by omega) comp iv) (by simp only [List.nil_append]; omega)
  rw [List.nil_append] at h2
  refine ⟨n, e, h1, ?_⟩
  rw [rep_finish B L hL hB len hlen comp iv _ _ h2 (by omega), processBlocks_foldl]
  rfl

/-- A compression function that records its blocks, and splits across block boundaries, including 56 bytes in the last block. -/
def logComp (h : List Bytes) (b : Bytes) : List Bytes := h ++ [b]
example : (([[1, 2, 3], List.replicate 10 7, [], List.replicate 43 9] : List Bytes).foldl (fun e x => e.input 64 logComp x)
    (Eng.new 64 [])).finish 64 8 (beBytes 8) logComp =
    [[1, 2, 3] ++ List.replicate 10 7 ++ List.replicate 43 9 ++ 0x80 :: List.replicate 7 0,
      List.replicate 56 0 ++ [0, 0, 0, 0, 0, 0, 1, 0xc0]] := by decide +kernel
example : (([[1, 2, 3], List.replicate 132 7] : List Bytes).foldl (fun e x => e.input 136 logComp x)
    (Eng.new 136 [])).finishSha3 136 logComp = [[1, 2, 3] ++ List.replicate 132 7 ++ [0x86]] := by decide +kernel
example : (([List.replicate 200 1, List.replicate 56 2] : List Bytes).foldl (fun e x => e.input 128 logComp x)
    (Eng.new 128 [])).bytesHashed = 256 := by decide +kernel
example : Drains (encN [bytesEnc, bytesEnc]) (0, [1], [2], ()) [1, 2] :=
  C06_tuple (es := [bytesEnc, bytesEnc]) (by simp) ([1], [2], ()) [[1], [2]] ⟨C06_bytes _, C06_bytes _, rfl⟩

end Hashes
end Btc
