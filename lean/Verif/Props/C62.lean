import Verif.Props.C48
/-!
# C62: SHA-2 is the SHA-2 of the standard, in all its code paths

`Fips.*` (Verif/Hashes/Sha2Spec.lean) is written from FIPS 180-4.  The other side is the unrolled code of the crate: the table of
`round!` lines, the const-context copy, and the three-transform double hash of 64 bytes.
-/
namespace Btc
namespace Sha2
open Fips (W round rounds compress)
open Hashes

theorem addz {w : Nat} (x : BitVec w) : x + (0 : BitVec w) = x := BitVec.add_zero x
theorem zadd {w : Nat} (x : BitVec w) : (0 : BitVec w) + x = x := BitVec.zero_add x

/-! ## Roots -/

theorem rootFrom_spec (e n : Nat) (b r : Nat) (he : 0 < e) (h1 : r ^ e ≤ n) (h2 : n < (r + 2 ^ b) ^ e) :
    (Fips.rootFrom e n b r) ^ e ≤ n ∧ n < (Fips.rootFrom e n b r + 1) ^ e := by
  induction b generalizing r with
  | zero => simpa [Fips.rootFrom] using ⟨h1, h2⟩
  | succ b ih =>
    rw [Fips.rootFrom]
    split
    · rename_i h
      exact ih _ h (by rw [Nat.add_assoc, ← Nat.two_mul, ← Nat.pow_succ', ]; exact h2)
    · rename_i h
      exact ih _ h1 (by omega)

/-- The spec's roots are the integer roots. -/
theorem C62_root (e n : Nat) (he : 0 < e) (h : n < (2 ^ 80) ^ e) : (Fips.root e n) ^ e ≤ n ∧ n < (Fips.root e n + 1) ^ e :=
  rootFrom_spec e n 80 0 he (by rw [Nat.zero_pow he]; omega) (by rw [Nat.zero_add]; exact h)

/-- The list of primes is the list of primes below 410, of which there are eighty. -/
theorem C62_primes : Fips.primes.length = 80 ∧ ∀ p, p ∈ Fips.primes ↔ p < 410 ∧ 2 ≤ p ∧ ∀ d, 2 ≤ d → d < p → ¬ d ∣ p := by
  refine ⟨by decide +kernel, fun p => ?_⟩
  unfold Fips.primes Fips.isPrime
  rw [List.mem_filter, List.mem_range]
  simp only [Bool.and_eq_true, decide_eq_true_eq, List.all_eq_true, List.mem_range, Bool.or_eq_true, bne_iff_ne, ne_eq]
  constructor
  · rintro ⟨h1, h2, h3⟩
    refine ⟨h1, h2, fun d hd hlt hdvd => ?_⟩
    rcases h3 d hlt with h | h
    · omega
    · exact h (Nat.mod_eq_zero_of_dvd hdvd)
  · rintro ⟨h1, h2, h3⟩
    refine ⟨h1, h2, fun d hd => ?_⟩
    by_cases h : d < 2
    · exact Or.inl h
    · exact Or.inr fun h0 => h3 d (by omega) hd (Nat.dvd_of_mod_eq_zero h0)

/-! ## Tables -/

theorem calls256_std : calls256 = (List.range 64).map fun t => callAt t (Fips.K256 t) (stdSrc t) := by decide +kernel
theorem calls512_std : calls512 = (List.range 80).map fun t => callAt t (Fips.K512 t) (stdSrc t) := by decide +kernel
theorem callsUnopt_eq : callsUnopt = calls256 := by decide +kernel
theorem callsD1_eq : callsD1 = calls256 := by decide +kernel
theorem iv256_eq : iv256 = Fips.iv256 := by decide +kernel
theorem iv512_eq : iv512 = Fips.iv512 := by decide +kernel
theorem iv384_eq : iv384 = Fips.iv384 := by decide +kernel

theorem comp256_eq (h : St 32) (b : Bytes) : comp256 h b = compress Fips.fns256 Fips.K256 64 h (Fips.word 32 4 b) := by
  unfold comp256
  rw [compCalls_std fns256 Fips.K256 4 64 rfl calls256 calls256_std, fns256_eq]
theorem comp512_eq (h : St 64) (b : Bytes) : comp512 h b = compress Fips.fns512 Fips.K512 80 h (Fips.word 64 8 b) := by
  unfold comp512
  rw [compCalls_std fns512 Fips.K512 8 80 rfl calls512 calls512_std, fns512_eq]

theorem leBytes_zeros (k n : Nat) (h : n < 256 ^ k) (j : Nat) : leBytes (k + j) n = leBytes k n ++ List.replicate j 0 := by
  induction k generalizing n with
  | zero =>
    have : n = 0 := by simpa using h
    subst this
    induction j with
    | zero => rfl
    | succ j ih =>
      rw [Nat.zero_add] at ih ⊢
      show UInt8.ofNat 0 :: leBytes j (0 / 256) = _
      rw [Nat.zero_div, ih]; rfl
  | succ k ih =>
    rw [show k + 1 + j = (k + j) + 1 by omega, leBytes, leBytes, ih _ (by rw [Nat.pow_succ] at h; omega)]
    rfl
theorem beBytes_zeros (k n : Nat) (h : n < 256 ^ k) (j : Nat) : beBytes (k + j) n = List.replicate j 0 ++ beBytes k n := by
  unfold beBytes
  rw [leBytes_zeros k n h j, List.reverse_append, List.reverse_replicate]

theorem engine256 (iv : St 32) (xs : List Bytes) (hlen : xs.flatten.length < 2 ^ 61) :
    finish256 (xs.foldl input256 (Eng.new 64 iv)) = Fips.hash Fips.fns256 Fips.K256 64 64 8 iv xs.flatten := by
  unfold finish256
  have := C48_engine 64 8 (by omega) (by omega) (beBytes 8) (by simp) comp256 iv xs hlen
  rw [show (xs.foldl input256 (Eng.new 64 iv)) = xs.foldl (fun e x => e.input 64 comp256 x) (Eng.new 64 iv) from rfl, this]
  unfold Fips.hash St.bytes
  rw [show (comp256 : St 32 → Bytes → St 32) = fun H b => compress Fips.fns256 Fips.K256 64 H (Fips.word 32 4 b) from
    funext fun h => funext fun b => comp256_eq h b]
  rfl

theorem engine512 (iv : St 64) (xs : List Bytes) (hlen : xs.flatten.length < 2 ^ 61) :
    finish512 (xs.foldl input512 (Eng.new 128 iv)) = Fips.sha512With iv xs.flatten := by
  unfold finish512
  have := C48_engine 128 16 (by omega) (by omega) (beBytes 8) (by simp) comp512 iv xs hlen
  rw [show (xs.foldl input512 (Eng.new 128 iv)) = xs.foldl (fun e x => e.input 128 comp512 x) (Eng.new 128 iv) from rfl, this]
  unfold Fips.sha512With Fips.hash St.bytes
  rw [show (comp512 : St 64 → Bytes → St 64) = fun H b => compress Fips.fns512 Fips.K512 80 H (Fips.word 64 8 b) from
    funext fun h => funext fun b => comp512_eq h b]
  have hpad : Fips.pad 128 16 (fun n => List.replicate (16 - 8) 0 ++ beBytes 8 n) xs.flatten =
      Fips.pad 128 16 (beBytes 16) xs.flatten := by
    unfold Fips.pad
    rw [beBytes_zeros 8 (8 * xs.flatten.length) (by omega) 8]
  rw [hpad]

/-- SHA-256 of the crate, whatever the sequence of `input` calls, is FIPS 180-4 SHA-256. -/
theorem C62_sha256 (xs : List Bytes) (hlen : xs.flatten.length < 2 ^ 61) :
    finish256 (xs.foldl input256 new256) = Fips.sha256 xs.flatten := by
  unfold new256 Fips.sha256
  rw [engine256 _ xs hlen, iv256_eq]

theorem C62_sha512 (xs : List Bytes) (hlen : xs.flatten.length < 2 ^ 61) :
    finish512 (xs.foldl input512 new512) = Fips.sha512 xs.flatten := by
  unfold new512 Fips.sha512
  rw [engine512 _ xs hlen, iv512_eq]

theorem C62_sha384 (xs : List Bytes) (hlen : xs.flatten.length < 2 ^ 61) :
    finish384 (xs.foldl input512 new384) = Fips.sha384 xs.flatten := by
  unfold new384 finish384 Fips.sha384
  rw [engine512 _ xs hlen, iv384_eq]

theorem sha256_eq (bs : Bytes) (h : bs.length < 2 ^ 61) : sha256 bs = Fips.sha256 bs := by
  have := C62_sha256 [bs] (by simpa using h)
  simpa [sha256] using this

/-! ## SHA-512/256 -/

/-- §5.3.6: SHA-512 with the constants xored with `a5..`, of the name of the function, gives the initial value. -/
def fipsIv512t : Bytes :=
  let x := fun v : BitVec 64 => v ^^^ 0xa5a5a5a5a5a5a5a5#64
  Fips.sha512With ⟨x Fips.iv512.a, x Fips.iv512.b, x Fips.iv512.c, x Fips.iv512.d, x Fips.iv512.e, x Fips.iv512.f,
    x Fips.iv512.g, x Fips.iv512.h⟩ [0x53, 0x48, 0x41, 0x2d, 0x35, 0x31, 0x32, 0x2f, 0x32, 0x35, 0x36]  -- "SHA-512/256"

theorem St.bytes_length {w : Nat} (k : Nat) (s : St w) : (s.bytes k).length = 8 * k := by
  simp [St.bytes, St.toList]; omega

/-- The initial value of SHA-512/256 in the source is the generated one, and the hash is the standard's with it. -/
theorem C62_sha512_256 (xs : List Bytes) (hlen : xs.flatten.length < 2 ^ 61) :
    iv512_256.bytes 8 = fipsIv512t ∧ finish512_256 (xs.foldl input512 new512_256) = (Fips.sha512With iv512_256 xs.flatten).take 32 := by
  constructor
  · unfold fipsIv512t
    have := fun iv => engine512 iv [[0x53, 0x48, 0x41, 0x2d, 0x35, 0x31, 0x32, 0x2f, 0x32, 0x35, 0x36]] (by decide)
    simp only [List.flatten_cons, List.flatten_nil, List.append_nil] at this
    simp only
    rw [← this, ← iv512_eq]
    decide +kernel
  · unfold new512_256 finish512_256
    rw [engine512 _ xs hlen]

/-! ## The double hash of 64 bytes -/

theorem W_congr {w : Nat} (F : Fns w) (M M' : Nat → BitVec w) (h : ∀ i, i < 16 → M i = M' i) (t : Nat) : W F M t = W F M' t := by
  induction t using Nat.strongRecOn with
  | _ t ih =>
    by_cases ht : t < 16
    · rw [W_lt F M t ht, W_lt F M' t ht, h t ht]
    · rw [W_ge F M t (by omega), W_ge F M' t (by omega), ih _ (by omega), ih _ (by omega), ih _ (by omega), ih _ (by omega)]
theorem rounds_congr {w : Nat} (F : Fns w) (K M M' : Nat → BitVec w) (h : ∀ i, i < 16 → M i = M' i) (s : St w) (t : Nat) :
    rounds F K M s t = rounds F K M' s t := by
  induction t with
  | zero => rfl
  | succ t ih => rw [rounds, rounds, ih, W_congr F M M' h]
theorem compress_congr {w : Nat} (F : Fns w) (K M M' : Nat → BitVec w) (h : ∀ i, i < 16 → M i = M' i) (N : Nat) (s : St w) :
    compress F K N s M = compress F K N s M' := by
  unfold compress; rw [rounds_congr F K M M' h]

theorem St.add_comm {w : Nat} (s t : St w) : s.add t = t.add s := by
  unfold St.add; simp only [BitVec.add_comm]

/-- The padding block after 64 bytes. -/
def padBlock64 : Nat → BitVec 32 := fun i => if i = 0 then 0x80000000#32 else if i = 15 then 0x200#32 else 0
/-- The schedule that transform 2 has folded into its constants. -/
def w2 (t : Nat) : BitVec 32 := ((callsD2.map Call.k).getD t 0) - Fips.K256 t

theorem callsD2_eq : callsD2 = (List.range 64).map fun t => callAt t ((callsD2.map Call.k).getD t 0) (.const 0) := by decide +kernel
theorem w2_rec : ∀ t, t < 64 → w2 t = if t < 16 then padBlock64 t
    else fns256.sigma1 (w2 (t - 2)) + w2 (t - 7) + fns256.sigma0 (w2 (t - 15)) + w2 (t - 16) := by decide +kernel
theorem w2_eq (t : Nat) (ht : t < 64) : W fns256 padBlock64 t = w2 t := by
  induction t using Nat.strongRecOn with
  | _ t ih =>
    rw [w2_rec t ht]
    by_cases h : t < 16
    · rw [if_pos h, W_lt _ _ _ h]
    · rw [if_neg h, W_ge _ _ _ (by omega), ih _ (by omega) (by omega), ih _ (by omega) (by omega), ih _ (by omega) (by omega),
        ih _ (by omega) (by omega)]

theorem transform2 (v : St 32) (m : List (BitVec 32)) :
    (runCalls fns256 callsD2 v m).1 = rounds fns256 Fips.K256 padBlock64 v 64 ∧ (runCalls fns256 callsD2 v m).2 = m := by
  have hlen : callsD2.length = 64 := by decide +kernel
  have := run_inv fns256 Fips.K256 padBlock64 callsD2 v m (fun t => (callsD2.map Call.k).getD t 0) (fun _ => .const 0) (by
      intro t ht
      rw [hlen] at ht
      conv => lhs; rw [callsD2_eq]
      rw [List.getElem?_map, List.getElem?_range ht]; rfl)
    (fun _ m' => m' = m) rfl (by
      intro t m' ht hm
      refine ⟨hm, ?_⟩
      rw [hlen] at ht
      rw [w2_eq t ht]
      show (callsD2.map Call.k).getD t 0 + 0 = Fips.K256 t + (((callsD2.map Call.k).getD t 0) - Fips.K256 t)
      rw [BitVec.add_comm (Fips.K256 t), BitVec.sub_add_cancel, addz])
  rw [hlen] at this
  exact this

/-- The message words of the second hash: eight words of digest and the padding. -/
def padWords (s : St 32) : Nat → BitVec 32 := fun i => if i < 8 then s.get i else if i = 8 then 0x80000000#32
  else if i = 15 then 0x100#32 else 0

theorem pad_const (s : St 32) : padWords s 8 = 0x80000000#32 ∧ padWords s 9 = 0 ∧ padWords s 10 = 0 ∧ padWords s 11 = 0 ∧
    padWords s 12 = 0 ∧ padWords s 13 = 0 ∧ padWords s 14 = 0 ∧ padWords s 15 = 0x100#32 := ⟨rfl, rfl, rfl, rfl, rfl, rfl, rfl, rfl⟩

def live3 (j : Nat) : Prop := j < 8 ∨ 16 ≤ j

def k3 (t : Nat) : BitVec 32 := if 8 ≤ t ∧ t < 16 then (callsD3.map Call.k).getD t 0 else Fips.K256 t
def src3 (t : Nat) : Src 32 := if 8 ≤ t ∧ t < 16 then .const 0 else if 16 ≤ t ∧ t < 32 then (callsD3.map Call.src).getD t (.const 0)
  else stdSrc t

theorem callsD3_eq : callsD3 = (List.range 64).map fun t => callAt t (k3 t) (src3 t) := by decide +kernel

theorem step3 (s : St 32) (t : Nat) (m : List (BitVec 32)) (h1 : 16 ≤ t) (h2 : t < 32)
    (h : Window fns256 (padWords s) live3 t m) : (src3 t).eval fns256 m = (m.set (t % 16) (W fns256 (padWords s) t), W fns256 (padWords s) t) := by
  have c8 : W fns256 (padWords s) 8 = 0x80000000#32 := W_lt _ _ _ (by omega)
  have c9 : W fns256 (padWords s) 9 = 0 := W_lt _ _ _ (by omega)
  have c10 : W fns256 (padWords s) 10 = 0 := W_lt _ _ _ (by omega)
  have c11 : W fns256 (padWords s) 11 = 0 := W_lt _ _ _ (by omega)
  have c12 : W fns256 (padWords s) 12 = 0 := W_lt _ _ _ (by omega)
  have c13 : W fns256 (padWords s) 13 = 0 := W_lt _ _ _ (by omega)
  have c14 : W fns256 (padWords s) 14 = 0 := W_lt _ _ _ (by omega)
  have c15 : W fns256 (padWords s) 15 = 0x100#32 := W_lt _ _ _ (by omega)
  have s00 : fns256.sigma0 0 = 0 := by decide
  have s10 : fns256.sigma1 0 = 0 := by decide
  have s08 : fns256.sigma0 0x80000000#32 = 0x11002000#32 := by decide
  have s0f : fns256.sigma0 0x100#32 = 0x00400022#32 := by decide
  have s1f : fns256.sigma1 0x100#32 = 0x00a00000#32 := by decide
  have key : ∀ (i : Nat) (ts : List (Term 32)), src3 t = .set i ts → i = t % 16 → sumTerms fns256 m ts = W fns256 (padWords s) t →
      (src3 t).eval fns256 m = (m.set (t % 16) (W fns256 (padWords s) t), W fns256 (padWords s) t) := by
    intro i ts e1 e2 e3
    rw [e1]; simp only [Src.eval, e3, e2]
  have hw := h.2
  have r : ∀ j i, j % 16 = i → t ≤ j + 16 → j < t → live3 j → m.getD i 0 = W fns256 (padWords s) j := by
    intro j i e a b c; subst e; exact hw j a (by omega) c
  have ht : t = 16 ∨ t = 17 ∨ t = 18 ∨ t = 19 ∨ t = 20 ∨ t = 21 ∨ t = 22 ∨ t = 23 ∨ t = 24 ∨ t = 25 ∨ t = 26 ∨ t = 27 ∨ t = 28 ∨
    t = 29 ∨ t = 30 ∨ t = 31 := by omega
  clear hw h
  unfold live3 at r
  rcases ht with h | h | h | h | h | h | h | h | h | h | h | h | h | h | h | h <;> subst h <;>
    refine key _ _ rfl rfl ?_ <;> rw [W_ge _ _ _ (by omega)] <;> simp only [sumTerms, List.foldl_cons, List.foldl_nil, Term.eval] <;>
    simp only [Nat.reduceSub, c8, c9, c10, c11, c12, c13, c14, c15, s00, s10, s08, s0f, s1f]
  · rw [r 0 0 rfl (by omega) (by omega) (by omega), r 1 1 rfl (by omega) (by omega) (by omega)]
    simp only [zadd, addz]; ac_rfl
  · rw [r 1 1 rfl (by omega) (by omega) (by omega), r 2 2 rfl (by omega) (by omega) (by omega)]
    simp only [zadd, addz]; ac_rfl
  · rw [r 2 2 rfl (by omega) (by omega) (by omega), r 16 0 rfl (by omega) (by omega) (by omega), r 3 3 rfl (by omega) (by omega) (by omega)]
    simp only [zadd, addz]; ac_rfl
  · rw [r 3 3 rfl (by omega) (by omega) (by omega), r 17 1 rfl (by omega) (by omega) (by omega), r 4 4 rfl (by omega) (by omega) (by omega)]
    simp only [zadd, addz]; ac_rfl
  · rw [r 4 4 rfl (by omega) (by omega) (by omega), r 18 2 rfl (by omega) (by omega) (by omega), r 5 5 rfl (by omega) (by omega) (by omega)]
    simp only [zadd, addz]; ac_rfl
  · rw [r 5 5 rfl (by omega) (by omega) (by omega), r 19 3 rfl (by omega) (by omega) (by omega), r 6 6 rfl (by omega) (by omega) (by omega)]
    simp only [zadd, addz]; ac_rfl
  · rw [r 6 6 rfl (by omega) (by omega) (by omega), r 20 4 rfl (by omega) (by omega) (by omega), r 7 7 rfl (by omega) (by omega) (by omega)]
    ac_rfl
  · rw [r 7 7 rfl (by omega) (by omega) (by omega), r 21 5 rfl (by omega) (by omega) (by omega), r 16 0 rfl (by omega) (by omega) (by omega)]
    ac_rfl
  · rw [r 22 6 rfl (by omega) (by omega) (by omega), r 17 1 rfl (by omega) (by omega) (by omega)]
    simp only [zadd, addz]
  · rw [r 23 7 rfl (by omega) (by omega) (by omega), r 18 2 rfl (by omega) (by omega) (by omega)]
    simp only [zadd, addz]
  · rw [r 24 8 rfl (by omega) (by omega) (by omega), r 19 3 rfl (by omega) (by omega) (by omega)]
    simp only [zadd, addz]
  · rw [r 25 9 rfl (by omega) (by omega) (by omega), r 20 4 rfl (by omega) (by omega) (by omega)]
    simp only [zadd, addz]
  · rw [r 26 10 rfl (by omega) (by omega) (by omega), r 21 5 rfl (by omega) (by omega) (by omega)]
    simp only [zadd, addz]
  · rw [r 27 11 rfl (by omega) (by omega) (by omega), r 22 6 rfl (by omega) (by omega) (by omega)]
    simp only [zadd, addz]
  · rw [r 28 12 rfl (by omega) (by omega) (by omega), r 23 7 rfl (by omega) (by omega) (by omega)]
    simp only [zadd, addz]
  · rw [r 29 13 rfl (by omega) (by omega) (by omega), r 24 8 rfl (by omega) (by omega) (by omega), r 16 0 rfl (by omega) (by omega) (by omega)]

theorem const3 : ∀ t, t < 64 → 8 ≤ t → t < 16 → k3 t = Fips.K256 t + padWords ⟨0, 0, 0, 0, 0, 0, 0, 0⟩ t := by decide +kernel

theorem transform3 (s : St 32) (v : St 32) (m : List (BitVec 32)) (hl : m.length = 16) (hm : ∀ i, i < 8 → m.getD i 0 = s.get i) :
    (runCalls fns256 callsD3 v m).1 = rounds fns256 Fips.K256 (padWords s) v 64 := by
  have hlen : callsD3.length = 64 := by decide +kernel
  have := (run_inv fns256 Fips.K256 (padWords s) callsD3 v m k3 src3 (by
      intro t ht
      rw [hlen] at ht
      conv => lhs; rw [callsD3_eq]
      rw [List.getElem?_map, List.getElem?_range ht]; rfl)
    (Window fns256 (padWords s) live3) ⟨hl, by
      intro j _ h2 h3
      have hj : j < 8 := by unfold live3 at h3; omega
      rw [Nat.mod_eq_of_lt (by omega), W_lt _ _ _ (by omega), hm j hj]
      unfold padWords; rw [if_pos hj]⟩ (by
      intro t m ht h
      rw [hlen] at ht
      by_cases a : t < 8
      · have e1 : src3 t = .word t := by
          unfold src3 stdSrc; rw [if_neg (by omega), if_neg (by omega), if_pos (by omega)]
        have e2 : k3 t = Fips.K256 t := by unfold k3; rw [if_neg (by omega)]
        rw [e1, e2]
        refine ⟨window_keep _ _ _ t m (by omega) h, ?_⟩
        have := h.2 t (by omega) (by omega) (Or.inl a)
        rw [Nat.mod_eq_of_lt (by omega)] at this
        show _ + m.getD t 0 = _
        rw [this]
      by_cases b : t < 16
      · have e1 : src3 t = .const 0 := by unfold src3; rw [if_pos (by omega)]
        rw [e1]
        refine ⟨window_keep _ _ _ t m b h, ?_⟩
        show k3 t + 0 = _
        rw [addz, const3 t ht (by omega) b, W_lt _ _ _ b]
        unfold padWords; rw [if_neg a, if_neg a]
      by_cases c : t < 32
      · rw [step3 s t m (by omega) c h]
        refine ⟨window_set _ _ _ t m (by omega) h, ?_⟩
        unfold k3; rw [if_neg (by omega)]
      · have e1 : src3 t = .later (t % 16) ((t + 14) % 16) ((t + 9) % 16) ((t + 1) % 16) := by
          unfold src3 stdSrc; rw [if_neg (by omega), if_neg (by omega), if_neg (by omega)]
        rw [e1, later_eval _ _ _ t m (by omega) h ⟨Or.inr (by omega), Or.inr (by omega), Or.inr (by omega), Or.inr (by omega)⟩]
        refine ⟨window_set _ _ _ t m (by omega) h, ?_⟩
        unfold k3; rw [if_neg (by omega)])).1
  rw [this, hlen]
  rfl

theorem flatten_word (l : List (BitVec 32)) (rest : Bytes) (i : Nat) (hi : i < l.length) :
    Fips.word 32 4 ((l.map fun x => beBytes 4 x.toNat).flatten ++ rest) i = l.getD i 0 := by
  induction l generalizing i with
  | nil => simp at hi
  | cons x l ih =>
    have hx : beNat (beBytes 4 x.toNat) = x.toNat := beNat_beBytes 4 _ (by have := x.isLt; omega)
    cases i with
    | zero =>
      unfold Fips.word
      rw [Nat.mul_zero, List.drop_zero, List.map_cons, List.flatten_cons, List.append_assoc, List.take_left' (by simp), hx]
      simp
    | succ i =>
      have := ih i (by simpa using hi)
      unfold Fips.word at this ⊢
      rw [List.map_cons, List.flatten_cons, List.append_assoc, List.drop_append, show (beBytes 4 x.toNat).length = 4 by simp,
        List.drop_of_length_le (by simp; omega), List.nil_append, show 4 * (i + 1) - 4 = 4 * i by omega, this]
      simp
theorem bytes_word (s : St 32) (rest : Bytes) (i : Nat) (hi : i < 8) : Fips.word 32 4 (s.bytes 4 ++ rest) i = s.get i := by
  unfold St.bytes
  rw [flatten_word _ _ _ (by simpa [St.toList] using hi)]
  have : i = 0 ∨ i = 1 ∨ i = 2 ∨ i = 3 ∨ i = 4 ∨ i = 5 ∨ i = 6 ∨ i = 7 := by omega
  rcases this with h | h | h | h | h | h | h | h <;> subst h <;> rfl

theorem stateOfBytes_bytes (s : St 32) : stateOfBytes (s.bytes 4) = s := by
  have h : ∀ i, i < 8 → BitVec.ofNat 32 (beNat (((s.bytes 4).drop (4 * i)).take 4)) = s.get i := by
    intro i hi
    have := bytes_word s [] i hi
    rwa [List.append_nil] at this
  unfold stateOfBytes
  simp only [h 0 (by omega), h 1 (by omega), h 2 (by omega), h 3 (by omega), h 4 (by omega), h 5 (by omega), h 6 (by omega),
    h 7 (by omega)]
  rfl

/-- `Rep` of a whole message, as processed bytes. -/
theorem sha256_blocks (bs : Bytes) (h : bs.length < 2 ^ 61) :
    sha256 bs = (processBlocks 64 comp256 iv256 (Fips.pad 64 8 (beBytes 8) bs)).bytes 4 := by
  have := C48_engine 64 8 (by omega) (by omega) (beBytes 8) (by simp) comp256 iv256 [bs] (by simpa using h)
  unfold sha256 finish256
  simp only [List.foldl_cons, List.foldl_nil, List.flatten_cons, List.flatten_nil, List.append_nil] at this
  rw [processBlocks_foldl]
  exact congrArg (St.bytes 4) this

theorem pad64_words : ∀ i, i < 16 → Fips.word 32 4 (0x80 :: List.replicate 55 0 ++ beBytes 8 512) i = padBlock64 i := by decide +kernel
theorem pad32_words : ∀ i, i < 8 → Fips.word 32 4 (0x80 :: List.replicate 23 0 ++ beBytes 8 256) i =
    padWords ⟨0, 0, 0, 0, 0, 0, 0, 0⟩ (8 + i) := by decide +kernel

/-- `software_sha256d_64` is the double SHA-256 of its 64 bytes. -/
theorem C62_sha256d_64 (input : Bytes) (h : input.length = 64) : sha256d64 input = Fips.sha256 (Fips.sha256 input) := by
  have hS1 : sha256 input = (comp256 (comp256 iv256 input) (0x80 :: List.replicate 55 0 ++ beBytes 8 512)).bytes 4 := by
    rw [sha256_blocks input (by omega)]
    unfold Fips.pad Fips.zeros
    rw [h, List.append_assoc]
    rw [processBlocks_append 64 (by omega) comp256 iv256 input _ (by rw [h]), processBlocks_one 64 (by omega) comp256 _ _ h]
    rw [processBlocks_one 64 (by omega) comp256 _ _ (by decide)]
  generalize hst : comp256 (comp256 iv256 input) (0x80 :: List.replicate 55 0 ++ beBytes 8 512) = s at hS1
  have hl32 : (sha256 input).length = 32 := by rw [hS1, St.bytes_length]
  have hS2 : sha256 (sha256 input) = (comp256 iv256 (s.bytes 4 ++ (0x80 :: List.replicate 23 0 ++ beBytes 8 256))).bytes 4 := by
    rw [sha256_blocks _ (by omega)]
    unfold Fips.pad Fips.zeros
    rw [hl32, List.append_assoc, hS1]
    rw [processBlocks_one 64 (by omega) comp256 _ _ (by rw [List.length_append, St.bytes_length]; decide)]
  rw [← sha256_eq input (by omega), ← sha256_eq _ (by omega), hS2]
  -- transform 1
  have hD1 := run_inv fns256 Fips.K256 (Fips.word 32 4 input) callsD1 iv256 (words 32 4 input 16) Fips.K256 stdSrc (by
      intro t ht; rw [callsD1_eq, calls256_std] at ht ⊢; rw [List.getElem?_map, List.getElem?_range (by simpa using ht)]; rfl)
    (Window fns256 (Fips.word 32 4 input) fun _ => True)
    (words_window _ _ _ (by simp [words]) (fun i hi => words_getD 32 4 16 input i hi)) (by
      intro t m _ h
      have := std_step fns256 (Fips.word 32 4 input) t m h
      exact ⟨this.1, by rw [this.2]⟩)
  have hlen1 : callsD1.length = 64 := by decide +kernel
  rw [hlen1] at hD1
  have hv1 : (runCalls fns256 callsD1 iv256 (words 32 4 input 16)).1.add iv256 = comp256 iv256 input := by
    rw [hD1.1, comp256_eq, ← fns256_eq, St.add_comm]; rfl
  have hv2 : (comp256 iv256 input).add (rounds fns256 Fips.K256 padBlock64 (comp256 iv256 input) 64) = s := by
    rw [← hst, comp256_eq (comp256 iv256 input), ← fns256_eq, compress_congr _ _ _ _ pad64_words]
    rfl
  unfold sha256d64
  simp only [hv1, (transform2 _ _).1, (transform2 _ _).2, hv2]
  rw [transform3 s iv256 _ (by rw [List.length_append, List.length_drop, hD1.2.1]; rfl) (by
    intro i hi
    rw [List.getD_eq_getElem?_getD, List.getElem?_append_left (by simpa [St.toList] using hi)]
    have : i = 0 ∨ i = 1 ∨ i = 2 ∨ i = 3 ∨ i = 4 ∨ i = 5 ∨ i = 6 ∨ i = 7 := by omega
    rcases this with h | h | h | h | h | h | h | h <;> subst h <;> rfl)]
  rw [comp256_eq, ← fns256_eq, St.add_comm]
  refine congrArg (St.bytes 4) (compress_congr fns256 Fips.K256 (padWords s) _ ?_ 64 iv256)
  intro i hi
  by_cases h8 : i < 8
  · rw [bytes_word s _ i h8]; unfold padWords; rw [if_pos h8]
  · have := pad32_words (i - 8) (by omega)
    rw [show 8 + (i - 8) = i by omega] at this
    unfold padWords at this ⊢
    rw [if_neg h8] at this ⊢
    rw [← this]
    unfold Fips.word
    rw [List.drop_append (l₁ := s.bytes 4), St.bytes_length, List.drop_of_length_le (l := s.bytes 4) (by rw [St.bytes_length]; omega),
      List.nil_append, show 4 * i - 8 * 4 = 4 * (i - 8) by omega]

/-! ## The const-context copy -/

theorem splice_zero (B : Nat) (l : Bytes) (h : l.length ≤ B) :
    splice (List.replicate B 0) 0 l = l ++ List.replicate (B - l.length) 0 := by
  unfold splice
  simp [List.drop_replicate]

theorem mark_rest (rest : Bytes) (r : Nat) (hrl : rest.length = r) (hr : r < 64) :
    splice (rest ++ List.replicate (64 - r) 0) r [0x80] = rest ++ 0x80 :: List.replicate (63 - r) 0 := by
  unfold splice
  rw [List.take_left' hrl, List.append_assoc, List.drop_append, List.drop_of_length_le (l := rest) (by rw [hrl]; simp), hrl,
    List.nil_append, List.drop_replicate, show 64 - r - (r + [(0x80 : UInt8)].length - r) = 63 - r by simp; omega]
  rfl
theorem len_rest (rest : Bytes) (r : Nat) (hrl : rest.length = r) (hr : r ≤ 55) (l : Bytes) (hl : l.length = 8) :
    splice (rest ++ 0x80 :: List.replicate (63 - r) 0) 56 l = rest ++ (0x80 :: List.replicate (55 - r) 0 ++ l) := by
  unfold splice
  rw [List.take_append, List.take_of_length_le (l := rest) (by omega), hrl, show 56 - r = (55 - r) + 1 by omega, List.take_succ_cons,
    List.take_replicate, Nat.min_eq_left (by omega), List.drop_of_length_le (by simp; omega), List.append_nil, List.append_assoc]

/-- The block built for chunk number `c` is the `c`-th block of the padded message. -/
theorem unoptBlock_eq (bytes : Bytes) (hlen : bytes.length < 2 ^ 61) (c : Nat) (hc : c < (bytes.length + 9 + 63) / 64) :
    unoptBlock bytes ((bytes.length + 9 + 63) / 64) c = ((Fips.pad 64 8 (beBytes 8) bytes).drop (64 * c)).take 64 := by
  have hdm := Nat.div_add_mod bytes.length 64
  have hr := Nat.mod_lt bytes.length (show 0 < 64 by omega)
  generalize hq : bytes.length / 64 = q at hdm
  generalize hrr : bytes.length % 64 = r at hdm hr
  unfold unoptBlock Fips.pad Fips.zeros
  rw [hrr, Nat.mul_comm c 64]
  by_cases h1 : 64 * c + 64 ≤ bytes.length
  · rw [if_pos h1, List.append_assoc, List.drop_append_of_le_length (by omega), List.take_append_of_le_length (by simp; omega)]
  · rw [if_neg h1]
    have hbits : bytes.length * 8 % 2 ^ 64 = 8 * bytes.length := by omega
    simp only [hbits, List.length_drop]
    by_cases h2 : r ≤ 55
    · -- one padded block
      have hc' : c = q := by omega
      have hrl : (bytes.drop (64 * c)).length = r := by rw [List.length_drop]; omega
      rw [if_pos (Or.inl (by omega)), if_pos (by omega), splice_zero 64 _ (by omega)]
      rw [show bytes.length - 64 * c = r by omega, List.append_assoc, List.drop_append_of_le_length (by omega)]
      rw [show (2 * 64 - 1 - 8 - r) % 64 = 55 - r by omega, hrl]
      rw [mark_rest _ r hrl (by omega), len_rest _ r hrl h2 _ (by simp), List.take_of_length_le (by rw [List.length_append, hrl]; simp; omega)]
    · by_cases h3 : c = q
      · have hrl : (bytes.drop (64 * c)).length = r := by rw [List.length_drop]; omega
        rw [if_pos (Or.inr (by omega)), if_neg (by omega), splice_zero 64 _ (by omega)]
        rw [show bytes.length - 64 * c = r by omega, List.append_assoc, List.drop_append_of_le_length (by omega)]
        rw [show (2 * 64 - 1 - 8 - r) % 64 = 119 - r by omega, hrl]
        rw [mark_rest _ r hrl hr, List.take_append, List.take_of_length_le (l := bytes.drop (64 * c)) (by omega), hrl, show 64 - r = (63 - r) + 1 by omega, List.cons_append,
          List.take_succ_cons, List.take_append_of_le_length (by simp; omega), List.take_replicate, Nat.min_eq_left (by omega)]
      · have hc' : c = q + 1 := by omega
        have hrl : bytes.drop (64 * c) = [] := List.drop_of_length_le (by omega)
        rw [if_neg (show ¬(r ≤ 64 - 9 ∨ c + 2 = _) by omega), if_pos (by omega), hrl, splice_zero 64 _ (by simp)]
        rw [show (2 * 64 - 1 - 8 - r) % 64 = 119 - r by omega, List.append_assoc, List.drop_append, hrl, List.nil_append,
          show 64 * c - bytes.length = (63 - r) + 1 by omega, List.cons_append, List.drop_succ_cons, List.drop_append,
          List.drop_replicate, List.length_replicate, show 63 - r - (119 - r) = 0 by omega, List.drop_zero,
          show 119 - r - (63 - r) = 56 by omega]
        rw [List.take_of_length_le (by simp)]
        unfold splice
        simp [List.drop_replicate, List.take_replicate]

theorem pad_length (bytes : Bytes) : (Fips.pad 64 8 (beBytes 8) bytes).length = 64 * ((bytes.length + 9 + 63) / 64) := by
  unfold Fips.pad Fips.zeros
  simp
  omega

theorem unoptLoop_eq (bytes : Bytes) (n : Nat) (k c : Nat) (s : St 32) (hk : c + k = n) :
    unoptLoop bytes n true k c s = ((List.range k).map fun i => unoptBlock bytes n (c + i)).foldl comp256 s := by
  induction k generalizing c s with
  | zero => rfl
  | succ k ih =>
    rw [unoptLoop, if_pos (by omega)]
    simp only [Bool.not_true, Bool.false_and, Bool.false_eq_true, if_false]
    rw [ih (c + 1) _ (by omega), List.range_succ_eq_map, List.map_cons, List.foldl_cons, List.map_map, callsUnopt_eq]
    congr 1
    apply List.map_congr_left
    intro i _
    show unoptBlock bytes n (c + 1 + i) = unoptBlock bytes n (c + (i + 1))
    rw [show c + 1 + i = c + (i + 1) by omega]

theorem midstate_iv : stateOfBytes Midstate.iv.bytes = iv256 := by decide +kernel

/-- `hash_unoptimized` is SHA-256. -/
theorem C62_unoptimized (bytes : Bytes) (hlen : bytes.length < 2 ^ 61) : hashUnoptimized bytes = Fips.sha256 bytes := by
  rw [← sha256_eq bytes hlen, sha256_blocks bytes hlen, processBlocks_foldl]
  unfold hashUnoptimized Midstate.updateUnoptimized Fips.blocks
  simp only
  rw [unoptLoop_eq bytes _ _ 0 _ (by omega), midstate_iv, pad_length, Nat.mul_div_cancel_left _ (by omega)]
  congr 2
  apply List.map_congr_left
  intro c hc
  rw [Nat.zero_add]
  exact unoptBlock_eq bytes hlen c (List.mem_range.1 hc)

/-- The two ways of feeding one block to a midstate agree, and are one application of the compression function. -/
theorem C62_update_64 (m : Midstate) (b : Bytes) (hb : b.length = 64) :
    m.update64 b = m.update64Unoptimized b ∧
    m.update64 b = ⟨(compress Fips.fns256 Fips.K256 64 (stateOfBytes m.bytes) (Fips.word 32 4 b)).bytes 4,
      (m.bytesHashed + 64) % 2 ^ 64⟩ := by
  have h1 : m.update64 b = ⟨(comp256 (stateOfBytes m.bytes) b).bytes 4, (m.bytesHashed + 64) % 2 ^ 64⟩ := by
    unfold Midstate.update64 midstateUnchecked Midstate.toEngine
    simp only [processBlocks_one 64 (by omega) comp256 _ b hb]
  have h2 : m.update64Unoptimized b = ⟨(comp256 (stateOfBytes m.bytes) b).bytes 4, (m.bytesHashed + 64) % 2 ^ 64⟩ := by
    have hn : (b.length + 9 + 63) / 64 = 1 + 1 := by omega
    have hblk : unoptBlock b (1 + 1) 0 = b := by
      unfold unoptBlock
      rw [if_pos (by omega), Nat.zero_mul, List.drop_zero, List.take_of_length_le (by omega)]
    have hloop : ∀ s, unoptLoop b (1 + 1) false (1 + 1) 0 s = comp256 s b := by
      intro s
      rw [unoptLoop, if_pos (by decide), if_neg (by decide), unoptLoop, if_pos (by decide), if_pos (by decide), hblk, callsUnopt_eq]
      rfl
    unfold Midstate.update64Unoptimized Midstate.updateUnoptimized
    simp only [hn, hloop, hb]
  exact ⟨h1.trans h2.symm, by rw [h1, comp256_eq]⟩

/-- Feeding a block as two halves: the left one comes first. -/
theorem C62_update_2x32 (m : Midstate) (l r : Bytes) (hl : l.length = 32) (hr : r.length = 32) :
    m.update2x32 l r = m.update64 (l ++ r) :=
  (C62_update_64 m (l ++ r) (by rw [List.length_append, hl, hr])).1.symm

/-! ## Midstates -/

/-- A midstate can be taken exactly at block boundaries; an engine resumed from it goes on as the original. -/
theorem C62_midstate (xs : List Bytes) (hlen : xs.flatten.length < 2 ^ 61) :
    let e := xs.foldl input256 new256
    (xs.flatten.length % 64 = 0 → ∃ m, midstate e = .ok m ∧ m.bytesHashed = xs.flatten.length ∧
      ∀ ys : List Bytes, (xs ++ ys).flatten.length < 2 ^ 61 →
        finish256 (ys.foldl input256 m.toEngine) = Fips.sha256 (xs.flatten ++ ys.flatten)) ∧
    (xs.flatten.length % 64 ≠ 0 → ∃ err, midstate e = .error err ∧ err.invalidBytesHashed = xs.flatten.length ∧
      err.unprocessedLen = xs.flatten.length % 64 ∧
      err.unprocessed.take err.unprocessedLen = xs.flatten.drop (xs.flatten.length / 64 * 64) ∧
      err.aligned.bytesHashed = xs.flatten.length / 64 * 64 ∧
      ∀ ys : List Bytes, (xs ++ ys).flatten.length < 2 ^ 61 →
        finish256 (ys.foldl input256 err.aligned.toEngine) =
          Fips.sha256 (xs.flatten.take (xs.flatten.length / 64 * 64) ++ ys.flatten)) := by
  intro e
  have hrep := rep_inputs 64 (by omega) comp256 iv256 xs _ [] (rep_new 64 (by omega) comp256 iv256) (by simp only [List.nil_append]; omega)
  rw [List.nil_append] at hrep
  have hrep' : Rep 64 comp256 iv256 e xs.flatten := hrep
  obtain ⟨hb, hn, f, t, hm, hf, ht, htake, hh⟩ := hrep'
  have hmod : xs.flatten.length % 64 = t.length := by rw [hm]; exact rep_incomplete 64 f t hf ht
  have hdiv : xs.flatten.length / 64 * 64 = f.length := by
    have := Nat.div_add_mod xs.flatten.length 64
    rw [hmod] at this
    have h2 : xs.flatten.length = f.length + t.length := by rw [hm, List.length_append]
    omega
  have hres : ∀ (n : Nat), n = f.length → ∀ ys : List Bytes, (xs ++ ys).flatten.length < 2 ^ 61 →
      finish256 (ys.foldl input256 (Midstate.toEngine ⟨e.h.bytes 4, n⟩)) = Fips.sha256 (f ++ ys.flatten) := by
    intro n hnf ys hl
    have hr : Rep 64 comp256 iv256 (Midstate.toEngine ⟨e.h.bytes 4, n⟩) f :=
      ⟨by simp [Midstate.toEngine], hnf, f, [], by simp, hf, by simp, by simp, by
        unfold Midstate.toEngine; simp only; rw [stateOfBytes_bytes, hh]⟩
    have hfl : (f ++ ys.flatten).length < 2 ^ 61 := by
      rw [List.flatten_append, hm] at hl
      simp only [List.length_append] at hl ⊢
      omega
    have h2 := rep_inputs 64 (by omega) comp256 iv256 ys _ f hr (by omega)
    unfold finish256
    rw [show (ys.foldl input256 (Midstate.toEngine ⟨e.h.bytes 4, n⟩)) =
      ys.foldl (fun e x => e.input 64 comp256 x) (Midstate.toEngine ⟨e.h.bytes 4, n⟩) from rfl]
    rw [rep_finish 64 8 (by omega) (by omega) (beBytes 8) (by simp) comp256 iv256 _ _ h2 (by omega)]
    rw [← sha256_eq _ hfl, sha256_blocks _ hfl]
    rfl
  constructor
  · intro h0
    have ht0 : t = [] := List.eq_nil_of_length_eq_zero (by omega)
    have hmf : xs.flatten = f := by rw [hm, ht0, List.append_nil]
    refine ⟨_, by unfold midstate; rw [if_pos (by rw [hn]; exact h0)], hn, fun ys hl => ?_⟩
    rw [hmf]
    exact hres _ (by rw [hn, hmf]) ys hl
  · intro h0
    refine ⟨_, by unfold midstate; rw [if_neg (by rw [hn]; exact h0)], hn, ?_, ?_, ?_, fun ys hl => ?_⟩
    · show e.bytesHashed % 64 = _; rw [hn]
    · show e.buffer.take (e.bytesHashed % 64) = _
      rw [hn, hmod, htake, hdiv, hm, List.drop_left' rfl]
    · show e.bytesHashed - e.bytesHashed % 64 = _
      rw [hn]; omega
    · rw [hdiv]
      have : xs.flatten.take f.length = f := by rw [hm, List.take_left' rfl]
      rw [this]
      exact hres _ (by rw [hn]; omega) ys hl

/-! ## Examples (FIPS test vectors, evaluated by the kernel) -/

example : finish256 ([[0x61], [0x62, 0x63]].foldl input256 new256) =
    [0xba, 0x78, 0x16, 0xbf, 0x8f, 0x01, 0xcf, 0xea, 0x41, 0x41, 0x40, 0xde, 0x5d, 0xae, 0x22, 0x23, 0xb0, 0x03, 0x61, 0xa3, 0x96,
      0x17, 0x7a, 0x9c, 0xb4, 0x10, 0xff, 0x61, 0xf2, 0x00, 0x15, 0xad] := by decide +kernel
example : hashUnoptimized [0x61, 0x62, 0x63] = sha256 [0x61, 0x62, 0x63] := by decide +kernel
example : (sha512 [0x61, 0x62, 0x63]).take 8 = [0xdd, 0xaf, 0x35, 0xa1, 0x93, 0x61, 0x7a, 0xba] := by decide +kernel
example : (sha384 [0x61, 0x62, 0x63]).take 8 = [0xcb, 0x00, 0x75, 0x3f, 0x45, 0xa3, 0x5e, 0x8b] := by decide +kernel
example : (sha512_256 [0x61, 0x62, 0x63]).take 8 = [0x53, 0x04, 0x8e, 0x26, 0x81, 0x94, 0x1e, 0xf9] := by decide +kernel
example : sha256d64 (List.replicate 64 0) = sha256 (sha256 (List.replicate 64 0)) := by decide +kernel
example : Fips.K256 0 = 0x428a2f98#32 ∧ Fips.iv256.h = 0x5be0cd19#32 := by decide +kernel
example : Fips.root 3 (2 * 2 ^ 96) = 0x1428a2f98 := by decide +kernel

end Sha2
end Btc
