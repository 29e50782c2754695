import Verif.Hashes.Sha2Spec
import Verif.Hashes.EngineLaws
/-! # The unrolled rounds against the standard -/
namespace Btc
namespace Sha2
open Fips (W round rounds compress)

theorem or_swap_rot {w : Nat} (x : BitVec w) (n m : Nat) (h : n + m = w) (hn : 0 < n) (hm : 0 < m) : x.rotateLeft n = x.rotateRight m := by
  unfold BitVec.rotateLeft BitVec.rotateRight BitVec.rotateLeftAux BitVec.rotateRightAux
  rw [Nat.mod_eq_of_lt (by omega), Nat.mod_eq_of_lt (by omega), show w - n = m by omega, show w - m = n by omega, BitVec.or_comm]

theorem ch_eq {w : Nat} (x y z : BitVec w) : ch x y z = Fips.Ch x y z := by
  unfold ch Fips.Ch
  ext i hi
  simp only [BitVec.getElem_xor, BitVec.getElem_and, BitVec.getElem_not]
  cases x[i] <;> cases y[i] <;> cases z[i] <;> rfl
theorem maj_eq {w : Nat} (x y z : BitVec w) : maj x y z = Fips.Maj x y z := by
  unfold maj Fips.Maj
  ext i hi
  simp only [BitVec.getElem_xor, BitVec.getElem_and, BitVec.getElem_or]
  cases x[i] <;> cases y[i] <;> cases z[i] <;> rfl

theorem Fns.eq_of {w : Nat} (F G : Fns w) (h0 : ∀ x, F.Sigma0 x = G.Sigma0 x) (h1 : ∀ x, F.Sigma1 x = G.Sigma1 x)
    (h2 : ∀ x, F.sigma0 x = G.sigma0 x) (h3 : ∀ x, F.sigma1 x = G.sigma1 x) : F = G := by
  cases F; cases G
  simp only [Fns.mk.injEq]
  exact ⟨funext h0, funext h1, funext h2, funext h3⟩

theorem fns256_eq : fns256 = Fips.fns256 := by
  apply Fns.eq_of <;> intro x <;> simp only [fns256, Fips.fns256]
  · rw [or_swap_rot x 30 2, or_swap_rot x 19 13, or_swap_rot x 10 22] <;> omega
  · rw [or_swap_rot x 26 6, or_swap_rot x 21 11, or_swap_rot x 7 25] <;> omega
  · rw [or_swap_rot x 25 7, or_swap_rot x 14 18] <;> omega
  · rw [or_swap_rot x 15 17, or_swap_rot x 13 19] <;> omega
theorem fns512_eq : fns512 = Fips.fns512 := by
  apply Fns.eq_of <;> intro x <;> simp only [fns512, Fips.fns512]
  · rw [or_swap_rot x 36 28, or_swap_rot x 30 34, or_swap_rot x 25 39] <;> omega
  · rw [or_swap_rot x 50 14, or_swap_rot x 46 18, or_swap_rot x 23 41] <;> omega
  · rw [or_swap_rot x 63 1, or_swap_rot x 56 8] <;> omega
  · rw [or_swap_rot x 45 19, or_swap_rot x 3 61] <;> omega

/-- The working variables are renamed from round to round instead of being moved. -/
def place {w : Nat} (r : Nat) (s : St w) : St w :=
  ⟨s.get (r % 8), s.get ((r + 1) % 8), s.get ((r + 2) % 8), s.get ((r + 3) % 8), s.get ((r + 4) % 8), s.get ((r + 5) % 8),
    s.get ((r + 6) % 8), s.get ((r + 7) % 8)⟩

/-- A call whose variables are those of round `t`. -/
def callAt {w : Nat} (t : Nat) (k : BitVec w) (src : Src w) : Call w :=
  ⟨(7 * t) % 8, (7 * t + 1) % 8, (7 * t + 2) % 8, (7 * t + 3) % 8, (7 * t + 4) % 8, (7 * t + 5) % 8, (7 * t + 6) % 8,
    (7 * t + 7) % 8, k, src⟩

theorem place_mod {w : Nat} (t : Nat) (s : St w) : place t s = place (t % 8) s := by
  unfold place
  simp only [Nat.mod_mod, Nat.mod_add_mod]
theorem callAt_mod {w : Nat} (t : Nat) (k : BitVec w) (src : Src w) : callAt t k src = callAt (t % 8) k src := by
  unfold callAt
  have h : ∀ j, (7 * t + j) % 8 = (7 * (t % 8) + j) % 8 := by intro j; omega
  simp only [h, show (7 * t) % 8 = (7 * (t % 8)) % 8 by omega]

theorem run_callAt {w : Nat} (F : Fns w) (t : Nat) (S : St w) (m m' : List (BitVec w)) (k k' y y' : BitVec w) (src : Src w)
    (hs : src.eval F m = (m', y)) (hk : k + y = k' + y') :
    Call.run F (place t S, m) (callAt t k src) = (place (t + 1) (round F k' y' S), m') := by
  rw [callAt_mod, place_mod, place_mod (t + 1), show (t + 1) % 8 = (t % 8 + 1) % 8 by omega]
  have hlt : t % 8 < 8 := Nat.mod_lt _ (by omega)
  generalize t % 8 = r at hlt
  have hk' : ∀ z : BitVec w, z + k + y = z + k' + y' := by
    intro z; rw [BitVec.add_assoc, hk, ← BitVec.add_assoc]
  have hr : r = 0 ∨ r = 1 ∨ r = 2 ∨ r = 3 ∨ r = 4 ∨ r = 5 ∨ r = 6 ∨ r = 7 := by omega
  rcases hr with h | h | h | h | h | h | h | h <;> subst h <;>
    simp only [Call.run, callAt, hs, place, round, ch_eq, maj_eq, hk'] <;> rfl

/-- If every line is that of its round and puts in the right sum of constant and message word, the rounds are those of the
standard. -/
theorem run_inv {w : Nat} (F : Fns w) (K M : Nat → BitVec w) (cs : List (Call w)) (v : St w) (m : List (BitVec w))
    (k : Nat → BitVec w) (src : Nat → Src w) (hcs : ∀ t, t < cs.length → cs[t]? = some (callAt t (k t) (src t)))
    (Inv : Nat → List (BitVec w) → Prop) (h0 : Inv 0 m)
    (hstep : ∀ t m, t < cs.length → Inv t m →
      Inv (t + 1) ((src t).eval F m).1 ∧ k t + ((src t).eval F m).2 = K t + W F M t) :
    (runCalls F cs v m).1 = place cs.length (rounds F K M v cs.length) ∧ Inv cs.length (runCalls F cs v m).2 := by
  have key : ∀ t, t ≤ cs.length → (runCalls F (cs.take t) v m).1 = place t (rounds F K M v t) ∧
      Inv t (runCalls F (cs.take t) v m).2 := by
    intro t ht
    induction t with
    | zero => exact ⟨rfl, h0⟩
    | succ t ih =>
      obtain ⟨h1, h2⟩ := ih (by omega)
      have ht' : t < cs.length := by omega
      have hget := hcs t ht'
      have htake : cs.take (t + 1) = cs.take t ++ [callAt t (k t) (src t)] := by
        rw [List.take_add_one, hget]; rfl
      obtain ⟨hi, hw⟩ := hstep t _ ht' h2
      have hrun : runCalls F (cs.take (t + 1)) v m = Call.run F (runCalls F (cs.take t) v m) (callAt t (k t) (src t)) := by
        rw [htake]; unfold runCalls; rw [List.foldl_append]; rfl
      have := run_callAt F t (rounds F K M v t) _ _ (k t) (K t) _ (W F M t) (src t) rfl hw
      rw [hrun, show runCalls F (cs.take t) v m = ((runCalls F (cs.take t) v m).1, (runCalls F (cs.take t) v m).2) from rfl, h1, this]
      exact ⟨rfl, hi⟩
  have := key cs.length (Nat.le_refl _)
  rwa [List.take_length] at this

/-- The message source of round `t` in the plain transforms. -/
def stdSrc {w : Nat} (t : Nat) : Src w :=
  if t < 16 then .word t else .later (t % 16) ((t + 14) % 16) ((t + 9) % 16) ((t + 1) % 16)

theorem W_lt {w : Nat} (F : Fns w) (M : Nat → BitVec w) (t : Nat) (h : t < 16) : W F M t = M t := by
  rw [W, if_pos h]
theorem W_ge {w : Nat} (F : Fns w) (M : Nat → BitVec w) (t : Nat) (h : 16 ≤ t) :
    W F M t = F.sigma1 (W F M (t - 2)) + W F M (t - 7) + F.sigma0 (W F M (t - 15)) + W F M (t - 16) := by
  rw [W, if_neg (by omega)]

/-- The sixteen-word window before round `t`; `live` says which words have to be there. -/
def Window {w : Nat} (F : Fns w) (M : Nat → BitVec w) (live : Nat → Prop) (t : Nat) (m : List (BitVec w)) : Prop :=
  m.length = 16 ∧ ∀ j, t ≤ j + 16 → j < max t 16 → live j → m.getD (j % 16) 0 = W F M j

theorem window_keep {w : Nat} (F : Fns w) (M : Nat → BitVec w) (live : Nat → Prop) (t : Nat) (m : List (BitVec w)) (ht : t < 16)
    (h : Window F M live t m) : Window F M live (t + 1) m :=
  ⟨h.1, fun j h1 h2 h3 => h.2 j (by omega) (by omega) h3⟩

theorem window_set {w : Nat} (F : Fns w) (M : Nat → BitVec w) (live : Nat → Prop) (t : Nat) (m : List (BitVec w)) (ht : 16 ≤ t)
    (h : Window F M live t m) : Window F M live (t + 1) (m.set (t % 16) (W F M t)) := by
  refine ⟨by rw [List.length_set]; exact h.1, fun j h1 h2 h3 => ?_⟩
  by_cases hj : j = t
  · subst hj
    rw [List.getD_eq_getElem?_getD, List.getElem?_set_self (by rw [h.1]; omega)]; rfl
  · rw [List.getD_eq_getElem?_getD, List.getElem?_set_ne (by omega), ← List.getD_eq_getElem?_getD]
    exact h.2 j (by omega) (by omega) h3

theorem later_eval {w : Nat} (F : Fns w) (M : Nat → BitVec w) (live : Nat → Prop) (t : Nat) (m : List (BitVec w)) (ht : 16 ≤ t)
    (h : Window F M live t m) (hl : live (t - 2) ∧ live (t - 7) ∧ live (t - 15) ∧ live (t - 16)) :
    (Src.later (t % 16) ((t + 14) % 16) ((t + 9) % 16) ((t + 1) % 16)).eval F m = (m.set (t % 16) (W F M t), W F M t) := by
  have e1 := h.2 (t - 16) (by omega) (by omega) hl.2.2.2
  have e2 := h.2 (t - 2) (by omega) (by omega) hl.1
  have e3 := h.2 (t - 7) (by omega) (by omega) hl.2.1
  have e4 := h.2 (t - 15) (by omega) (by omega) hl.2.2.1
  rw [show (t - 16) % 16 = t % 16 by omega] at e1
  rw [show (t - 2) % 16 = (t + 14) % 16 by omega] at e2
  rw [show (t - 7) % 16 = (t + 9) % 16 by omega] at e3
  rw [show (t - 15) % 16 = (t + 1) % 16 by omega] at e4
  have hs : sumTerms F m [.w (t % 16), .s1 ((t + 14) % 16), .w ((t + 9) % 16), .s0 ((t + 1) % 16)] = W F M t := by
    simp only [sumTerms, List.foldl_cons, List.foldl_nil, Term.eval, e1, e2, e3, e4]
    rw [W_ge F M t ht]
    ac_rfl
  unfold Src.later
  simp only [Src.eval, hs]

theorem std_step {w : Nat} (F : Fns w) (M : Nat → BitVec w) (t : Nat) (m : List (BitVec w)) (h : Window F M (fun _ => True) t m) :
    Window F M (fun _ => True) (t + 1) ((stdSrc t).eval F m).1 ∧ ((stdSrc t).eval F m).2 = W F M t := by
  unfold stdSrc
  by_cases ht : t < 16
  · rw [if_pos ht]
    refine ⟨window_keep F M _ t m ht h, ?_⟩
    have := h.2 t (by omega) (by omega) trivial
    rwa [Nat.mod_eq_of_lt ht] at this
  · rw [if_neg ht, later_eval F M _ t m (by omega) h ⟨trivial, trivial, trivial, trivial⟩]
    exact ⟨window_set F M _ t m (by omega) h, rfl⟩

theorem words_getD (w k n : Nat) (block : Bytes) (i : Nat) (hi : i < n) : (words w k block n).getD i 0 = Fips.word w k block i := by
  unfold words Fips.word
  rw [List.getD_eq_getElem?_getD, List.getElem?_map, List.getElem?_range hi]
  rfl

theorem words_window {w : Nat} (F : Fns w) (M : Nat → BitVec w) (m : List (BitVec w)) (hl : m.length = 16)
    (hm : ∀ i, i < 16 → m.getD i 0 = M i) : Window F M (fun _ => True) 0 m := by
  refine ⟨hl, fun j _ h2 _ => ?_⟩
  have hj : j < 16 := by omega
  rw [Nat.mod_eq_of_lt hj, W_lt F M j hj, hm j hj]

/-- Regular tables compute the standard's rounds. -/
theorem runCalls_std {w : Nat} (F : Fns w) (K M : Nat → BitVec w) (N : Nat) (hN : N % 8 = 0) (cs : List (Call w))
    (hcs : cs = (List.range N).map fun t => callAt t (K t) (stdSrc t)) (v : St w) (m : List (BitVec w)) (hl : m.length = 16)
    (hm : ∀ i, i < 16 → m.getD i 0 = M i) : (runCalls F cs v m).1 = rounds F K M v N := by
  have hlen : cs.length = N := by rw [hcs]; simp
  have := (run_inv F K M cs v m K stdSrc (by
      intro t ht; rw [hcs, List.getElem?_map, List.getElem?_range (by omega)]; rfl)
    (Window F M fun _ => True) (words_window F M m hl hm) (by
      intro t m _ h
      have := std_step F M t m h
      exact ⟨this.1, by rw [this.2]⟩)).1
  rw [this, hlen, place_mod, hN]
  rfl

theorem compCalls_std {w : Nat} (F : Fns w) (K : Nat → BitVec w) (k N : Nat) (hN : N % 8 = 0) (cs : List (Call w))
    (hcs : cs = (List.range N).map fun t => callAt t (K t) (stdSrc t)) (h : St w) (block : Bytes) :
    compCalls F k cs h block = compress F K N h (Fips.word w k block) := by
  unfold compCalls compress
  rw [runCalls_std F K (Fips.word w k block) N hN cs hcs h _ (by simp [words]) (fun i hi => words_getD w k 16 block i hi)]

end Sha2
end Btc
