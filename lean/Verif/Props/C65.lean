import Verif.Hashes.Ripemd
import Verif.Hashes.Keccak
import Verif.Props.C48
/-!
# C65: the SHA-1, RIPEMD-160 and SHA3-256 engines compute the functions of their standards
-/
namespace Btc
namespace Hashes

/-! ## SHA-1 (FIPS 180-4) -/
namespace Sha1Spec
open Sha1 (S5)
abbrev W := BitVec 32
/-- §4.1.1. -/
def Ch (x y z : W) : W := (x &&& y) ^^^ (~~~x &&& z)
def Parity (x y z : W) : W := x ^^^ y ^^^ z
def Maj (x y z : W) : W := (x &&& y) ^^^ (x &&& z) ^^^ (y &&& z)
def f (t : Nat) : W → W → W → W := if t < 20 then Ch else if t < 40 then Parity else if t < 60 then Maj else Parity
/-- §4.2.1: the constants are the square roots of 2, 3, 5 and 10, scaled by 2^30. -/
def K (t : Nat) : W := BitVec.ofNat 32 (Fips.root 2 ((if t < 20 then 2 else if t < 40 then 3 else if t < 60 then 5 else 10) * 2 ^ 60))
/-- §6.1.2 step 1. -/
def Wt (M : Nat → W) (t : Nat) : W :=
  if h : t < 16 then M t else (Wt M (t - 3) ^^^ Wt M (t - 8) ^^^ Wt M (t - 14) ^^^ Wt M (t - 16)).rotateLeft 1
/-- Step 3. -/
def round (M : Nat → W) (s : S5) (t : Nat) : S5 :=
  ⟨s.s0.rotateLeft 5 + f t s.s1 s.s2 s.s3 + s.s4 + K t + Wt M t, s.s0, s.s1.rotateLeft 30, s.s2, s.s3⟩
/-- Steps 2 and 4. -/
def compress (H : S5) (M : Nat → W) : S5 :=
  let s := (List.range 80).foldl (round M) H
  ⟨s.s0 + H.s0, s.s1 + H.s1, s.s2 + H.s2, s.s3 + H.s3, s.s4 + H.s4⟩
def iv : S5 := ⟨0x67452301, 0xefcdab89, 0x98badcfe, 0x10325476, 0xc3d2e1f0⟩
def sha1 (msg : Bytes) : Bytes :=
  (((Fips.blocks 64 (Fips.pad 64 8 (beBytes 8) msg)).foldl (fun H b => compress H (Fips.word 32 4 b)) iv).toList.map
    fun x => beBytes 4 x.toNat).flatten
end Sha1Spec

open Sha1 Sha1Spec in
theorem extend_eq (M : Nat → W) (n k : Nat) (hk : 16 ≤ k) : extend n ((List.range k).map (Wt M)) = (List.range (k + n)).map (Wt M) := by
  induction n generalizing k with
  | zero => rfl
  | succ n ih =>
    have hg : ∀ j, j < k → ((List.range k).map (Wt M)).getD j 0 = Wt M j := by
      intro j hj
      rw [List.getD_eq_getElem?_getD, List.getElem?_map, List.getElem?_range hj]; rfl
    rw [extend]
    simp only [List.length_map, List.length_range]
    rw [hg _ (by omega), hg _ (by omega), hg _ (by omega), hg _ (by omega)]
    have : (List.range k).map (Wt M) ++ [(Wt M (k - 3) ^^^ Wt M (k - 8) ^^^ Wt M (k - 14) ^^^ Wt M (k - 16)).rotateLeft 1] =
        (List.range (k + 1)).map (Wt M) := by
      rw [List.range_succ, List.map_append]
      congr 1
      rw [List.map_singleton, Wt.eq_def M k, dif_neg (by omega)]
    rw [this, ih (k + 1) (by omega), show k + 1 + n = k + (n + 1) by omega]

open Sha1 Sha1Spec in
theorem sha1_K : K 0 = 0x5a827999 ∧ K 20 = 0x6ed9eba1 ∧ K 40 = 0x8f1bbcdc ∧ K 60 = 0xca62c1d6 := by decide +kernel

open Sha1 Sha1Spec in
theorem sha1_step (M : Nat → W) (s : S5) (t : Nat) : step s (Wt M t, t) = round M s t := by
  have hch : ∀ b c d : W, (b &&& c) ||| (~~~b &&& d) = Ch b c d := by
    intro b c d; unfold Ch; ext i hi; simp only [BitVec.getElem_or, BitVec.getElem_and, BitVec.getElem_not, BitVec.getElem_xor]
    cases b[i] <;> cases c[i] <;> cases d[i] <;> rfl
  have hmaj : ∀ b c d : W, (b &&& c) ||| (b &&& d) ||| (c &&& d) = Maj b c d := by
    intro b c d; unfold Maj; ext i hi; simp only [BitVec.getElem_or, BitVec.getElem_and, BitVec.getElem_not, BitVec.getElem_xor]
    cases b[i] <;> cases c[i] <;> cases d[i] <;> rfl
  have hK : K t = if t ≤ 19 then 0x5a827999 else if t ≤ 39 then 0x6ed9eba1 else if t ≤ 59 then 0x8f1bbcdc else 0xca62c1d6 := by
    obtain ⟨h1, h2, h3, h4⟩ := sha1_K
    unfold K at h1 h2 h3 h4 ⊢
    simp only [show (0 < 20) by omega, show ¬ (20 < 20) by omega, show (20 < 40) by omega, show ¬ (40 < 20) by omega,
      show ¬ (40 < 40) by omega, show (40 < 60) by omega, show ¬ (60 < 20) by omega, show ¬ (60 < 40) by omega, show ¬ (60 < 60) by omega,
      if_true, if_false] at h1 h2 h3 h4
    by_cases a : t ≤ 19
    · rw [if_pos a, if_pos (show t < 20 by omega), h1]
    · rw [if_neg a, if_neg (show ¬ t < 20 by omega)]
      by_cases b : t ≤ 39
      · rw [if_pos b, if_pos (show t < 40 by omega), h2]
      · rw [if_neg b, if_neg (show ¬ t < 40 by omega)]
        by_cases c : t ≤ 59
        · rw [if_pos c, if_pos (show t < 60 by omega), h3]
        · rw [if_neg c, if_neg (show ¬ t < 60 by omega), h4]
  unfold step round f
  rw [hK]
  simp only [hch, hmaj]
  by_cases a : t ≤ 19
  · simp only [if_pos a, if_pos (show t < 20 by omega)]
  · simp only [if_neg a, if_neg (show ¬ t < 20 by omega)]
    by_cases b : t ≤ 39
    · simp only [if_pos b, if_pos (show t < 40 by omega)]; rfl
    · simp only [if_neg b, if_neg (show ¬ t < 40 by omega)]
      by_cases c : t ≤ 59
      · simp only [if_pos c, if_pos (show t < 60 by omega)]
      · simp only [if_neg c, if_neg (show ¬ t < 60 by omega)]; rfl

theorem zipIdx_map_range {α : Type} (g : Nat → α) (n k : Nat) :
    ((List.range' k n).map g).zipIdx k = (List.range' k n).map fun i => (g i, i) := by
  induction n generalizing k with
  | zero => rfl
  | succ n ih => rw [List.range'_succ, List.map_cons, List.zipIdx_cons, ih, List.map_cons]

open Sha1 Sha1Spec in
theorem sha1_comp (h : S5) (b : Bytes) : comp h b = compress h (Fips.word 32 4 b) := by
  have hw : ((List.range 16).map fun i => BitVec.ofNat 32 (beNat ((b.drop (4 * i)).take 4))) = (List.range 16).map (Wt (Fips.word 32 4 b)) := by
    apply List.map_congr_left
    intro i hi
    rw [Wt, dif_pos (by simpa using hi)]; rfl
  unfold comp compress
  simp only
  rw [hw, extend_eq _ 64 16 (by omega), List.range_eq_range', zipIdx_map_range, List.foldl_map]
  have : (fun x y => step x (Wt (Fips.word 32 4 b) y, y)) = round (Fips.word 32 4 b) := by
    funext s t; exact sha1_step _ s t
  rw [this, ← List.range_eq_range']
  simp only [BitVec.add_comm]

open Sha1 Sha1Spec in
/-- The SHA-1 engine computes SHA-1, however it is fed. -/
theorem C65_sha1 (xs : List Bytes) (hlen : xs.flatten.length < 2 ^ 61) : finish (xs.foldl input new) = sha1 xs.flatten := by
  unfold finish sha1
  have h := C48_engine 64 8 (by omega) (by omega) (beBytes 8) (by simp) comp iv xs hlen
  have hc : comp = fun H b => compress H (Fips.word 32 4 b) := by funext H b; exact sha1_comp H b
  rw [show xs.foldl input new = xs.foldl (fun e x => e.input 64 comp x) (Eng.new 64 iv) from rfl, h]
  rw [← hc]
  rfl

/-! ## RIPEMD-160 (Dobbertin, Bosselaers, Preneel: RIPEMD-160, appendix A) -/
namespace RipemdSpec
open Sha1 (S5)
abbrev W := BitVec 32
/-- Nonlinear functions at bit level. -/
def f (j : Nat) (x y z : W) : W :=
  if j < 16 then x ^^^ y ^^^ z
  else if j < 32 then (x &&& y) ||| (~~~x &&& z)
  else if j < 48 then (x ||| ~~~y) ^^^ z
  else if j < 64 then (x &&& z) ||| (y &&& ~~~z)
  else x ^^^ (y ||| ~~~z)
/-- Added constants: integer parts of 2^30 times square roots (left) and cube roots (right) of 2, 3, 5, 7. -/
def K (j : Nat) : W := if j < 16 then 0 else BitVec.ofNat 32 (Fips.root 2 (([2, 3, 5, 7].getD (j / 16 - 1) 0) * 2 ^ 60))
def K' (j : Nat) : W := if j < 64 then BitVec.ofNat 32 (Fips.root 3 (([2, 3, 5, 7].getD (j / 16) 0) * 2 ^ 90)) else 0
/-- The permutations ρ and π of the message words. -/
def rho (i : Nat) : Nat := [7, 4, 13, 1, 10, 6, 15, 3, 12, 0, 9, 5, 2, 14, 11, 8].getD i 0
def pi (i : Nat) : Nat := (9 * i + 5) % 16
def rhoN : Nat → Nat → Nat
  | 0, i => i
  | k + 1, i => rho (rhoN k i)
/-- Selection of message word: `ρ^k` on the left, `ρ^k π` on the right. -/
def r (j : Nat) : Nat := rhoN (j / 16) (j % 16)
def r' (j : Nat) : Nat := rhoN (j / 16) (pi (j % 16))
/-- Amount of rotate, by round and message word, the same for both lines. -/
def shifts : List (List Nat) := [
  [11, 14, 15, 12, 5, 8, 7, 9, 11, 13, 14, 15, 6, 7, 9, 8],
  [12, 13, 11, 15, 6, 9, 9, 7, 12, 15, 11, 13, 7, 8, 7, 7],
  [13, 15, 14, 11, 7, 7, 6, 8, 13, 14, 13, 12, 5, 5, 6, 9],
  [14, 11, 12, 14, 8, 6, 5, 5, 15, 12, 15, 14, 9, 9, 8, 6],
  [15, 12, 13, 13, 9, 5, 8, 6, 14, 11, 12, 11, 8, 6, 5, 5]]
def s (j w : Nat) : Nat := (shifts.getD (j / 16) []).getD w 0
/-- One step of a line on `(A, B, C, D, E)`. -/
def line (fj : W → W → W → W) (k x : W) (sh : Nat) (v : S5) : S5 :=
  let T := (v.s0 + fj v.s1 v.s2 v.s3 + x + k).rotateLeft sh + v.s4
  ⟨v.s4, T, v.s1, v.s2.rotateLeft 10, v.s3⟩
def left (X : Nat → W) (v : S5) (j : Nat) : S5 := line (f j) (K j) (X (r j)) (s j (r j)) v
def right (X : Nat → W) (v : S5) (j : Nat) : S5 := line (f (79 - j)) (K' j) (X (r' j)) (s j (r' j)) v
def compress (h : S5) (X : Nat → W) : S5 :=
  let a := (List.range 80).foldl (left X) h
  let b := (List.range 80).foldl (right X) h
  ⟨h.s1 + a.s2 + b.s3, h.s2 + a.s3 + b.s4, h.s3 + a.s4 + b.s0, h.s4 + a.s0 + b.s1, h.s0 + a.s1 + b.s2⟩
def iv : S5 := ⟨0x67452301, 0xefcdab89, 0x98badcfe, 0x10325476, 0xc3d2e1f0⟩
def word (b : Bytes) (i : Nat) : W := BitVec.ofNat 32 (leNat ((b.drop (4 * i)).take 4))
def ripemd160 (msg : Bytes) : Bytes :=
  (((Fips.blocks 64 (Fips.pad 64 8 (leBytes 8) msg)).foldl (fun H b => compress H (word b)) iv).toList.map
    fun x => leBytes 4 x.toNat).flatten
end RipemdSpec

namespace Ripemd
open Sha1 (S5)
open RipemdSpec

/-- The textbook variables after `j` steps, from the array. -/
def view (j : Nat) (b : S5) : S5 :=
  ⟨b.get ((5 - j % 5) % 5), b.get ((6 - j % 5) % 5), b.get ((7 - j % 5) % 5), b.get ((8 - j % 5) % 5), b.get ((9 - j % 5) % 5)⟩
/-- The call for step `j`. -/
def stdCall (r sh : Nat → Nat) (j : Nat) : Call :=
  ⟨(5 - j % 5) % 5, (6 - j % 5) % 5, (7 - j % 5) % 5, (8 - j % 5) % 5, (9 - j % 5) % 5, r j, sh j⟩

theorem step_view (x : Nat → W) (add : W) (fn : W → W → W → W) (bb : S5) (r sh : Nat → Nat) (j : Nat) :
    view (j + 1) (roundCall x add fn bb (stdCall r sh j)) = line fn add (x (r j)) (sh j) (view j bb) := by
  have hj : j % 5 = 0 ∨ j % 5 = 1 ∨ j % 5 = 2 ∨ j % 5 = 3 ∨ j % 5 = 4 := by omega
  unfold view roundCall stdCall line
  rcases hj with h | h | h | h | h
  · rw [h, show (j + 1) % 5 = 1 by omega]; rfl
  · rw [h, show (j + 1) % 5 = 2 by omega]; rfl
  · rw [h, show (j + 1) % 5 = 3 by omega]; rfl
  · rw [h, show (j + 1) % 5 = 4 by omega]; rfl
  · rw [h, show (j + 1) % 5 = 0 by omega]; rfl

/-- Sixteen steps. -/
theorem block_view (x : Nat → W) (add : W) (fn : W → W → W → W) (r sh : Nat → Nat) (g : S5 → Nat → S5) (n k : Nat)
    (hg : ∀ v j, k ≤ j → j < k + n → g v j = line fn add (x (r j)) (sh j) v) (bb : S5) :
    view (k + n) (((List.range' k n).map (stdCall r sh)).foldl (roundCall x add fn) bb) = (List.range' k n).foldl g (view k bb) := by
  induction n generalizing k bb with
  | zero => rfl
  | succ n ih =>
    rw [List.range'_succ, List.map_cons, List.foldl_cons, List.foldl_cons, show k + (n + 1) = k + 1 + n by omega,
      ih (k + 1) (fun v j h1 h2 => hg v j (by omega) (by omega)), step_view, hg _ k (by omega) (by omega)]

theorem tables :
    left1 = (List.range' 0 16).map (stdCall r fun j => s j (r j)) ∧ left2 = (List.range' 16 16).map (stdCall r fun j => s j (r j)) ∧
    left3 = (List.range' 32 16).map (stdCall r fun j => s j (r j)) ∧ left4 = (List.range' 48 16).map (stdCall r fun j => s j (r j)) ∧
    left5 = (List.range' 64 16).map (stdCall r fun j => s j (r j)) ∧
    par1 = (List.range' 0 16).map (stdCall r' fun j => s j (r' j)) ∧ par2 = (List.range' 16 16).map (stdCall r' fun j => s j (r' j)) ∧
    par3 = (List.range' 32 16).map (stdCall r' fun j => s j (r' j)) ∧ par4 = (List.range' 48 16).map (stdCall r' fun j => s j (r' j)) ∧
    par5 = (List.range' 64 16).map (stdCall r' fun j => s j (r' j)) := by
  refine ⟨?_, ?_, ?_, ?_, ?_, ?_, ?_, ?_, ?_, ?_⟩ <;> decide +kernel

theorem consts :
    (∀ j ∈ List.range' 0 16, K j = 0x00000000) ∧ (∀ j ∈ List.range' 16 16, K j = 0x5a827999) ∧ (∀ j ∈ List.range' 32 16, K j = 0x6ed9eba1) ∧
    (∀ j ∈ List.range' 48 16, K j = 0x8f1bbcdc) ∧ (∀ j ∈ List.range' 64 16, K j = 0xa953fd4e) ∧
    (∀ j ∈ List.range' 0 16, K' j = 0x50a28be6) ∧ (∀ j ∈ List.range' 16 16, K' j = 0x5c4dd124) ∧ (∀ j ∈ List.range' 32 16, K' j = 0x6d703ef3) ∧
    (∀ j ∈ List.range' 48 16, K' j = 0x7a6d76e9) ∧ (∀ j ∈ List.range' 64 16, K' j = 0x00000000) := by
  refine ⟨?_, ?_, ?_, ?_, ?_, ?_, ?_, ?_, ?_, ?_⟩ <;> decide +kernel

theorem f_cases (j : Nat) : (j < 16 → f j = fn1) ∧ (16 ≤ j → j < 32 → f j = fn2) ∧ (32 ≤ j → j < 48 → f j = fn3) ∧
    (48 ≤ j → j < 64 → f j = fn4) ∧ (64 ≤ j → f j = fn5) := by
  refine ⟨fun h => ?_, fun h1 h2 => ?_, fun h1 h2 => ?_, fun h1 h2 => ?_, fun h => ?_⟩ <;> funext x y z <;> unfold f
  · rw [if_pos h]; rfl
  · rw [if_neg (by omega), if_pos h2]; rfl
  · rw [if_neg (by omega), if_neg (by omega), if_pos h2]; rfl
  · rw [if_neg (by omega), if_neg (by omega), if_neg (by omega), if_pos h2]; rfl
  · rw [if_neg (by omega), if_neg (by omega), if_neg (by omega), if_neg (by omega)]; rfl

theorem range80 : List.range 80 = List.range' 0 16 ++ List.range' 16 16 ++ List.range' 32 16 ++ List.range' 48 16 ++ List.range' 64 16 := by
  decide

theorem chain (X : Nat → W) (r sh : Nat → Nat) (g : S5 → Nat → S5) (a1 a2 a3 a4 a5 : W) (g1 g2 g3 g4 g5 : W → W → W → W)
    (e1 : ∀ v j, j < 16 → g v j = line g1 a1 (X (r j)) (sh j) v)
    (e2 : ∀ v j, 16 ≤ j → j < 32 → g v j = line g2 a2 (X (r j)) (sh j) v)
    (e3 : ∀ v j, 32 ≤ j → j < 48 → g v j = line g3 a3 (X (r j)) (sh j) v)
    (e4 : ∀ v j, 48 ≤ j → j < 64 → g v j = line g4 a4 (X (r j)) (sh j) v)
    (e5 : ∀ v j, 64 ≤ j → j < 80 → g v j = line g5 a5 (X (r j)) (sh j) v) (h : S5) :
    ((List.range' 64 16).map (stdCall r sh)).foldl (roundCall X a5 g5) (((List.range' 48 16).map (stdCall r sh)).foldl (roundCall X a4 g4)
      (((List.range' 32 16).map (stdCall r sh)).foldl (roundCall X a3 g3) (((List.range' 16 16).map (stdCall r sh)).foldl (roundCall X a2 g2)
        (((List.range' 0 16).map (stdCall r sh)).foldl (roundCall X a1 g1) h)))) = (List.range 80).foldl g h := by
  have v0 : view 0 h = h := rfl
  have v80 : ∀ b : S5, view 80 b = b := fun b => rfl
  have b1 : ∀ bb, view 16 (((List.range' 0 16).map (stdCall r sh)).foldl (roundCall X a1 g1) bb) = (List.range' 0 16).foldl g (view 0 bb) :=
    fun bb => block_view X a1 g1 r sh g 16 0 (fun v j _ h2 => e1 v j h2) bb
  have b2 : ∀ bb, view 32 (((List.range' 16 16).map (stdCall r sh)).foldl (roundCall X a2 g2) bb) = (List.range' 16 16).foldl g (view 16 bb) :=
    fun bb => block_view X a2 g2 r sh g 16 16 (fun v j h1 h2 => e2 v j h1 h2) bb
  have b3 : ∀ bb, view 48 (((List.range' 32 16).map (stdCall r sh)).foldl (roundCall X a3 g3) bb) = (List.range' 32 16).foldl g (view 32 bb) :=
    fun bb => block_view X a3 g3 r sh g 16 32 (fun v j h1 h2 => e3 v j h1 h2) bb
  have b4 : ∀ bb, view 64 (((List.range' 48 16).map (stdCall r sh)).foldl (roundCall X a4 g4) bb) = (List.range' 48 16).foldl g (view 48 bb) :=
    fun bb => block_view X a4 g4 r sh g 16 48 (fun v j h1 h2 => e4 v j h1 h2) bb
  have b5 : ∀ bb, view 80 (((List.range' 64 16).map (stdCall r sh)).foldl (roundCall X a5 g5) bb) = (List.range' 64 16).foldl g (view 64 bb) :=
    fun bb => block_view X a5 g5 r sh g 16 64 (fun v j h1 h2 => e5 v j h1 h2) bb
  rw [range80, List.foldl_append, List.foldl_append, List.foldl_append, List.foldl_append]
  conv => rhs; rw [← v0]
  rw [← b1, ← b2, ← b3, ← b4, ← b5, v80]

theorem comp_eq (h : S5) (X : Nat → W) : processBlock h X = compress h X := by
  obtain ⟨t1, t2, t3, t4, t5, p1, p2, p3, p4, p5⟩ := tables
  obtain ⟨k1, k2, k3, k4, k5, q1, q2, q3, q4, q5⟩ := consts
  have mem : ∀ (k j : Nat), k ≤ j → j < k + 16 → j ∈ List.range' k 16 := fun k j h1 h2 => by rw [List.mem_range'_1]; exact ⟨h1, h2⟩
  have hl := chain X r (fun j => s j (r j)) (left X) 0x00000000 0x5a827999 0x6ed9eba1 0x8f1bbcdc 0xa953fd4e fn1 fn2 fn3 fn4 fn5
    (fun v j h2 => by unfold left; rw [(f_cases j).1 h2, k1 j (mem _ j (by omega) (by omega))])
    (fun v j h1 h2 => by unfold left; rw [(f_cases j).2.1 h1 h2, k2 j (mem _ j h1 h2)])
    (fun v j h1 h2 => by unfold left; rw [(f_cases j).2.2.1 h1 h2, k3 j (mem _ j h1 h2)])
    (fun v j h1 h2 => by unfold left; rw [(f_cases j).2.2.2.1 h1 h2, k4 j (mem _ j h1 h2)])
    (fun v j h1 h2 => by unfold left; rw [(f_cases j).2.2.2.2 h1, k5 j (mem _ j h1 h2)]) h
  have hr := chain X r' (fun j => s j (r' j)) (right X) 0x50a28be6 0x5c4dd124 0x6d703ef3 0x7a6d76e9 0x00000000 fn5 fn4 fn3 fn2 fn1
    (fun v j h2 => by unfold right; rw [(f_cases (79 - j)).2.2.2.2 (by omega), q1 j (mem _ j (by omega) (by omega))])
    (fun v j h1 h2 => by unfold right; rw [(f_cases (79 - j)).2.2.2.1 (by omega) (by omega), q2 j (mem _ j h1 h2)])
    (fun v j h1 h2 => by unfold right; rw [(f_cases (79 - j)).2.2.1 (by omega) (by omega), q3 j (mem _ j h1 h2)])
    (fun v j h1 h2 => by unfold right; rw [(f_cases (79 - j)).2.1 (by omega) (by omega), q4 j (mem _ j h1 h2)])
    (fun v j h1 h2 => by unfold right; rw [(f_cases (79 - j)).1 (by omega), q5 j (mem _ j h1 h2)]) h
  rw [← t1, ← t2, ← t3, ← t4, ← t5] at hl
  rw [← p1, ← p2, ← p3, ← p4, ← p5] at hr
  unfold processBlock compress
  simp only [hl, hr]
  generalize (List.range 80).foldl (left X) h = a
  generalize (List.range 80).foldl (right X) h = b
  have hcomm : ∀ x y z : W, x + y + z = y + z + x := fun x y z => by rw [BitVec.add_assoc, BitVec.add_comm]
  rw [hcomm b.s3]

/-- The RIPEMD-160 engine computes RIPEMD-160, however it is fed. -/
theorem C65_ripemd160 (xs : List Bytes) (hlen : xs.flatten.length < 2 ^ 61) : finish (xs.foldl input new) = ripemd160 xs.flatten := by
  unfold finish ripemd160
  have h := C48_engine 64 8 (by omega) (by omega) (leBytes 8) (by simp) comp iv xs hlen
  have hc : comp = fun H b => compress H (RipemdSpec.word b) := by funext H b; exact comp_eq H _
  rw [show xs.foldl input new = xs.foldl (fun e x => e.input 64 comp x) (Eng.new 64 iv) from rfl, h]
  rw [← hc]
  rfl

end Ripemd

/-! ## SHA3-256 (FIPS 202) -/
namespace KeccakSpec
abbrev L := BitVec 64
/-- Lanes `A[x, y]` for `x`, `y` below 5. -/
abbrev State := Nat → Nat → L
/-- §3.2.1 θ. -/
def theta (A : State) : State :=
  let C := fun x => A x 0 ^^^ A x 1 ^^^ A x 2 ^^^ A x 3 ^^^ A x 4
  let D := fun x => C ((x + 4) % 5) ^^^ (C ((x + 1) % 5)).rotateLeft 1
  fun x y => A x y ^^^ D x
/-- §3.2.2 ρ: the walk from `(1, 0)` with `(x, y) := (y, 2x + 3y)`, offsets the triangular numbers. -/
def walk : Nat → Nat × Nat
  | 0 => (1, 0)
  | t + 1 => let p := walk t; (p.2, (2 * p.1 + 3 * p.2) % 5)
def offset (x y : Nat) : Nat :=
  match (List.range 24).find? fun t => walk t == (x, y) with
  | some t => ((t + 1) * (t + 2) / 2) % 64
  | none => 0
def rho (A : State) : State := fun x y => (A x y).rotateLeft (offset x y)
/-- §3.2.3 π. -/
def pi (A : State) : State := fun x y => A ((x + 3 * y) % 5) x
/-- §3.2.4 χ. -/
def chi (A : State) : State := fun x y => A x y ^^^ ((A ((x + 1) % 5) y ^^^ 0xffffffffffffffff) &&& A ((x + 2) % 5) y)
/-- §3.2.5 ι: `rc(t)`, the register `R` as a list of 8 bits, and the constant of round `ir`. -/
def lfsr : List Bool → List Bool
  | [r0, r1, r2, r3, r4, r5, r6, r7] => [r7, r0, r1, r2, r3 ^^ r7, r4 ^^ r7, r5 ^^ r7, r6]
  | r => r
def lfsrN : Nat → List Bool
  | 0 => [true, false, false, false, false, false, false, false]
  | t + 1 => lfsr (lfsrN t)
def rc (t : Nat) : Bool := (lfsrN (t % 255)).headD false
def RC (ir : Nat) : L := BitVec.ofNat 64 (((List.range 7).map fun j => if rc (j + 7 * ir) then 2 ^ (2 ^ j - 1) else 0).sum)
def iota (ir : Nat) (A : State) : State := fun x y => if x = 0 ∧ y = 0 then A x y ^^^ RC ir else A x y
/-- §3.3, §3.4: 24 rounds. -/
def Rnd (A : State) (ir : Nat) : State := iota ir (chi (pi (rho (theta A))))
def keccakF (A : State) : State := (List.range 24).foldl Rnd A
/-- §4: the sponge with rate 136 bytes: byte `8 (x + 5 y) + i` of a block goes to byte `i` of lane `(x, y)`. -/
def absorb (A : State) (b : Bytes) : State := keccakF fun x y =>
  if x + 5 * y < 17 then A x y ^^^ BitVec.ofNat 64 (leNat ((b.drop (8 * (x + 5 * y))).take 8)) else A x y
/-- §6.1, B.2: the suffix `01` and `pad10*1` in bytes. -/
def pad (m : Bytes) : Bytes :=
  let q := 136 - m.length % 136
  m ++ if q = 1 then [0x86] else 0x06 :: List.replicate (q - 2) 0 ++ [0x80]
def sha3_256 (m : Bytes) : Bytes :=
  let A := (Fips.blocks 136 (pad m)).foldl absorb fun _ _ => 0
  leBytes 8 (A 0 0).toNat ++ leBytes 8 (A 1 0).toNat ++ leBytes 8 (A 2 0).toNat ++ leBytes 8 (A 3 0).toNat
end KeccakSpec

namespace Keccak

/-- The array as a state of the standard. -/
def Agrees (s : State) (A : KeccakSpec.State) : Prop := s.length = 25 ∧ ∀ x y, x < 5 → y < 5 → lane s x y = A x y

theorem forall25 {P : Nat → Nat → Prop} (h : ∀ p ∈ pairs, P p.1 p.2) : ∀ x y, x < 5 → y < 5 → P x y := by
  intro x y hx hy
  exact h (x, y) (by unfold pairs; rw [List.mem_flatMap]; exact ⟨x, List.mem_range.2 hx, List.mem_map.2 ⟨y, List.mem_range.2 hy, rfl⟩⟩)

/-- A loop that updates the lanes `idx p` in place, each once. -/
theorem foldl_other {α : Type} (idx : α → Nat) (f : α → L → L) (ps : List α) (s : State) (i : Nat) (hi : i ∉ ps.map idx) :
    (ps.foldl (fun s p => s.set (idx p) (f p (s.getD (idx p) 0))) s).getD i 0 = s.getD i 0 := by
  induction ps generalizing s with
  | nil => rfl
  | cons q ps ih =>
    rw [List.map_cons, List.mem_cons] at hi
    rw [List.foldl_cons, ih _ (fun h => hi (Or.inr h)), List.getD_eq_getElem?_getD, List.getElem?_set_ne (fun h => hi (Or.inl h.symm)),
      List.getD_eq_getElem?_getD]
theorem foldl_length {α : Type} (idx : α → Nat) (f : α → L → L) (ps : List α) (s : State) :
    (ps.foldl (fun s p => s.set (idx p) (f p (s.getD (idx p) 0))) s).length = s.length := by
  induction ps generalizing s with
  | nil => rfl
  | cons q ps ih => rw [List.foldl_cons, ih, List.length_set]
theorem foldl_own {α : Type} (idx : α → Nat) (f : α → L → L) (ps : List α) (hnd : (ps.map idx).Nodup) (s : State)
    (hlt : ∀ p ∈ ps, idx p < s.length) (p : α) (hp : p ∈ ps) :
    (ps.foldl (fun s p => s.set (idx p) (f p (s.getD (idx p) 0))) s).getD (idx p) 0 = f p (s.getD (idx p) 0) := by
  induction ps generalizing s with
  | nil => cases hp
  | cons q ps ih =>
    rw [List.map_cons, List.nodup_cons] at hnd
    rw [List.foldl_cons]
    rcases List.mem_cons.1 hp with rfl | hp'
    · rw [foldl_other _ _ _ _ _ hnd.1, List.getD_eq_getElem?_getD, List.getElem?_set_self (hlt _ (by simp))]
      rfl
    · have hne : idx q ≠ idx p := fun h => hnd.1 (h ▸ List.mem_map_of_mem hp')
      rw [ih hnd.2 _ (fun r hr => by rw [List.length_set]; exact hlt r (List.mem_cons_of_mem _ hr)) hp',
        List.getD_eq_getElem?_getD, List.getElem?_set_ne hne, ← List.getD_eq_getElem?_getD]

theorem mem_pairs (x y : Nat) (hx : x < 5) (hy : y < 5) : (x, y) ∈ pairs := by
  unfold pairs; rw [List.mem_flatMap]; exact ⟨x, List.mem_range.2 hx, List.mem_map.2 ⟨y, List.mem_range.2 hy, rfl⟩⟩
theorem of_mem_pairs (p : Nat × Nat) (h : p ∈ pairs) : p.1 < 5 ∧ p.2 < 5 := by
  unfold pairs at h; rw [List.mem_flatMap] at h
  obtain ⟨x, hx, h⟩ := h
  obtain ⟨y, hy, rfl⟩ := List.mem_map.1 h
  exact ⟨List.mem_range.1 hx, List.mem_range.1 hy⟩

/-- The loop over all lanes with an update of each in place. -/
theorem update_all (f : Nat → Nat → L → L) (s : State) (h : s.length = 25) :
    (pairs.foldl (fun s p => s.set (ind p.1 p.2) (f p.1 p.2 (s.getD (ind p.1 p.2) 0))) s).length = 25 ∧
    ∀ x y, x < 5 → y < 5 →
      lane (pairs.foldl (fun s p => s.set (ind p.1 p.2) (f p.1 p.2 (s.getD (ind p.1 p.2) 0))) s) x y = f x y (lane s x y) := by
  refine ⟨(foldl_length (fun p : Nat × Nat => ind p.1 p.2) (fun p => f p.1 p.2) pairs s).trans h, fun x y hx hy => ?_⟩
  exact foldl_own (fun p : Nat × Nat => ind p.1 p.2) (fun p => f p.1 p.2) pairs (by decide) s
    (fun p hp => by have := of_mem_pairs p hp; unfold ind; omega) (x, y) (mem_pairs x y hx hy)

/-- The loop of ρ and π: lane `(x, y)` moves to `(y, 2x + 3y)`. -/
theorem move_all (g : Nat → Nat → L) :
    (pairs.foldl (fun b p => assign b p.2 ((2 * p.1 + 3 * p.2) % 5) (g p.1 p.2)) (List.replicate 25 (0 : L))).length = 25 ∧
    ∀ x y, x < 5 → y < 5 →
      lane (pairs.foldl (fun b p => assign b p.2 ((2 * p.1 + 3 * p.2) % 5) (g p.1 p.2)) (List.replicate 25 (0 : L))) x y =
        g ((x + 3 * y) % 5) x := by
  refine ⟨(foldl_length (fun p : Nat × Nat => ind p.2 ((2 * p.1 + 3 * p.2) % 5)) (fun p _ => g p.1 p.2) pairs _).trans
    (List.length_replicate ..), fun x y hx hy => ?_⟩
  have h := foldl_own (fun p : Nat × Nat => ind p.2 ((2 * p.1 + 3 * p.2) % 5)) (fun p _ => g p.1 p.2) pairs (by decide)
    (List.replicate 25 (0 : L)) (fun p hp => by have := of_mem_pairs p hp; rw [List.length_replicate]; unfold ind; omega)
    ((x + 3 * y) % 5, x) (mem_pairs _ x (by omega) hx)
  have hi : ind x ((2 * ((x + 3 * y) % 5) + 3 * x) % 5) = ind x y := by unfold ind; omega
  simp only [hi] at h
  exact h

theorem set_five (g : Nat → L) (x : Nat) (hx : x < 5) : ((List.range 5).foldl (fun c x => c.set x (g x)) (List.replicate 5 0)).getD x 0 = g x := by
  match x, hx with
  | 0, _ => rfl
  | 1, _ => rfl
  | 2, _ => rfl
  | 3, _ => rfl
  | 4, _ => rfl

theorem offsets (x y : Nat) (hx : x < 5) (hy : y < 5) : (rotationOffsets.getD x []).getD y 0 = KeccakSpec.offset x y := by
  have h : ∀ p ∈ pairs, (rotationOffsets.getD p.1 []).getD p.2 0 = KeccakSpec.offset p.1 p.2 := by decide +kernel
  exact forall25 (P := fun x y => (rotationOffsets.getD x []).getD y 0 = KeccakSpec.offset x y) h x y hx hy

theorem constants : roundConstants = (List.range 24).map KeccakSpec.RC := by decide +kernel

theorem round_agrees (s : State) (A : KeccakSpec.State) (h : Agrees s A) (ir : Nat) :
    Agrees (keccakRound s (KeccakSpec.RC ir)) (KeccakSpec.Rnd A ir) := by
  obtain ⟨hl, ha⟩ := h
  have hlane : ∀ x y, s.getD (ind x y) 0 = lane s x y := fun _ _ => rfl
  -- θ
  have hcol : ∀ x, x < 5 → columnXor s x = A x 0 ^^^ A x 1 ^^^ A x 2 ^^^ A x 3 ^^^ A x 4 := by
    intro x hx
    unfold columnXor
    simp only [hlane]
    rw [ha x 0 hx (by omega), ha x 1 hx (by omega), ha x 2 hx (by omega), ha x 3 hx (by omega), ha x 4 hx (by omega)]
  unfold keccakRound
  simp only
  generalize hc : (List.range 5).foldl (fun c x => c.set x (columnXor s x)) (List.replicate 5 0) = c
  have hcg : ∀ x, x < 5 → c.getD x 0 = A x 0 ^^^ A x 1 ^^^ A x 2 ^^^ A x 3 ^^^ A x 4 := by
    intro x hx; rw [← hc, set_five _ x hx, hcol x hx]
  generalize hd : (List.range 5).foldl (fun d x => d.set x (c.getD ((x + 5 - 1) % 5) 0 ^^^ (c.getD ((x + 1) % 5) 0).rotateLeft 1))
    (List.replicate 5 (0 : L)) = d
  have hth : ∀ x y, x < 5 → y < 5 → lane s x y ^^^ d.getD x 0 = KeccakSpec.theta A x y := by
    intro x y hx hy
    rw [← hd, set_five _ x hx, hcg _ (by omega), hcg _ (by omega), ha x y hx hy, show x + 5 - 1 = x + 4 by omega]
    rfl
  obtain ⟨l1, u1⟩ := update_all (fun x _ v => v ^^^ d.getD x 0) s hl
  generalize hs1 : pairs.foldl (fun s p => xorAssign s p.1 p.2 (d.getD p.1 0)) s = s1
  have hs1' : pairs.foldl (fun s p => s.set (ind p.1 p.2) ((fun x _ v => v ^^^ d.getD x 0) p.1 p.2 (s.getD (ind p.1 p.2) 0))) s = s1 := hs1
  rw [hs1'] at l1 u1
  -- ρ and π
  obtain ⟨l2, u2⟩ := move_all (fun x y => (lane s1 x y).rotateLeft ((rotationOffsets.getD x []).getD y 0))
  generalize pairs.foldl (fun b p => assign b p.2 ((2 * p.1 + 3 * p.2) % 5)
    ((lane s1 p.1 p.2).rotateLeft ((rotationOffsets.getD p.1 []).getD p.2 0))) (List.replicate 25 (0 : L)) = b at l2 u2 ⊢
  have hb : ∀ x y, x < 5 → y < 5 → lane b x y = KeccakSpec.pi (KeccakSpec.rho (KeccakSpec.theta A)) x y := by
    intro x y hx hy
    rw [u2 x y hx hy, u1 _ x (by omega) hx, hth _ x (by omega) hx, offsets _ x (by omega) hx]
    rfl
  -- χ
  obtain ⟨l3, u3⟩ := update_all (fun x y _ => chi b x y) s1 l1
  generalize hs3 : pairs.foldl (fun s p => assign s p.1 p.2 (chi b p.1 p.2)) s1 = s3
  have hs3' : pairs.foldl (fun s p => s.set (ind p.1 p.2) ((fun x y _ => chi b x y) p.1 p.2 (s.getD (ind p.1 p.2) 0))) s1 = s3 := hs3
  rw [hs3'] at l3 u3
  have hnot : ∀ v : L, ~~~v = v ^^^ 0xffffffffffffffff := by
    intro v
    rw [show (0xffffffffffffffff : L) = BitVec.allOnes 64 from rfl, BitVec.xor_allOnes]
  have hchi : ∀ x y, x < 5 → y < 5 → lane s3 x y = KeccakSpec.chi (KeccakSpec.pi (KeccakSpec.rho (KeccakSpec.theta A))) x y := by
    intro x y hx hy
    rw [u3 x y hx hy]
    unfold chi
    rw [hb x y hx hy, hb _ y (by omega) hy, hb _ y (by omega) hy, hnot]
    rfl
  -- ι
  refine ⟨by unfold xorAssign; rw [List.length_set]; exact l3, fun x y hx hy => ?_⟩
  unfold KeccakSpec.Rnd KeccakSpec.iota
  have h00 := hchi 0 0 (by omega) (by omega)
  have hxy := hchi x y hx hy
  unfold lane ind at h00 hxy
  unfold xorAssign lane ind
  by_cases h0 : x = 0 ∧ y = 0
  · obtain ⟨rfl, rfl⟩ := h0
    rw [if_pos ⟨rfl, rfl⟩, ← h00, List.getD_eq_getElem?_getD, List.getElem?_set_self (by omega)]
    rfl
  · rw [if_neg h0, ← hxy, List.getD_eq_getElem?_getD, List.getElem?_set_ne (by omega), List.getD_eq_getElem?_getD]

theorem absorb_agrees (s : State) (A : KeccakSpec.State) (h : Agrees s A) (b : Bytes) : Agrees (comp s b) (KeccakSpec.absorb A b) := by
  obtain ⟨hl, ha⟩ := h
  have h1 : Agrees (absorb s b) (fun x y => if x + 5 * y < 17 then A x y ^^^ BitVec.ofNat 64 (leNat ((b.drop (8 * (x + 5 * y))).take 8)) else A x y) := by
    have key : ∀ (n : Nat) (t : State), t.length = 25 → n ≤ 17 →
        ((List.range n).foldl (fun s lane => xorAssign s (lane % 5) (lane / 5) (BitVec.ofNat 64 (leNat ((b.drop (8 * lane)).take 8)))) t).length = 25 ∧
        ∀ i, ((List.range n).foldl (fun s lane => xorAssign s (lane % 5) (lane / 5) (BitVec.ofNat 64 (leNat ((b.drop (8 * lane)).take 8)))) t).getD i 0
          = if i < n then t.getD i 0 ^^^ BitVec.ofNat 64 (leNat ((b.drop (8 * i)).take 8)) else t.getD i 0 := by
      intro n t ht
      induction n with
      | zero => intro _; exact ⟨ht, fun i => by simp⟩
      | succ n ih =>
        intro hn
        obtain ⟨i1, i2⟩ := ih (by omega)
        rw [List.range_succ, List.foldl_append]
        simp only [List.foldl_cons, List.foldl_nil]
        generalize (List.range n).foldl (fun s lane => xorAssign s (lane % 5) (lane / 5) (BitVec.ofNat 64 (leNat ((b.drop (8 * lane)).take 8)))) t = u at i1 i2
        have hind : ind (n % 5) (n / 5) = n := by unfold ind; omega
        unfold xorAssign
        rw [hind]
        refine ⟨by rw [List.length_set]; exact i1, fun i => ?_⟩
        by_cases hi : i = n
        · subst hi
          rw [if_pos (by omega), List.getD_eq_getElem?_getD, List.getElem?_set_self (by omega), i2, if_neg (by omega)]
          rfl
        · rw [List.getD_eq_getElem?_getD, List.getElem?_set_ne (by omega), ← List.getD_eq_getElem?_getD, i2]
          by_cases hlt : i < n
          · rw [if_pos hlt, if_pos (by omega)]
          · rw [if_neg hlt, if_neg (by omega)]
    obtain ⟨k1, k2⟩ := key 17 s hl (by omega)
    refine ⟨k1, fun x y hx hy => ?_⟩
    have := ha x y hx hy
    unfold lane ind at this
    show _ = if x + 5 * y < 17 then A x y ^^^ BitVec.ofNat 64 (leNat ((b.drop (8 * (x + 5 * y))).take 8)) else A x y
    rw [← this]
    exact k2 (x + 5 * y)
  have h2 : ∀ (rs : List Nat) (t : State) (B : KeccakSpec.State), Agrees t B →
      Agrees ((rs.map KeccakSpec.RC).foldl keccakRound t) (rs.foldl KeccakSpec.Rnd B) := by
    intro rs
    induction rs with
    | nil => intro t B h; exact h
    | cons r rs ih =>
      intro t B h
      rw [List.map_cons, List.foldl_cons, List.foldl_cons]
      exact ih _ _ (round_agrees t B h r)
  unfold comp keccakf1600 KeccakSpec.absorb KeccakSpec.keccakF
  rw [constants]
  exact h2 _ _ _ h1

/-- The SHA3-256 engine computes SHA3-256, however it is fed. -/
theorem C65_sha3_256 (xs : List Bytes) (hlen : xs.flatten.length < 2 ^ 64) : finish (xs.foldl input new) = KeccakSpec.sha3_256 xs.flatten := by
  have h := C48_sha3_engine 136 (by omega) comp (List.replicate 25 0) xs hlen
  have h2 : ∀ (bs : List Bytes) (t : State) (B : KeccakSpec.State), Agrees t B → Agrees (bs.foldl comp t) (bs.foldl KeccakSpec.absorb B) := by
    intro bs
    induction bs with
    | nil => intro t B h; exact h
    | cons b bs ih =>
      intro t B h
      rw [List.foldl_cons, List.foldl_cons]
      exact ih _ _ (absorb_agrees t B h b)
  have hpad : (xs.flatten ++ if xs.flatten.length % 136 = 136 - 1 then [0x86] else 0x06 :: List.replicate (136 - 2 - xs.flatten.length % 136) 0 ++ [0x80])
      = KeccakSpec.pad xs.flatten := by
    unfold KeccakSpec.pad
    simp only
    congr 1
    by_cases hc : xs.flatten.length % 136 = 136 - 1
    · rw [if_pos hc, if_pos (by omega)]
    · rw [if_neg hc, if_neg (by omega), show 136 - xs.flatten.length % 136 - 2 = 136 - 2 - xs.flatten.length % 136 by omega]
  rw [hpad] at h
  have hz : Agrees (List.replicate 25 (0 : L)) (fun _ _ => 0) := by
    exact ⟨List.length_replicate .., forall25 (P := fun x y => lane (List.replicate 25 (0 : L)) x y = 0) (by decide)⟩
  obtain ⟨_, ha⟩ := h2 (Fips.blocks 136 (KeccakSpec.pad xs.flatten)) _ _ hz
  unfold finish KeccakSpec.sha3_256
  rw [show xs.foldl input new = xs.foldl (fun e x => e.input 136 comp x) (Eng.new 136 (List.replicate 25 0)) from rfl, h]
  simp only
  rw [ha 0 0 (by omega) (by omega), ha 1 0 (by omega) (by omega), ha 2 0 (by omega) (by omega), ha 3 0 (by omega) (by omega)]

end Keccak

/-! ## Known vectors through the models -/
/-- SHA-1 of "abc", RIPEMD-160 of "abc", SHA3-256 of "abc", each in two pieces. -/
example : Sha1.finish ([[0x61], [0x62, 0x63]].foldl Sha1.input Sha1.new) =
    [0xa9, 0x99, 0x3e, 0x36, 0x47, 0x06, 0x81, 0x6a, 0xba, 0x3e, 0x25, 0x71, 0x78, 0x50, 0xc2, 0x6c, 0x9c, 0xd0, 0xd8, 0x9d] := by decide +kernel
example : Ripemd.finish ([[0x61], [0x62, 0x63]].foldl Ripemd.input Ripemd.new) =
    [0x8e, 0xb2, 0x08, 0xf7, 0xe0, 0x5d, 0x98, 0x7a, 0x9b, 0x04, 0x4a, 0x8e, 0x98, 0xc6, 0xb0, 0x87, 0xf1, 0x5a, 0x0b, 0xfc] := by decide +kernel
example : (Keccak.finish ([[0x61], [0x62, 0x63]].foldl Keccak.input Keccak.new)).take 8 =
    [0x3a, 0x98, 0x5d, 0xa7, 0x4f, 0xe2, 0x25, 0xb2] := by decide +kernel

end Hashes
end Btc
