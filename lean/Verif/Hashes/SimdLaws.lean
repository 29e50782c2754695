import Verif.Hashes.Simd
import Verif.Props.C62
/-!
# One lane of the SSE4.1 and AVX2 code runs the scalar code
-/
namespace Btc
namespace Simd
open Sha2 (St Call Src Term fns256 sumTerms runCalls iv256 callsD1 callsD2 callsD3 words words_getD)

theorem rot (x : BitVec 32) (n m : Nat) (h : n + m = 32) (hn : 0 < n) (hm : 0 < m) : (x >>> n ||| x <<< m) = x.rotateLeft m := by
  rw [BitVec.rotateLeft_def, Nat.mod_eq_of_lt (by omega), show 32 - m = n by omega, BitVec.or_comm]

theorem Sigma0_lane (x : Lanes) (l : Nat) : Sigma0 x l = fns256.Sigma0 (x l) := by
  simp only [Sigma0, Xor3, Xor, Or, ShR, ShL, fns256, rot (x l) 2 30 rfl, rot (x l) 13 19 rfl, rot (x l) 22 10 rfl, Nat.lt_irrefl,
    Nat.zero_lt_succ, forall_const]
theorem Sigma1_lane (x : Lanes) (l : Nat) : Sigma1 x l = fns256.Sigma1 (x l) := by
  simp only [Sigma1, Xor3, Xor, Or, ShR, ShL, fns256, rot (x l) 6 26 rfl, rot (x l) 11 21 rfl, rot (x l) 25 7 rfl,
    Nat.zero_lt_succ, forall_const]
theorem sigma0_lane (x : Lanes) (l : Nat) : sigma0 x l = fns256.sigma0 (x l) := by
  simp only [sigma0, Xor3, Xor, Or, ShR, ShL, fns256, rot (x l) 7 25 rfl, rot (x l) 18 14 rfl, Nat.zero_lt_succ, forall_const]
theorem sigma1_lane (x : Lanes) (l : Nat) : sigma1 x l = fns256.sigma1 (x l) := by
  simp only [sigma1, Xor3, Xor, Or, ShR, ShL, fns256, rot (x l) 17 15 rfl, rot (x l) 19 13 rfl, Nat.zero_lt_succ, forall_const]

/-! ## Sums -/

def sumB : List (BitVec 32) → BitVec 32
  | [] => 0
  | x :: xs => x + sumB xs

theorem sumB_append (xs ys : List (BitVec 32)) : sumB (xs ++ ys) = sumB xs + sumB ys := by
  induction xs with
  | nil => simp [sumB]
  | cons x xs ih => simp [sumB, ih, BitVec.add_assoc]
theorem sumB_perm {xs ys : List (BitVec 32)} (h : xs.Perm ys) : sumB xs = sumB ys := by
  induction h with
  | nil => rfl
  | cons x _ ih => simp [sumB, ih]
  | swap x y l => simp only [sumB, ← BitVec.add_assoc, BitVec.add_comm x y]
  | trans _ _ h1 h2 => rw [h1, h2]
theorem foldl_sumB (f : Term 32 → BitVec 32) (ts : List (Term 32)) (a : BitVec 32) :
    ts.foldl (fun acc u => acc + f u) a = a + sumB (ts.map f) := by
  induction ts generalizing a with
  | nil => simp [sumB]
  | cons t ts ih => simp only [List.foldl_cons, ih, List.map_cons, sumB, BitVec.add_assoc]
theorem sumTerms_eq (m : List (BitVec 32)) (ts : List (Term 32)) :
    sumTerms fns256 m ts = sumB (ts.map (Term.eval fns256 m)) := by
  cases ts with
  | nil => rfl
  | cons t ts => exact foldl_sumB _ _ _

/-- The terms of a sum. -/
def Expr.terms : Expr → Option (List (Term 32))
  | .k x => some [.c x]
  | .w i => if i < 16 then some [.w i] else none
  | .s0 i => if i < 16 then some [.s0 i] else none
  | .s1 i => if i < 16 then some [.s1 i] else none
  | .add x y => do let a ← x.terms; let b ← y.terms; some (a ++ b)
  | .add3 x y z => do let a ← x.terms; let b ← y.terms; let c ← z.terms; some (a ++ b ++ c)
  | .add4 x y z u => do let a ← x.terms; let b ← y.terms; let c ← z.terms; let d ← u.terms; some (a ++ b ++ (c ++ d))
  | .read _ => none

theorem Expr.terms_eval (rd w : Nat → Lanes) (l : Nat) (m : List (BitVec 32)) (hw : ∀ i, i < 16 → w i l = m.getD i 0) (e : Expr)
    (ts : List (Term 32)) (h : e.terms = some ts) : e.eval rd w l = sumB (ts.map (Term.eval fns256 m)) := by
  induction e generalizing ts with
  | k x => cases h; simp [Expr.eval, K, sumB, Term.eval]
  | w i =>
    unfold Expr.terms at h; split at h
    · cases h; simp only [Expr.eval, List.map_cons, List.map_nil, sumB, Term.eval, hw i ‹_›]; exact (BitVec.add_zero _).symm
    · cases h
  | s0 i =>
    unfold Expr.terms at h; split at h
    · cases h; simp only [Expr.eval, List.map_cons, List.map_nil, sumB, Term.eval, sigma0_lane, hw i ‹_›]; exact (BitVec.add_zero _).symm
    · cases h
  | s1 i =>
    unfold Expr.terms at h; split at h
    · cases h; simp only [Expr.eval, List.map_cons, List.map_nil, sumB, Term.eval, sigma1_lane, hw i ‹_›]; exact (BitVec.add_zero _).symm
    · cases h
  | add x y ihx ihy =>
    simp only [Expr.terms, Option.bind_eq_bind, Option.bind_eq_some_iff] at h
    obtain ⟨a, ha, b, hb, h⟩ := h
    cases h
    simp only [Expr.eval, Add, ihx a ha, ihy b hb, List.map_append, sumB_append]
  | add3 x y z ihx ihy ihz =>
    simp only [Expr.terms, Option.bind_eq_bind, Option.bind_eq_some_iff] at h
    obtain ⟨a, ha, b, hb, c, hc, h⟩ := h
    cases h
    simp only [Expr.eval, Add3, Add, ihx a ha, ihy b hb, ihz c hc, List.map_append, sumB_append]
  | add4 x y z u ihx ihy ihz ihu =>
    simp only [Expr.terms, Option.bind_eq_bind, Option.bind_eq_some_iff] at h
    obtain ⟨a, ha, b, hb, c, hc, d, hd, h⟩ := h
    cases h
    simp only [Expr.eval, Add4, Add, ihx a ha, ihy b hb, ihz c hc, ihu d hd, List.map_append, sumB_append]
  | read o => cases h

/-! ## A line of the vector code against a line of the scalar code -/

def regsOk (x : Round) (c : Call 32) : Bool :=
  x.a == c.a && x.b == c.b && x.c == c.c && x.d == c.d && x.e == c.e && x.f == c.f && x.g == c.g && x.h == c.h &&
    decide (x.a < 8) && decide (x.b < 8) && decide (x.c < 8) && decide (x.d < 8) && decide (x.e < 8) && decide (x.f < 8) &&
    decide (x.g < 8) && decide (x.h < 8)

/-- The number of message words assigned after the line, if it does what the scalar line does; `j` words are assigned before. -/
def kwOk (j : Nat) (x : Kw) (c : Call 32) : Option Nat :=
  match x, c.src with
  | .const k, .const z => if k = c.k ∧ z = 0 then some j else none
  | .addW k i, .word i' => if k = c.k ∧ i = i' ∧ i < j then some j else none
  | .addSet k i (.read o), .word i' => if k = c.k ∧ i = i' ∧ i = j ∧ o = 4 * i ∧ i < 16 then some (j + 1) else none
  | .addSet k i e, .set i' ts =>
      match e.terms with
      | some us => if k = c.k ∧ i = i' ∧ j = 16 ∧ i < 16 ∧ us.isPerm ts then some 16 else none
      | none => none
  | _, _ => none

def lineOk (j : Nat) (x : Round) (c : Call 32) : Option Nat := if regsOk x c then kwOk j x.kw c else none

def linesOk (j : Nat) : List (Round × Call 32) → Option Nat
  | [] => some j
  | p :: ps => (lineOk j p.1 p.2).bind fun j => linesOk j ps

/-- Lane `l` of the variables agrees with the scalar variables, as far as they are assigned. -/
structure Agree (rd : Nat → Lanes) (l j : Nat) (s : Vars) (v : St 32) (m : List (BitVec 32)) : Prop where
  len : m.length = 16
  regs : ∀ i, i < 8 → s.r i l = v.get i
  words : ∀ i, i < j → s.w i l = m.getD i 0
  todo : ∀ i, j ≤ i → i < 16 → rd (4 * i) l = m.getD i 0
  le : j ≤ 16

theorem getD_set (m : List (BitVec 32)) (i k : Nat) (x : BitVec 32) (hi : i < m.length) :
    (m.set i x).getD k 0 = if k = i then x else m.getD k 0 := by
  rw [List.getD_eq_getElem?_getD, List.getElem?_set]
  by_cases h : k = i
  · subst h; simp [hi]
  · have h' : ¬ i = k := fun e => h e.symm
    rw [if_neg h', if_neg h, List.getD_eq_getElem?_getD]

theorem kw_agree (rd : Nat → Lanes) (l j j' : Nat) (s : Vars) (v : St 32) (m : List (BitVec 32)) (A : Agree rd l j s v m) (x : Kw)
    (c : Call 32) (h : kwOk j x c = some j') :
    (x.eval rd s.w).2 l = c.k + (c.src.eval fns256 m).2 ∧ (c.src.eval fns256 m).1.length = 16 ∧
      (∀ i, i < j' → (x.eval rd s.w).1 i l = (c.src.eval fns256 m).1.getD i 0) ∧
      (∀ i, j' ≤ i → i < 16 → rd (4 * i) l = (c.src.eval fns256 m).1.getD i 0) ∧ j' ≤ 16 := by
  have setCase : ∀ (i : Nat) (y : Lanes) (z : BitVec 32), i < 16 → y l = z → j = 16 →
      ∀ k, k < 16 → assign s.w i y k l = (m.set i z).getD k 0 := by
    intro i y z hi hy hj k hk
    rw [getD_set m i k z (by rw [A.len]; exact hi)]
    unfold assign
    by_cases e : k = i
    · rw [if_pos e, if_pos e, hy]
    · rw [if_neg e, if_neg e, A.words k (by omega)]
  unfold kwOk at h
  split at h
  · next k z e =>
    split at h
    · next hc =>
      cases h
      rw [e]
      refine ⟨?_, A.len, A.words, A.todo, A.le⟩
      simp only [Kw.eval, K, Src.eval, hc.1, hc.2]; exact (BitVec.add_zero _).symm
    · cases h
  · next k i i' e =>
    split at h
    · next hc =>
      cases h
      rw [e]
      refine ⟨?_, A.len, A.words, A.todo, A.le⟩
      simp only [Kw.eval, Add, K, Src.eval, hc.1, ← hc.2.1, A.words i hc.2.2]
    · cases h
  · next k i o i' e =>
    split at h
    · next hc =>
      obtain ⟨h1, h2, h3, h4, h5⟩ := hc
      cases h
      subst h1 h2 h3 h4
      rw [e]
      refine ⟨?_, A.len, ?_, fun i a b => A.todo i (by omega) b, by omega⟩
      · simp only [Kw.eval, Add, K, Src.eval, Expr.eval, A.todo i (Nat.le_refl _) h5]
      · intro q hq
        simp only [Kw.eval, Src.eval, Expr.eval, assign]
        by_cases e : q = i
        · subst e; rw [if_pos rfl, A.todo q (Nat.le_refl _) h5]
        · rw [if_neg e, A.words q (by omega)]
    · cases h
  · next k i ex i' ts e =>
    split at h
    · next us hus =>
      split at h
      · next hc =>
        obtain ⟨h1, h2, h3, h4, h5⟩ := hc
        cases h
        subst h1 h2
        rw [e]
        have hval : ex.eval rd s.w l = sumTerms fns256 m ts := by
          rw [Expr.terms_eval rd s.w l m (fun i hi => A.words i (by omega)) ex us hus, sumTerms_eq]
          exact sumB_perm ((List.isPerm_iff.1 h5).map _)
        refine ⟨?_, ?_, ?_, fun i a b => by omega, by omega⟩
        · simp only [Kw.eval, Add, K, Src.eval, hval]
        · simp only [Src.eval, List.length_set, A.len]
        · intro q hq
          simp only [Kw.eval, Src.eval]
          exact setCase i _ _ h4 hval h3 q hq
      · cases h
    · cases h
  · cases h

theorem St.get_set (v : St 32) (i k : Nat) (x : BitVec 32) (hi : i < 8) (hk : k < 8) :
    (v.set i x).get k = if k = i then x else v.get k := by
  have h1 : i = 0 ∨ i = 1 ∨ i = 2 ∨ i = 3 ∨ i = 4 ∨ i = 5 ∨ i = 6 ∨ i = 7 := by omega
  have h2 : k = 0 ∨ k = 1 ∨ k = 2 ∨ k = 3 ∨ k = 4 ∨ k = 5 ∨ k = 6 ∨ k = 7 := by omega
  rcases h1 with h | h | h | h | h | h | h | h <;> subst h <;>
    rcases h2 with h | h | h | h | h | h | h | h <;> subst h <;> rfl

theorem Round.run_r (rd : Nat → Lanes) (s : Vars) (x : Round) : (x.run rd s).r =
    assign (assign s.r x.d (Add (s.r x.d) (Add4 (s.r x.h) (Sigma1 (s.r x.e)) (Ch (s.r x.e) (s.r x.f) (s.r x.g)) (x.kw.eval rd s.w).2)))
      x.h (Add (Add4 (s.r x.h) (Sigma1 (s.r x.e)) (Ch (s.r x.e) (s.r x.f) (s.r x.g)) (x.kw.eval rd s.w).2)
        (Add (Sigma0 (s.r x.a)) (Maj (s.r x.a) (s.r x.b) (s.r x.c)))) := rfl
theorem Call.run_1 (v : St 32) (m : List (BitVec 32)) (x : Call 32) : (x.run fns256 (v, m)).1 =
    (v.set x.d (v.get x.d + (v.get x.h + fns256.Sigma1 (v.get x.e) + Sha2.ch (v.get x.e) (v.get x.f) (v.get x.g) + x.k +
      (x.src.eval fns256 m).2))).set x.h (v.get x.h + fns256.Sigma1 (v.get x.e) + Sha2.ch (v.get x.e) (v.get x.f) (v.get x.g) + x.k +
      (x.src.eval fns256 m).2 + (fns256.Sigma0 (v.get x.a) + Sha2.maj (v.get x.a) (v.get x.b) (v.get x.c))) := rfl

theorem line_agree (rd : Nat → Lanes) (l j j' : Nat) (s : Vars) (v : St 32) (m : List (BitVec 32)) (A : Agree rd l j s v m) (x : Round)
    (c : Call 32) (h : lineOk j x c = some j') :
    Agree rd l j' (x.run rd s) (c.run fns256 (v, m)).1 (c.run fns256 (v, m)).2 := by
  unfold lineOk at h
  split at h
  · next hr =>
    unfold regsOk at hr
    simp only [Bool.and_eq_true, beq_iff_eq, decide_eq_true_eq] at hr
    obtain ⟨⟨⟨⟨⟨⟨⟨⟨⟨⟨⟨⟨⟨⟨⟨ea, eb⟩, ec⟩, ed⟩, ee⟩, ef⟩, eg⟩, eh⟩, la⟩, lb⟩, lc⟩, ld⟩, le⟩, lf⟩, lg⟩, lh⟩ := hr
    obtain ⟨h1, h2, h3, h4, h5⟩ := kw_agree rd l j j' s v m A x.kw c h
    refine ⟨h2, ?_, h3, h4, h5⟩
    intro i hi
    rw [Round.run_r, Call.run_1, St.get_set _ _ _ _ (eh ▸ lh) hi, St.get_set _ _ _ _ (ed ▸ ld) hi]
    simp only [assign, apply_ite (fun f : Lanes => f l), Add4, Add, Ch, Maj, Xor, Or, And, Sigma0_lane, Sigma1_lane, h1, ← ea, ← eb, ← ec, ← ed, ← ee, ← ef, ← eg, ← eh]
    have hT : s.r x.h l + fns256.Sigma1 (s.r x.e l) + ((s.r x.g l ^^^ s.r x.e l &&& (s.r x.f l ^^^ s.r x.g l)) +
        (c.k + (c.src.eval fns256 m).2)) = v.get x.h + fns256.Sigma1 (v.get x.e) + Sha2.ch (v.get x.e) (v.get x.f) (v.get x.g) + c.k +
        (c.src.eval fns256 m).2 := by
      rw [A.regs _ lh, A.regs _ le, A.regs _ lf, A.regs _ lg]
      unfold Sha2.ch
      ac_rfl
    by_cases e1 : i = x.h
    · simp only [if_pos e1, hT]
      rw [A.regs _ la, A.regs _ lb, A.regs _ lc]
      rfl
    · by_cases e2 : i = x.d
      · simp only [if_neg e1, if_pos e2, hT]
        rw [A.regs _ ld]
      · simp only [if_neg e1, if_neg e2]
        exact A.regs i hi
  · cases h

theorem lines_agree (rd : Nat → Lanes) (l j j' : Nat) (s : Vars) (v : St 32) (m : List (BitVec 32)) (A : Agree rd l j s v m)
    (ps : List (Round × Call 32)) (h : linesOk j ps = some j') :
    Agree rd l j' ((ps.map Prod.fst).foldl (Round.run rd) s) (runCalls fns256 (ps.map Prod.snd) v m).1
      (runCalls fns256 (ps.map Prod.snd) v m).2 := by
  unfold runCalls
  induction ps generalizing j s v m with
  | nil => simp only [linesOk, Option.some.injEq] at h; subst h; exact A
  | cons p ps ih =>
    simp only [linesOk, Option.bind_eq_some_iff] at h
    obtain ⟨j1, h1, h2⟩ := h
    exact ih j1 _ _ _ (line_agree rd l j j1 s v m A p.1 p.2 h1) h2

theorem lines_agree' (rd : Nat → Lanes) (l j j' : Nat) (s : Vars) (v : St 32) (m : List (BitVec 32)) (A : Agree rd l j s v m)
    (xs : List Round) (cs : List (Call 32)) (hl : xs.length = cs.length) (h : linesOk j (xs.zip cs) = some j') :
    Agree rd l j' (xs.foldl (Round.run rd) s) (runCalls fns256 cs v m).1 (runCalls fns256 cs v m).2 := by
  have := lines_agree rd l j j' s v m A _ h
  rwa [List.map_fst_zip (by omega), List.map_snd_zip (by omega)] at this

theorem rounds1_ok : linesOk 0 (rounds1.zip Sha2.callsD1) = some 16 := by decide +kernel
theorem rounds2_ok : linesOk 16 (rounds2.zip Sha2.callsD2) = some 16 := by decide +kernel
theorem rounds3_ok : linesOk 16 (rounds3.zip Sha2.callsD3) = some 16 := by decide +kernel
theorem rounds_length : rounds1.length = Sha2.callsD1.length ∧ rounds2.length = Sha2.callsD2.length ∧
    rounds3.length = Sha2.callsD3.length := by decide +kernel

/-! ## Loads and stores -/

/-- The bytes of the word in the other order. -/
def bswap (x : BitVec 32) : BitVec 32 := byteOf x 0 ++ byteOf x 1 ++ byteOf x 2 ++ byteOf x 3

theorem mask_lane : ∀ q, q < 3 → ∀ l, l < 4 * q → mask q l = (0x00010203#32 + 0x04040404#32 * BitVec.ofNat 32 (l % 4)) := by decide
theorem mask_byte : ∀ l, l < 4 → ∀ i, i < 4 → byteOf (0x00010203#32 + 0x04040404#32 * BitVec.ofNat 32 l) i = BitVec.ofNat 8 (4 * l + (3 - i)) := by
  decide

theorem shuffle_mask (q l : Nat) (hq : q < 3) (hl : l < 4 * q) (v : Lanes) : shuffleEpi8 v (mask q) l = bswap (v l) := by
  have key : ∀ i, i < 4 → (let k := byteOf (mask q l) i; if k.getLsbD 7 then 0 else byteOf (v (4 * (l / 4) + k.toNat % 16 / 4)) (k.toNat % 4)) =
      byteOf (v l) (3 - i) := by
    intro i hi
    simp only []
    rw [mask_lane q hq l hl, mask_byte (l % 4) (Nat.mod_lt _ (by omega)) i hi]
    have hk : 4 * (l % 4) + (3 - i) < 16 := by omega
    generalize hn : 4 * (l % 4) + (3 - i) = n at hk
    have h7 : (BitVec.ofNat 8 n).getLsbD 7 = false := by
      have : ∀ n, n < 16 → (BitVec.ofNat 8 n).getLsbD 7 = false := by decide
      exact this n hk
    have ht : (BitVec.ofNat 8 n).toNat = n := by rw [BitVec.toNat_ofNat]; omega
    rw [h7, ht, show 4 * (l / 4) + n % 16 / 4 = l by omega, show n % 4 = 3 - i by omega]
    exact if_neg (by decide)
  unfold shuffleEpi8 ofBytes bswap
  simp only [] at key
  simp only [key 0 (by omega), key 1 (by omega), key 2 (by omega), key 3 (by omega)]

theorem byteOf_toNat (x : BitVec 32) (i : Nat) : (byteOf x i).toNat = x.toNat / 2 ^ (8 * i) % 256 := by
  unfold byteOf
  rw [BitVec.toNat_setWidth, BitVec.toNat_ushiftRight, Nat.shiftRight_eq_div_pow]

theorem bswap_toNat (x : BitVec 32) : (bswap x).toNat =
    x.toNat % 256 * 16777216 + x.toNat / 256 % 256 * 65536 + x.toNat / 65536 % 256 * 256 + x.toNat / 16777216 % 256 := by
  have app : ∀ {n : Nat} (y : BitVec n) (z : BitVec 8), (y ++ z).toNat = y.toNat * 256 + z.toNat := by
    intro n y z
    rw [BitVec.toNat_append, ← Nat.shiftLeft_add_eq_or_of_lt z.isLt, Nat.shiftLeft_eq]
  unfold bswap
  simp only [app, byteOf_toNat]
  have h0 : x.toNat / 2 ^ (8 * 0) = x.toNat := by simp
  rw [h0, show (2 : Nat) ^ (8 * 1) = 256 from rfl, show (2 : Nat) ^ (8 * 2) = 65536 from rfl,
    show (2 : Nat) ^ (8 * 3) = 16777216 from rfl]
  omega

/-- The word is made of its bytes. -/
theorem bswap_digits (x : BitVec 32) (a b c d : Nat) (ha : a < 256) (hb : b < 256) (hc : c < 256) (hd : d < 256)
    (hx : x.toNat = a + 256 * b + 65536 * c + 16777216 * d) :
    (bswap x).toNat = d + 256 * c + 65536 * b + 16777216 * a := by
  rw [bswap_toNat, hx]
  have h0 : (a + 256 * b + 65536 * c + 16777216 * d) % 256 = a := by omega
  have h1 : (a + 256 * b + 65536 * c + 16777216 * d) / 256 % 256 = b := by omega
  have h2 : (a + 256 * b + 65536 * c + 16777216 * d) / 65536 % 256 = c := by omega
  have h3 : (a + 256 * b + 65536 * c + 16777216 * d) / 16777216 % 256 = d := by omega
  rw [h0, h1, h2, h3]
  omega

theorem bswap_le (bs : Bytes) (h : bs.length = 4) : bswap (BitVec.ofNat 32 (leNat bs)) = BitVec.ofNat 32 (beNat bs) := by
  match bs, h with
  | [a, b, c, d], _ =>
    apply BitVec.eq_of_toNat_eq
    have := a.toNat_lt; have := b.toNat_lt; have := c.toNat_lt; have := d.toNat_lt
    rw [bswap_digits _ a.toNat b.toNat c.toNat d.toNat (by omega) (by omega) (by omega) (by omega)]
    · simp only [BitVec.toNat_ofNat, leNat, beNat, List.reverse_cons, List.reverse_nil, List.nil_append, List.cons_append]
      omega
    · simp only [BitVec.toNat_ofNat, leNat]
      omega

theorem le4 (a b c d : Nat) (ha : a < 256) (hb : b < 256) (hc : c < 256) (hd : d < 256) :
    leBytes 4 (a + 256 * b + 65536 * c + 16777216 * d) = [UInt8.ofNat a, UInt8.ofNat b, UInt8.ofNat c, UInt8.ofNat d] := by
  have h0 : (a + 256 * b + 65536 * c + 16777216 * d) % 256 = a := by omega
  have h1 : (a + 256 * b + 65536 * c + 16777216 * d) / 256 % 256 = b := by omega
  have h2 : (a + 256 * b + 65536 * c + 16777216 * d) / 256 / 256 % 256 = c := by omega
  have h3 : (a + 256 * b + 65536 * c + 16777216 * d) / 256 / 256 / 256 % 256 = d := by omega
  simp only [leBytes, h0, h1, h2, h3]

theorem digits4 (n : Nat) (h : n < 2 ^ 32) : ∃ a b c d, a < 256 ∧ b < 256 ∧ c < 256 ∧ d < 256 ∧
    n = a + 256 * b + 65536 * c + 16777216 * d :=
  ⟨n % 256, n / 256 % 256, n / 65536 % 256, n / 16777216, by omega, by omega, by omega, by omega, by omega⟩

theorem le_bswap (x : BitVec 32) : leBytes 4 (bswap x).toNat = beBytes 4 x.toNat := by
  obtain ⟨a, b, c, d, ha, hb, hc, hd, hx⟩ := digits4 x.toNat x.isLt
  rw [bswap_digits x a b c d ha hb hc hd hx, le4 d c b a hd hc hb ha, beBytes, hx, le4 a b c d ha hb hc hd]
  rfl

/-- Input `n` is read into lane `4 * q - 1 - n`, as a big-endian word. -/
theorem read_lane (q : Nat) (hq : q < 3) (input : List Bytes) (hi : input.length = 4 * q) (n : Nat) (hn : n < 4 * q) (x : Bytes)
    (hx : input[n]? = some x) (hl : x.length = 64) (i : Nat) (h16 : i < 16) :
    read q input (4 * i) (4 * q - 1 - n) = Fips.word 32 4 x i := by
  unfold read
  rw [shuffle_mask q _ hq (by omega)]
  unfold setEpi32
  rw [List.length_map, hi, if_pos (by omega), List.getD_eq_getElem?_getD, List.getElem?_map,
    show 4 * q - 1 - (4 * q - 1 - n) = n by omega, hx]
  simp only [Option.map_some, Option.getD_some]
  rw [bswap_le _ (by rw [List.length_take, List.length_drop]; omega)]
  rfl

theorem write_lane (q : Nat) (hq : q < 3) (v : Lanes) (n : Nat) (hn : n < 4 * q) :
    write q v n = beBytes 4 (v (4 * q - 1 - n)).toNat := by
  unfold write
  rw [shuffle_mask q _ hq (by omega), le_bswap]

theorem init_get : ∀ i, i < 8 → ∀ l, init i l = iv256.get i := by
  have : ∀ i, i < 8 → init i 0 = iv256.get i := by decide
  intro i hi l
  exact this i hi

theorem get_add (s t : St 32) (i : Nat) (hi : i < 8) : (s.add t).get i = s.get i + t.get i := by
  have h1 : i = 0 ∨ i = 1 ∨ i = 2 ∨ i = 3 ∨ i = 4 ∨ i = 5 ∨ i = 6 ∨ i = 7 := by omega
  rcases h1 with h | h | h | h | h | h | h | h <;> subst h <;> rfl

theorem toList_get (s : St 32) (i : Nat) (hi : i < 8) : s.toList.getD i 0 = s.get i := by
  have h1 : i = 0 ∨ i = 1 ∨ i = 2 ∨ i = 3 ∨ i = 4 ∨ i = 5 ∨ i = 6 ∨ i = 7 := by omega
  rcases h1 with h | h | h | h | h | h | h | h <;> subst h <;> rfl

theorem bytes_get (s : St 32) : s.bytes 4 = ((List.range 8).map fun j => beBytes 4 (s.get j).toNat).flatten := rfl

section
attribute [local irreducible] runCalls words callsD1 callsD2 callsD3
theorem sha256d64_unfold (x : Bytes) : Sha2.sha256d64 x =
    ((runCalls fns256 callsD3 iv256 ((((runCalls fns256 callsD1 iv256 (words 32 4 x 16)).1.add iv256).add
      (runCalls fns256 callsD2 ((runCalls fns256 callsD1 iv256 (words 32 4 x 16)).1.add iv256)
        (runCalls fns256 callsD1 iv256 (words 32 4 x 16)).2).1).toList ++
      (runCalls fns256 callsD2 ((runCalls fns256 callsD1 iv256 (words 32 4 x 16)).1.add iv256)
        (runCalls fns256 callsD1 iv256 (words 32 4 x 16)).2).2.drop 8)).1.add iv256).bytes 4 := rfl
end

/-- Every lane does what the scalar code does. -/
theorem ways_eq (q : Nat) (hq : q < 3) (input : List Bytes) (hi : input.length = 4 * q) (h64 : ∀ x, x ∈ input → x.length = 64) :
    sha256d64Ways q input = input.map Sha2.sha256d64 := by
  apply List.ext_getElem?
  intro n
  by_cases hn : n < 4 * q
  · obtain ⟨x, hx⟩ : ∃ x, input[n]? = some x := ⟨input[n], List.getElem?_eq_getElem (by omega)⟩
    have hl := h64 x (List.mem_of_getElem? hx)
    rw [List.getElem?_map, hx, Option.map_some]
    unfold sha256d64Ways
    simp only []
    rw [List.getElem?_map, List.getElem?_range hn, Option.map_some, Option.some.injEq, sha256d64_unfold, bytes_get]
    have A0 : Agree (read q input) (4 * q - 1 - n) 0 ⟨init, fun _ => K 0⟩ iv256 (words 32 4 x 16) := by
      refine ⟨by simp [words], fun i hi => init_get i hi (4 * q - 1 - n), fun i h => by omega, fun i _ h => ?_, by omega⟩
      rw [words_getD 32 4 16 x i h]
      exact read_lane q hq input hi n hn x hx hl i h
    have A1 := lines_agree' _ _ _ _ _ _ _ A0 rounds1 callsD1 rounds_length.1 rounds1_ok
    generalize rounds1.foldl (Round.run (read q input)) ⟨init, fun _ => K 0⟩ = s1 at A1 ⊢
    generalize runCalls fns256 callsD1 iv256 (words 32 4 x 16) = p1 at A1 ⊢
    have A1' : Agree (read q input) (4 * q - 1 - n) 16 ⟨fun i => Add (s1.r i) (init i), s1.w⟩ (p1.1.add iv256) p1.2 := by
      refine ⟨A1.len, fun i hi => ?_, A1.words, A1.todo, A1.le⟩
      rw [get_add _ _ _ hi, ← A1.regs i hi, ← init_get i hi (4 * q - 1 - n)]
      rfl
    have A2 := lines_agree' _ _ _ _ _ _ _ A1' rounds2 callsD2 rounds_length.2.1 rounds2_ok
    generalize rounds2.foldl (Round.run (read q input)) ⟨fun i => Add (s1.r i) (init i), s1.w⟩ = s2 at A2 ⊢
    generalize runCalls fns256 callsD2 (p1.1.add iv256) p1.2 = p2 at A2 ⊢
    have A2' : Agree (read q input) (4 * q - 1 - n) 16
        ⟨init, fun i => if i < 8 then Add (Add (s1.r i) (init i)) (s2.r i) else s2.w i⟩ iv256
        (((p1.1.add iv256).add p2.1).toList ++ p2.2.drop 8) := by
      refine ⟨?_, fun i hi => init_get i hi (4 * q - 1 - n), fun i hi => ?_, fun i a b => by omega, by omega⟩
      · rw [List.length_append, List.length_drop, A2.len]; rfl
      · simp only [apply_ite (fun f : Lanes => f (4 * q - 1 - n))]
        by_cases h8 : i < 8
        · rw [if_pos h8, List.getD_eq_getElem?_getD, List.getElem?_append_left (by exact h8), ← List.getD_eq_getElem?_getD,
            toList_get _ _ h8, get_add _ _ _ h8, ← A2.regs i h8, ← A1'.regs i h8]
          rfl
        · rw [if_neg h8, A2.words i hi, List.getD_eq_getElem?_getD, List.getD_eq_getElem?_getD,
            List.getElem?_append_right (by exact Nat.le_of_not_lt h8), List.getElem?_drop]
          have : 8 + (i - ((p1.1.add iv256).add p2.1).toList.length) = i := by
            change 8 + (i - 8) = i
            omega
          rw [this]
    have A3 := lines_agree' _ _ _ _ _ _ _ A2' rounds3 callsD3 rounds_length.2.2 rounds3_ok
    congr 1
    apply List.map_congr_left
    intro j hj
    have hj8 : j < 8 := List.mem_range.1 hj
    rw [write_lane q hq _ n hn, get_add _ _ _ hj8, ← A3.regs j hj8, ← init_get j hj8 (4 * q - 1 - n)]
    rfl
  · have h1 : (sha256d64Ways q input).length = 4 * q := by simp [sha256d64Ways]
    rw [List.getElem?_eq_none (by omega), List.getElem?_eq_none (by rw [List.length_map]; omega)]

end Simd
end Btc
