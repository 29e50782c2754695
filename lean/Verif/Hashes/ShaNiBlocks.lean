import Verif.Hashes.ShaNiRun
/-!
# `process_blocks` of the SHA-NI and ARM SHA2 back ends
-/
namespace Btc
namespace ShaNi
open Sha2 (St)
open Simd (Lanes byteOf ofBytes shuffleEpi8 bswap)

/-! ## Blocks -/

/-- One transform, number 0. -/
def semB (h : St 32) (b : Bytes) : Sem := ⟨fun _ => h, fun _ t => bswap (BitVec.ofNat 32 (leNat ((b.drop (4 * t)).take 4)))⟩

theorem semB_good (h : St 32) (b : Bytes) : Good id (semB h b) (fun _ => 0) ⟨fun _ => b, h⟩ where
  nf := fun _ => rfl
  inp := by
    intro i t ht
    simp only [semB, bswap_bswap]
  st := rfl

/-- The variables that live from one block to the next. -/
def x86In : AMach := ⟨((start.env.set state0 [.e 0 2, .e 0 3, .a 0 2, .a 0 3]).set state1 [.e 0 0, .e 0 1, .a 0 0, .a 0 1]).set MASK maskA, []⟩
def x86Out : AMach := ⟨((start.env.set state0 [.o 0 5, .o 0 4, .o 0 1, .o 0 0]).set state1 [.o 0 7, .o 0 6, .o 0 3, .o 0 2]).set MASK maskA, []⟩
def armIn : AMach := ⟨(start.env.set state0 [.a 0 3, .a 0 2, .a 0 1, .a 0 0]).set state1 [.e 0 3, .e 0 2, .e 0 1, .e 0 0], []⟩
def armOut : AMach := ⟨(start.env.set state0 [.o 0 0, .o 0 1, .o 0 2, .o 0 3]).set state1 [.o 0 4, .o 0 5, .o 0 6, .o 0 7], []⟩

/-- Some variables are forgotten. -/
def covers (a : AMach) (rs : List Nat) (b : AMach) : Bool :=
  (List.range 47).all (fun r => if r ∈ rs then a.env.getD r [] = b.env.getD r [] else b.env.getD r [] = []) && a.stores = [] && b.stores = [] &&
    b.env.length = 47

theorem covers_mrel (S : Sem) (s : Mach) (a b : AMach) (rs : List Nat) (h : covers a rs b = true) (m : MRel S s a) : MRel S s b := by
  unfold covers at h
  simp only [Bool.and_eq_true, List.all_eq_true, List.mem_range, decide_eq_true_eq] at h
  obtain ⟨⟨⟨h1, h2⟩, h3⟩, h4⟩ := h
  refine ⟨?_, ?_, ?_⟩
  · intro r
    by_cases hr : r < 47
    · have := h1 r hr
      by_cases hm : r ∈ rs
      · rw [if_pos hm] at this
        rw [← decide_eq_true_iff.1 this]
        exact m.env r
      · rw [if_neg hm] at this
        rw [decide_eq_true_iff.1 this]
        intro l _ x hx; cases hx
    · rw [List.getD_eq_getElem?_getD, List.getElem?_eq_none (by omega)]
      intro l _ x hx; cases hx
  · rw [m.len, h2, h3]
  · intro i d v hv
    obtain ⟨av, h5, h6⟩ := m.dst i d v hv
    rw [h2] at h5; cases h5

theorem x86_load : (absRun id (fun _ => 0) (x86Load.zip (List.replicate 7 .none)) start).map (covers · [state0, state1, MASK] x86In) = some true := by
  decide +kernel
theorem x86_block : (absRun id (fun _ => 0) (x86Block.zip x86BlockH) x86In).map (covers · [state0, state1, MASK] x86Out) = some true := by
  decide +kernel
theorem x86_store : (absRun id (fun _ => 0) (x86Store.zip (List.replicate 6 .none)) x86In).map AMach.stores =
    some [(.st 0, [.a 0 3, .a 0 2, .a 0 1, .a 0 0]), (.st 4, [.e 0 3, .e 0 2, .e 0 1, .e 0 0])] := by decide +kernel
theorem arm_load : (absRun id (fun _ => 0) (armLoad.zip (List.replicate 2 .none)) start).map (covers · [state0, state1] armIn) = some true := by
  decide +kernel
theorem arm_block : (absRun id (fun _ => 0) (armBlock.zip armBlockH) armIn).map (covers · [state0, state1] armOut) = some true := by
  decide +kernel
theorem arm_store : (absRun id (fun _ => 0) (armStore.zip (List.replicate 2 .none)) armIn).map AMach.stores =
    some [(.st 0, [.a 0 3, .a 0 2, .a 0 1, .a 0 0]), (.st 4, [.e 0 3, .e 0 2, .e 0 1, .e 0 0])] := by decide +kernel

/-- The values that the next block starts with, as results of this one. -/
def next : Atom → Atom
  | .a _ t => .o 0 (3 - t)
  | .e _ t => .o 0 (7 - t)
  | x => x
def initial : Atom → Bool
  | .a _ t => t ≤ 3
  | .e _ t => t ≤ 3
  | .c _ => true
  | _ => false
theorem next_val (h : St 32) (b b' : Bytes) (x : Atom) (hx : initial x = true) :
    (semB ((semB h b).O 0) b').val x = (semB h b).val (next x) := by
  cases x with
  | a j t =>
    simp only [initial, decide_eq_true_eq] at hx
    change (semB ((semB h b).O 0) b').A j t = ((semB h b).O 0).get (3 - t)
    unfold Sem.A; rw [if_pos hx]; simp only [semB]
  | e j t =>
    simp only [initial, decide_eq_true_eq] at hx
    change (semB ((semB h b).O 0) b').E j t = ((semB h b).O 0).get (7 - t)
    unfold Sem.E; rw [if_pos hx]; simp only [semB]
  | c x => simp only [Sem.val, next]
  | _ => cases hx

/-- What is checked of a pair of symbolic machines. -/
def steps (i o : AMach) : Bool :=
  o.env = i.env.map (·.map next) && i.env.all (·.all initial) && i.stores = [] && o.stores = []

theorem steps_mrel (h : St 32) (b b' : Bytes) (i o : AMach) (hs : steps i o = true) (s : Mach) (m : MRel (semB h b) s o) :
    MRel (semB ((semB h b).O 0) b') s i := by
  unfold steps at hs
  simp only [Bool.and_eq_true, decide_eq_true_eq] at hs
  obtain ⟨⟨⟨h1, h2⟩, h3⟩, h4⟩ := hs
  refine ⟨?_, by rw [m.len, h3, h4], by
    intro k d v hk
    obtain ⟨av, h5, _⟩ := m.dst k d v hk
    rw [h4] at h5; cases h5⟩
  intro r l hl x hx
  have he := m.env r l hl
  rw [h1] at he
  rw [List.getD_eq_getElem?_getD] at he hx
  rw [List.getElem?_map] at he
  cases hr : i.env[r]? with
  | none => rw [hr] at hx; cases hx
  | some av =>
    rw [hr] at hx he
    simp only [Option.getD_some] at hx
    have hav : x ∈ av := List.mem_of_getElem? hx
    have hav' : av ∈ i.env := List.mem_of_getElem? hr
    have hini := (List.all_eq_true.1 ((List.all_eq_true.1 h2) av hav')) x hav
    rw [next_val h b b' x hini]
    apply he
    simp only [Option.map_some, Option.getD_some, List.getElem?_map, hx]

/-- The first transform starts the same way with any message. -/
theorem mrel_msg (h : St 32) (b b' : Bytes) (i : AMach) (hi : i.env.all (·.all initial) = true) (hs : i.stores = []) (s : Mach)
    (m : MRel (semB h b) s i) : MRel (semB h b') s i := by
  refine ⟨?_, m.len, by
    intro k d v hk
    obtain ⟨av, h5, _⟩ := m.dst k d v hk
    rw [hs] at h5; cases h5⟩
  intro r l hl x hx
  rw [m.env r l hl x hx]
  rw [List.getD_eq_getElem?_getD] at hx
  cases hr : i.env[r]? with
  | none => rw [hr] at hx; cases hx
  | some av =>
    rw [hr] at hx
    simp only [Option.getD_some] at hx
    have hini := (List.all_eq_true.1 ((List.all_eq_true.1 hi) av (List.mem_of_getElem? hr))) x (List.mem_of_getElem? hx)
    cases x with
    | a j t =>
      simp only [initial, decide_eq_true_eq] at hini
      simp only [Sem.val, Sem.A, if_pos hini, semB]
    | e j t =>
      simp only [initial, decide_eq_true_eq] at hini
      simp only [Sem.val, Sem.E, if_pos hini, semB]
    | c x => simp only [Sem.val]
    | _ => cases hini

theorem semB_O (h : St 32) (b : Bytes) (hb : 64 ≤ b.length) : (semB h b).O 0 = Sha2.comp256 h (b.take 64) := by
  rw [Sha2.comp256_eq]
  refine Sha2.compress_congr Fips.fns256 Fips.K256 _ _ ?_ 64 h
  intro i hi
  simp only [semB, Fips.word]
  rw [Simd.bswap_le _ (by rw [List.length_take, List.length_drop]; omega), List.drop_take, List.take_take, Nat.min_eq_left (by omega)]

theorem loop_mrel (body : List Stmt) (hinted : List (Stmt × Hint)) (hp : hinted.map Prod.fst = body) (hn : body.all Stmt.noSt = true)
    (i o : AMach) (rs : List Nat) (hr : (absRun id (fun _ => 0) hinted i).map (covers · rs o) = some true) (hs : steps i o = true)
    (st : St 32) (blocks : Bytes) (fuel : Nat) : ∀ (off : Nat) (h : St 32) (s : Mach), off ≤ blocks.length → (blocks.length - off) % 64 = 0 →
    blocks.length - off ≤ fuel → MRel (semB h []) s i →
    MRel (semB (Hashes.processBlocks 64 Sha2.comp256 h (blocks.drop off)) []) (blockLoop body st blocks fuel off s) i := by
  have hs' := hs
  unfold steps at hs'
  simp only [Bool.and_eq_true, decide_eq_true_eq] at hs'
  induction fuel with
  | zero =>
    intro off h s h1 _ h3 m
    rw [Hashes.processBlocks_short _ _ _ _ (by rw [List.length_drop]; omega)]
    exact m
  | succ fuel ih =>
    intro off h s h1 h2 h3 m
    unfold blockLoop
    split
    · next hlt =>
      have hb : 64 ≤ (blocks.drop off).length := by rw [List.length_drop]; omega
      rw [Option.map_eq_some_iff] at hr
      obtain ⟨a, ha, hc⟩ := hr
      have R := absRun_sound _ _ _ (semB_good h (blocks.drop off)) hinted s i a (mrel_msg h [] _ i hs'.1.1.2 hs'.1.2 s m) ha
      rw [hp, run_noSt _ _ st body hn] at R
      have R' := steps_mrel h (blocks.drop off) [] i o hs _ (covers_mrel _ _ a o rs hc R)
      have := ih (off + 64) _ _ (by rw [List.length_drop] at hb; omega) (by omega) (by omega) R'
      rw [semB_O h _ hb] at this
      have heq : Hashes.processBlocks 64 Sha2.comp256 h (blocks.drop off) =
          Hashes.processBlocks 64 Sha2.comp256 (Sha2.comp256 h ((blocks.drop off).take 64)) (blocks.drop (off + 64)) := by
        have h64 : ((blocks.drop off).take 64).length = 64 := by rw [List.length_take]; omega
        rw [← List.drop_drop, ← Hashes.processBlocks_one 64 (by omega) Sha2.comp256 h _ h64,
          ← Hashes.processBlocks_append 64 (by omega) _ _ _ _ (by rw [h64]), List.take_append_drop]
      rw [heq]
      exact this
    · next hlt =>
      rw [Hashes.processBlocks_short _ _ _ _ (by rw [List.length_drop]; omega)]
      exact m

theorem vals (h : St 32) (b : Bytes) : (semB h b).val (.a 0 3) = h.a ∧ (semB h b).val (.a 0 2) = h.b ∧ (semB h b).val (.a 0 1) = h.c ∧
    (semB h b).val (.a 0 0) = h.d ∧ (semB h b).val (.e 0 3) = h.e ∧ (semB h b).val (.e 0 2) = h.f ∧ (semB h b).val (.e 0 1) = h.g ∧
    (semB h b).val (.e 0 0) = h.h := by
  refine ⟨?_, ?_, ?_, ?_, ?_, ?_, ?_, ?_⟩ <;> simp [Sem.val, Sem.A, Sem.E, semB, St.get]
theorem sets (s h : St 32) : (((((((((s.set 0 h.a).set (0 + 1) h.b).set (0 + 2) h.c).set (0 + 3) h.d).set 4 h.e).set (4 + 1) h.f).set (4 + 2) h.g).set
    (4 + 3) h.h)) = h := by
  simp only [St.set, Nat.reduceAdd]

theorem list2 {α : Type} (l : List α) (h : l.length = 2) : ∃ a b, l = [a, b] := by
  match l, h with
  | [a, b], _ => exact ⟨a, b, rfl⟩

theorem processBlocks_eq (load body store : List Stmt) (hl hb hs : List (Stmt × Hint)) (pl : hl.map Prod.fst = load) (pb : hb.map Prod.fst = body)
    (ps : hs.map Prod.fst = store) (nb : body.all Stmt.noSt = true) (ns : store.all Stmt.noSt = true) (i o : AMach) (rs : List Nat)
    (al : (absRun id (fun _ => 0) hl start).map (covers · rs i) = some true) (ab : (absRun id (fun _ => 0) hb i).map (covers · rs o) = some true)
    (as : (absRun id (fun _ => 0) hs i).map AMach.stores =
      some [(.st 0, [.a 0 3, .a 0 2, .a 0 1, .a 0 0]), (.st 4, [.e 0 3, .e 0 2, .e 0 1, .e 0 0])]) (hio : steps i o = true)
    (st : St 32) (blocks : Bytes) (h : blocks.length % 64 = 0) :
    processBlocks load body store st blocks = Hashes.processBlocks 64 Sha2.comp256 st blocks := by
  have hio' := hio
  unfold steps at hio'
  simp only [Bool.and_eq_true, decide_eq_true_eq] at hio'
  rw [Option.map_eq_some_iff] at al
  obtain ⟨a, ha, hc⟩ := al
  have R0 := absRun_sound _ _ _ (semB_good st blocks) hl Mach.new start a (mrel_start _) ha
  rw [pl] at R0
  have R1 := mrel_msg st blocks [] i hio'.1.1.2 hio'.1.2 _ (covers_mrel _ _ a i rs hc R0)
  have R2 := loop_mrel body hb pb nb i o rs ab hio st blocks blocks.length 0 st _ (by omega) (by omega) (by omega) R1
  rw [List.drop_zero] at R2
  generalize Hashes.processBlocks 64 Sha2.comp256 st blocks = h' at R2
  rw [Option.map_eq_some_iff] at as
  obtain ⟨a2, ha2, hs2⟩ := as
  have R3 := absRun_sound _ _ _ (semB_good h' blocks) hs _ i a2 (mrel_msg h' [] blocks i hio'.1.1.2 hio'.1.2 _ R2) ha2
  rw [ps, run_noSt _ _ st store ns] at R3
  unfold processBlocks
  simp only []
  generalize runAll ⟨fun _ => blocks, st⟩ store (blockLoop body st blocks blocks.length 0 (runAll ⟨fun _ => blocks, st⟩ load Mach.new)) = s at R3
  have hlen := R3.len
  rw [hs2] at hlen
  obtain ⟨⟨d0, v0⟩, ⟨d1, v1⟩, hst⟩ := list2 s.stores hlen
  have g := R3.dst
  rw [hst, hs2] at g
  obtain ⟨a0, e0, r0⟩ := g 0 d0 v0 rfl
  obtain ⟨a1, e1, r1⟩ := g 1 d1 v1 rfl
  simp only [List.getElem?_cons_zero, List.getElem?_cons_succ, Option.some.injEq, Prod.mk.injEq] at e0 e1
  obtain ⟨e0, e0'⟩ := e0
  obtain ⟨e1, e1'⟩ := e1
  subst e0 e1 e0' e1'
  rw [rel4] at r0 r1
  rw [hst]
  unfold stateOf
  simp only [List.foldl_cons, List.foldl_nil]
  obtain ⟨x0, x1, x2, x3⟩ := r0
  obtain ⟨y0, y1, y2, y3⟩ := r1
  rw [x0, x1, x2, x3, y0, y1, y2, y3]
  simp only [vals h' blocks]
  exact sets st h'

theorem x86ProcessBlocks_eq (st : St 32) (blocks : Bytes) (h : blocks.length % 64 = 0) :
    x86ProcessBlocks st blocks = Hashes.processBlocks 64 Sha2.comp256 st blocks :=
  processBlocks_eq x86Load x86Block x86Store _ _ _ (List.map_fst_zip (by decide +kernel)) (List.map_fst_zip (by decide +kernel))
    (List.map_fst_zip (by decide +kernel)) (by decide +kernel) (by decide +kernel) x86In x86Out [state0, state1, MASK] x86_load x86_block x86_store
    (by decide +kernel) st blocks h
theorem armProcessBlocks_eq (st : St 32) (blocks : Bytes) (h : blocks.length % 64 = 0) :
    armProcessBlocks st blocks = Hashes.processBlocks 64 Sha2.comp256 st blocks :=
  processBlocks_eq armLoad armBlock armStore _ _ _ (List.map_fst_zip (by decide +kernel)) (List.map_fst_zip (by decide +kernel))
    (List.map_fst_zip (by decide +kernel)) (by decide +kernel) (by decide +kernel) armIn armOut [state0, state1] arm_load arm_block arm_store
    (by decide +kernel) st blocks h

end ShaNi
end Btc
