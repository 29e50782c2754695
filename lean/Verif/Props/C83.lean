import Verif.Hashes.Dispatch
import Verif.Hashes.ShaNiBlocks
/-!
# C83: every SHA-256 back end computes SHA-256

Whatever instructions the processor offers, hashing bytes and hashing many 64-byte inputs at once give FIPS 180-4 SHA-256.
-/
namespace Btc
namespace Dispatch
open Sha2 (St comp256 iv256)
open Hashes (Eng splice incompleteLen fillFrom fillTo)

/-- Double SHA-256. -/
def sha256d (x : Bytes) : Bytes := Fips.sha256 (Fips.sha256 x)

/-! ## The back ends -/

/-- The compression of whole blocks: both hardware back ends fold the compression function of FIPS 180-4 over the blocks. -/
theorem C83_process_blocks (c : Cpu) (st : St 32) (blocks : Bytes) (h : blocks.length % 64 = 0) :
    processBlocks c st blocks =
      (Fips.blocks 64 blocks).foldl (fun H b => Fips.compress Fips.fns256 Fips.K256 64 H (Fips.word 32 4 b)) st ∧
    ShaNi.x86ProcessBlocks st blocks = processBlocks c st blocks ∧ ShaNi.armProcessBlocks st blocks = processBlocks c st blocks := by
  have key : processBlocks c st blocks = Hashes.processBlocks 64 comp256 st blocks := by
    unfold processBlocks
    repeat' split
    · exact ShaNi.x86ProcessBlocks_eq st blocks h
    · exact ShaNi.x86ProcessBlocks_eq st blocks h
    · exact ShaNi.armProcessBlocks_eq st blocks h
    · exact ShaNi.armProcessBlocks_eq st blocks h
    · rfl
  refine ⟨?_, by rw [key, ShaNi.x86ProcessBlocks_eq st blocks h], by rw [key, ShaNi.armProcessBlocks_eq st blocks h]⟩
  rw [key, Hashes.processBlocks_foldl]
  rw [show (comp256 : St 32 → Bytes → St 32) = fun H b => Fips.compress Fips.fns256 Fips.K256 64 H (Fips.word 32 4 b) from
    funext fun h => funext fun b => Sha2.comp256_eq h b]

theorem processBlocks_soft (c : Cpu) (st : St 32) (blocks : Bytes) (h : blocks.length % 64 = 0) :
    processBlocks c st blocks = Hashes.processBlocks 64 comp256 st blocks := by
  unfold processBlocks
  repeat' split
  · exact ShaNi.x86ProcessBlocks_eq st blocks h
  · exact ShaNi.x86ProcessBlocks_eq st blocks h
  · exact ShaNi.armProcessBlocks_eq st blocks h
  · exact ShaNi.armProcessBlocks_eq st blocks h
  · rfl

/-- The five ways to hash 64-byte inputs twice, on as many inputs as each takes. -/
theorem C83_ways (outs inps : List Bytes) (ho : ∀ x ∈ outs, x.length = 32) (hi : ∀ x ∈ inps, x.length = 64) :
    (outs.length = 2 → inps.length = 2 → shani outs inps = inps.map sha256d ∧ arm outs inps = inps.map sha256d) ∧
    (inps.length = 8 → avx2 outs inps = inps.map sha256d) ∧
    (inps.length = 4 → sse41 outs inps = inps.map sha256d) ∧
    software outs inps = inps.map sha256d := by
  have soft : inps.map Sha2.sha256d64 = inps.map sha256d := List.map_congr_left fun x hx => Sha2.C62_sha256d_64 x (hi x hx)
  refine ⟨?_, ?_, ?_, soft⟩
  · intro h1 h2
    match outs, h1, inps, h2, ho, hi with
    | [o0, o1], _, [x, y], _, ho, hi =>
      have e1 := ShaNi.x86Sha256d64_eq o0 o1 x y (ho o0 (by simp)) (ho o1 (by simp)) (hi x (by simp)) (hi y (by simp))
      have e2 := ShaNi.armSha256d64_eq o0 o1 x y (ho o0 (by simp)) (ho o1 (by simp)) (hi x (by simp)) (hi y (by simp))
      unfold shani arm
      simp only [List.getD_cons_zero, List.getD_cons_succ, e1, e2, List.map_cons, List.map_nil, sha256d, and_self]
  · intro h
    unfold avx2
    rw [Simd.ways_eq 2 (by omega) inps h hi, soft]
  · intro h
    unfold sse41
    rw [Simd.ways_eq 1 (by omega) inps h hi, soft]

/-! ## Many inputs -/

/-- The first `i` outputs are done. -/
structure Done (inputs : List Bytes) (s : List Bytes × Nat) : Prop where
  le : s.2 ≤ inputs.length
  len : s.1.length = inputs.length
  out : ∀ x ∈ s.1, x.length = 32
  done : s.1.take s.2 = (inputs.take s.2).map sha256d

theorem sha256d_length (x : Bytes) : (sha256d x).length = 32 := by
  unfold sha256d Fips.sha256 Fips.hash
  simp [St.toList]

theorem ways_done (n : Nat) (f : List Bytes → List Bytes → List Bytes) (inputs : List Bytes)
    (hf : ∀ outs inps, outs.length = n → inps.length = n → (∀ x ∈ outs, x.length = 32) → (∀ x ∈ inps, x.length = 64) → f outs inps = inps.map sha256d)
    (hi : ∀ x ∈ inputs, x.length = 64) (fuel : Nat) (s : List Bytes × Nat) (h : Done inputs s) (hn : 0 < n) :
    Done inputs (ways n f inputs fuel s) ∧ (n = 1 → inputs.length - s.2 ≤ fuel → (ways n f inputs fuel s).2 = inputs.length) := by
  induction fuel generalizing s with
  | zero => exact ⟨h, fun _ hl => by have := h.le; change s.2 = _; omega⟩
  | succ fuel ih =>
    obtain ⟨outs, i⟩ := s
    unfold ways
    split
    · next hge =>
      obtain ⟨h1, h2, h3, h4⟩ := h
      simp only at h1 h2 h3 h4
      have hfe : f ((outs.drop i).take n) ((inputs.drop i).take n) = ((inputs.drop i).take n).map sha256d := by
        apply hf
        · rw [List.length_take, List.length_drop]; omega
        · rw [List.length_take, List.length_drop]; omega
        · intro x hx; exact h3 x (List.mem_of_mem_drop (List.mem_of_mem_take hx))
        · intro x hx; exact hi x (List.mem_of_mem_drop (List.mem_of_mem_take hx))
      have hlen : ((inputs.drop i).take n).length = n := by rw [List.length_take, List.length_drop]; omega
      have hD : Done inputs (outs.take i ++ f ((outs.drop i).take n) ((inputs.drop i).take n) ++ outs.drop (i + n), i + n) := by
        rw [hfe]
        refine ⟨by simp only; omega, ?_, ?_, ?_⟩
        · simp only [List.length_append, List.length_take, List.length_map, List.length_drop]; omega
        · intro x hx
          simp only [List.mem_append, List.mem_map] at hx
          rcases hx with (hx | ⟨y, _, rfl⟩) | hx
          · exact h3 x (List.mem_of_mem_take hx)
          · exact sha256d_length y
          · exact h3 x (List.mem_of_mem_drop hx)
        · simp only
          have hl : (outs.take i ++ ((inputs.drop i).take n).map sha256d).length = i + n := by
            rw [List.length_append, List.length_map, hlen, List.length_take]; omega
          rw [List.take_left' hl, h4, ← List.map_append, List.take_add]
      obtain ⟨g1, g2⟩ := ih _ hD
      exact ⟨g1, fun e1 e2 => g2 e1 (by simp only at e2 ⊢; omega)⟩
    · next hlt => exact ⟨h, fun e1 e2 => by have := h.le; simp only at this ⊢; omega⟩

theorem waysIf_done (b : Bool) (n : Nat) (f : List Bytes → List Bytes → List Bytes) (inputs : List Bytes)
    (hf : ∀ outs inps, outs.length = n → inps.length = n → (∀ x ∈ outs, x.length = 32) → (∀ x ∈ inps, x.length = 64) → f outs inps = inps.map sha256d)
    (hi : ∀ x ∈ inputs, x.length = 64) (s : List Bytes × Nat) (h : Done inputs s) (hn : 0 < n) : Done inputs (waysIf b n f inputs s) := by
  unfold waysIf
  split
  · exact (ways_done n f inputs hf hi _ s h hn).1
  · exact h

/-- On every processor `hash_64_many` panics exactly when the slices have different lengths, and otherwise fills the outputs with the
double SHA-256 of the inputs, in order and whatever was in them. -/
theorem C83_hash_64_many (c : Cpu) (outputs inputs : List Bytes) (ho : ∀ x ∈ outputs, x.length = 32) (hi : ∀ x ∈ inputs, x.length = 64) :
    hash64Many c outputs inputs =
      if outputs.length = inputs.length then some (inputs.map fun x => Fips.sha256 (Fips.sha256 x)) else none := by
  unfold hash64Many
  by_cases hl : outputs.length = inputs.length
  · rw [if_neg (by simpa using hl), if_pos hl]
    simp only
    have d : Done inputs (outputs, 0) := ⟨Nat.zero_le _, hl, ho, by simp⟩
    have fs : ∀ outs inps : List Bytes, outs.length = 2 → inps.length = 2 → (∀ x ∈ outs, x.length = 32) → (∀ x ∈ inps, x.length = 64) →
        shani outs inps = inps.map sha256d := fun o i h1 h2 h3 h4 => ((C83_ways o i h3 h4).1 h1 h2).1
    have fa : ∀ outs inps : List Bytes, outs.length = 2 → inps.length = 2 → (∀ x ∈ outs, x.length = 32) → (∀ x ∈ inps, x.length = 64) →
        arm outs inps = inps.map sha256d := fun o i h1 h2 h3 h4 => ((C83_ways o i h3 h4).1 h1 h2).2
    have f8 : ∀ outs inps : List Bytes, outs.length = 8 → inps.length = 8 → (∀ x ∈ outs, x.length = 32) → (∀ x ∈ inps, x.length = 64) →
        avx2 outs inps = inps.map sha256d := fun o i _ h2 h3 h4 => (C83_ways o i h3 h4).2.1 h2
    have f4 : ∀ outs inps : List Bytes, outs.length = 4 → inps.length = 4 → (∀ x ∈ outs, x.length = 32) → (∀ x ∈ inps, x.length = 64) →
        sse41 outs inps = inps.map sha256d := fun o i _ h2 h3 h4 => (C83_ways o i h3 h4).2.2.1 h2
    have f1 : ∀ outs inps : List Bytes, outs.length = 1 → inps.length = 1 → (∀ x ∈ outs, x.length = 32) → (∀ x ∈ inps, x.length = 64) →
        software outs inps = inps.map sha256d := fun o i _ _ h3 h4 => (C83_ways o i h3 h4).2.2.2
    have d := waysIf_done (c.std && c.x86 && (c.sse41 && c.sha && c.sse2 && c.ssse3)) 2 shani inputs fs hi _ d (by omega)
    have d := waysIf_done (c.cpufeatures && c.x86 && c.cpuidSha) 2 shani inputs fs hi _ d (by omega)
    have d := waysIf_done (c.std && c.aarch64 && c.sha2) 2 arm inputs fa hi _ d (by omega)
    have d := waysIf_done (c.cpufeatures && c.aarch64 && c.cpuidSha2) 2 arm inputs fa hi _ d (by omega)
    have d := waysIf_done (c.std && c.x86 && (c.avx && c.avx2)) 8 avx2 inputs f8 hi _ d (by omega)
    have d := waysIf_done (c.cpufeatures && c.x86 && c.cpuidAvx2) 8 avx2 inputs f8 hi _ d (by omega)
    have d := waysIf_done (c.std && c.x86 && (c.sse41 && c.sse2 && c.ssse3)) 4 sse41 inputs f4 hi _ d (by omega)
    have d := waysIf_done (c.cpufeatures && c.x86 && c.cpuidSse41) 4 sse41 inputs f4 hi _ d (by omega)
    obtain ⟨g, e⟩ := ways_done 1 software inputs f1 hi inputs.length _ d (by omega)
    have e := e rfl (Nat.sub_le _ _)
    have hdone := g.done
    rw [e, List.take_length, List.take_of_length_le (by rw [g.len]; exact Nat.le_refl _)] at hdone
    rw [hdone]
    rfl
  · rw [if_pos (by simpa using hl), if_neg hl]

/-! ## The engine -/

theorem input_eq (c : Cpu) (e : Eng (St 32)) (he : e.buffer.length = 64) (inp : Bytes) : input c e inp = Sha2.input256 e inp := by
  unfold input Sha2.input256 Eng.input
  simp only
  have hi : incompleteLen 64 e < 64 := Nat.mod_lt _ (by omega)
  split
  · rfl
  · next hge =>
    split
    · next hpos =>
      simp only
      rw [processBlocks_soft c e.h _ (by rw [Hashes.splice_length _ _ _ (by rw [List.length_take]; omega), he])]
      rw [processBlocks_soft c _ ((List.drop (64 - incompleteLen 64 e) inp).take _) (by rw [List.length_take]; omega)]
    · simp only
      rw [processBlocks_soft c _ (inp.take _) (by rw [List.length_take]; omega)]

theorem input_buffer (e : Eng (St 32)) (he : e.buffer.length = 64) (inp : Bytes) : (Sha2.input256 e inp).buffer.length = 64 := by
  unfold Sha2.input256 Eng.input
  simp only
  have hi : incompleteLen 64 e < 64 := Nat.mod_lt _ (by omega)
  split
  · next h => simp only; rw [Hashes.splice_length _ _ _ (by omega), he]
  · next hge =>
    split
    · next hpos =>
      simp only
      have hb : (splice e.buffer (incompleteLen 64 e) (inp.take (64 - incompleteLen 64 e))).length = 64 := by
        rw [Hashes.splice_length _ _ _ (by rw [List.length_take]; omega), he]
      rw [Hashes.splice_length _ _ _ (by rw [hb, List.length_drop]; omega), hb]
    · simp only
      rw [Hashes.splice_length _ _ _ (by rw [he, List.length_drop]; omega), he]

theorem finish_eq (c : Cpu) (e : Eng (St 32)) (he : e.buffer.length = 64) : finish c e = Sha2.finish256 e := by
  unfold finish Sha2.finish256 Eng.finish
  simp only
  have hi : incompleteLen 64 e < 64 := Nat.mod_lt _ (by omega)
  have hb : (fillFrom (splice e.buffer (incompleteLen 64 e) [0x80]) (incompleteLen 64 e + 1)).length = 64 := by
    have : (splice e.buffer (incompleteLen 64 e) [0x80]).length = 64 := by
      rw [Hashes.splice_length _ _ _ (by simp only [List.length_cons, List.length_nil]; omega), he]
    unfold fillFrom
    rw [List.length_append, List.length_take, List.length_replicate]; omega
  split
  · simp only
    rw [processBlocks_soft c e.h _ (by rw [hb])]
    rw [processBlocks_soft c _ _ (by
      rw [Hashes.splice_length _ _ _ (by unfold fillTo; simp; omega)]
      unfold fillTo; simp; omega)]
  · simp only
    rw [processBlocks_soft c _ _ (by rw [Hashes.splice_length _ _ _ (by simp; omega), hb])]

theorem inputs_eq (c : Cpu) (xs : List Bytes) (e : Eng (St 32)) (he : e.buffer.length = 64) :
    xs.foldl (input c) e = xs.foldl Sha2.input256 e ∧ (xs.foldl Sha2.input256 e).buffer.length = 64 := by
  induction xs generalizing e with
  | nil => exact ⟨rfl, he⟩
  | cons x xs ih =>
    simp only [List.foldl_cons]
    rw [input_eq c e he x]
    exact ih _ (input_buffer e he x)

/-- SHA-256 of the crate on every processor, whatever the sequence of `input` calls, is FIPS 180-4 SHA-256. -/
theorem C83_sha256 (c : Cpu) (xs : List Bytes) (hlen : xs.flatten.length < 2 ^ 61) :
    finish c (xs.foldl (input c) Sha2.new256) = Fips.sha256 xs.flatten := by
  have h0 : Sha2.new256.buffer.length = 64 := by simp [Sha2.new256, Eng.new]
  obtain ⟨h1, h2⟩ := inputs_eq c xs Sha2.new256 h0
  rw [h1, finish_eq c _ h2, Sha2.C62_sha256 xs hlen]

/-! ## Merkle roots -/

theorem mem_chunks2 {β : Type} (f : Bytes → Bytes → β) (P : β → Prop) (hP : ∀ a b, a.length = 32 → b.length = 32 → P (f a b)) :
    ∀ l : List Bytes, (∀ x ∈ l, x.length = 32) → ∀ y ∈ Merkle.chunks2 f l, P y
  | [], _, y, hy => by simp [Merkle.chunks2] at hy
  | [_], _, y, hy => by simp [Merkle.chunks2] at hy
  | a :: b :: t, h, y, hy => by
    simp only [Merkle.chunks2, List.mem_cons] at hy
    rcases hy with rfl | hy
    · exact hP a b (h a (by simp)) (h b (by simp))
    · exact mem_chunks2 f P hP t (fun x hx => h x (by simp [hx])) y hy

theorem map_chunks2 {β γ : Type} (f : Bytes → Bytes → β) (g : β → γ) (f' : Bytes → Bytes → γ)
    (hf : ∀ a b, a.length = 32 → b.length = 32 → g (f a b) = f' a b) :
    ∀ l : List Bytes, (∀ x ∈ l, x.length = 32) → (Merkle.chunks2 f l).map g = Merkle.chunks2 f' l
  | [], _ => rfl
  | [_], _ => rfl
  | a :: b :: t, h => by
    simp only [Merkle.chunks2, List.map_cons]
    rw [hf a b (h a (by simp)) (h b (by simp)), map_chunks2 f g f' hf t (fun x hx => h x (by simp [hx]))]

theorem chunks2_length {β : Type} (f : Bytes → Bytes → β) : ∀ l : List Bytes, (Merkle.chunks2 f l).length = l.length / 2
  | [] => rfl
  | [_] => by simp [Merkle.chunks2]
  | a :: b :: t => by simp only [Merkle.chunks2, List.length_cons, chunks2_length f t]; omega

theorem pad_32 (l : List Bytes) (h : ∀ x ∈ l, x.length = 32) : ∀ x ∈ Merkle.pad l, x.length = 32 := by
  unfold Merkle.pad
  split
  · split
    · next y hy =>
      intro x hx
      simp only [List.mem_append, List.mem_singleton] at hx
      rcases hx with hx | rfl
      · exact h x hx
      · exact h x (List.mem_of_getLast? hy)
    · exact h
  · exact h

/-- The parent of two nodes. -/
def parent (a b : Bytes) : Bytes := Fips.sha256 (Fips.sha256 (a ++ b))

theorem block_eq (a b : Bytes) (ha : a.length = 32) (hb : b.length = 32) : splice (splice (List.replicate 64 0) 0 a) 32 b = a ++ b := by
  unfold splice
  rw [List.take_zero, List.nil_append, ha, hb, List.take_left' ha, List.drop_of_length_le (by simp [ha]), List.append_nil]

theorem rootLoop_eq (c : Cpu) (fuel : Nat) (nodes : List Bytes) (h : ∀ x ∈ nodes, x.length = 32) (hf : nodes.length ≤ fuel) :
    rootLoop c fuel nodes = some (Merkle.batchLoop parent fuel nodes) := by
  induction fuel generalizing nodes with
  | zero =>
    unfold rootLoop Merkle.batchLoop
    rw [if_neg (by omega)]
  | succ fuel ih =>
    unfold rootLoop Merkle.batchLoop
    split
    · next hlt =>
      split
      · rfl
      · simp only
        have hp := pad_32 nodes h
        rw [C83_hash_64_many c _ _ (by intro x hx; rw [List.eq_of_mem_replicate hx, List.length_replicate])
          (mem_chunks2 _ (fun y : Bytes => y.length = 64) (fun a b ha hb => by rw [block_eq a b ha hb]; simp [ha, hb]) _ hp),
          if_pos (by rw [List.length_replicate, chunks2_length]),
          map_chunks2 _ _ parent (fun a b ha hb => by rw [block_eq a b ha hb]; rfl) _ hp, Option.bind_some]
        have hpl : (Merkle.pad nodes).length ≤ nodes.length + 1 := by
          unfold Merkle.pad
          repeat' split
          · simp
          · omega
          · omega
        refine ih _ (mem_chunks2 _ (fun y : Bytes => y.length = 32) (fun a b _ _ => sha256d_length (a ++ b)) _ hp) ?_
        rw [chunks2_length]; omega
    · rfl

/-- The batched computation of merkle roots does not depend on the processor: it never panics and is the algorithm of C20 with double
SHA-256 of the concatenation. -/
theorem C83_merkle_root (c : Cpu) (nodes : List Bytes) (h : ∀ x ∈ nodes, x.length = 32) :
    rootBatched c nodes = some (Merkle.calculateRootBatched (fun a b => Fips.sha256 (Fips.sha256 (a ++ b))) nodes) := by
  unfold rootBatched Merkle.calculateRootBatched
  split
  · rfl
  · rw [rootLoop_eq c _ nodes h (Nat.le_refl _)]
    rfl

/-! ## Examples -/

/-- An x86 processor with the SHA extensions, and one without but with AVX2 seen by `cpufeatures` only. -/
def shaniCpu : Cpu := ⟨true, false, true, false, true, true, true, true, true, true, false, false, false, false, false⟩
def avx2Cpu : Cpu := ⟨false, true, true, false, false, false, false, false, false, false, false, false, false, true, false⟩

/-- Hypotheses of `C83_process_blocks`, on a processor that takes the SHA-NI branch. -/
example : processBlocks shaniCpu iv256 (List.replicate 128 5) = ShaNi.x86ProcessBlocks iv256 (List.replicate 128 5) ∧
    processBlocks shaniCpu iv256 (List.replicate 128 5) = Hashes.processBlocks 64 comp256 iv256 (List.replicate 128 5) ∧
    (List.replicate 128 (5 : UInt8)).length % 64 = 0 :=
  ⟨((C83_process_blocks shaniCpu iv256 (List.replicate 128 5) (by simp)).2.1).symm, processBlocks_soft _ _ _ (by simp), by simp⟩

/-- Three inputs: two at once by SHA-NI, the third in software. -/
example : hash64Many shaniCpu (List.replicate 3 (List.replicate 32 9)) [List.replicate 64 0, List.replicate 64 7, List.replicate 64 0] =
    some [[226, 246, 28, 63, 113, 209, 222, 253, 63, 169, 153, 223, 163, 105, 83, 117, 92, 105, 6, 137, 121, 153, 98, 180, 139, 235, 216, 54, 151, 78, 140, 249],
      [166, 91, 23, 162, 124, 131, 204, 95, 164, 84, 106, 176, 191, 145, 187, 217, 223, 227, 39, 192, 18, 246, 37, 176, 214, 240, 109, 242, 54, 116, 52, 57],
      [226, 246, 28, 63, 113, 209, 222, 253, 63, 169, 153, 223, 163, 105, 83, 117, 92, 105, 6, 137, 121, 153, 98, 180, 139, 235, 216, 54, 151, 78, 140, 249]] := by
  rw [C83_hash_64_many _ _ _ (by decide) (by decide), if_pos (by decide)]
  simp only [List.map_cons, List.map_nil]
  rw [← Sha2.C62_sha256d_64 (List.replicate 64 0) (by decide), ← Sha2.C62_sha256d_64 (List.replicate 64 7) (by decide)]
  decide +kernel
example : hash64Many avx2Cpu [] [List.replicate 64 0] = none := by
  rw [C83_hash_64_many _ _ _ (by decide) (by decide), if_neg (by decide)]
/-- `C83_ways` with two inputs. -/
example : shani [List.replicate 32 1, List.replicate 32 2] [List.replicate 64 0, List.replicate 64 7] =
    [[226, 246, 28, 63, 113, 209, 222, 253, 63, 169, 153, 223, 163, 105, 83, 117, 92, 105, 6, 137, 121, 153, 98, 180, 139, 235, 216, 54, 151, 78, 140, 249],
      [166, 91, 23, 162, 124, 131, 204, 95, 164, 84, 106, 176, 191, 145, 187, 217, 223, 227, 39, 192, 18, 246, 37, 176, 214, 240, 109, 242, 54, 116, 52, 57]] := by
  rw [((C83_ways _ _ (by decide) (by decide)).1 rfl rfl).1]
  simp only [List.map_cons, List.map_nil, sha256d]
  rw [← Sha2.C62_sha256d_64 (List.replicate 64 0) (by decide), ← Sha2.C62_sha256d_64 (List.replicate 64 7) (by decide)]
  decide +kernel

/-- "abc" in two pieces. -/
example : finish shaniCpu ([[97], [98, 99]].foldl (input shaniCpu) Sha2.new256) =
    [186, 120, 22, 191, 143, 1, 207, 234, 65, 65, 64, 222, 93, 174, 34, 35, 176, 3, 97, 163, 150, 23, 122, 156, 180, 16, 255, 97, 242, 0, 21, 173] := by
  rw [C83_sha256 shaniCpu _ (by decide), ← Sha2.sha256_eq _ (by decide)]
  decide +kernel

/-- Three leaves. -/
example : rootBatched avx2Cpu [List.replicate 32 1, List.replicate 32 2, List.replicate 32 3] =
    some (some [34, 62, 2, 63, 173, 241, 240, 83, 223, 38, 152, 136, 113, 248, 147, 200, 33, 194, 142, 223, 119, 214, 74, 149, 94, 108, 42, 2, 213, 71, 189, 172]) := by
  rw [C83_merkle_root _ _ (by decide)]
  have h : ∀ a b : Bytes, a.length = 32 → b.length = 32 → Fips.sha256 (Fips.sha256 (a ++ b)) = Sha2.sha256d64 (a ++ b) :=
    fun a b ha hb => (Sha2.C62_sha256d_64 _ (by simp [ha, hb])).symm
  have e1 := h (List.replicate 32 1) (List.replicate 32 2) (by decide) (by decide)
  have e2 := h (List.replicate 32 3) (List.replicate 32 3) (by decide) (by decide)
  have e3 := h (Sha2.sha256d64 (List.replicate 32 1 ++ List.replicate 32 2)) (Sha2.sha256d64 (List.replicate 32 3 ++ List.replicate 32 3))
    (by decide +kernel) (by decide +kernel)
  have step : Merkle.calculateRootBatched (fun a b => Fips.sha256 (Fips.sha256 (a ++ b)))
      [List.replicate 32 1, List.replicate 32 2, List.replicate 32 3] =
      if Sha2.sha256d64 (List.replicate 32 1 ++ List.replicate 32 2) = Sha2.sha256d64 (List.replicate 32 3 ++ List.replicate 32 3) then none
      else some (Sha2.sha256d64 (Sha2.sha256d64 (List.replicate 32 1 ++ List.replicate 32 2) ++
        Sha2.sha256d64 (List.replicate 32 3 ++ List.replicate 32 3))) := by
    unfold Merkle.calculateRootBatched
    rw [if_neg (by decide), show [List.replicate 32 (1 : UInt8), List.replicate 32 2, List.replicate 32 3].length = 3 from rfl, Merkle.batchLoop,
      if_pos (by decide), if_neg (by decide),
      show Merkle.pad [List.replicate 32 (1 : UInt8), List.replicate 32 2, List.replicate 32 3] =
        [List.replicate 32 1, List.replicate 32 2, List.replicate 32 3, List.replicate 32 3] from by decide]
    simp only [Merkle.chunks2, e1, e2]
    rw [Merkle.batchLoop]
    simp only [Merkle.chunks2, Merkle.pad, List.length_cons, List.length_nil, Nat.reduceAdd, Nat.reduceMod, gt_iff_lt, Nat.reduceLT, if_true,
      ne_eq, not_true_eq_false, if_false, e3, List.any_cons, List.any_nil, Bool.or_false, id_eq, decide_eq_true_eq]
    split
    · rfl
    · rfl
  rw [step]
  decide +kernel

end Dispatch
end Btc
