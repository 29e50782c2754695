import Verif.Addresses.Bech32
import Verif.Script.Laws
/-!
# Laws of the bech32 codec
-/
namespace Btc.Bech32

/-! ## The checksum -/

theorem gen_xor (s t : BitVec 5) : gen (s ^^^ t) = gen s ^^^ gen t := by
  unfold gen
  simp only [BitVec.getLsbD_xor]
  have key : ∀ (p q : Bool) (g : BitVec 30), (if p ^^ q then g else 0#30) = (if p then g else 0#30) ^^^ (if q then g else 0#30) := by
    intro p q g
    cases p <;> cases q <;> simp
  simp only [key]
  ac_rfl

theorem step_xor (a b : BitVec 30) (u v : Fe) : step (a ^^^ b) (u ^^^ v) = step a u ^^^ step b v := by
  unfold step
  have h1 : (a ^^^ b) <<< 5 = (a <<< 5) ^^^ (b <<< 5) := by
    apply BitVec.eq_of_getLsbD_eq; intro i hi
    simp only [BitVec.getLsbD_xor, BitVec.getLsbD_shiftLeft]
    cases decide (i < 5) <;> simp [hi]
  have h2 : (u ^^^ v).setWidth 30 = u.setWidth 30 ^^^ v.setWidth 30 := by
    apply BitVec.eq_of_getLsbD_eq; intro i hi
    simp only [BitVec.getLsbD_xor, BitVec.getLsbD_setWidth, Bool.and_xor_distrib_left]
  have h3 : (a ^^^ b).extractLsb' 25 5 = a.extractLsb' 25 5 ^^^ b.extractLsb' 25 5 := by
    apply BitVec.eq_of_getLsbD_eq; intro i hi
    simp only [BitVec.getLsbD_xor, BitVec.getLsbD_extractLsb', Bool.and_xor_distrib_left]
  rw [h1, h2, h3, gen_xor]
  ac_rfl

theorem run_split : ∀ (d : List Fe) (a b : BitVec 30), d.foldl step (a ^^^ b) = (List.replicate d.length 0#5).foldl step a ^^^ d.foldl step b
  | [], _, _ => rfl
  | v :: d, a, b => by
    simp only [List.foldl_cons, List.length_cons, List.replicate_succ]
    rw [← run_split d, ← step_xor, BitVec.zero_xor]

theorem step_small (c : BitVec 30) (v : Fe) (h : c.extractLsb' 25 5 = 0#5) : step c v = (c <<< 5) ^^^ v.setWidth 30 := by
  unfold step
  rw [h]
  have : gen 0#5 = 0#30 := by decide
  rw [this, BitVec.xor_zero]

theorem run6 (a b c d e f : Fe) : [a, b, c, d, e, f].foldl step 0#30 = a ++ b ++ c ++ d ++ e ++ f := by
  have key : ∀ (n : Nat) (x : BitVec n) (v : Fe), n ≤ 25 → step (x.setWidth 30) v = (x ++ v).setWidth 30 := by
    intro n x v hn
    rw [step_small]
    · apply BitVec.eq_of_getLsbD_eq; intro i hi
      simp only [BitVec.getLsbD_xor, BitVec.getLsbD_shiftLeft, BitVec.getLsbD_setWidth, BitVec.getLsbD_append]
      by_cases h : i < 5
      · simp [h, hi]
      · have hv : v.getLsbD i = false := BitVec.getLsbD_of_ge _ _ (by omega)
        simp [h, hi, hv]
        intro _
        omega
    · apply BitVec.eq_of_getLsbD_eq; intro i hi
      simp only [BitVec.getLsbD_extractLsb', BitVec.getLsbD_setWidth, BitVec.getLsbD_zero]
      rw [BitVec.getLsbD_of_ge x _ (by omega)]
      simp
  simp only [List.foldl_cons, List.foldl_nil]
  have h0 : (0#30 : BitVec 30) = (0#0).setWidth 30 := by decide
  rw [h0, key 0 _ a (by omega), key _ _ b (by omega), key _ _ c (by omega), key _ _ d (by omega), key _ _ e (by omega), key _ _ f (by omega)]
  apply BitVec.eq_of_getLsbD_eq; intro i hi
  simp only [BitVec.getLsbD_setWidth, BitVec.getLsbD_append, BitVec.getLsbD_zero]
  grind

theorem split6_append (a b c d e f : Fe) : split6 (a ++ b ++ c ++ d ++ e ++ f) = [a, b, c, d, e, f] := by
  unfold split6
  simp only [List.cons.injEq, and_true]
  refine ⟨?_, ?_, ?_, ?_, ?_, ?_⟩ <;>
  · apply BitVec.eq_of_getLsbD_eq; intro i hi
    simp only [BitVec.getLsbD_extractLsb', BitVec.getLsbD_append]
    grind

theorem append_split6 (p : BitVec 30) : ∃ a b c d e f : Fe, split6 p = [a, b, c, d, e, f] ∧ p = a ++ b ++ c ++ d ++ e ++ f := by
  refine ⟨_, _, _, _, _, _, rfl, ?_⟩
  apply BitVec.eq_of_getLsbD_eq; intro i hi
  simp only [BitVec.getLsbD_extractLsb', BitVec.getLsbD_append]
  grind

theorem run_zeros_split6 (s p : BitVec 30) (d : List Fe) (hd : d.length = 6) :
    d.foldl step s = p ↔ d = split6 ((List.replicate 6 0#5).foldl step s ^^^ p) := by
  match d, hd with
  | [a, b, c, e, f, g], _ =>
    have h := run_split [a, b, c, e, f, g] s 0#30
    rw [BitVec.xor_zero, run6] at h
    rw [h]
    simp only [List.length_cons, List.length_nil]
    generalize (List.replicate 6 0#5).foldl step s = z
    constructor
    · intro hp
      rw [← hp, ← BitVec.xor_assoc, BitVec.xor_self, BitVec.zero_xor, split6_append]
    · intro hp
      obtain ⟨a', b', c', d', e', f', h1, h2⟩ := append_split6 (z ^^^ p)
      rw [h1] at hp
      injection hp with p1 hp; injection hp with p2 hp; injection hp with p3 hp
      injection hp with p4 hp; injection hp with p5 hp; injection hp with p6 hp
      rw [p1, p2, p3, p4, p5, p6, ← h2, ← BitVec.xor_assoc, BitVec.xor_self, BitVec.zero_xor]

theorem split6_length (p : BitVec 30) : (split6 p).length = 6 := rfl

/-- The checksum verifies exactly when it is the one that is created. -/
theorem verify_iff (hrp : Bytes) (data ck : List Fe) (c : BitVec 30) (h : ck.length = 6) :
    verifyChecksum hrp (data ++ ck) c = true ↔ ck = createChecksum hrp data c := by
  unfold verifyChecksum createChecksum polymod
  rw [beq_iff_eq, ← List.append_assoc, List.foldl_append, List.foldl_append (l' := List.replicate 6 0#5)]
  exact run_zeros_split6 _ _ _ h

/-! ## Characters -/

theorem feOf_charOf : ∀ f : Fe, feOf (charOf f) = some f := by decide
theorem feOf_upper : ∀ f : Fe, feOf (upper (charOf f)) = some f := by decide
theorem charOf_class : ∀ f : Fe, charOf f ≠ 49 ∧ isUpper (charOf f) = false ∧ lower (charOf f) = charOf f := by decide

set_option maxRecDepth 20000 in
theorem feOf_some (c : UInt8) (f : Fe) (h : feOf c = some f) : lower c = charOf f ∧ c ≠ 49 := by
  have key : ∀ c : UInt8, (match feOf c with | some f => decide (lower c = charOf f ∧ c ≠ 49) | none => true) = true := by
    apply Scr.forall_u8; decide
  have := key c
  rw [h] at this
  exact of_decide_eq_true this

set_option maxRecDepth 20000 in
theorem case_facts (c : UInt8) : (isUpper c = false → lower c = c) ∧ (isLower c = false → upper (lower c) = c) ∧ isUpper (lower c) = false ∧
    (upper c = 49 ↔ c = 49) ∧ (lower c = 49 ↔ c = 49) ∧ isLower (upper c) = false ∧ (isUpper c = false → lower (upper c) = c) := by
  revert c; apply Scr.forall_u8; decide

theorem fesOf_map (g : UInt8 → UInt8) (hg : ∀ f : Fe, feOf (g (charOf f)) = some f) : ∀ fs : List Fe, fesOf ((fs.map charOf).map g) = some fs
  | [] => rfl
  | f :: fs => by
    simp only [List.map_cons, fesOf, hg f, fesOf_map g hg fs]

theorem fesOf_some : ∀ (s : Bytes) (fs : List Fe), fesOf s = some fs → s.map lower = fs.map charOf ∧ 49 ∉ s
  | [], fs, h => by
    simp only [fesOf, Option.some.injEq] at h
    subst h; simp
  | c :: s, fs, h => by
    simp only [fesOf] at h
    cases h1 : feOf c with
    | none => rw [h1] at h; cases h
    | some f =>
      cases h2 : fesOf s with
      | none => rw [h1, h2] at h; cases h
      | some fs' =>
        rw [h1, h2] at h
        simp only [Option.some.injEq] at h
        subst h
        obtain ⟨a, b⟩ := feOf_some c f h1
        obtain ⟨i1, i2⟩ := fesOf_some s fs' h2
        refine ⟨by rw [List.map_cons, a, i1]; rfl, ?_⟩
        intro hm
        rcases List.mem_cons.mp hm with hm | hm
        · exact b hm.symm
        · exact i2 hm

/-! ## The separator -/

theorem splitSep_none : ∀ d : Bytes, 49 ∉ d → splitSep d = none
  | [], _ => rfl
  | c :: d, h => by
    simp only [splitSep]
    rw [splitSep_none d (fun hm => h (List.mem_cons_of_mem _ hm))]
    simp only []
    rw [if_neg (fun he => h (by rw [he]; exact List.mem_cons_self))]

theorem splitSep_append : ∀ (h d : Bytes), 49 ∉ d → splitSep (h ++ 49 :: d) = some (h, d)
  | [], d, hd => by
    simp only [List.nil_append, splitSep]
    rw [splitSep_none d hd]
    rfl
  | c :: h, d, hd => by
    simp only [List.cons_append, splitSep]
    rw [splitSep_append h d hd]

theorem splitSep_some : ∀ (s h d : Bytes), splitSep s = some (h, d) → s = h ++ 49 :: d
  | [], _, _, e => by simp [splitSep] at e
  | c :: s, h, d, e => by
    simp only [splitSep] at e
    cases hs : splitSep s with
    | some p =>
      rw [hs] at e
      obtain ⟨h', d'⟩ := p
      simp only [Option.some.injEq, Prod.mk.injEq] at e
      obtain ⟨rfl, rfl⟩ := e
      rw [splitSep_some s h' d' hs]; rfl
    | none =>
      rw [hs] at e
      simp only [] at e
      split at e
      · rename_i hc
        simp only [Option.some.injEq, Prod.mk.injEq] at e
        obtain ⟨rfl, rfl⟩ := e
        rw [hc]; rfl
      · cases e

/-! ## Regrouping -/

theorem bits5_val : ∀ f : Fe, BitVec.ofNat 5 (bitVal (bits5 f)) = f := by decide
set_option maxRecDepth 20000 in
theorem bits8_val (b : UInt8) : UInt8.ofNat (bitVal (bits8 b)) = b := by
  revert b; apply Scr.forall_u8; decide
theorem val_bits5 : ∀ a b c d e : Bool, bits5 (BitVec.ofNat 5 (bitVal [a, b, c, d, e])) = [a, b, c, d, e] := by decide
theorem val_bits8 : ∀ a b c d e f g h : Bool, bits8 (UInt8.ofNat (bitVal [a, b, c, d, e, f, g, h])) = [a, b, c, d, e, f, g, h] := by decide

theorem bits8_length (bs : Bytes) : (bs.flatMap bits8).length = 8 * bs.length := by
  induction bs with
  | nil => rfl
  | cons b bs ih => rw [List.flatMap_cons, List.length_append, ih, List.length_cons]; simp [bits8]; omega
theorem bits5_length (fs : List Fe) : (fs.flatMap bits5).length = 5 * fs.length := by
  induction fs with
  | nil => rfl
  | cons b bs ih => rw [List.flatMap_cons, List.length_append, ih, List.length_cons]; simp [bits5]; omega

/-- Bits of the groups: the bits and up to four zeros. -/
theorem group5_bits : ∀ l : List Bool, ∃ z, z ≤ 4 ∧ (group5 l).flatMap bits5 = l ++ List.replicate z false
  | [] => ⟨0, by omega, rfl⟩
  | [a] => ⟨4, by omega, by simp [group5, val_bits5]⟩
  | [a, b] => ⟨3, by omega, by simp [group5, val_bits5]⟩
  | [a, b, c] => ⟨2, by omega, by simp [group5, val_bits5]⟩
  | [a, b, c, d] => ⟨1, by omega, by simp [group5, val_bits5]⟩
  | a :: b :: c :: d :: e :: rest => by
    obtain ⟨z, h1, h2⟩ := group5_bits rest
    exact ⟨z, h1, by simp only [group5, List.flatMap_cons, val_bits5, h2]; simp⟩

theorem group5_of_bits : ∀ fs : List Fe, group5 (fs.flatMap bits5) = fs
  | [] => rfl
  | f :: fs => by
    have := group5_of_bits fs
    have hb := bits5_val f
    simp only [bits5] at hb
    simp only [List.flatMap_cons, bits5, List.cons_append, List.nil_append, group5]
    rw [hb]
    exact congrArg (f :: ·) this

/-- Zeros at the end that complete the last group do not change the groups. -/
theorem group5_pad : ∀ (l : List Bool) (z : Nat), z ≤ 4 → (l.length + z) % 5 = 0 → group5 (l ++ List.replicate z false) = group5 l
  | [], z, h, hm => by
    have : z = 0 := by simp at hm; omega
    subst this; rfl
  | [a], z, h, hm => by
    have : z = 4 := by simp at hm; omega
    subst this; rfl
  | [a, b], z, h, hm => by
    have : z = 3 := by simp at hm; omega
    subst this; rfl
  | [a, b, c], z, h, hm => by
    have : z = 2 := by simp at hm; omega
    subst this; rfl
  | [a, b, c, d], z, h, hm => by
    have : z = 1 := by simp at hm; omega
    subst this; rfl
  | a :: b :: c :: d :: e :: rest, z, h, hm => by
    simp only [List.cons_append, group5]
    rw [group5_pad rest z h (by simp at hm; omega)]

theorem group8_bits : ∀ (bs : Bytes) (r : List Bool), r.length < 8 → group8 (bs.flatMap bits8 ++ r) = bs
  | [], r, h => by
    match r, h with
    | [], _ | [_], _ | [_, _], _ | [_, _, _], _ | [_, _, _, _], _ | [_, _, _, _, _], _ | [_, _, _, _, _, _], _ | [_, _, _, _, _, _, _], _ => rfl
    | _ :: _ :: _ :: _ :: _ :: _ :: _ :: _ :: _, h => simp at h; omega
  | b :: bs, r, h => by
    have := group8_bits bs r h
    have hb := bits8_val b
    simp only [bits8] at hb
    simp only [List.flatMap_cons, bits8, List.cons_append, List.nil_append, group8]
    rw [hb]
    exact congrArg (b :: ·) this

theorem bits_group8 : ∀ l : List Bool, ∃ r, r.length < 8 ∧ l = (group8 l).flatMap bits8 ++ r
  | a :: b :: c :: d :: e :: f :: g :: h :: rest => by
    obtain ⟨r, h1, h2⟩ := bits_group8 rest
    refine ⟨r, h1, ?_⟩
    simp only [group8, List.flatMap_cons, val_bits8]
    conv => lhs; rw [h2]
    simp
  | [] => ⟨[], by simp, rfl⟩
  | [a] => ⟨[a], by simp, rfl⟩
  | [a, b] => ⟨[a, b], by simp, rfl⟩
  | [a, b, c] => ⟨[a, b, c], by simp, rfl⟩
  | [a, b, c, d] => ⟨[a, b, c, d], by simp, rfl⟩
  | [a, b, c, d, e] => ⟨[a, b, c, d, e], by simp, rfl⟩
  | [a, b, c, d, e, f] => ⟨[a, b, c, d, e, f], by simp, rfl⟩
  | [a, b, c, d, e, f, g] => ⟨[a, b, c, d, e, f, g], by simp, rfl⟩

theorem fromFes_iff (fs : List Fe) (bs : Bytes) : fromFes fs = some bs ↔ fs = toFes bs := by
  unfold fromFes toFes
  simp only []
  constructor
  · intro h
    split at h
    · cases h
    · rename_i hp
      simp only [Option.some.injEq] at h
      obtain ⟨r, h1, h2⟩ := bits_group8 (fs.flatMap bits5)
      rw [h] at h2
      have hlen := congrArg List.length h2
      rw [List.length_append, bits8_length] at hlen
      have hm : (fs.flatMap bits5).length % 8 = r.length := by omega
      have hd : (fs.flatMap bits5).drop ((fs.flatMap bits5).length - (fs.flatMap bits5).length % 8) = r := by
        rw [hm, hlen, h2, Nat.add_sub_cancel, ← bits8_length, List.drop_left]
      rw [hd] at hp
      have hz : r = List.replicate r.length false := by
        apply List.eq_replicate_iff.mpr
        refine ⟨rfl, fun b hb => ?_⟩
        cases b with
        | false => rfl
        | true => exact absurd (Or.inr (List.any_eq_true.mpr ⟨true, hb, rfl⟩)) hp
      rw [bits5_length] at hlen
      rw [← group5_of_bits fs, h2, hz]
      exact group5_pad _ _ (by omega) (by rw [bits8_length]; omega)
  · rintro rfl
    obtain ⟨z, h1, h2⟩ := group5_bits (bs.flatMap bits8)
    rw [h2]
    have hl : (bs.flatMap bits8 ++ List.replicate z false).length = 8 * bs.length + z := by
      rw [List.length_append, bits8_length, List.length_replicate]
    have hd : (bs.flatMap bits8 ++ List.replicate z false).drop (8 * bs.length) = List.replicate z false := by
      rw [← bits8_length, List.drop_left]
    rw [hl, show 8 * bs.length + z - (8 * bs.length + z) % 8 = 8 * bs.length by omega, hd, if_neg, group8_bits bs _ (by simp; omega)]
    simp
    omega

theorem toFes_length (bs : Bytes) : (toFes bs).length = (8 * bs.length + 4) / 5 := by
  obtain ⟨z, h1, h2⟩ := group5_bits (bs.flatMap bits8)
  have := congrArg List.length h2
  rw [bits5_length, List.length_append, bits8_length, List.length_replicate] at this
  unfold toFes
  omega

/-! ## Whole strings -/

theorem encodeLower_length (hrp : Bytes) (v : Fe) (p : Bytes) : (encodeLower hrp v p).length = hrp.length + 8 + (8 * p.length + 4) / 5 := by
  unfold encodeLower createChecksum
  simp only [List.length_append, List.length_map, List.length_cons, List.length_nil, split6_length, toFes_length]
  omega

/-- The characters of an encoding in either case decode to its parts. -/
theorem decode_encode_map (g : UInt8 → UInt8) (hg : ∀ f : Fe, feOf (g (charOf f)) = some f) (hg49 : ∀ c, g c = 49 ↔ c = 49)
    (hgl : ∀ c, isUpper c = false → lower (g c) = c)
    (hrp : Bytes) (v : Fe) (p : Bytes) (h1 : hrpOk (hrp.map g) = true) (h2 : ∀ c ∈ hrp, isUpper c = false) (hv : v.toNat ≤ 16)
    (hl : lengthOk v p.length = true) (hn : (encodeLower hrp v p).length ≤ 90)
    (hcase : (((encodeLower hrp v p).map g).any isUpper && ((encodeLower hrp v p).map g).any isLower) = false) :
    decode ((encodeLower hrp v p).map g) = some (hrp, v, p) := by
  have h49 : 49 ∉ ((v :: toFes p ++ createChecksum hrp (v :: toFes p) (residue v)).map charOf).map g := by
    intro hm
    obtain ⟨c, hc, he⟩ := List.mem_map.mp hm
    obtain ⟨f, _, rfl⟩ := List.mem_map.mp hc
    exact (charOf_class f).1 ((hg49 _).mp he)
  have hsplit : (encodeLower hrp v p).map g = hrp.map g ++ 49 :: ((v :: toFes p ++ createChecksum hrp (v :: toFes p) (residue v)).map charOf).map g := by
    unfold encodeLower
    simp only [List.map_append, List.map_cons, List.map_nil, (hg49 49).mpr rfl]
    simp
  have hlow : (hrp.map g).map lower = hrp := by
    rw [List.map_map]
    conv => rhs; rw [← List.map_id hrp]
    exact List.map_congr_left fun c hc => hgl c (h2 c hc)
  unfold decode
  rw [List.length_map, if_neg (by omega), hcase, if_neg (by simp), hsplit, splitSep_append _ _ h49]
  simp only [h1, Bool.not_true, Bool.false_eq_true, if_false]
  rw [fesOf_map g hg]
  simp only [List.cons_append, List.length_cons, List.length_append, hlow]
  have hck : (createChecksum hrp (v :: toFes p) (residue v)).length = 6 := rfl
  have hver : verifyChecksum hrp (v :: toFes p ++ createChecksum hrp (v :: toFes p) (residue v)) (residue v) = true :=
    (verify_iff hrp _ _ _ hck).mpr rfl
  rw [List.cons_append] at hver
  rw [if_neg (by omega), if_neg (by omega), hver]
  simp only [Bool.not_true, Bool.false_eq_true, if_false]
  rw [hck, Nat.add_sub_cancel, List.take_left, (fromFes_iff _ p).mpr rfl]
  simp only [hl, if_true]

theorem decode_encodeLower (hrp : Bytes) (v : Fe) (p : Bytes) (h1 : hrpOk hrp = true) (h2 : ∀ c ∈ hrp, isUpper c = false) (hv : v.toNat ≤ 16)
    (hl : lengthOk v p.length = true) (hn : (encodeLower hrp v p).length ≤ 90) : decode (encodeLower hrp v p) = some (hrp, v, p) := by
  have := decode_encode_map id feOf_charOf (fun _ => Iff.rfl) (fun c h => (case_facts c).1 h) hrp v p (by rw [List.map_id]; exact h1) h2 hv hl hn ?_
  · rwa [List.map_id] at this
  · rw [List.map_id]
    have : (encodeLower hrp v p).any isUpper = false := by
      rw [List.any_eq_false]
      intro c hc
      unfold encodeLower at hc
      rw [List.mem_append, List.mem_append] at hc
      rcases hc with (hc | hc) | hc
      · rw [h2 c hc]; simp
      · rw [List.mem_singleton.mp hc]; decide
      · obtain ⟨f, _, rfl⟩ := List.mem_map.mp hc
        rw [(charOf_class f).2.1]; simp
    rw [this]; rfl

set_option maxRecDepth 20000 in
theorem printable_upper (c : UInt8) : (33 ≤ c.toNat && c.toNat ≤ 126) = true → (33 ≤ (upper c).toNat && (upper c).toNat ≤ 126) = true := by
  revert c; apply Scr.forall_u8; decide

theorem decode_encodeUpper (hrp : Bytes) (v : Fe) (p : Bytes) (h1 : hrpOk hrp = true) (h2 : ∀ c ∈ hrp, isUpper c = false) (hv : v.toNat ≤ 16)
    (hl : lengthOk v p.length = true) (hn : (encodeLower hrp v p).length ≤ 90) : decode (encodeUpper hrp v p) = some (hrp, v, p) := by
  refine decode_encode_map upper feOf_upper (fun c => (case_facts c).2.2.2.1) (fun c h => (case_facts c).2.2.2.2.2.2 h) hrp v p ?_ h2 hv hl hn ?_
  · unfold hrpOk at h1 ⊢
    simp only [Bool.and_eq_true, decide_eq_true_eq, List.all_eq_true, List.length_map] at h1 ⊢
    obtain ⟨⟨a, b⟩, c⟩ := h1
    refine ⟨⟨by simpa using a, b⟩, fun x hx => ?_⟩
    obtain ⟨y, hy, rfl⟩ := List.mem_map.mp hx
    have := printable_upper y (by simpa using c y hy)
    simpa using this
  · have : ((encodeLower hrp v p).map upper).any isLower = false := by
      rw [List.any_eq_false]
      intro c hc
      obtain ⟨y, _, rfl⟩ := List.mem_map.mp hc
      rw [(case_facts y).2.2.2.2.2.1]; simp
    rw [this, Bool.and_false]

/-- Whatever decodes is one of the two encodings of its parts. -/
theorem decode_some (s hrp : Bytes) (v : Fe) (p : Bytes) (h : decode s = some (hrp, v, p)) :
    (s = encodeLower hrp v p ∨ s = encodeUpper hrp v p) ∧ v.toNat ≤ 16 ∧ lengthOk v p.length = true ∧ s.length ≤ 90 := by
  unfold decode at h
  split at h
  · cases h
  rename_i hlen
  split at h
  · cases h
  rename_i hcase
  split at h
  · cases h
  rename_i hr data hsp
  split at h
  · cases h
  split at h
  · cases h
  · cases h
  rename_i v' fs hfes
  split at h
  · cases h
  rename_i hv
  split at h
  · cases h
  rename_i h7
  split at h
  · cases h
  rename_i hck
  split at h
  · cases h
  rename_i prog hprog
  split at h
  · rename_i hlok
    simp only [Option.some.injEq, Prod.mk.injEq] at h
    obtain ⟨rfl, rfl, rfl⟩ := h
    refine ⟨?_, by omega, hlok, by omega⟩
    have hs := splitSep_some _ _ _ hsp
    obtain ⟨hd, _⟩ := fesOf_some _ _ hfes
    simp only [List.length_cons] at h7
    have hfs : fs = toFes prog ++ fs.drop (fs.length - 6) := by
      rw [← (fromFes_iff _ _).mp hprog, List.take_append_drop]
    have hck' : verifyChecksum (hr.map lower) (v' :: toFes prog ++ fs.drop (fs.length - 6)) (residue v') = true := by
      rw [List.cons_append, ← hfs]
      simpa using hck
    have hdl := (verify_iff _ _ _ _ (by rw [List.length_drop]; omega)).mp hck'
    have hlow : s.map lower = encodeLower (hr.map lower) v' prog := by
      unfold encodeLower
      simp only [← hdl]
      rw [hs, List.map_append, List.map_cons, hd, List.cons_append, ← hfs, List.append_assoc]
      rfl
    rw [Bool.and_eq_true, Decidable.not_and_iff_or_not] at hcase
    rcases hcase with hu | hl
    · left
      rw [← hlow]
      conv => lhs; rw [← List.map_id s]
      apply List.map_congr_left
      intro c hc
      refine ((case_facts c).1 ?_).symm
      cases hx : isUpper c with
      | false => rfl
      | true => exact absurd (List.any_eq_true.mpr ⟨c, hc, hx⟩) hu
    · right
      unfold encodeUpper
      rw [← hlow, List.map_map]
      conv => lhs; rw [← List.map_id s]
      apply List.map_congr_left
      intro c hc
      refine ((case_facts c).2.1 ?_).symm
      cases hx : isLower c with
      | false => rfl
      | true => exact absurd (List.any_eq_true.mpr ⟨c, hc, hx⟩) hl
  · cases h

end Btc.Bech32
