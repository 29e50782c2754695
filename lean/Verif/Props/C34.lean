import Verif.Script.Num
import Verif.Props.C31_C33
/-!
# C34: script numbers
-/
namespace Btc
namespace Scr

/-! ### Specification -/

/-- The number a byte string denotes: little-endian magnitude, with the top bit of the last byte as sign. -/
def numVal (v : Bytes) : Int :=
  if leNat v < 2 ^ (8 * v.length - 1) then (leNat v : Int) else -((leNat v - 2 ^ (8 * v.length - 1) : Nat) : Int)

/-- A byte string is minimal if no shorter one denotes the same number. -/
def NumMinimal (v : Bytes) : Prop := ∀ w, numVal w = numVal v → v.length ≤ w.length

/-! ### Lemmas -/

theorem nil_or_snoc {α : Type} (l : List α) : l = [] ∨ ∃ m x, l = m ++ [x] := by
  rcases List.eq_nil_or_concat l with h | ⟨m, x, h⟩
  · exact .inl h
  · exact .inr ⟨m, x, by rw [h, List.concat_eq_append]⟩

theorem half_pow (k : Nat) : 2 ^ (8 * (k + 1) - 1) = 128 * 256 ^ k := by
  rw [show 8 * (k + 1) - 1 = 7 + 8 * k by omega, Nat.pow_add, Nat.pow_mul]

theorem leNat_concat (l : Bytes) (x : UInt8) : leNat (l ++ [x]) = leNat l + 256 ^ l.length * x.toNat := by
  rw [leNat_append]; simp [leNat]

/-- Sign and magnitude of a non-empty string. -/
def mag (l : Bytes) (x : UInt8) : Nat := leNat l + 256 ^ l.length * (x.toNat % 128)

theorem numVal_nil : numVal [] = 0 := rfl

theorem numVal_concat (l : Bytes) (x : UInt8) :
    numVal (l ++ [x]) = if x.toNat < 128 then (mag l x : Int) else -(mag l x : Int) := by
  unfold numVal mag
  rw [List.length_append, List.length_singleton, half_pow, leNat_concat]
  have hL := leNat_lt l
  have hx := x.toNat_lt
  generalize leNat l = L at *
  generalize 256 ^ l.length = P at *
  by_cases h : x.toNat < 128
  · rw [if_pos h, Nat.mod_eq_of_lt h]
    have h1 : P * x.toNat ≤ P * 127 := Nat.mul_le_mul_left _ (by omega)
    rw [if_pos (by omega)]
  · rw [if_neg h]
    have h1 : P * 128 ≤ P * x.toNat := Nat.mul_le_mul_left _ (by omega)
    rw [if_neg (by omega), show x.toNat % 128 = x.toNat - 128 by omega, Nat.mul_sub]
    congr 2
    omega

theorem natAbs_numVal_concat (l : Bytes) (x : UInt8) : (numVal (l ++ [x])).natAbs = mag l x := by
  rw [numVal_concat]; split <;> simp

theorem mag_lt (l : Bytes) (x : UInt8) : mag l x < 128 * 256 ^ l.length := by
  unfold mag
  have hL := leNat_lt l
  have : 256 ^ l.length * (x.toNat % 128) ≤ 256 ^ l.length * 127 := Nat.mul_le_mul_left _ (by omega)
  omega

theorem natAbs_numVal_lt (w : Bytes) (k : Nat) (h : w.length ≤ k + 1) : (numVal w).natAbs < 128 * 256 ^ k := by
  rcases nil_or_snoc w with rfl | ⟨l, x, rfl⟩
  · rw [numVal_nil]; have := Nat.pow_pos (n := k) (show 0 < 256 by decide); simp; omega
  · rw [natAbs_numVal_concat]
    have h1 := mag_lt l x
    have : 256 ^ l.length ≤ 256 ^ k := Nat.pow_le_pow_right (by decide) (by simp at h; omega)
    omega

theorem exists_enc (n : Int) (k : Nat) (h : n.natAbs < 128 * 256 ^ k) : ∃ w : Bytes, w.length = k + 1 ∧ numVal w = n := by
  have hp : 256 ^ (k + 1) = 256 * 256 ^ k := by rw [Nat.pow_succ, Nat.mul_comm]
  by_cases hn : 0 ≤ n
  · refine ⟨leBytes (k + 1) n.natAbs, by simp, ?_⟩
    unfold numVal
    rw [leBytes_length, half_pow, leNat_leBytes _ _ (by omega), if_pos h]
    omega
  · refine ⟨leBytes (k + 1) (n.natAbs + 128 * 256 ^ k), by simp, ?_⟩
    unfold numVal
    rw [leBytes_length, half_pow, leNat_leBytes _ _ (by omega), if_neg (by omega), Nat.add_sub_cancel]
    omega

/-- The local test for minimality. -/
def MinTail (l : Bytes) (x : UInt8) : Prop := x.toNat % 128 ≠ 0 ∨ ∃ l' y, l = l' ++ [y] ∧ 128 ≤ y.toNat

theorem numMinimal_concat (l : Bytes) (x : UInt8) : NumMinimal (l ++ [x]) ↔ MinTail l x := by
  constructor
  · intro h
    by_cases hx : x.toNat % 128 = 0
    · right
      have hm : mag l x = leNat l := by unfold mag; rw [hx]; omega
      rcases nil_or_snoc l with rfl | ⟨l', y, rfl⟩
      · exfalso
        have h0 : (numVal ([] ++ [x])).natAbs = 0 := by rw [natAbs_numVal_concat, hm]; rfl
        have := h [] (by rw [numVal_nil]; omega)
        simp at this
      · refine ⟨l', y, rfl, ?_⟩
        false_or_by_contra
        rename_i hy
        have hlt : (numVal (l' ++ [y] ++ [x])).natAbs < 128 * 256 ^ l'.length := by
          rw [natAbs_numVal_concat, hm, leNat_concat]
          have hL := leNat_lt l'
          have : 256 ^ l'.length * y.toNat ≤ 256 ^ l'.length * 127 := Nat.mul_le_mul_left _ (by omega)
          omega
        obtain ⟨w, hw, hv⟩ := exists_enc _ _ hlt
        have := h w hv
        simp at this
        omega
    · exact .inl hx
  · intro h w hw
    false_or_by_contra
    rename_i hlt
    have hlen : w.length ≤ l.length := by simp at hlt; omega
    have habs : (numVal w).natAbs = mag l x := by rw [hw, natAbs_numVal_concat]
    rcases h with h | ⟨l', y, rfl, hy⟩
    · have h1 : 256 ^ l.length * 1 ≤ 256 ^ l.length * (x.toNat % 128) := Nat.mul_le_mul_left _ (by omega)
      have hge : 256 ^ l.length ≤ mag l x := by unfold mag; omega
      rcases nil_or_snoc w with rfl | ⟨m, z, rfl⟩
      · rw [numVal_nil] at habs
        have := Nat.pow_pos (n := l.length) (show 0 < 256 by decide)
        simp at habs; omega
      · have h2 := natAbs_numVal_lt (m ++ [z]) m.length (by simp)
        simp at hlen
        have h3 : 256 ^ (m.length + 1) ≤ 256 ^ l.length := Nat.pow_le_pow_right (by decide) hlen
        rw [Nat.pow_succ] at h3
        omega
    · have hge : 128 * 256 ^ l'.length ≤ mag (l' ++ [y]) x := by
        unfold mag
        rw [leNat_concat]
        have : 256 ^ l'.length * 128 ≤ 256 ^ l'.length * y.toNat := Nat.mul_le_mul_left _ hy
        omega
      have h2 := natAbs_numVal_lt w l'.length (by simpa using hlen)
      omega

theorem numMinimal_nil : NumMinimal [] := fun _ _ => Nat.zero_le _

theorem numMinimal_unique (v w : Bytes) (hv : NumMinimal v) (hw : NumMinimal w) (e : numVal v = numVal w) : v = w := by
  have hlen : v.length = w.length := Nat.le_antisymm (hv w e.symm) (hw v e)
  by_cases h0 : numVal v = 0
  · have h1 := hv [] (by rw [numVal_nil, h0])
    have h2 := hw [] (by rw [numVal_nil, ← e, h0])
    simp at h1 h2
    rw [h1, h2]
  · have hle : leNat v = leNat w := by
      unfold numVal at e h0
      rw [hlen] at e h0
      generalize 2 ^ (8 * w.length - 1) = H at e h0
      by_cases hv : leNat v < H
      · rw [if_pos hv] at e h0
        by_cases hw : leNat w < H
        · rw [if_pos hw] at e; omega
        · rw [if_neg hw] at e; omega
      · rw [if_neg hv] at e h0
        by_cases hw : leNat w < H
        · rw [if_pos hw] at e; omega
        · rw [if_neg hw] at e; omega
    rw [← leBytes_leNat v, ← leBytes_leNat w, hlen, hle]

theorem fold_parse (v : Bytes) : ∀ a s,
    v.foldl (fun (acc, sh) n => (acc + (n.toNat <<< sh), sh + 8)) (a, s) = (a + leNat v * 2 ^ s, s + 8 * v.length) := by
  induction v with
  | nil => intro a s; simp [leNat]
  | cons b v ih =>
    intro a s
    rw [List.foldl_cons, ih, leNat, Nat.shiftLeft_eq, Nat.pow_add]
    simp only [List.length_cons, Prod.mk.injEq]
    constructor
    · rw [Nat.add_mul, show (2 : Nat) ^ 8 = 256 from rfl]
      have : leNat v * (2 ^ s * 256) = 256 * leNat v * 2 ^ s := by
        rw [← Nat.mul_assoc, Nat.mul_comm 256, Nat.mul_right_comm]
      omega
    · omega

set_option maxRecDepth 8000 in
theorem and_80 : ∀ x : UInt8, (x &&& 0x80 ≠ 0) ↔ 128 ≤ x.toNat := by
  apply forall_u8; decide
set_option maxRecDepth 8000 in
theorem and_7f : ∀ x : UInt8, (x &&& 0x7f = 0) ↔ x.toNat % 128 = 0 := by
  apply forall_u8; decide
set_option maxRecDepth 8000 in
theorem and_not80 : ∀ x : UInt8, (x &&& ~~~ 0x80 = 0) ↔ x.toNat % 128 = 0 := by
  apply forall_u8; decide

theorem scriptintParse_eq (v : Bytes) : scriptintParse v = numVal v := by
  rcases nil_or_snoc v with rfl | ⟨l, x, rfl⟩
  · rfl
  · unfold scriptintParse
    rw [fold_parse]
    simp only [List.getLast?_concat, Nat.zero_add, Nat.pow_zero, Nat.mul_one]
    unfold numVal
    simp only [List.length_append, List.length_singleton]
    have hL := leNat_lt l
    have hx := x.toNat_lt
    by_cases h : x &&& 0x80 ≠ 0
    · rw [if_pos h]
      have h' := (and_80 x).1 h
      rw [Nat.one_shiftLeft, Nat.and_two_pow_sub_one_eq_mod, half_pow, leNat_concat]
      have h1 : 256 ^ l.length * 128 ≤ 256 ^ l.length * x.toNat := Nat.mul_le_mul_left _ h'
      have h2 : 256 ^ l.length * x.toNat ≤ 256 ^ l.length * 255 := Nat.mul_le_mul_left _ (by omega)
      rw [if_neg (by omega)]
      congr 2
      rw [Nat.mod_eq_sub_mod (by omega), Nat.mod_eq_of_lt (by omega)]
    · rw [if_neg h]
      have h' : x.toNat < 128 := by
        have := mt (and_80 x).2 h; omega
      rw [half_pow, leNat_concat]
      have h1 : 256 ^ l.length * x.toNat ≤ 256 ^ l.length * 127 := Nat.mul_le_mul_left _ (by omega)
      rw [if_pos (by omega)]

theorem readInternal_spec (v : Bytes) (max : Nat) :
    (max < v.length → readScriptintInternal v max = .error .numericOverflow) ∧
    (v.length ≤ max → NumMinimal v → readScriptintInternal v max = .ok (numVal v)) ∧
    (v.length ≤ max → ¬ NumMinimal v → readScriptintInternal v max = .error .nonMinimal) := by
  rcases nil_or_snoc v with rfl | ⟨l, x, rfl⟩
  · exact ⟨fun h => absurd h (by simp), fun _ _ => rfl, fun _ h => absurd numMinimal_nil h⟩
  · have hiff : (x &&& 0x7f = 0 ∧ ((l ++ [x]).length ≤ 1 ∨ (l ++ [x]).getD ((l ++ [x]).length - 2) 0 &&& 0x80 = 0)) ↔
        ¬ NumMinimal (l ++ [x]) := by
      rw [numMinimal_concat, MinTail, and_7f, not_or, Decidable.not_not]
      apply and_congr Iff.rfl
      rcases nil_or_snoc l with rfl | ⟨l', y, rfl⟩
      · simp
      · have hy : (l' ++ [y] ++ [x]).getD ((l' ++ [y] ++ [x]).length - 2) 0 = y := by
          simp [List.getD]
        rw [hy]
        have h80 := and_80 y
        constructor
        · rintro (h | h)
          · simp at h
          · rintro ⟨a, b, e, hb⟩
            have := List.append_inj' e rfl
            have hyb : y = b := by simpa using this.2
            rw [← hyb] at hb
            exact (h80.2 hb) h
        · intro h
          right
          false_or_by_contra
          rename_i hc
          exact h ⟨l', y, rfl, h80.1 hc⟩
    unfold readScriptintInternal
    simp only [List.getLast?_concat]
    refine ⟨fun h => by rw [if_pos h], fun h hm => ?_, fun h hm => ?_⟩
    · rw [if_neg (by omega), if_neg (fun c => (hiff.1 c) hm), scriptintParse_eq]
    · rw [if_neg (by omega), if_pos (hiff.2 hm)]

theorem expectI32_of_len (v : Bytes) (h : v.length ≤ 4) : expectI32 (numVal v) = .ok (numVal v) := by
  have := natAbs_numVal_lt v 3 h
  unfold expectI32
  rw [if_pos]
  simp at this
  omega

/-- **C34 (reading).** `read_scriptint` accepts exactly the minimal byte strings of at most four bytes, with the value
they denote; longer strings are an overflow and the others are rejected as non-minimal.  It never panics. -/
theorem C34_read (v : Bytes) :
    (4 < v.length → readScriptint v = .error .numericOverflow) ∧
    (v.length ≤ 4 → NumMinimal v → readScriptint v = .ok (numVal v)) ∧
    (v.length ≤ 4 → ¬ NumMinimal v → readScriptint v = .error .nonMinimal) := by
  have h := readInternal_spec v 4
  unfold readScriptint
  refine ⟨fun hl => by rw [h.1 hl], fun hl hm => ?_, fun hl hm => by rw [h.2.2 hl hm]⟩
  rw [h.2.1 hl hm]
  exact expectI32_of_len v hl

/-- The same for `read_cltv_scriptint`, with five bytes. -/
theorem C34_read_cltv (v : Bytes) :
    (5 < v.length → readCltvScriptint v = .error .numericOverflow) ∧
    (v.length ≤ 5 → NumMinimal v → readCltvScriptint v = .ok (numVal v)) ∧
    (v.length ≤ 5 → ¬ NumMinimal v → readCltvScriptint v = .error .nonMinimal) :=
  readInternal_spec v 5

/-- `read_scriptint_non_minimal`: any string of at most four bytes, with the value it denotes. -/
theorem C34_read_non_minimal (v : Bytes) :
    readScriptintNonMinimal v = if v.length ≤ 4 then .ok (numVal v) else .error .numericOverflow := by
  unfold readScriptintNonMinimal
  by_cases he : v = []
  · subst he; rfl
  · rw [if_neg (by simp [he])]
    by_cases h : v.length ≤ 4
    · rw [if_neg (by omega), if_pos h, scriptintParse_eq, expectI32_of_len v h]
    · rw [if_pos (by omega), if_neg h]

/-- **C34 (uniqueness).** No two accepted byte strings denote the same number. -/
theorem C34_unique (v w : Bytes) (x : Int) (hv : readScriptint v = .ok x) (hw : readScriptint w = .ok x) : v = w := by
  have key : ∀ u, readScriptint u = .ok x → NumMinimal u ∧ numVal u = x := by
    intro u hu
    obtain ⟨h1, h2, h3⟩ := C34_read u
    by_cases hl : u.length ≤ 4
    · by_cases hm : NumMinimal u
      · rw [h2 hl hm] at hu; cases hu; exact ⟨hm, rfl⟩
      · rw [h3 hl hm] at hu; cases hu
    · rw [h1 (by omega)] at hu; cases hu
  exact numMinimal_unique v w (key v hv).1 (key w hw).1 ((key v hv).2.trans (key w hw).2.symm)

theorem leNat_zero_iff (l : Bytes) : leNat l = 0 ↔ ∀ b ∈ l, b = 0 := by
  induction l with
  | nil => simp [leNat]
  | cons b l ih =>
    rw [leNat]
    have hb : b = 0 ↔ b.toNat = 0 := ⟨fun h => by rw [h]; rfl, fun h => UInt8.toNat_inj.1 h⟩
    constructor
    · intro h c hc
      rcases List.mem_cons.1 hc with rfl | hc
      · exact hb.2 (by omega)
      · exact (ih.1 (by omega)) c hc
    · intro h
      have h1 := hb.1 (h b (by simp))
      have h2 := ih.2 (fun c hc => h c (by simp [hc]))
      omega

/-- `read_scriptbool` is "the number is not zero", for strings of any length (negative zero is false). -/
theorem C34_bool (v : Bytes) : readScriptbool v = true ↔ numVal v ≠ 0 := by
  rcases nil_or_snoc v with rfl | ⟨l, x, rfl⟩
  · simp [readScriptbool, numVal_nil]
  · unfold readScriptbool
    simp only [List.getLast?_concat, List.dropLast_concat]
    have h0 : numVal (l ++ [x]) = 0 ↔ mag l x = 0 := by
      rw [← natAbs_numVal_concat]; omega
    have hm : mag l x = 0 ↔ x.toNat % 128 = 0 ∧ leNat l = 0 := by
      unfold mag
      have := Nat.pow_pos (n := l.length) (show 0 < 256 by decide)
      constructor
      · intro h
        have h2 : 256 ^ l.length * (x.toNat % 128) = 0 := by omega
        rcases Nat.mul_eq_zero.1 h2 with h2 | h2
        · omega
        · omega
      · rintro ⟨h1, h2⟩; rw [h1, h2]; rfl
    rw [ne_eq, h0, hm, leNat_zero_iff, ← and_not80 x]
    simp only [Bool.not_eq_true', Bool.and_eq_false_iff, beq_eq_false_iff_ne, ne_eq, List.all_eq_false]
    constructor
    · rintro (h | ⟨b, hb, h⟩) ⟨c1, c2⟩
      · exact h c1
      · exact h (by rw [c2 b hb]; rfl)
    · intro h
      by_cases c : x &&& ~~~ 0x80 = 0
      · right
        false_or_by_contra
        rename_i hc
        exact h ⟨c, fun b hb => Decidable.byContradiction fun hn => hc ⟨b, hb, by simpa using hn⟩⟩
      · exact .inl c

/-! ### Writing -/

theorem and_80_nat (a : Nat) (h : a ≤ 255) : (a &&& 0x80 ≠ 0) ↔ 128 ≤ a := by
  have h1 := and_80 (UInt8.ofNat a)
  have h2 : (UInt8.ofNat a).toNat = a := by rw [UInt8.toNat_ofNat']; omega
  rw [h2] at h1
  rw [← h1]
  apply not_congr
  constructor
  · intro e
    apply UInt8.toNat_inj.1
    rw [UInt8.toNat_and, h2]; exact e
  · intro e
    have := congrArg UInt8.toNat e
    rw [UInt8.toNat_and, h2] at this
    exact this

theorem writeLoop_spec (n : Nat) : ∀ (abs : Nat) (neg : Bool), abs ≤ n → 0 < abs →
    ∃ l x, writeLoop abs neg = l ++ [x] ∧ MinTail l x ∧ mag l x = abs ∧ (128 ≤ x.toNat ↔ neg = true) := by
  induction n with
  | zero => intro abs neg h1 h2; omega
  | succ n ih =>
    intro abs neg hn hpos
    unfold writeLoop
    by_cases h : abs > 0xFF
    · rw [if_pos h]
      obtain ⟨l, x, e, hm, hv, hs⟩ := ih (abs >>> 8) neg (by rw [Nat.shiftRight_eq_div_pow]; omega)
        (by rw [Nat.shiftRight_eq_div_pow]; omega)
      have hb : (UInt8.ofNat (abs &&& 0xFF)).toNat = abs % 256 := by
        rw [UInt8.toNat_ofNat', show (0xFF : Nat) = 2 ^ 8 - 1 from rfl, Nat.and_two_pow_sub_one_eq_mod]
        omega
      refine ⟨UInt8.ofNat (abs &&& 0xFF) :: l, x, by rw [e]; rfl, ?_, ?_, hs⟩
      · rcases hm with hm | ⟨l', y, rfl, hy⟩
        · exact .inl hm
        · exact .inr ⟨UInt8.ofNat (abs &&& 0xFF) :: l', y, rfl, hy⟩
      · unfold mag at *
        rw [leNat, hb, List.length_cons, Nat.pow_succ, Nat.mul_comm (256 ^ l.length) 256, Nat.mul_assoc]
        rw [Nat.shiftRight_eq_div_pow] at hv
        omega
    · rw [if_neg h]
      by_cases h8 : abs &&& 0x80 ≠ 0
      · rw [if_pos h8]
        have h8' := (and_80_nat abs (by omega)).1 h8
        have ht : (UInt8.ofNat abs).toNat = abs := by rw [UInt8.toNat_ofNat']; omega
        refine ⟨[UInt8.ofNat abs], if neg then 0x80 else 0, rfl, .inr ⟨[], _, rfl, by rw [ht]; exact h8'⟩, ?_, ?_⟩
        · unfold mag
          cases neg <;> simp [leNat, ht]
          all_goals omega
        · cases neg <;> decide
      · rw [if_neg h8]
        have h8' : abs < 128 := by have := mt (and_80_nat abs (by omega)).2 h8; omega
        have hor : abs ||| 0x80 = abs + 128 := by
          have := Nat.two_pow_add_eq_or_of_lt (i := 7) (b := abs) (by omega) 1
          rw [Nat.or_comm]; simp at this ⊢; omega
        have ht : (UInt8.ofNat (abs ||| (if neg then 0x80 else 0))).toNat = abs + (if neg then 128 else 0) := by
          rw [UInt8.toNat_ofNat']
          cases neg with
          | true => simp only [if_true]; rw [hor]; omega
          | false => simp; omega
        refine ⟨[], _, rfl, ?_, ?_, ?_⟩
        · left; rw [ht]; cases neg <;> simp <;> omega
        · unfold mag; rw [ht]; cases neg <;> simp [leNat] <;> omega
        · rw [ht]; cases neg <;> simp <;> omega

theorem writeLoop_val (n : Int) (h : n ≠ 0) :
    numVal (writeLoop n.natAbs (n < 0)) = n ∧ NumMinimal (writeLoop n.natAbs (n < 0)) := by
  obtain ⟨l, x, e, hm, hv, hs⟩ := writeLoop_spec n.natAbs n.natAbs (n < 0) (Nat.le_refl _) (by omega)
  rw [e, numMinimal_concat, numVal_concat, hv]
  refine ⟨?_, hm⟩
  rw [decide_eq_true_iff] at hs
  by_cases hx : x.toNat < 128
  · rw [if_pos hx]; omega
  · rw [if_neg hx]; omega

/-- **C34 (writing).** For every `i64` except the smallest, `write_scriptint` writes the unique minimal byte string
denoting the number; for `i64::MIN` it writes past its 8-byte buffer and panics. -/
theorem C34_write (n : Int) (h : -(2 ^ 63) ≤ n ∧ n < 2 ^ 63) :
    (n ≠ -(2 ^ 63) → ∃ w, writeScriptint n = some w ∧ numVal w = n ∧ NumMinimal w) ∧
    (n = -(2 ^ 63) → writeScriptint n = none) := by
  unfold writeScriptint
  by_cases h0 : n = 0
  · rw [if_pos h0]
    exact ⟨fun _ => ⟨[], rfl, by rw [h0]; rfl, numMinimal_nil⟩, fun e => by omega⟩
  · rw [if_neg h0]
    simp only []
    obtain ⟨hv, hm⟩ := writeLoop_val n h0
    generalize writeLoop n.natAbs (n < 0) = w at *
    constructor
    · intro hne
      refine ⟨w, ?_, hv, hm⟩
      obtain ⟨u, hu, huv⟩ := exists_enc n 7 (by have : 128 * 256 ^ 7 = 2 ^ 63 := by decide
                                                omega)
      have := hm u (by rw [huv, hv])
      rw [if_pos (by omega)]
    · intro hmin
      rw [if_neg]
      intro hl
      have := natAbs_numVal_lt w 7 hl
      rw [hv, hmin] at this
      revert this
      decide

/-- **C34 (round trip).** Writing and reading a script number returns it, when it has at most 31 bits; larger numbers
are an overflow. -/
theorem C34_round_trip (n : Int) (h : -(2 ^ 63) < n ∧ n < 2 ^ 63) :
    ∃ w, writeScriptint n = some w ∧
      readScriptint w = (if n.natAbs < 2 ^ 31 then .ok n else .error .numericOverflow) ∧
      readCltvScriptint w = (if n.natAbs < 2 ^ 39 then .ok n else .error .numericOverflow) := by
  obtain ⟨w, hw, hv, hm⟩ := (C34_write n ⟨by omega, h.2⟩).1 (by omega)
  have hlen : ∀ k, w.length ≤ k + 1 ↔ n.natAbs < 128 * 256 ^ k := by
    intro k
    constructor
    · intro hl
      have := natAbs_numVal_lt w k hl
      rwa [hv] at this
    · intro hl
      obtain ⟨u, hu, huv⟩ := exists_enc n k hl
      have := hm u (by rw [huv, hv])
      omega
  refine ⟨w, hw, ?_, ?_⟩
  · have hk := hlen 3
    rw [show 128 * 256 ^ 3 = 2 ^ 31 by decide] at hk
    split
    · rename_i hc
      rw [(C34_read w).2.1 (hk.2 hc) hm, hv]
    · rename_i hc
      exact (C34_read w).1 (by have := mt hk.1 hc; omega)
  · have hk := hlen 4
    rw [show 128 * 256 ^ 4 = 2 ^ 39 by decide] at hk
    split
    · rename_i hc
      rw [(C34_read_cltv w).2.1 (hk.2 hc) hm, hv]
    · rename_i hc
      exact (C34_read_cltv w).1 (by have := mt hk.1 hc; omega)

/-! ### Pushing integers -/

theorem instructions_append (m : Bool) (s p : Bytes) (is : List Instr) (i : Instr)
    (hs : walk m s.length s = is.map .ok) (hp : Enc p i) (hm : m = true → MinEnc p i) :
    walk m (s ++ p).length (s ++ p) = (is ++ [i]).map .ok := by
  obtain ⟨ps, rest, es, hps, hend⟩ := C33_tiles m s
  rcases hend with ⟨hr, hw⟩ | ⟨e, _, hw⟩
  · have hps' : ∀ x ∈ ps ++ [(p, i)], Enc x.1 x.2 ∧ (m = true → MinEnc x.1 x.2) := by
      intro x hx
      rcases List.mem_append.1 hx with hx | hx
      · exact hps x hx
      · rw [List.mem_singleton.1 hx]; exact ⟨hp, hm⟩
    have hfl : ((ps ++ [(p, i)]).map Prod.fst).flatten = s ++ p := by
      rw [es, hr]; simp
    have := walk_append m _ hps' [] (s ++ p).length
    rw [hfl, List.append_nil, walk_nil, List.append_nil,
      walk_fuel m _ (s ++ p) _ (Nat.le_refl _) (by omega)] at this
    rw [this]
    rw [hs] at hw
    simp only [List.map_append, List.map_cons, List.map_nil]
    rw [← hw]
  · exfalso
    have : (Except.error e : Except ScrErr Instr) ∈ is.map (Except.ok : Instr → Except ScrErr Instr) := by
      rw [← hs, hw]; simp
    obtain ⟨y, _, hy⟩ := List.mem_map.1 this
    cases hy

theorem numVal_one (x : UInt8) : numVal [x] = if x.toNat < 128 then (x.toNat : Int) else -((x.toNat - 128 : Nat) : Int) := by
  have := numVal_concat [] x
  rw [List.nil_append] at this
  rw [this]
  unfold mag
  have hx := x.toNat_lt
  by_cases h : x.toNat < 128
  · rw [if_pos h, if_pos h]; simp [leNat]; omega
  · rw [if_neg h, if_neg h]; simp [leNat]; omega

theorem pushIntUnchecked_spec (s : Bytes) (n : Int) (h : -(2 ^ 63) < n ∧ n < 2 ^ 63) :
    ∃ p i, pushIntUnchecked s n = some (s ++ p) ∧ Enc p i ∧ MinEnc p i ∧
      i.scriptNum = (if n.natAbs < 2 ^ 31 then some n else none) ∧
      i.readInt = (if n.natAbs < 2 ^ 39 then some n else none) := by
  unfold pushIntUnchecked
  by_cases h1 : n = -1
  · rw [if_pos h1]
    subst h1
    exact ⟨[0x4f], .op 0x4f, rfl, .op _ (by decide), trivial, by decide, by decide⟩
  · rw [if_neg h1]
    by_cases h0 : n = 0
    · rw [if_pos h0]
      subst h0
      refine ⟨[0], .push [], rfl, .direct [] (by decide), ⟨rfl, ?_⟩, rfl, rfl⟩
      rintro ⟨x, hx, _⟩; cases hx
    · rw [if_neg h0]
      by_cases h2 : 1 ≤ n ∧ n ≤ 16
      · rw [if_pos h2]
        have ht : (UInt8.ofNat n.toNat + (OP_1 - 1)).toNat = n.toNat + 80 := by
          rw [UInt8.toNat_add, UInt8.toNat_ofNat', show (OP_1 - 1 : UInt8).toNat = 80 from rfl]; omega
        have hn : ∀ b : UInt8, b.toNat = n.toNat + 80 →
            (0x51 ≤ b ∧ b ≤ 0x60) ∧ some ((b.toNat : Int) - 0x50) = some n := by
          intro b hb
          refine ⟨⟨UInt8.le_iff_toNat_le.2 ?_, UInt8.le_iff_toNat_le.2 ?_⟩, ?_⟩
          · rw [hb, show (0x51 : UInt8).toNat = 81 from rfl]; omega
          · rw [hb, show (0x60 : UInt8).toNat = 96 from rfl]; omega
          · congr 1; omega
        obtain ⟨hr, hs⟩ := hn _ ht
        refine ⟨[UInt8.ofNat n.toNat + (OP_1 - 1)], .op _, rfl, .op _ (by rw [ht]; omega), trivial, ?_, ?_⟩
        · rw [if_pos (by omega)]; unfold Instr.scriptNum; simp only []; rw [if_pos hr, hs]
        · rw [if_pos (by omega)]; unfold Instr.readInt; simp only []; rw [if_pos hr, hs]
      · rw [if_neg h2]
        obtain ⟨w, hw, hv, hm⟩ := (C34_write n ⟨by omega, h.2⟩).1 (by omega)
        obtain ⟨w', hw', hr1, hr2⟩ := C34_round_trip n h
        rw [hw] at hw'; cases hw'
        have hl8 : w.length ≤ 8 := by
          unfold writeScriptint at hw
          rw [if_neg h0] at hw
          simp only [] at hw
          split at hw
          · cases hw; assumption
          · cases hw
        refine ⟨pushHeader w.length ++ w, .push w, ?_, enc_header w (by omega), ⟨rfl, ?_⟩, ?_, ?_⟩
        · unfold pushIntNonMinimal pushSliceNoOpt
          rw [hw, Option.map_some, List.append_assoc]
        · rintro ⟨x, rfl, hx⟩
          rw [numVal_one] at hv
          rcases hx with rfl | hx
          · exact h1 (by rw [← hv]; rfl)
          · rw [if_pos (by omega)] at hv; omega
        · unfold Instr.scriptNum
          simp only []
          rw [C34_read_non_minimal]
          have hlen : w.length ≤ 4 ↔ n.natAbs < 2 ^ 31 := by
            constructor
            · intro hl
              have := natAbs_numVal_lt w 3 hl
              rw [hv] at this; simpa using this
            · intro hl
              obtain ⟨u, hu, huv⟩ := exists_enc n 3 (by simpa using hl)
              have := hm u (by rw [huv, hv])
              omega
          by_cases hc : n.natAbs < 2 ^ 31
          · rw [if_pos (hlen.2 hc), if_pos hc, hv]
          · rw [if_neg (fun e => hc (hlen.1 e)), if_neg hc]
        · unfold Instr.readInt
          simp only []
          rw [hr2]
          by_cases hc : n.natAbs < 2 ^ 39
          · rw [if_pos hc, if_pos hc]
          · rw [if_neg hc, if_neg hc]

/-- **C34 (push_int).** After `push_int n` the script has one more instruction, and reading that instruction as a
number gives `n`; it is a minimal push.  `i32::MIN` is refused and leaves the script alone. -/
theorem C34_push_int (m : Bool) (s : Bytes) (is : List Instr) (hs : walk m s.length s = is.map .ok)
    (n : Int) (h : -(2 ^ 31) ≤ n ∧ n < 2 ^ 31) :
    (n = -(2 ^ 31) → pushInt s n = some (.error .numericOverflow)) ∧
    (n ≠ -(2 ^ 31) → ∃ t i, pushInt s n = some (.ok t) ∧ walk m t.length t = (is ++ [i]).map .ok ∧
      i.scriptNum = some n ∧ i.readInt = some n) := by
  unfold pushInt
  refine ⟨fun e => by rw [if_pos e], fun hne => ?_⟩
  rw [if_neg hne]
  obtain ⟨p, i, hp, he, hmin, h1, h2⟩ := pushIntUnchecked_spec s n ⟨by omega, by omega⟩
  refine ⟨s ++ p, i, by rw [hp]; rfl, instructions_append m s p is i hs he (fun _ => hmin), ?_, ?_⟩
  · rw [h1, if_pos (by omega)]
  · rw [h2, if_pos (by omega)]

/-- **C34 (lock times in scripts).** `push_lock_time`, `push_relative_lock_time` and `push_sequence` append one
instruction that `read_int` reads back as the consensus value. -/
theorem C34_push_u32 (m : Bool) (s : Bytes) (is : List Instr) (hs : walk m s.length s = is.map .ok) (n : UInt32) :
    ∃ t i, pushU32 s n = some t ∧ walk m t.length t = (is ++ [i]).map .ok ∧ i.readInt = some (n.toNat : Int) := by
  have hn := n.toNat_lt
  obtain ⟨p, i, hp, he, hmin, _, h2⟩ := pushIntUnchecked_spec s (n.toNat : Int) ⟨by omega, by omega⟩
  exact ⟨s ++ p, i, hp, instructions_append m s p is i hs he (fun _ => hmin), by rw [h2, if_pos (by omega)]⟩

/-- `push_int_unchecked` panics exactly for `i64::MIN`; for numbers of 40 bits and more it succeeds but `read_int` does
not read the number back (documented). -/
theorem C34_push_unchecked (s : Bytes) (n : Int) (h : -(2 ^ 63) ≤ n ∧ n < 2 ^ 63) :
    pushIntUnchecked s n = none ↔ n = -(2 ^ 63) := by
  constructor
  · intro hn
    false_or_by_contra
    rename_i hne
    obtain ⟨p, i, hp, _⟩ := pushIntUnchecked_spec s n ⟨by omega, h.2⟩
    rw [hp] at hn; cases hn
  · intro e
    unfold pushIntUnchecked pushIntNonMinimal
    rw [if_neg (by omega), if_neg (by omega), if_neg (by omega), (C34_write n h).2 e]
    rfl

/-! ### push_verify -/

theorem opcodeToVerify_cases (o : UInt8) : opcodeToVerify (some o) = none ∨
    ∃ v, opcodeToVerify (some o) = some v ∧ 78 < v.toNat ∧ v = o + 1 := by
  unfold opcodeToVerify
  simp only []
  by_cases h1 : o = OP_EQUAL
  · rw [if_pos h1, h1]; exact .inr ⟨_, rfl, by decide, by decide⟩
  · rw [if_neg h1]
    by_cases h2 : o = OP_NUMEQUAL
    · rw [if_pos h2, h2]; exact .inr ⟨_, rfl, by decide, by decide⟩
    · rw [if_neg h2]
      by_cases h3 : o = OP_CHECKSIG
      · rw [if_pos h3, h3]; exact .inr ⟨_, rfl, by decide, by decide⟩
      · rw [if_neg h3]
        by_cases h4 : o = OP_CHECKMULTISIG
        · rw [if_pos h4, h4]; exact .inr ⟨_, rfl, by decide, by decide⟩
        · rw [if_neg h4]; exact .inl rfl

/-- `push_verify` on a well-formed script: a final `EQUAL`, `NUMEQUAL`, `CHECKSIG` or `CHECKMULTISIG` instruction becomes
its `VERIFY` form, otherwise `VERIFY` is appended; a data push whose last byte happens to be one of these codes is
left alone. -/
theorem C31_push_verify (s : Bytes) (is : List Instr) (hs : instructions s = is.map .ok) :
    instructions (pushVerify s) =
      (match is.getLast? with
       | some (.op 0x87) => (is.dropLast ++ [Instr.op 0x88]).map .ok
       | some (.op 0x9c) => (is.dropLast ++ [Instr.op 0x9d]).map .ok
       | some (.op 0xac) => (is.dropLast ++ [Instr.op 0xad]).map .ok
       | some (.op 0xae) => (is.dropLast ++ [Instr.op 0xaf]).map .ok
       | _ => (is ++ [Instr.op 0x69]).map .ok) := by
  have hadd : ∀ (t : Bytes) (js : List Instr) (o : UInt8), instructions t = js.map .ok → 78 < o.toNat →
      instructions (t ++ [o]) = (js ++ [Instr.op o]).map .ok := fun t js o ht ho =>
    instructions_append false t [o] js (.op o) ht (.op o ho) (by simp)
  -- when the last instruction is an opcode, dropping the last byte drops it
  have hdrop : ∀ js o, is = js ++ [Instr.op o] → instructions s.dropLast = js.map .ok := by
    intro js o e
    obtain ⟨ps, rest, es, hps, hend⟩ := C33_tiles false s
    rcases hend with ⟨hr, hw⟩ | ⟨er, _, hw⟩
    · have hs' : walk false s.length s = is.map .ok := hs
      rw [hs', e] at hw
      rcases nil_or_snoc ps with rfl | ⟨qs, ⟨q, j⟩, rfl⟩
      · simp at hw
      · simp only [List.map_append, List.map_cons, List.map_nil] at hw
        have hinj := List.append_inj' hw rfl
        have hj : j = .op o := by simpa using hinj.2.symm
        subst hj
        have hq : q = [o] := by
          have := (hps (q, .op o) (by simp)).1
          cases this; rfl
        have hqs : ∀ x ∈ qs, Enc x.1 x.2 ∧ (false = true → MinEnc x.1 x.2) := fun x hx => hps x (by simp [hx])
        have hfl : s.dropLast = (qs.map Prod.fst).flatten := by
          rw [es, hr, hq]; simp
        have := walk_append false qs hqs [] s.dropLast.length
        rw [← hfl, List.append_nil, walk_nil, List.append_nil,
          walk_fuel false _ s.dropLast _ (Nat.le_refl _) (by omega)] at this
        show walk false _ _ = _
        rw [this, hinj.1]
    · exfalso
      have hs' : walk false s.length s = is.map .ok := hs
      have : (Except.error er : Except ScrErr Instr) ∈ is.map (Except.ok : Instr → Except ScrErr Instr) := by
        rw [← hs', hw]; simp
      obtain ⟨y, _, hy⟩ := List.mem_map.1 this
      cases hy
  have hlast : lastOpcode s = match is.getLast? with | some (.op o) => some o | _ => none := by
    unfold lastOpcode
    rw [hs, List.getLast?_map]
    cases is.getLast? with
    | none => rfl
    | some i => cases i <;> rfl
  unfold pushVerify
  rw [hlast]
  rcases nil_or_snoc is with rfl | ⟨js, i, rfl⟩
  · exact hadd s [] 0x69 hs (by decide)
  · rw [List.getLast?_concat, List.dropLast_concat]
    cases i with
    | push d => exact hadd s _ 0x69 hs (by decide)
    | op o =>
      have hd := hdrop js o rfl
      simp only []
      unfold opcodeToVerify pushOpcode
      simp only []
      by_cases h1 : o = 0x87
      · subst h1; exact hadd _ _ _ hd (by decide)
      · rw [if_neg (show ¬ o = OP_EQUAL from h1)]
        by_cases h2 : o = 0x9c
        · subst h2; exact hadd _ _ _ hd (by decide)
        · rw [if_neg (show ¬ o = OP_NUMEQUAL from h2)]
          by_cases h3 : o = 0xac
          · subst h3; exact hadd _ _ _ hd (by decide)
          · rw [if_neg (show ¬ o = OP_CHECKSIG from h3)]
            by_cases h4 : o = 0xae
            · subst h4; exact hadd _ _ _ hd (by decide)
            · rw [if_neg (show ¬ o = OP_CHECKMULTISIG from h4)]
              simp only []
              split <;> first | (rename_i h; simp at h; contradiction) | exact hadd s _ 0x69 hs (by decide)

/-! ### Examples -/

example : writeScriptint (-255) = some [0xFF, 0x80] := by
  unfold writeScriptint; rw [writeLoop]; rfl
example : numVal [0xFF, 0x80] = -255 := by decide
example : readScriptint [0xFF, 0x80] = .ok (-255) := by rfl
example : readScriptint [0x01, 0x00] = .error .nonMinimal ∧ readScriptint [0x80] = .error .nonMinimal := ⟨rfl, rfl⟩
example : ¬ NumMinimal [0x01, 0x00] := fun h => absurd (h [1] rfl) (by decide)
example : NumMinimal [0xFF, 0x00] := (numMinimal_concat [0xFF] 0).2 (.inr ⟨[], 0xFF, rfl, by decide⟩)
example : readScriptbool [0, 0x80] = false ∧ readScriptbool [0, 1] = true := by decide
example : pushInt [0x76] 16 = some (.ok [0x76, 0x60]) := by rfl
example : instructions [0x76] = [Instr.op 0x76].map .ok := by rfl
example : pushVerify [0x76, 0x87] = [0x76, 0x88] ∧ pushVerify [1, 0x87] = [1, 0x87, 0x69] := by decide

end Scr
end Btc
