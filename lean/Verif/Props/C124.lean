import Verif.Bitcoin.ScriptErrors
import Verif.Props.C31_C33
import Verif.Props.C34
import Verif.Props.C43
import Verif.Props.C78
import Verif.Props.C121
/-!
# C124: the errors about scripts, script numbers, out points, witness versions, sizes and indices
-/
namespace Btc
namespace ScrErrs
open Scr

/-! ## Instructions -/

/-- The script stops inside a data push: no instruction is complete, but more bytes would make it one. -/
def CutOff (s : Bytes) : Prop := s ≠ [] ∧ (∀ p i t, s = p ++ t → ¬ Scr.Enc p i) ∧ ∃ more d, Scr.Enc (s ++ more) (.push d)

theorem complete_len (k : Nat) (tl : Bytes) (h : k ≤ tl.length → tl.length < k + leNat (tl.take k)) :
    ∃ more d, tl ++ more = leBytes k d.length ++ d ∧ d.length < 256 ^ k := by
  by_cases hl : tl.length < k
  · refine ⟨List.replicate (k - tl.length) 0 ++ List.replicate (leNat (tl ++ List.replicate (k - tl.length) 0)) 0,
      List.replicate (leNat (tl ++ List.replicate (k - tl.length) 0)) 0, ?_, ?_⟩
    · have e : (tl ++ List.replicate (k - tl.length) (0 : UInt8)).length = k := by
        rw [List.length_append, List.length_replicate]; omega
      rw [List.length_replicate, ← List.append_assoc]
      have e2 := leBytes_leNat (tl ++ List.replicate (k - tl.length) (0 : UInt8))
      rw [e] at e2
      rw [e2]
    · rw [List.length_replicate]
      have := leNat_lt (tl ++ List.replicate (k - tl.length) (0 : UInt8))
      rw [List.length_append, List.length_replicate, show tl.length + (k - tl.length) = k by omega] at this
      exact this
  · have h' := h (by omega)
    have et : (tl.take k).length = k := by rw [List.length_take]; omega
    refine ⟨List.replicate (k + leNat (tl.take k) - tl.length) 0, tl.drop k ++ List.replicate (k + leNat (tl.take k) - tl.length) 0, ?_, ?_⟩
    · rw [List.length_append, List.length_drop, List.length_replicate,
        show tl.length - k + (k + leNat (tl.take k) - tl.length) = leNat (tl.take k) by omega]
      have e2 := leBytes_leNat (tl.take k)
      rw [et] at e2
      rw [e2, ← List.append_assoc, List.take_append_drop]
    · rw [List.length_append, List.length_drop, List.length_replicate]
      have := leNat_lt (tl.take k)
      rw [et] at this
      omega

theorem cutOff_of {s : Bytes} (hne : s ≠ []) (hno : ∀ p i t, s = p ++ t → ¬ Scr.Enc p i) : CutOff s := by
  refine ⟨hne, hno, ?_⟩
  cases s with
  | nil => exact absurd rfl hne
  | cons b tl =>
    have key : ∀ (k : Nat) (c : UInt8), b = c → (∀ d : Bytes, d.length < 256 ^ k → Scr.Enc (c :: (leBytes k d.length ++ d)) (.push d)) →
        ∃ more d, Scr.Enc ((b :: tl) ++ more) (.push d) := by
      rintro k c rfl hc
      obtain ⟨more, d, e, hd⟩ := complete_len k tl (by
        intro hk
        apply Classical.byContradiction
        intro hge
        have et : (tl.take k).length = k := by rw [List.length_take]; omega
        have hlt := leNat_lt (tl.take k)
        rw [et] at hlt
        have hdl : ((tl.drop k).take (leNat (tl.take k))).length = leNat (tl.take k) := by
          rw [List.length_take, List.length_drop]; omega
        refine hno _ _ ((tl.drop k).drop (leNat (tl.take k))) ?_ (hc ((tl.drop k).take (leNat (tl.take k))) (by rw [hdl]; exact hlt))
        rw [hdl]
        have e2 : leBytes k (leNat (tl.take k)) = tl.take k := by
          have e3 := leBytes_leNat (tl.take k)
          rw [et] at e3
          exact e3
        rw [e2, List.cons_append, List.append_assoc, List.take_append_drop, List.take_append_drop])
      exact ⟨more, d, by rw [List.cons_append, e]; exact hc d hd⟩
    by_cases hb : b.toNat ≤ 75
    · have hlt : tl.length < b.toNat := by
        apply Classical.byContradiction
        intro hge
        have hl : (tl.take b.toNat).length = b.toNat := by rw [List.length_take]; omega
        have := Scr.Enc.direct (tl.take b.toNat) (by omega)
        rw [hl, ofNat_toNat8] at this
        exact hno _ _ (tl.drop b.toNat) (by rw [List.cons_append, List.take_append_drop]) this
      refine ⟨List.replicate (b.toNat - tl.length) 0, tl ++ List.replicate (b.toNat - tl.length) 0, ?_⟩
      have hl : (tl ++ List.replicate (b.toNat - tl.length) (0 : UInt8)).length = b.toNat := by
        rw [List.length_append, List.length_replicate]; omega
      have := Scr.Enc.direct (tl ++ List.replicate (b.toNat - tl.length) 0) (by omega)
      rw [hl, ofNat_toNat8] at this
      exact this
    · by_cases h1 : b = 0x4c
      · exact key 1 _ h1 (fun d hd => .pushdata1 d (by omega))
      · by_cases h2 : b = 0x4d
        · exact key 2 _ h2 (fun d hd => .pushdata2 d hd)
        · by_cases h4 : b = 0x4e
          · exact key 4 _ h4 (fun d hd => .pushdata4 d hd)
          · have n1 : b.toNat ≠ 76 := fun h => h1 (UInt8.toNat_inj.1 h)
            have n2 : b.toNat ≠ 77 := fun h => h2 (UInt8.toNat_inj.1 h)
            have n4 : b.toNat ≠ 78 := fun h => h4 (UInt8.toNat_inj.1 h)
            exact absurd (Scr.Enc.op b (by omega)) (hno [b] _ tl rfl)

/-- Reading the next instruction fails exactly where a push is longer than needed (in minimal mode) or cut off. -/
theorem C124_next (m : Bool) (s : Bytes) (e : ScrErr) : (∃ r, next m s = some (.error e, r)) ↔
    (e = .nonMinimalPush ∧ m = true ∧ Bip34.LongPush s) ∨ (e = .earlyEndOfScript ∧ CutOff s ∧ ¬ (m = true ∧ Bip34.LongPush s)) := by
  by_cases hne : s = []
  · subst hne
    constructor
    · rintro ⟨r, h⟩; rw [next_nil] at h; cases h
    · rintro (⟨_, _, h⟩ | ⟨_, h, _⟩)
      · exact absurd h (by simp [Bip34.LongPush])
      · exact absurd rfl h.1
  have hlong : m = true → (next m s = some (.error .nonMinimalPush, []) ↔ Bip34.LongPush s) := by
    rintro rfl; exact Bip34.next_long s
  rcases next_cases m s hne with ⟨p, i, rest, hp, he, hm, h'⟩ | ⟨hm, h', _⟩ | ⟨h', hno⟩
  · constructor
    · rintro ⟨r, h⟩; rw [h'] at h; cases h
    · rintro (⟨_, h1, h2⟩ | ⟨_, h, _⟩)
      · have := (hlong h1).2 h2
        rw [h'] at this; cases this
      · exact absurd he (h.2.1 p i rest hp)
  · have hl := (hlong hm).1 h'
    constructor
    · rintro ⟨r, h⟩; rw [h'] at h; cases h; exact .inl ⟨rfl, hm, hl⟩
    · rintro (⟨rfl, _, _⟩ | ⟨_, _, h⟩)
      · exact ⟨_, h'⟩
      · exact absurd ⟨hm, hl⟩ h
  · have hnl : ¬ (m = true ∧ Bip34.LongPush s) := by
      rintro ⟨h1, h2⟩
      have := (hlong h1).2 h2
      rw [h'] at this; cases this
    constructor
    · rintro ⟨r, h⟩; rw [h'] at h; cases h; exact .inr ⟨rfl, cutOff_of hne hno, hnl⟩
    · rintro (⟨_, h1, h2⟩ | ⟨rfl, _, _⟩)
      · exact absurd ⟨h1, h2⟩ hnl
      · exact ⟨_, h'⟩

/-- The sentences about a script from the point where reading failed. -/
inductive SaysScript (s : Bytes) : String → Prop
  | long : Bip34.LongPush s → SaysScript s "non-minimal datapush"
  | cut : CutOff s → SaysScript s "unexpected end of script"

/-- Every error that iterating over a script yields, in both modes, says what is wrong at the place where it stopped, which comes after
complete instructions. -/
theorem C124_script_messages (m : Bool) (s : Bytes) (e : ScrErr) (h : .error e ∈ walk m s.length s) :
    ∃ (ps : List (Bytes × Instr)) (rest : Bytes), s = (ps.map Prod.fst).flatten ++ rest ∧ (∀ x ∈ ps, Scr.Enc x.1 x.2) ∧
      walk m s.length s = ps.map (fun x => .ok x.2) ++ [.error e] ∧ SaysScript rest (scriptMsg e) := by
  obtain ⟨ps, rest, hs, hp, hw⟩ := C33_tiles m s
  have hlen : ∀ qs : List (Bytes × Instr), (∀ x ∈ qs, Scr.Enc x.1 x.2) → qs.length ≤ ((qs.map Prod.fst).flatten).length := by
    intro qs
    induction qs with
    | nil => simp
    | cons x qs ih =>
      intro h
      have h1 := ih (fun y hy => h y (by simp [hy]))
      have h2 := List.length_pos_iff.2 (h x (by simp)).ne_nil
      simp only [List.map_cons, List.flatten_cons, List.length_append, List.length_cons]
      omega
  rcases hw with ⟨_, hw⟩ | ⟨e', hst, hw⟩
  · rw [hw] at h
    simp at h
  · have he : e' = e := by
      rw [hw] at h
      simp at h
      exact h.symm
    subst he
    refine ⟨ps, rest, hs, fun x hx => (hp x hx).1, hw, ?_⟩
    have hl := hlen ps (fun x hx => (hp x hx).1)
    have hr : 0 < rest.length := List.length_pos_iff.2 hst.1
    have hsl : s.length = ((ps.map Prod.fst).flatten).length + rest.length := by
      conv => lhs; rw [hs]
      rw [List.length_append]
    have hw2 := walk_append m ps hp rest (s.length - ps.length)
    rw [← hs, show ps.length + (s.length - ps.length) = s.length by omega, hw] at hw2
    have hw3 := List.append_cancel_left hw2
    obtain ⟨f, hf⟩ : ∃ f, s.length - ps.length = f + 1 := ⟨s.length - ps.length - 1, by omega⟩
    rw [hf] at hw3
    have hn : ∃ r, next m rest = some (.error e', r) := by
      unfold walk at hw3
      split at hw3
      · cases hw3
      · rename_i r t hn
        have := (List.cons.inj hw3).1
        subst this
        exact ⟨t, hn⟩
    rcases (C124_next m rest e').1 hn with ⟨rfl, _, h1⟩ | ⟨rfl, h1, _⟩
    · exact .long h1
    · exact .cut h1

example : .error .earlyEndOfScript ∈ walk true ([0x51, 0x02, 0x07] : Bytes).length [0x51, 0x02, 0x07] := by decide

/-- `push_int` fails only for the one `i32` whose encoding has more than four bytes, and says so. -/
theorem C124_push_int (s : Bytes) (n : Int) (e : ScrErr) (he : pushInt s n = some (.error e)) :
    scriptMsg e = "numeric overflow (number on stack larger than 4 bytes)" ∧ ∀ v, numVal v = n → 4 < v.length := by
  unfold pushInt at he
  by_cases hn : n = -(2 ^ 31)
  · rw [if_pos hn] at he
    cases he
    refine ⟨rfl, fun v hv => ?_⟩
    apply Classical.byContradiction
    intro hl
    have := natAbs_numVal_lt v 3 (by omega)
    rw [hv, hn] at this
    exact absurd this (by decide)
  · rw [if_neg hn] at he
    cases hp : pushIntUnchecked s n with
    | none => rw [hp] at he; cases he
    | some t => rw [hp] at he; cases he

example : pushInt [0x51] (-(2 ^ 31)) = some (.error .numericOverflow) := by decide

/-! ## Script numbers -/

/-- The sentences about the bytes of a script number, read with a limit of `max` bytes; the second is what the code checks. -/
inductive SaysNum (max : Nat) (v : Bytes) : String → Prop
  | range : max < v.length → (NumMinimal v → ∀ w, w.length ≤ max → numVal w ≠ numVal v) → SaysNum max v "script integer outside of valid range"
  | minimal : v.length ≤ max → (∃ w, numVal w = numVal v ∧ w.length < v.length) → SaysNum max v "non-minimal encoded script integer"

theorem readInternal_error (v : Bytes) (max : Nat) (e : NumErr) : readScriptintInternal v max = .error e ↔
    (e = .numericOverflow ∧ max < v.length) ∨ (e = .nonMinimal ∧ v.length ≤ max ∧ ¬ NumMinimal v) := by
  obtain ⟨h1, h2, h3⟩ := readInternal_spec v max
  by_cases hl : max < v.length
  · rw [h1 hl]
    constructor
    · intro h; cases h; exact .inl ⟨rfl, hl⟩
    · rintro (⟨rfl, _⟩ | ⟨_, h, _⟩)
      · rfl
      · omega
  · by_cases hm : NumMinimal v
    · rw [h2 (by omega) hm]
      constructor
      · intro h; cases h
      · rintro (⟨_, h⟩ | ⟨_, _, h⟩)
        · omega
        · exact absurd hm h
    · rw [h3 (by omega) hm]
      constructor
      · intro h; cases h; exact .inr ⟨rfl, by omega, hm⟩
      · rintro (⟨_, h⟩ | ⟨rfl, _, _⟩)
        · omega
        · rfl

theorem saysNum_of {v : Bytes} {max : Nat} {e : NumErr}
    (h : (e = .numericOverflow ∧ max < v.length) ∨ (e = .nonMinimal ∧ v.length ≤ max ∧ ¬ NumMinimal v)) : SaysNum max v (numMsg e) := by
  rcases h with ⟨rfl, h⟩ | ⟨rfl, h, hm⟩
  · refine .range h (fun hmin w hw heq => ?_)
    have := hmin w heq
    omega
  · refine .minimal h ?_
    unfold NumMinimal at hm
    apply Classical.byContradiction
    intro hc
    exact hm (fun w hw => by
      apply Classical.byContradiction
      intro hlt
      exact hc ⟨w, hw, by omega⟩)

/-- Reading a script number of at most four bytes (`read_scriptint`) or five (`read_cltv_scriptint`): the error is exact, and its text true
of minimally encoded numbers. -/
theorem C124_number_messages_partial (v : Bytes) (e : NumErr) :
    (readScriptint v = .error e ↔ (e = .numericOverflow ∧ 4 < v.length) ∨ (e = .nonMinimal ∧ v.length ≤ 4 ∧ ¬ NumMinimal v)) ∧
    (readCltvScriptint v = .error e ↔ (e = .numericOverflow ∧ 5 < v.length) ∨ (e = .nonMinimal ∧ v.length ≤ 5 ∧ ¬ NumMinimal v)) ∧
    (readScriptint v = .error e → SaysNum 4 v (numMsg e)) ∧ (readCltvScriptint v = .error e → SaysNum 5 v (numMsg e)) := by
  have h5 := readInternal_error v 5 e
  have h4 : readScriptint v = .error e ↔ (e = .numericOverflow ∧ 4 < v.length) ∨ (e = .nonMinimal ∧ v.length ≤ 4 ∧ ¬ NumMinimal v) := by
    rw [← readInternal_error v 4 e]
    obtain ⟨h1, h2, h3⟩ := C34_read v
    obtain ⟨i1, i2, i3⟩ := readInternal_spec v 4
    by_cases hl : 4 < v.length
    · rw [h1 hl, i1 hl]
    · by_cases hm : NumMinimal v
      · rw [h2 (by omega) hm, i2 (by omega) hm]
      · rw [h3 (by omega) hm, i3 (by omega) hm]
  exact ⟨h4, h5, fun h => saysNum_of (h4.1 h), fun h => saysNum_of (h5.1 h)⟩

/-- A number in the valid range is said to be outside of it when it is padded to more than four bytes. -/
theorem C124_number_range_fails : ∃ v, readScriptint v = .error .numericOverflow ∧
    numMsg .numericOverflow = "script integer outside of valid range" ∧ ∃ w, readScriptint w = .ok (numVal v) :=
  ⟨[1, 0, 0, 0, 0], rfl, rfl, [1], rfl⟩

example : readScriptint [1, 0] = .error .nonMinimal ∧ readCltvScriptint [0, 0, 0, 0, 0, 1] = .error .numericOverflow := by decide

/-! ## Out points -/

/-- A text with exactly one colon, `a` before it and `b` after it, neither empty. -/
def Halves (s a b : Bytes) : Prop := s = a ++ 58 :: b ∧ a ≠ [] ∧ b ≠ [] ∧ 58 ∉ a ∧ 58 ∉ b

/-- 32 bytes in base 16. -/
def TxidText (a : Bytes) : Prop := a.length = 64 ∧ ∀ c ∈ a, SigErr.HexDigit c

/-- The faults of the text of an out point. -/
inductive OutPointBad (s : Bytes) : OutPointErr → Prop
  | long : 75 < s.length → OutPointBad s .tooLong
  | format : s.length ≤ 75 → (∀ a b, ¬ Halves s a b) → OutPointBad s .format
  | txid (a b : Bytes) : s.length ≤ 75 → Halves s a b → ¬ TxidText a → OutPointBad s .txid
  | canonical (a b : Bytes) : s.length ≤ 75 → Halves s a b → TxidText a → 1 < b.length → (b.head? = some 48 ∨ b.head? = some 43) →
      OutPointBad s .voutNotCanonical
  | vout (a b : Bytes) (k : IntErr) : s.length ≤ 75 → Halves s a b → TxidText a → ¬ (1 < b.length ∧ (b.head? = some 48 ∨ b.head? = some 43)) →
      parseUInt (2 ^ 32 - 1) 10 b = .error k → OutPointBad s (.vout k)

theorem parseTxid_none (a : Bytes) : parseTxid a = none ↔ ¬ TxidText a := by
  have hs := SigErr.unhex_some a
  unfold parseTxid
  constructor
  · intro h ht
    obtain ⟨b, hb⟩ := hs.2 ⟨by rw [ht.1], ht.2⟩
    rw [hb] at h
    have hl := unhex_length _ _ hb
    simp only [] at h
    rw [dif_pos (by have := ht.1; omega)] at h
    cases h
  · intro h
    cases hb : unhex a with
    | none => rfl
    | some b =>
      simp only []
      have hl := unhex_length _ _ hb
      have := hs.1 ⟨b, hb⟩
      rw [dif_neg (fun hc => h ⟨by omega, this.2⟩)]

theorem voutBad_iff (b : Bytes) : voutBad b = true ↔ 1 < b.length ∧ (b.head? = some 48 ∨ b.head? = some 43) := by
  unfold voutBad
  cases b with
  | nil => simp
  | cons c t =>
    by_cases h : (c :: t).length > 1
    · rw [if_pos h]; simp only [List.head?_cons, Option.some.injEq, Bool.or_eq_true, beq_iff_eq]
      exact ⟨fun hc => ⟨h, hc⟩, fun hc => hc.2⟩
    · rw [if_neg h]
      exact ⟨fun hc => (by cases hc), fun hc => absurd hc.1 h⟩

theorem findColon_none {s : Bytes} (h : findColon s = none) : 58 ∉ s := by
  unfold findColon at h
  rw [List.findIdx?_eq_none_iff] at h
  intro hm
  exact absurd (h _ hm) (by decide)

theorem findColon_before {s : Bytes} {c : Nat} (h : findColon s = some c) : c < s.length ∧ 58 ∉ s.take c := by
  unfold findColon at h
  obtain ⟨h1, _, h3⟩ := List.findIdx?_eq_some_iff_getElem.mp h
  refine ⟨h1, fun hm => ?_⟩
  obtain ⟨j, hj, he⟩ := List.getElem_of_mem hm
  rw [List.getElem_take] at he
  rw [List.length_take] at hj
  have := h3 j (by omega)
  rw [he] at this
  exact absurd this (by decide)

theorem halves_iff (s : Bytes) (c : Nat) (h : findColon s = some c) :
    (¬ (rfindColon s ≠ some c) ∧ ¬ (c = 0 ∨ c = s.length - 1)) ↔ Halves s (s.take c) (s.drop (c + 1)) := by
  have hs := findColon_split h
  obtain ⟨hc, hb⟩ := findColon_before h
  have hlt : (s.take c).length = c := by rw [List.length_take]; omega
  constructor
  · rintro ⟨h1, h2⟩
    refine ⟨hs, fun he => ?_, fun he => ?_, hb, fun hm => ?_⟩
    · have := congrArg List.length he
      rw [hlt] at this; simp at this; omega
    · have := congrArg List.length he
      rw [List.length_drop] at this; simp at this; omega
    · have h1' : rfindColon s = some c := Classical.byContradiction h1
      obtain ⟨u, v, huv, hv⟩ : ∃ u v, s.drop (c + 1) = u ++ 58 :: v ∧ ∀ x ∈ v, x ≠ 58 := by
        generalize s.drop (c + 1) = l at hm
        induction l with
        | nil => cases hm
        | cons x l ih =>
          by_cases hx : 58 ∈ l
          · obtain ⟨u, v, e, hv⟩ := ih hx
            exact ⟨x :: u, v, by rw [e]; rfl, hv⟩
          · have : x = 58 := by
              rcases List.mem_cons.1 hm with h | h
              · exact h.symm
              · exact absurd h hx
            exact ⟨[], l, by rw [this]; rfl, fun y hy he => hx (he ▸ hy)⟩
      have e2 : s = (s.take c ++ 58 :: u) ++ 58 :: v := by
        conv => lhs; rw [hs, huv]
        simp
      have hr := rfindColon_mid (s.take c ++ 58 :: u) v hv
      rw [← e2, h1'] at hr
      have := Option.some.inj hr
      rw [List.length_append, hlt, List.length_cons] at this
      omega
  · rintro ⟨_, ha, hd, _, hbm⟩
    have hr := rfindColon_mid (s.take c) (s.drop (c + 1)) (fun x hx he => hbm (he ▸ hx))
    rw [← hs, hlt] at hr
    refine ⟨fun hn => hn hr, ?_⟩
    rintro (h0 | h0)
    · rw [h0] at ha; exact ha (List.take_zero ..)
    · apply hd
      rw [List.drop_eq_nil_iff]; omega

theorem halves_unique {s a b a' b' : Bytes} (h : Halves s a b) (h' : Halves s a' b') : a = a' ∧ b = b' := by
  have f1 := findColon_mid a b (fun x hx he => h.2.2.2.1 (he ▸ hx))
  have f2 := findColon_mid a' b' (fun x hx he => h'.2.2.2.1 (he ▸ hx))
  rw [← h.1] at f1
  rw [← h'.1, f1] at f2
  have hl := Option.some.inj f2
  have e := h.1.symm.trans h'.1
  obtain ⟨e1, e2⟩ := List.append_inj e hl
  exact ⟨e1, (List.cons.inj e2).2⟩

/-- The text of an out point is refused with an error exactly when it has the fault. -/
theorem C124_out_point (s : Bytes) (e : OutPointErr) : parseOutPoint s = .error e ↔ OutPointBad s e := by
  unfold parseOutPoint
  by_cases hl : s.length > 75
  · rw [if_pos hl]
    constructor
    · intro h; cases h; exact .long hl
    · intro h
      cases h with
      | long => rfl
      | _ => omega
  rw [if_neg hl]
  have hl' : s.length ≤ 75 := by omega
  have nofmt : ∀ {r : Except OutPointErr OutPoint}, r = .error .format → (∀ a b, ¬ Halves s a b) → (r = .error e ↔ OutPointBad s e) := by
    rintro r rfl hno
    constructor
    · intro h; cases h; exact .format hl' hno
    · intro h
      cases h with
      | long => omega
      | format => rfl
      | txid a b _ h => exact absurd h (hno a b)
      | canonical a b _ h => exact absurd h (hno a b)
      | vout a b _ _ h => exact absurd h (hno a b)
  cases hf : findColon s with
  | none =>
    refine nofmt rfl (fun a b h => findColon_none hf ?_)
    rw [h.1]; simp
  | some c =>
    simp only []
    have hiff := halves_iff s c hf
    have hany : ∀ a b, Halves s a b → Halves s (s.take c) (s.drop (c + 1)) := by
      intro a b h
      have f1 := findColon_mid a b (fun x hx he => h.2.2.2.1 (he ▸ hx))
      rw [← h.1, hf] at f1
      have hc := Option.some.inj f1
      have e1 : s.take c = a := by rw [h.1, hc, List.take_left]
      have e2 : s.drop (c + 1) = b := by
        rw [h.1, hc, show a ++ 58 :: b = (a ++ [58]) ++ b by simp,
          show a.length + 1 = (a ++ [(58 : UInt8)]).length by simp, List.drop_left]
      rw [e1, e2]; exact h
    by_cases hr : rfindColon s ≠ some c
    · rw [if_pos hr]
      exact nofmt rfl (fun a b h => (hiff.2 (hany a b h)).1 hr)
    rw [if_neg hr]
    by_cases hz : c = 0 ∨ c = s.length - 1
    · rw [if_pos hz]
      exact nofmt rfl (fun a b h => (hiff.2 (hany a b h)).2 hz)
    rw [if_neg hz]
    have hh := hiff.1 ⟨hr, hz⟩
    generalize s.take c = a at *
    generalize s.drop (c + 1) = b at *
    cases ht : parseTxid a with
    | none =>
      simp only []
      have hbad := (parseTxid_none a).1 ht
      constructor
      · intro h; cases h; exact .txid a b hl' hh hbad
      · intro h
        cases h with
        | long => omega
        | format _ hno => exact absurd hh (hno a b)
        | txid => rfl
        | canonical a' b' _ h2 h3 => rw [(halves_unique h2 hh).1] at h3; exact absurd h3 hbad
        | vout a' b' _ _ h2 h3 => rw [(halves_unique h2 hh).1] at h3; exact absurd h3 hbad
    | some t =>
      simp only []
      have hgood : TxidText a := by
        apply Classical.byContradiction
        intro hc
        rw [(parseTxid_none a).2 hc] at ht; cases ht
      unfold parseVout
      by_cases hv : voutBad b = true
      · rw [if_pos hv]
        have hv' := (voutBad_iff b).1 hv
        constructor
        · intro h; cases h; exact .canonical a b hl' hh hgood hv'.1 hv'.2
        · intro h
          cases h with
          | long => omega
          | format _ hno => exact absurd hh (hno a b)
          | txid a' b' _ h2 h3 => rw [(halves_unique h2 hh).1] at h3; exact absurd hgood h3
          | canonical => rfl
          | vout a' b' _ _ h2 h3 h4 => rw [(halves_unique h2 hh).2] at h4; exact absurd hv' h4
      · rw [if_neg hv]
        have hv' := mt (voutBad_iff b).2 hv
        cases hp : parseUInt (2 ^ 32 - 1) 10 b with
        | error k =>
          simp only []
          constructor
          · intro h; cases h; exact .vout a b k hl' hh hgood hv' hp
          · intro h
            cases h with
            | long => omega
            | format _ hno => exact absurd hh (hno a b)
            | txid a' b' _ h2 h3 => rw [(halves_unique h2 hh).1] at h3; exact absurd hgood h3
            | canonical a' b' _ h2 h3 h4 h5 => rw [(halves_unique h2 hh).2] at h4 h5; exact absurd ⟨h4, h5⟩ hv'
            | vout a' b' k' _ h2 h3 h4 h5 => rw [(halves_unique h2 hh).2, hp] at h5; cases h5; rfl
        | ok n =>
          simp only []
          constructor
          · intro h; cases h
          · intro h
            cases h with
            | long => omega
            | format _ hno => exact absurd hh (hno a b)
            | txid a' b' _ h2 h3 => rw [(halves_unique h2 hh).1] at h3; exact absurd hgood h3
            | canonical a' b' _ h2 h3 h4 h5 => rw [(halves_unique h2 hh).2] at h4 h5; exact absurd ⟨h4, h5⟩ hv'
            | vout a' b' k' _ h2 h3 h4 h5 => rw [(halves_unique h2 hh).2, hp] at h5; cases h5

/-- The sentences about the text of an out point; the one about the digits of the vout only for a text that starts with 64 bytes and a
colon. -/
inductive SaysOutPoint (s : Bytes) : String → Prop
  | txid (a b : Bytes) : Halves s a b → ¬ TxidText a → SaysOutPoint s "error parsing TXID"
  | vout (a b : Bytes) : Halves s a b → (∀ n, digitsVal 10 0 b = some n → 2 ^ 32 ≤ n) → SaysOutPoint s "error parsing vout"
  | format : (∀ a b, ¬ Halves s a b) → SaysOutPoint s "OutPoint not in <txid>:<vout> format"
  | digits : (∀ a b, s = a ++ 58 :: b → a.length = 64 → 10 < b.length) → SaysOutPoint s "vout should be at most 10 digits"
  | zeroes (a b t : Bytes) : Halves s a b → t ≠ [] → b = 48 :: t ∨ b = 43 :: t → SaysOutPoint s "no leading zeroes or + allowed in vout part"

theorem C124_out_point_messages_partial (s : Bytes) (e : OutPointErr) (h : parseOutPoint s = .error e) : SaysOutPoint s (outPointMsg e) := by
  cases (C124_out_point s e).1 h with
  | long hl =>
    refine .digits (fun a b e1 e2 => ?_)
    rw [e1, List.length_append, List.length_cons] at hl
    omega
  | format _ h2 => exact .format h2
  | txid a b _ h2 h3 => exact .txid a b h2 h3
  | canonical a b _ h2 _ h4 h5 =>
    cases b with
    | nil => exact absurd h4 (by simp)
    | cons c t =>
      refine .zeroes a (c :: t) t h2 ?_ ?_
      · rintro rfl; exact absurd h4 (by simp)
      · rcases h5 with h5 | h5
        · cases h5; exact .inl rfl
        · cases h5; exact .inr rfl
  | vout a b k _ h2 _ _ h5 =>
    refine .vout a b h2 (fun n hn => ?_)
    apply Classical.byContradiction
    intro hlt
    have := (parseUInt_ok_iff (max := 2 ^ 32 - 1) (radix := 10) (by omega) b n).2 ⟨b, .inl rfl, h2.2.2.1, hn, by omega⟩
    rw [h5] at this
    cases this

/-- A text that is too long is always said to have too many digits in its vout, even if that has one digit, or if there is none. -/
theorem C124_out_point_fails : ∃ a, Halves (a ++ [58, 49]) a [49] ∧ parseOutPoint (a ++ [58, 49]) = .error .tooLong ∧
    parseOutPoint a = .error .tooLong ∧ 58 ∉ a ∧ outPointMsg .tooLong = "vout should be at most 10 digits" := by
  have hm : (58 : UInt8) ∉ List.replicate 76 (97 : UInt8) := by
    intro h; exact absurd (List.eq_of_mem_replicate h) (by decide)
  refine ⟨List.replicate 76 97, ⟨rfl, by decide, by decide, hm, by decide⟩, ?_, ?_, hm, rfl⟩
  · exact (C124_out_point _ _).2 (.long (by decide))
  · exact (C124_out_point _ _).2 (.long (by decide))

example : parseOutPoint [97, 58, 49] = .error .txid ∧ parseOutPoint (List.replicate 64 97 ++ [58, 120]) = .error (.vout .invalidDigit) := ⟨rfl, rfl⟩

/-! ## Numbers of 256 bits -/

def DecDigit (c : UInt8) : Prop := 48 ≤ c.toNat ∧ c.toNat ≤ 57

theorem digitsVal_some : ∀ (s : Bytes) (acc : Nat), (∀ c ∈ s, DecDigit c) → ∃ n, digitsVal 10 acc s = some n
  | [], acc, _ => ⟨acc, rfl⟩
  | c :: s, acc, h => by
    have hc := h c (by simp)
    unfold DecDigit at hc
    have e : digitVal 10 c = some (c.toNat - 48) := by
      unfold digitVal
      simp only []
      rw [if_pos hc]
      simp only []
      rw [if_pos (by omega)]
    simp only [digitsVal, e]
    exact digitsVal_some s _ (fun x hx => h x (by simp [hx]))

theorem fromStrLoop_bad : ∀ (l : List Bytes) (r : U256) (e : U256.ParseErr), (∀ c ∈ l, c ≠ [] ∧ c.length ≤ 38) →
    U256.fromStrLoop l r = .error e → e = .overflow ∨ (e = .invalidDigit ∧ ∃ c ∈ l, ∃ x ∈ c, ¬ DecDigit x)
  | [], r, e, _, h => by cases h
  | c :: l, r, e, hc, h => by
    unfold U256.fromStrLoop at h
    split at h
    · rename_i k hk
      cases h
      refine .inr ⟨rfl, c, by simp, ?_⟩
      apply Classical.byContradiction
      intro hno
      have hall : ∀ x ∈ c, DecDigit x := fun x hx => Classical.byContradiction (fun hn => hno ⟨x, hx, hn⟩)
      obtain ⟨n, hn⟩ := digitsVal_some c 0 hall
      have hlt := U256.digitsVal_bound c n hn
      have hp : 10 ^ c.length ≤ 10 ^ 38 := Nat.pow_le_pow_right (by omega) (hc c (by simp)).2
      have h38 : 10 ^ 38 ≤ 2 ^ 128 - 1 := by decide
      have := (parseUInt_ok_iff (max := 2 ^ 128 - 1) (radix := 10) (by omega) c n).2 ⟨c, .inl rfl, (hc c (by simp)).1, hn, by omega⟩
      rw [hk] at this
      cases this
    · simp only [] at h
      split at h
      · cases h; exact .inl rfl
      · rcases fromStrLoop_bad l _ e (fun x hx => hc x (by simp [hx])) h with h1 | ⟨h1, d, hd, h2⟩
        · exact .inl h1
        · exact .inr ⟨h1, d, by simp [hd], h2⟩

theorem rchunks_spec (s : Bytes) : (∀ c ∈ U256.rchunks38 s, c ≠ [] ∧ c.length ≤ 38) ∧ (U256.rchunks38 s).flatten = s := by
  have hlen : (s.drop (s.length % 38)).length % 38 = 0 := by rw [List.length_drop]; omega
  obtain ⟨c1, c2⟩ := U256.chunks38_spec s.length (s.drop (s.length % 38)) hlen (by rw [List.length_drop]; omega)
  have hc : ∀ c ∈ U256.chunks38 s.length (s.drop (s.length % 38)), c ≠ [] ∧ c.length ≤ 38 := by
    intro c h
    have := c1 c h
    exact ⟨by rintro rfl; simp at this, by omega⟩
  unfold U256.rchunks38
  simp only []
  by_cases hr : s.length % 38 = 0
  · rw [if_pos hr, List.nil_append]
    exact ⟨hc, by rw [c2, hr]; rfl⟩
  · rw [if_neg hr, List.cons_append, List.nil_append]
    refine ⟨fun c h => ?_, by rw [List.flatten_cons, c2, List.take_append_drop]⟩
    rcases List.mem_cons.1 h with rfl | h
    · have hl : (s.take (s.length % 38)).length = s.length % 38 := by rw [List.length_take]; omega
      refine ⟨fun he => ?_, by omega⟩
      rw [he] at hl
      simp only [List.length_nil] at hl
      omega
    · exact hc c h

/-- The sentences about the text of a number; the last only if the text is a number at all. -/
inductive SaysU256 (s : Bytes) : String → Prop
  | empty : s = [] → SaysU256 s "parsed string is empty"
  | digit (c : UInt8) : c ∈ s → ¬ DecDigit c → SaysU256 s "parsed number contained invalid digit"
  | range : s ≠ [] → (∀ n, digitsVal 10 0 s = some n → 2 ^ 256 ≤ n) → SaysU256 s "parsed value exceeded unsigned 256-bit range"

theorem C124_u256_messages_partial (s : Bytes) (e : U256.ParseErr) (h : U256.fromStr s = .error e) : SaysU256 s (u256Msg e) := by
  by_cases hs : s = []
  · subst hs
    cases h
    exact .empty rfl
  · have h' := h
    unfold U256.fromStr at h'
    rw [if_neg (by simpa using hs)] at h'
    obtain ⟨h1, h2⟩ := rchunks_spec s
    rcases fromStrLoop_bad _ _ _ h1 h' with rfl | ⟨rfl, c, hc, x, hx, hd⟩
    · exact .range hs (fun n hn => ((U256.C43_from_str s n hs hn).2).2 h)
    · refine .digit x ?_ hd
      rw [← h2]
      exact List.mem_flatten.2 ⟨c, hc, hx⟩

theorem fromStrLoop_append : ∀ (l l' : List Bytes) (r : U256) (e : U256.ParseErr), U256.fromStrLoop l r = .error e →
    U256.fromStrLoop (l ++ l') r = .error e
  | [], _, _, _, h => by cases h
  | c :: l, l', r, e, h => by
    rw [List.cons_append]
    unfold U256.fromStrLoop at h ⊢
    split at h
    · exact h
    · simp only [] at h ⊢
      split at h
      · rename_i hf; rw [if_pos hf]; exact h
      · rename_i hf; rw [if_neg hf]; exact fromStrLoop_append l l' _ e h

/-- A text that is not a number is said to be too large a number, if the overflow comes before the first wrong character is reached. -/
theorem C124_u256_range_fails : ∃ s : Bytes, U256.fromStr s = .error .overflow ∧ 120 ∈ s ∧ digitsVal 10 0 s = none ∧
    u256Msg .overflow = "parsed value exceeded unsigned 256-bit range" := by
  refine ⟨List.replicate 114 57 ++ (120 :: List.replicate 37 57), ?_, by simp, by decide, rfl⟩
  have hd : ∃ n, digitsVal 10 0 (List.replicate 114 (57 : UInt8)) = some n := digitsVal_some _ _ (by
    intro c hc
    rw [List.eq_of_mem_replicate hc]
    unfold DecDigit; decide)
  obtain ⟨n, hn⟩ := hd
  have hlow : 2 ^ 256 ≤ n := by
    have : digitsVal 10 0 (List.replicate 114 (57 : UInt8)) = some (10 ^ 114 - 1) := by decide +kernel
    rw [this] at hn
    cases hn
    decide +kernel
  have ho := ((U256.C43_from_str (List.replicate 114 57) n (by decide) hn).2).1 hlow
  unfold U256.fromStr at ho ⊢
  rw [if_neg (by decide)] at ho ⊢
  have e : U256.rchunks38 (List.replicate 114 57 ++ (120 :: List.replicate 37 57)) =
      U256.rchunks38 (List.replicate 114 57) ++ [120 :: List.replicate 37 57] := by decide +kernel
  rw [e]
  exact fromStrLoop_append _ _ _ _ ho

example : U256.fromStr [49, 120] = .error .invalidDigit := by rfl

/-! ## Witness versions -/

/-- The conversions of `Script/Opcodes.lean` are these without the error values. -/
theorem versions_agree (n : UInt8) : (versionOfU8 n).toOption = witnessVersionFromU8 n ∧ (versionOfOp n).toOption = witnessVersionFromOp n := by
  have h1 : ∀ n, (versionOfU8 n).toOption = witnessVersionFromU8 n := by
    intro n
    unfold versionOfU8 witnessVersionFromU8
    split <;> rfl
  refine ⟨h1 n, ?_⟩
  unfold versionOfOp witnessVersionFromOp
  split
  · rfl
  · split
    · exact h1 _
    · rfl

/-- Numbers, instructions and texts that are not a witness version are refused, with a true reason. -/
theorem C124_version (n : UInt8) (i : Instr) (s : Bytes) :
    (∀ e, versionOfU8 n = .error e ↔ e = n ∧ 16 < n.toNat) ∧
    (∀ e, versionOfU8 n = .error e → versionMsg e = "invalid witness script version: " ++ toString n.toNat) ∧
    (∀ e, versionOfInstr i = .error e →
      (fromInstrMsg e = "opcode is not a valid witness version" ∧ ∃ o, i = .op o ∧ o.toNat ≠ 0 ∧ ¬ (0x51 ≤ o.toNat ∧ o.toNat ≤ 0x60)) ∨
      (fromInstrMsg e = "non-zero data push opcode is not a valid witness version" ∧ ∃ b, i = .push b ∧ b ≠ [])) ∧
    (∀ e, parseVersion s = .error e →
      (parseVersionMsg e = "integer parse error" ∧ ∀ m, digitsVal 10 0 s = some m → s ≠ [] → 255 < m) ∨
      (parseVersionMsg e = "invalid version number" ∧ ∃ ds m, (s = ds ∨ s = 43 :: ds) ∧ digitsVal 10 0 ds = some m ∧ 16 < m)) := by
  have h8 : ∀ (n e : UInt8), versionOfU8 n = .error e ↔ e = n ∧ 16 < n.toNat := by
    intro n e
    unfold versionOfU8
    by_cases h : n ≤ 16
    · rw [if_pos h]
      have : n.toNat ≤ 16 := h
      exact ⟨fun h => (by cases h), fun h => by omega⟩
    · rw [if_neg h]
      have : ¬ n.toNat ≤ 16 := h
      exact ⟨fun h => (by cases h; exact ⟨rfl, by omega⟩), fun h => by rw [h.1]⟩
  refine ⟨h8 n, fun e h => ?_, fun e h => ?_, fun e h => ?_⟩
  · rw [((h8 n e).1 h).1]; rfl
  · cases i with
    | op o =>
      refine .inl ?_
      unfold versionOfInstr at h
      simp only [] at h
      split at h
      · cases h
      · rename_i e' he
        cases h
        refine ⟨rfl, o, rfl, ?_⟩
        unfold versionOfOp at he
        split at he
        · cases he
        · rename_i h0
          refine ⟨fun hc => h0 (UInt8.toNat_inj.1 hc), ?_⟩
          split at he
          · rename_i h1
            have hl : 0x51 ≤ o.toNat := h1.1
            have hu : o.toNat ≤ 0x60 := h1.2
            have h2 := ((h8 _ _).1 he).2
            have e1 : OP_1.toNat = 0x51 := rfl
            have hsub : (o - OP_1 + 1).toNat = o.toNat - 0x51 + 1 := by
              rw [UInt8.toNat_add, UInt8.toNat_sub_of_le _ _ h1.1, e1]
              have : (1 : UInt8).toNat = 1 := rfl
              omega
            omega
          · rename_i h1
            exact fun hc => h1 ⟨hc.1, hc.2⟩
    | push b =>
      refine .inr ?_
      unfold versionOfInstr at h
      simp only [] at h
      split at h
      · cases h
      · rename_i hb
        cases h
        exact ⟨rfl, b, rfl, by simpa using hb⟩
  · unfold parseVersion at h
    split at h
    · rename_i k hk
      cases h
      refine .inl ⟨rfl, fun m hm hne => ?_⟩
      apply Classical.byContradiction
      intro hlt
      have := (parseUInt_ok_iff (max := 255) (radix := 10) (by omega) s m).2 ⟨s, .inl rfl, hne, hm, by omega⟩
      rw [hk] at this
      cases this
    · rename_i m hm
      split at h
      · cases h
      · rename_i e' he
        cases h
        refine .inr ⟨rfl, ?_⟩
        obtain ⟨ds, h1, _, h3, h4⟩ := (parseUInt_ok_iff (by omega) _ _).1 hm
        refine ⟨ds, m, h1, h3, ?_⟩
        have := ((h8 _ _).1 he).2
        rw [UInt8.toNat_ofNat'] at this
        omega

/-- From an opcode, the message names the opcode and calls it a version: five is a valid witness version, but an opcode of five is refused
as version five. -/
theorem C124_version_opcode_fails : ∃ op e, versionOfOp op = .error e ∧ versionMsg e = "invalid witness script version: 5" ∧
    versionOfU8 5 = .ok 5 :=
  ⟨5, 5, rfl, by decide, rfl⟩

example : parseVersion [49, 55] = .error (.invalid 17) ∧ versionOfInstr (.push [1]) = .error .dataPush := ⟨rfl, rfl⟩

/-! ## Sizes -/

/-- The size limits of redeem scripts and witness scripts: the error is exact and its text names the limit and the size. -/
theorem C124_sizes (H : Bytes → Arr 20) (W : Bytes → Arr 32) (s : Bytes) :
    (∀ n, scriptHash H s = .error n ↔ n = s.length ∧ 520 < s.length) ∧ (∀ n, wscriptHash W s = .error n ↔ n = s.length ∧ 10000 < s.length) ∧
    (∀ n, scriptHash H s = .error n → redeemSizeMsg n = "redeem script size exceeds 520 bytes: " ++ toString s.length) ∧
    (∀ n, wscriptHash W s = .error n → witnessSizeMsg n = "witness script size exceeds 10000 bytes: " ++ toString s.length) ∧
    (scriptHash H s).toOption.map newP2sh = toP2sh H s ∧ (wscriptHash W s).toOption.map newP2wsh = toP2wsh W s := by
  have h1 : ∀ n, scriptHash H s = .error n ↔ n = s.length ∧ 520 < s.length := by
    intro n
    unfold scriptHash
    split
    · rename_i h; exact ⟨fun h' => (by cases h'; exact ⟨rfl, h⟩), fun h' => by rw [h'.1]⟩
    · rename_i h; exact ⟨fun h' => (by cases h'), fun h' => absurd h'.2 h⟩
  have h2 : ∀ n, wscriptHash W s = .error n ↔ n = s.length ∧ 10000 < s.length := by
    intro n
    unfold wscriptHash
    split
    · rename_i h; exact ⟨fun h' => (by cases h'; exact ⟨rfl, h⟩), fun h' => by rw [h'.1]⟩
    · rename_i h; exact ⟨fun h' => (by cases h'), fun h' => absurd h'.2 h⟩
  have t1 : redeemSizeMsg s.length = "redeem script size exceeds 520 bytes: " ++ toString s.length := by
    unfold redeemSizeMsg
    rw [show ("redeem script size exceeds " ++ toString 520 ++ " bytes: " : String) = "redeem script size exceeds 520 bytes: " by decide]
  have t2 : witnessSizeMsg s.length = "witness script size exceeds 10000 bytes: " ++ toString s.length := by
    unfold witnessSizeMsg
    rw [show ("witness script size exceeds " ++ toString 10000 ++ " bytes: " : String) = "witness script size exceeds 10000 bytes: " by decide]
  refine ⟨h1, h2, fun n h => ?_, fun n h => ?_, ?_, ?_⟩
  · rw [((h1 n).1 h).1]; exact t1
  · rw [((h2 n).1 h).1]; exact t2
  · unfold scriptHash toP2sh
    split <;> rfl
  · unfold wscriptHash toP2wsh
    split <;> rfl

example : (520 : Nat) < (List.replicate 521 (0 : UInt8)).length := by rw [List.length_replicate]; omega

/-! ## Buffers of bytes to push -/

/-- What the methods of a buffer do to its contents, without any limit. -/
def plain (buf : Bytes) : BufOp → Bytes
  | .push c => buf ++ [c]
  | .extend b => buf ++ b
  | .pop => buf.dropLast
  | .remove i => buf.take i ++ buf.drop (i + 1)
  | .clear => []
  | .truncate n => buf.take n

theorem checkLimit_satAdd (a b : Nat) (ha : a < 2 ^ 32) (hb : b < 2 ^ 63) :
    checkLimit (satAdd a b) = if a + b < 2 ^ 32 then .ok () else .error (a + b) := by
  have e : satAdd a b = a + b := by unfold satAdd; omega
  rw [e]; rfl

/-- One call on a buffer of less than 2^32 bytes either has its plain effect, or panics (removing a byte that is not there), or would make
2^32 bytes or more: then nothing changes and the error says how many. -/
theorem C124_buffer_step (buf : Bytes) (o : BufOp) (hb : buf.length < 2 ^ 32) (ho : ∀ b, o = .extend b → b.length < 2 ^ 63) :
    (bufStep buf o = none ∧ ∃ i, o = .remove i ∧ buf.length ≤ i) ∨
    (bufStep buf o = some (plain buf o, none) ∧ (plain buf o).length < 2 ^ 32 ∧ ∀ i, o = .remove i → i < buf.length) ∨
    (bufStep buf o = some (buf, some (plain buf o).length) ∧ 2 ^ 32 ≤ (plain buf o).length ∧
      pushBytesMsg (plain buf o).length = "attempt to prepare " ++ toString (plain buf o).length ++
        " bytes to be pushed into script but the limit is 2^32-1") := by
  cases o with
  | push c =>
    have h1 := checkLimit_satAdd buf.length 1 hb (by decide)
    have hl : (plain buf (.push c)).length = buf.length + 1 := by simp [plain]
    rw [hl]
    by_cases hlt : buf.length + 1 < 2 ^ 32
    · rw [if_pos hlt] at h1
      exact .inr (.inl ⟨by simp only [bufStep, bufPush, h1, plain], hlt, fun i h => by cases h⟩)
    · rw [if_neg hlt] at h1
      exact .inr (.inr ⟨by simp only [bufStep, bufPush, h1], by omega, rfl⟩)
  | extend b =>
    have h1 := checkLimit_satAdd buf.length b.length hb (ho b rfl)
    have hl : (plain buf (.extend b)).length = buf.length + b.length := by simp [plain]
    rw [hl]
    by_cases hlt : buf.length + b.length < 2 ^ 32
    · rw [if_pos hlt] at h1
      exact .inr (.inl ⟨by simp only [bufStep, bufExtend, h1, plain], hlt, fun i h => by cases h⟩)
    · rw [if_neg hlt] at h1
      exact .inr (.inr ⟨by simp only [bufStep, bufExtend, h1], by omega, rfl⟩)
  | pop =>
    refine .inr (.inl ⟨rfl, ?_, fun i h => by cases h⟩)
    simp only [plain, List.length_dropLast]; omega
  | remove i =>
    by_cases hi : i < buf.length
    · refine .inr (.inl ⟨?_, ?_, fun j h => by cases h; exact hi⟩)
      · simp only [bufStep, if_pos hi, plain, List.eraseIdx_eq_take_drop_succ]
      · simp only [plain, List.length_append, List.length_take, List.length_drop]; omega
    · exact .inl ⟨by simp only [bufStep, if_neg hi], i, rfl, by omega⟩
  | clear => exact .inr (.inl ⟨rfl, by simp [plain], fun i h => by cases h⟩)
  | truncate n =>
    refine .inr (.inl ⟨rfl, ?_, fun i h => by cases h⟩)
    simp only [plain, List.length_take]; omega

/-- After any sequence of calls a buffer that started empty holds less than 2^32 bytes, so its contents can be pushed: they are accepted as
`PushBytes`. -/
theorem C124_buffer (os : List BufOp) (ho : ∀ b, .extend b ∈ os → b.length < 2 ^ 63) (buf : Bytes) (es : List (Option Nat))
    (h : bufRun [] os = some (buf, es)) : buf.length < 2 ^ 32 ∧ pushBytesOf buf = .ok buf := by
  have key : ∀ (os : List BufOp) (start : Bytes) (es : List (Option Nat)), (∀ b, .extend b ∈ os → b.length < 2 ^ 63) → start.length < 2 ^ 32 →
      bufRun start os = some (buf, es) → buf.length < 2 ^ 32 := by
    intro os
    induction os with
    | nil => intro start es _ hs h; cases h; exact hs
    | cons o os ih =>
      intro start es ho hs h
      unfold bufRun at h
      rcases C124_buffer_step start o hs (fun b hb => ho b (by simp [hb])) with ⟨h1, _⟩ | ⟨h1, h2, _⟩ | ⟨h1, _⟩
      · rw [h1] at h; cases h
      · rw [h1] at h
        simp only [Option.map_eq_some_iff] at h
        obtain ⟨⟨b, es'⟩, h3, h4⟩ := h
        cases h4
        exact ih _ _ (fun b hb => ho b (by simp [hb])) h2 h3
      · rw [h1] at h
        simp only [Option.map_eq_some_iff] at h
        obtain ⟨⟨b, es'⟩, h3, h4⟩ := h
        cases h4
        exact ih _ _ (fun b hb => ho b (by simp [hb])) hs h3
  have hlt := key os [] es ho (by simp) h
  refine ⟨hlt, ?_⟩
  have : checkLimit buf.length = .ok () := if_pos hlt
  simp only [pushBytesOf, this]

/-- Bytes are accepted as `PushBytes` exactly if there are less than 2^32; the error says how many there are. -/
theorem C124_push_bytes (b : Bytes) (n : Nat) : pushBytesOf b = .error n ↔ n = b.length ∧ 2 ^ 32 ≤ b.length := by
  unfold pushBytesOf checkLimit
  by_cases h : b.length < 0x100000000
  · rw [if_pos h]
    exact ⟨fun h' => (by cases h'), fun h' => by omega⟩
  · rw [if_neg h]
    exact ⟨fun h' => (by cases h'; exact ⟨rfl, by omega⟩), fun h' => by rw [h'.1]⟩

example : bufRun [] [.push 1, .extend [2, 3, 4], .remove 1, .truncate 2, .push 9] = some ([1, 3, 9], [none, none, none, none, none]) := by rfl

/-! ## Indices, midstates and key expansion -/

/-- An index of an input or output is refused exactly if it is not below their number; the texts name both. -/
theorem C124_index (tx : Tx) (i : Nat) (e : Sighash.InputsIndexError) :
    (Sighash.txIn tx i = .error e ↔ tx.inputs.length ≤ i ∧ e = ⟨i, tx.inputs.length⟩) ∧
    (txOut tx i = .error e ↔ tx.outputs.length ≤ i ∧ e = ⟨i, tx.outputs.length⟩) ∧
    (Sighash.txIn tx i = .error e → inputIndexMsg = "invalid input index" ∧
      indexMsg e = "index " ++ toString i ++ " is out-of-bounds for vector with length " ++ toString tx.inputs.length) ∧
    (txOut tx i = .error e → outputIndexMsg = "invalid output index" ∧
      indexMsg e = "index " ++ toString i ++ " is out-of-bounds for vector with length " ++ toString tx.outputs.length) := by
  have h1 : Sighash.txIn tx i = .error e ↔ tx.inputs.length ≤ i ∧ e = ⟨i, tx.inputs.length⟩ := by
    unfold Sighash.txIn
    cases h : tx.inputs[i]? with
    | some x =>
      have := (List.getElem?_eq_some_iff.1 h).1
      exact ⟨fun h' => (by cases h'), fun h' => by omega⟩
    | none => exact ⟨fun h' => (by cases h'; exact ⟨List.getElem?_eq_none_iff.1 h, rfl⟩), fun h' => by rw [h'.2]⟩
  have h2 : txOut tx i = .error e ↔ tx.outputs.length ≤ i ∧ e = ⟨i, tx.outputs.length⟩ := by
    unfold txOut
    cases h : tx.outputs[i]? with
    | some x =>
      have := (List.getElem?_eq_some_iff.1 h).1
      exact ⟨fun h' => (by cases h'), fun h' => by omega⟩
    | none => exact ⟨fun h' => (by cases h'; exact ⟨List.getElem?_eq_none_iff.1 h, rfl⟩), fun h' => by rw [h'.2]⟩
  refine ⟨h1, h2, fun h => ⟨rfl, ?_⟩, fun h => ⟨rfl, ?_⟩⟩
  · rw [(h1.1 h).2]; rfl
  · rw [(h2.1 h).2]; rfl

/-- A midstate is refused exactly after a number of bytes that is not a multiple of 64, and the text names the number. -/
theorem C124_midstate (eng : Sha2.Engine256) : ((∃ e, Sha2.midstate eng = .error e) ↔ ¬ 64 ∣ eng.bytesHashed) ∧
    ∀ e, Sha2.midstate eng = .error e → midstateMsg e =
      "invalid number of bytes hashed " ++ toString eng.bytesHashed ++ " (should have been a multiple of 64)" := by
  unfold Sha2.midstate
  by_cases h : eng.bytesHashed % 64 = 0
  · rw [if_pos h]
    exact ⟨⟨fun ⟨e, h'⟩ => (by cases h'), fun h' => absurd (Nat.dvd_of_mod_eq_zero h) h'⟩, fun e h' => by cases h'⟩
  · rw [if_neg h]
    refine ⟨⟨fun _ hd => h (Nat.mod_eq_zero_of_dvd hd), fun _ => ⟨_, rfl⟩⟩, fun e h' => ?_⟩
    cases h'
    rfl

/-- Key expansion to more than 255 digests is refused, and the text names the limit in bytes. -/
theorem C124_hkdf (A : Hashes.Alg) (LEN : Nat) (prk info okm : Bytes) (n : Nat) :
    (Hashes.hkdfExpand A LEN prk info okm = .error (.maxLength n) ↔ n = 255 * LEN ∧ 255 * LEN < okm.length) ∧
    (Hashes.hkdfExpand A LEN prk info okm = .error (.maxLength n) →
      hkdfMsg n = "exceeds " ++ toString (255 * LEN) ++ " byte max output material limit" ∧ 255 * LEN < okm.length) := by
  have h : Hashes.hkdfExpand A LEN prk info okm = .error (.maxLength n) ↔ n = 255 * LEN ∧ 255 * LEN < okm.length := by
    unfold Hashes.hkdfExpand
    split
    · rename_i h; exact ⟨fun h' => (by cases h'; exact ⟨rfl, h⟩), fun h' => by rw [h'.1]⟩
    · rename_i h
      refine ⟨fun h' => ?_, fun h' => absurd h'.2 h⟩
      split at h' <;> cases h'
  exact ⟨h, fun h' => ⟨by rw [(h.1 h').1]; rfl, (h.1 h').2⟩⟩

example : Sha2.midstate ⟨List.replicate 64 0, (Sha2.new256).h, 65⟩ |>.toOption.isNone := by rfl

end ScrErrs
end Btc
