import Verif.Units.AmountTextLaws
/-!
# C41: amount text round-trips in every denomination and parsing never rounds
-/
namespace Btc
namespace Amt

/-- Number of decimals of a denomination: one unit is `10 ^ decimals` satoshi. -/
def decimals : Denom → Nat
  | .btc => 8 | .cbtc => 6 | .mbtc => 5 | .ubtc => 2 | .bit => 2 | .sat => 0

theorem precision_eq (d : Denom) : d.precision = -(decimals d : Int) := by cases d <;> rfl

/-- Underscores are in legal places: not in front, no two adjacent. -/
def GoodUs (s : Bytes) : Prop := s.head? ≠ some 95 ∧ ¬ [95, 95] <:+: s

theorem goodUs_iff (s : Bytes) : GoodUs s ↔ okUs true s = true := by
  rw [okUs_iff]; simp [GoodUs]

/-- A text without sign denotes `n` satoshi in a denomination with `p > 0` decimals: after dropping the
underscores it is `ip` or `ip.fp` with at most `p` decimals and `n = ip.fp * 10^p` exactly. -/
def DenotesUnit (p : Nat) (body : Bytes) (n : Nat) : Prop :=
  GoodUs body ∧ ∃ ip fp x, (clean body = ip ∧ fp = [] ∨ clean body = ip ++ 46 :: fp) ∧
    digitsVal 10 0 (ip ++ fp) = some x ∧ fp.length ≤ p ∧ n = x * 10 ^ (p - fp.length)

/-- A text without sign denotes `n` satoshi: an integer, possibly followed by a point and only zeros. -/
def DenotesSat (body : Bytes) (n : Nat) : Prop :=
  ∃ a, (body = a ∨ ∃ k, body = a ++ 46 :: List.replicate k 48) ∧ a ≠ [] ∧ 46 ∉ a ∧ GoodUs a ∧
    digitsVal 10 0 (clean a) = some n

def Denotes (d : Denom) (body : Bytes) (n : Nat) : Prop :=
  if d = .sat then DenotesSat body n else DenotesUnit (decimals d) body n

theorem sFromSat_nat (n : Nat) : sFromSat (n : Int) =
    if n ≤ 2100000000000000 then .ok (n : Int) else .error ⟨true, true⟩ := by
  unfold sFromSat SMAX SMIN
  by_cases h : n ≤ 2100000000000000
  · rw [if_pos h, if_neg (by omega), if_neg (by omega)]
  · rw [if_neg h]
    rw [if_neg (by omega), if_pos (by omega)]

/-- The tail of `parseBody`. -/
def finish (neg : Bool) (value : Nat) : Except PErr (Bool × Int) :=
  match sFromSat (value : Int) with
  | .error _ => .error (.overflow neg)
  | .ok ret =>
    if neg then match sNeg ret with
      | none => .error .panic
      | some r => .ok (neg, r)
    else .ok (neg, ret)

theorem finish_eq (neg : Bool) (n : Nat) : finish neg n =
    if n ≤ 2100000000000000 then .ok (neg, if neg then -(n : Int) else n) else .error (.overflow neg) := by
  unfold finish
  rw [sFromSat_nat]
  by_cases h : n ≤ 2100000000000000
  · rw [if_pos h, if_pos h]
    cases neg with
    | false => rfl
    | true =>
      simp only [if_true]
      rw [(C40_conversions 0 0 (n : Int) 0 (by decide) (by decide) (by unfold SValid; omega) (by decide)).2.2.2.1]
  · rw [if_neg h, if_neg h]

theorem parseBody_unit (neg : Bool) (s : Bytes) (d : Denom) (hd : d ≠ .sat) : parseBody neg s d =
    match parseLoop (decimals d) neg 0 s none false 0 with
    | .error e => .error e
    | .ok (dec, value) =>
      match scaleUp (decimals d - dec.getD 0) value with
      | none => .error (.overflow neg)
      | some value => finish neg value := by
  cases d with
  | sat => exact absurd rfl hd
  | _ => rfl

theorem parseBody_sat (neg : Bool) (s : Bytes) : parseBody neg s .sat =
    match isTooPrecise s 0 with
    | some pos =>
      if parsesToZeroI64 s then .ok (neg, 0) else .error (.tooPrecise (pos + (if neg then 1 else 0)))
    | none =>
      match parseLoop 0 neg 0 (s.take ((findByte 46 s).getD s.length)) none false 0 with
      | .error e => .error e
      | .ok (dec, value) =>
        match scaleUp (0 - dec.getD 0) value with
        | none => .error (.overflow neg)
        | some value => finish neg value := rfl

theorem finish_ok (neg neg' : Bool) (n : Nat) (v : Int) : finish neg n = .ok (neg', v) ↔
    n ≤ 2100000000000000 ∧ neg' = neg ∧ v = if neg then -(n : Int) else n := by
  rw [finish_eq]
  by_cases h : n ≤ 2100000000000000
  · rw [if_pos h]
    simp only [Except.ok.injEq, Prod.mk.injEq]
    constructor
    · rintro ⟨a, b⟩; exact ⟨h, a.symm, b.symm⟩
    · rintro ⟨_, a, b⟩; exact ⟨a.symm, b.symm⟩
  · rw [if_neg h]
    constructor
    · intro h; cases h
    · rintro ⟨h', _⟩; exact absurd h' h

theorem loop_scale_ok (neg neg' : Bool) (M : Nat) (s : Bytes) (v : Int) (hM : 0 < M ∨ 46 ∉ s) :
    (match parseLoop M neg 0 s none false 0 with
    | .error e => .error e
    | .ok (dec, value) =>
      match scaleUp (M - dec.getD 0) value with
      | none => .error (.overflow neg)
      | some value => finish neg value) = (.ok (neg', v) : Except PErr (Bool × Int)) ↔
    ∃ n, (okUs true s = true ∧ ∃ ip fp x, (clean s = ip ∧ fp = [] ∨ clean s = ip ++ 46 :: fp) ∧
        digitsVal 10 0 (ip ++ fp) = some x ∧ fp.length ≤ M ∧ n = x * 10 ^ (M - fp.length)) ∧
      n ≤ 2100000000000000 ∧ neg' = neg ∧ v = if neg then -(n : Int) else n := by
  have L := parseLoop_int M neg s 0 0 false
  constructor
  · intro h
    split at h
    · cases h
    · rename_i dec value hl
      have hl' := (L dec value (by decide) hM).1 hl
      obtain ⟨hu, hv, hc⟩ := hl'
      rw [scaleUp_eq _ _ hv] at h
      by_cases hlt : value * 10 ^ (M - dec.getD 0) < 2 ^ 63
      · rw [if_pos hlt] at h
        have hf := (finish_ok neg neg' _ v).1 h
        refine ⟨_, ⟨hu, ?_⟩, hf⟩
        rcases hc with ⟨e1, e2⟩ | ⟨ip, fp, e1, e2, e3, e4⟩
        · refine ⟨clean s, [], value, .inl ⟨rfl, rfl⟩, by rw [List.append_nil]; exact e1, Nat.zero_le _, ?_⟩
          rw [e2]; rfl
        · exact ⟨ip, fp, value, .inr e1, e2, e3, by rw [e4]; rfl⟩
      · rw [if_neg hlt] at h; cases h
  · rintro ⟨n, ⟨hu, ip, fp, x, hc, hx, hle, hn⟩, hmax, hneg, hv⟩
    have hpow : 0 < 10 ^ (M - fp.length) := Nat.pow_pos (by omega)
    have hx63 : x < 2 ^ 63 := by
      have : x * 1 ≤ x * 10 ^ (M - fp.length) := Nat.mul_le_mul_left _ hpow
      omega
    have key : ∃ dec, parseLoop M neg 0 s none false 0 = .ok (dec, x) ∧ dec.getD 0 = fp.length := by
      rcases hc with ⟨e1, e2⟩ | e1
      · refine ⟨none, (L none x (by decide) hM).2 ⟨hu, hx63, .inl ⟨?_, rfl⟩⟩, by rw [e2]; rfl⟩
        rw [e2, List.append_nil] at hx
        rw [e1]; exact hx
      · exact ⟨some fp.length, (L _ x (by decide) hM).2 ⟨hu, hx63, .inr ⟨ip, fp, e1, hx, hle, rfl⟩⟩, rfl⟩
    obtain ⟨dec, hl, hdec⟩ := key
    rw [hl]
    simp only []
    rw [scaleUp_eq _ _ hx63, hdec, ← hn, if_pos (by omega)]
    exact (finish_ok neg neg' n v).2 ⟨hmax, hneg, hv⟩

theorem findByte_spec (c : UInt8) : ∀ s : Bytes,
    match findByte c s with
    | none => c ∉ s
    | some i => ∃ a b, s = a ++ c :: b ∧ a.length = i ∧ c ∉ a
  | [] => by simp [findByte]
  | x :: xs => by
    unfold findByte
    by_cases h : x = c
    · rw [if_pos h]
      exact ⟨[], xs, by rw [h]; rfl, rfl, by simp⟩
    · rw [if_neg h]
      have ih := findByte_spec c xs
      cases hf : findByte c xs with
      | none =>
        rw [hf] at ih
        simp only [Option.map_none]
        intro hm
        rcases List.mem_cons.1 hm with e | e
        · exact h e.symm
        · exact ih e
      | some i =>
        rw [hf] at ih
        obtain ⟨a, b, h1, h2, h3⟩ := ih
        refine ⟨x :: a, b, by rw [h1]; rfl, by rw [List.length_cons, h2], ?_⟩
        intro hm
        rcases List.mem_cons.1 hm with e | e
        · exact h e.symm
        · exact h3 e

theorem findByte_split (c : UInt8) (a b : Bytes) (h : c ∉ a) : findByte c (a ++ c :: b) = some a.length := by
  induction a with
  | nil => simp [findByte]
  | cons x xs ih =>
    have hx : x ≠ c := fun e => h (by rw [e]; exact List.mem_cons_self ..)
    rw [List.cons_append, findByte, if_neg hx, ih (fun hm => h (List.mem_cons_of_mem _ hm))]
    rfl

theorem findByte_none (c : UInt8) (s : Bytes) (h : c ∉ s) : findByte c s = none := by
  have := findByte_spec c s
  cases hf : findByte c s with
  | none => rfl
  | some i =>
    rw [hf] at this
    obtain ⟨a, b, e, _⟩ := this
    exact absurd (by rw [e]; simp) h

theorem findNonZero_none : ∀ s : Bytes, findNonZero s = none ↔ s = List.replicate s.length 48
  | [] => by simp [findNonZero]
  | x :: xs => by
    unfold findNonZero
    by_cases h : x = 48
    · subst h
      rw [if_neg (by simp), Option.map_eq_none_iff, findNonZero_none xs, List.length_cons, List.replicate_succ]
      simp
    · rw [if_pos h, List.length_cons, List.replicate_succ]
      simp [h]

theorem parsesToZero_dot (s : Bytes) (h : 46 ∈ s) : parsesToZeroI64 s = false := by
  have key : ∀ r : Bytes, 46 ∈ r → (!r.isEmpty && r.all (· == 48)) = false := by
    intro r hr
    have : r.all (· == 48) = false := by
      rw [List.all_eq_false]
      exact ⟨46, hr, by decide⟩
    rw [this, Bool.and_false]
  unfold parsesToZeroI64
  simp only []
  split
  · apply key
    rcases List.mem_cons.1 h with e | e
    · exact absurd e (by decide)
    · exact e
  · apply key
    rcases List.mem_cons.1 h with e | e
    · exact absurd e (by decide)
    · exact e
  · exact key _ h

theorem revFind_zero (s : Bytes) : revFindNonZero s 0 = none := by
  simp [revFindNonZero, findNonZero]

theorem parseBody_ok (neg neg' : Bool) (s : Bytes) (d : Denom) (v : Int) (hs : s ≠ []) :
    parseBody neg s d = .ok (neg', v) ↔
      ∃ n, Denotes d s n ∧ n ≤ 2100000000000000 ∧ neg' = neg ∧ v = if neg then -(n : Int) else n := by
  by_cases hd : d = .sat
  · subst hd
    rw [parseBody_sat]
    unfold Denotes
    simp only [if_true]
    -- the accepted shapes
    have L := loop_scale_ok neg neg' 0
    have red : ∀ a : Bytes, 46 ∉ a →
        ((∃ n, (okUs true a = true ∧ ∃ ip fp x, (clean a = ip ∧ fp = [] ∨ clean a = ip ++ 46 :: fp) ∧
          digitsVal 10 0 (ip ++ fp) = some x ∧ fp.length ≤ 0 ∧ n = x * 10 ^ (0 - fp.length)) ∧
          n ≤ 2100000000000000 ∧ neg' = neg ∧ v = if neg then -(n : Int) else n) ↔
        (∃ n, (GoodUs a ∧ digitsVal 10 0 (clean a) = some n) ∧
          n ≤ 2100000000000000 ∧ neg' = neg ∧ v = if neg then -(n : Int) else n)) := by
      intro a ha
      have hcl : 46 ∉ clean a := fun hm => ha (List.mem_filter.1 hm).1
      constructor
      · rintro ⟨n, ⟨h1, ip, fp, x, hc, hx, _, hn⟩, rest⟩
        rcases hc with ⟨e1, e2⟩ | e1
        · subst e2
          rw [List.append_nil, ← e1] at hx
          refine ⟨n, ⟨(goodUs_iff a).2 h1, ?_⟩, rest⟩
          rw [hn, hx]; simp
        · exact absurd (by rw [e1]; simp) hcl
      · rintro ⟨n, ⟨h1, h2⟩, rest⟩
        exact ⟨n, ⟨(goodUs_iff a).1 h1, clean a, [], n, .inl ⟨rfl, rfl⟩, by rw [List.append_nil]; exact h2,
          Nat.le_refl _, by simp⟩, rest⟩
    have F := findByte_spec 46 s
    unfold isTooPrecise
    cases hf : findByte 46 s with
    | none =>
      rw [hf] at F
      simp only [] at F
      have hlen : ¬ 0 ≥ s.length := by
        have := List.length_pos_iff.2 hs
        omega
      simp only [Option.getD_none]
      rw [if_neg hlen, revFind_zero]
      simp only []
      rw [List.take_length, L s v (.inr F), red s F]
      constructor
      · rintro ⟨n, ⟨h1, h2⟩, rest⟩
        exact ⟨n, ⟨s, .inl rfl, hs, F, h1, h2⟩, rest⟩
      · rintro ⟨n, ⟨a, hsa, _, _, h1, h2⟩, rest⟩
        rcases hsa with e | ⟨k, e⟩
        · subst e; exact ⟨n, ⟨h1, h2⟩, rest⟩
        · exact absurd (by rw [e]; simp) F
    | some pos =>
      rw [hf] at F
      obtain ⟨a, b, rfl, hl, ha⟩ := F
      have uniq : ∀ a' b' : Bytes, a ++ 46 :: b = a' ++ 46 :: b' → 46 ∉ a' → a' = a ∧ b' = b := by
        intro a' b' e ha'
        have h1 := findByte_split 46 a b ha
        have h2 := findByte_split 46 a' b' ha'
        rw [e, h2] at h1
        have hlen := Option.some.inj h1
        have := List.append_inj e hlen.symm
        exact ⟨this.1.symm, (List.cons.inj this.2).2.symm⟩
      have hdot : 46 ∈ a ++ 46 :: b := by simp
      have htake : (a ++ 46 :: b).take pos = a := by rw [← hl, List.take_left']; rfl
      have hdrop : (a ++ 46 :: b).drop (pos + 1) = b := by
        rw [← hl, ← List.drop_drop, List.drop_left']
        · rfl
        · rfl
      simp only [Option.getD_some]
      rw [htake, hdrop, revFind_zero, parsesToZero_dot _ hdot]
      simp only [Bool.false_eq_true, if_false]
      by_cases hpos : 0 ≥ pos
      · rw [if_pos hpos]
        have : a = [] := List.length_eq_zero_iff.1 (by omega)
        simp only []
        constructor
        · intro h; cases h
        · rintro ⟨n, ⟨a', hsa, hne, hna, _⟩, _⟩
          rcases hsa with e | ⟨k, e⟩
          · exact absurd (by rw [← e]; exact hdot) hna
          · exact absurd ((uniq _ _ e hna).1.trans this) hne
      · rw [if_neg hpos]
        cases hz : findNonZero b with
        | some i =>
          simp only [Option.map_some]
          constructor
          · intro h; cases h
          · rintro ⟨n, ⟨a', hsa, hne, hna, _⟩, _⟩
            rcases hsa with e | ⟨k, e⟩
            · exact absurd (by rw [← e]; exact hdot) hna
            · have := (uniq _ _ e hna).2
              have hb : findNonZero b = none := (findNonZero_none b).2 (by rw [← this, List.length_replicate])
              rw [hb] at hz; cases hz
        | none =>
          simp only [Option.map_none]
          rw [L a v (.inr ha), red a ha]
          have hb := (findNonZero_none b).1 hz
          have hane : a ≠ [] := fun e => hpos (by rw [← hl, e]; exact Nat.zero_le _)
          constructor
          · rintro ⟨n, ⟨h1, h2⟩, rest⟩
            exact ⟨n, ⟨a, .inr ⟨b.length, by rw [← hb]⟩, hane, ha, h1, h2⟩, rest⟩
          · rintro ⟨n, ⟨a', hsa, hne, hna, h1, h2⟩, rest⟩
            rcases hsa with e | ⟨k, e⟩
            · exact absurd (by rw [← e]; exact hdot) hna
            · obtain ⟨e1, _⟩ := uniq _ _ e hna
              subst e1
              exact ⟨n, ⟨h1, h2⟩, rest⟩
  · rw [parseBody_unit neg s d hd, loop_scale_ok neg neg' (decimals d) s v
      (.inl (by cases d <;> first | exact absurd rfl hd | decide))]
    unfold Denotes DenotesUnit
    simp only [if_neg hd, goodUs_iff]

theorem denotes_head (d : Denom) (cs : Bytes) (n : Nat) : ¬ Denotes d (45 :: cs) n := by
  have hc : clean (45 :: cs) = 45 :: clean cs := clean_cons (by decide) cs
  intro h
  unfold Denotes at h
  split at h
  · obtain ⟨a, hsa, hne, _, _, hx⟩ := h
    have : ∃ t, a = 45 :: t := by
      cases a with
      | nil => exact absurd rfl hne
      | cons x t =>
        rcases hsa with e | ⟨k, e⟩
        · exact ⟨t, by rw [(List.cons.inj e).1]⟩
        · exact ⟨t, by rw [(List.cons.inj e).1]⟩
    obtain ⟨t, rfl⟩ := this
    rw [clean_cons (by decide), digitsVal_bad (by decide)] at hx
    cases hx
  · obtain ⟨_, ip, fp, x, hcl, hx, _⟩ := h
    rw [hc] at hcl
    have : ∃ t, ip ++ fp = 45 :: t := by
      rcases hcl with ⟨e, e2⟩ | e
      · exact ⟨clean cs, by rw [e2, List.append_nil, ← e]⟩
      · cases ip with
        | nil => simp at e
        | cons y t => exact ⟨t ++ fp, by rw [(List.cons.inj e).1]; rfl⟩
    obtain ⟨t, e⟩ := this
    rw [e, digitsVal_bad (by decide)] at hx
    cases hx

/-- **C41 (parsing is exact, on every string).**  `SignedAmount::from_str_in` accepts a text exactly when
it is at most 50 bytes, an optional minus sign and a nonempty rest denoting an exact number of satoshi in
the denomination, within the valid range; the result is that number.  Anything finer than a satoshi is
refused, never rounded. -/
theorem C41_parse_signed (s : Bytes) (d : Denom) (v : Int) :
    sFromStrIn s d = .ok v ↔
      s.length ≤ 50 ∧ ∃ n, n ≤ 2100000000000000 ∧
        ((∃ body, body ≠ [] ∧ s = 45 :: body ∧ Denotes d body n ∧ v = -(n : Int)) ∨
         (s ≠ [] ∧ Denotes d s n ∧ v = n)) := by
  unfold sFromStrIn parseSigned
  cases s with
  | nil => simp
  | cons c cs =>
    simp only []
    by_cases hl : (c :: cs).length > 50
    · rw [if_pos hl]
      constructor
      · intro h; cases h
      · rintro ⟨h, _⟩; omega
    · rw [if_neg hl]
      have hl' : (c :: cs).length ≤ 50 := by omega
      by_cases hc : c = 45
      · subst hc
        rw [if_pos rfl]
        cases cs with
        | nil =>
          simp only [List.isEmpty_nil, if_true]
          constructor
          · intro h; cases h
          · rintro ⟨_, n, _, ⟨body, hne, e, _⟩ | ⟨_, h, _⟩⟩
            · exact absurd (List.cons.inj e).2.symm hne
            · exact absurd h (denotes_head d _ n)
        | cons x xs =>
          simp only [List.isEmpty_cons, Bool.false_eq_true, if_false]
          have P := fun neg' => parseBody_ok true neg' (x :: xs) d v (by simp)
          constructor
          · intro h
            cases hp : parseBody true (x :: xs) d with
            | error e => rw [hp] at h; cases h
            | ok r =>
              obtain ⟨neg', v'⟩ := r
              rw [hp] at h
              simp only [Except.ok.injEq] at h
              subst h
              obtain ⟨n, h1, h2, _, h3⟩ := (P neg').1 hp
              exact ⟨hl', n, h2, .inl ⟨x :: xs, by simp, rfl, h1, by rw [h3, if_pos rfl]⟩⟩
          · rintro ⟨_, n, hn, ⟨body, hne, e, h1, h2⟩ | ⟨_, h, _⟩⟩
            · rw [← (List.cons.inj e).2] at h1
              rw [(P true).2 ⟨n, h1, hn, rfl, by rw [h2, if_pos rfl]⟩]
            · exact absurd h (denotes_head d _ n)
      · rw [if_neg hc]
        have P := fun neg' => parseBody_ok false neg' (c :: cs) d v (by simp)
        constructor
        · intro h
          cases hp : parseBody false (c :: cs) d with
          | error e => rw [hp] at h; cases h
          | ok r =>
            obtain ⟨neg', v'⟩ := r
            rw [hp] at h
            simp only [Except.ok.injEq] at h
            subst h
            obtain ⟨n, h1, h2, _, h3⟩ := (P neg').1 hp
            exact ⟨hl', n, h2, .inr ⟨by simp, h1, by rw [h3]; rfl⟩⟩
        · rintro ⟨_, n, hn, ⟨body, hne, e, h1, h2⟩ | ⟨_, h, h2⟩⟩
          · exact absurd (List.cons.inj e).1 hc
          · rw [(P false).2 ⟨n, h, hn, rfl, by rw [h2]; rfl⟩]

/-- **C41 (unsigned).** `Amount::from_str_in` is the same without the minus sign. -/
theorem C41_parse (s : Bytes) (d : Denom) (n : Nat) :
    fromStrIn s d = .ok n ↔
      s.length ≤ 50 ∧ s ≠ [] ∧ n ≤ 2100000000000000 ∧ Denotes d s n := by
  unfold fromStrIn parseSigned
  cases s with
  | nil => simp
  | cons c cs =>
    simp only []
    by_cases hl : (c :: cs).length > 50
    · rw [if_pos hl]
      constructor
      · intro h; cases h
      · rintro ⟨h, _⟩; omega
    · rw [if_neg hl]
      have hl' : (c :: cs).length ≤ 50 := by omega
      by_cases hc : c = 45
      · subst hc
        rw [if_pos rfl]
        constructor
        · intro h
          exfalso
          cases cs with
          | nil => simp only [List.isEmpty_nil, if_true] at h; cases h
          | cons x xs =>
            simp only [List.isEmpty_cons, Bool.false_eq_true, if_false] at h
            cases hp : parseBody true (x :: xs) d with
            | error e => rw [hp] at h; cases h
            | ok r =>
              obtain ⟨neg', v'⟩ := r
              obtain ⟨_, _, _, h2, _⟩ := (parseBody_ok true neg' (x :: xs) d v' (by simp)).1 hp
              rw [hp, h2] at h
              simp only [if_true] at h
              cases h
        · rintro ⟨_, _, _, h⟩; exact absurd h (denotes_head d _ n)
      · rw [if_neg hc]
        have P := fun neg' v => parseBody_ok false neg' (c :: cs) d v (by simp)
        have U : ∀ m : Nat, m ≤ 2100000000000000 → toUnsigned (m : Int) = some (.ok m) := fun m hm => by
          rw [(C40_conversions 0 0 (m : Int) 0 (by decide) (by decide) (by unfold SValid; omega) (by decide)).2.2.2.2.2.2.1]
          rw [if_neg (by omega)]; rfl
        constructor
        · intro h
          cases hp : parseBody false (c :: cs) d with
          | error e => rw [hp] at h; cases h
          | ok r =>
            obtain ⟨neg', v'⟩ := r
            obtain ⟨m, h1, h2, h3, h4⟩ := (P neg' v').1 hp
            rw [hp, h3, h4] at h
            simp only [Bool.false_eq_true, if_false] at h
            rw [U m h2] at h
            simp only [Except.ok.injEq] at h
            subst h
            exact ⟨hl', by simp, h2, h1⟩
        · rintro ⟨_, _, hn, h⟩
          rw [(P false n).2 ⟨n, h, hn, rfl, rfl⟩]
          simp only [Bool.false_eq_true, if_false]
          rw [U n hn]

/-! ### Formatting -/

theorem stripZeros_spec : ∀ (p n : Nat), n ≠ 0 → n < 10 ^ p →
    (stripZeros p n).2 * 10 ^ (p - (stripZeros p n).1) = n ∧ 0 < (stripZeros p n).1 ∧
    (stripZeros p n).1 ≤ p ∧ (stripZeros p n).2 < 10 ^ (stripZeros p n).1 ∧ (stripZeros p n).2 % 10 ≠ 0
  | 0, n, h0, h => by simp at h; exact absurd h h0
  | p + 1, n, h0, h => by
    unfold stripZeros
    have hp : 10 ^ (p + 1) = 10 ^ p * 10 := Nat.pow_succ ..
    by_cases hz : n % 10 = 0
    · rw [if_pos hz]
      have ih := stripZeros_spec p (n / 10) (by omega) (by omega)
      obtain ⟨h1, h2, h3, h4, h5⟩ := ih
      refine ⟨?_, h2, by omega, h4, h5⟩
      rw [show p + 1 - (stripZeros p (n / 10)).1 = (p - (stripZeros p (n / 10)).1) + 1 by omega, Nat.pow_succ,
        ← Nat.mul_assoc, h1]
      omega
    · rw [if_neg hz]
      exact ⟨by simp, by simp, Nat.le_refl _, h, hz⟩

theorem digitsVal_zeros : ∀ (k : Nat) (v : Nat) (s : Bytes),
    digitsVal 10 v (List.replicate k 48 ++ s) = digitsVal 10 (v * 10 ^ k) s
  | 0, v, s => by simp
  | k + 1, v, s => by
    rw [List.replicate_succ, List.cons_append, digitsVal_cons (by decide), digitsVal_zeros k]
    congr 1
    rw [Nat.pow_succ, Nat.mul_comm (10 ^ k) 10, ← Nat.mul_assoc]
    rfl

theorem digitsVal_shift : ∀ (s : Bytes) (v x : Nat), digitsVal 10 0 s = some x →
    digitsVal 10 v s = some (v * 10 ^ s.length + x) := by
  have key : ∀ (s : Bytes) (v w x : Nat), digitsVal 10 w s = some x →
      digitsVal 10 (v + w) s = some (v * 10 ^ s.length + x) := by
    intro s
    induction s with
    | nil =>
      intro v w x h
      simp only [digitsVal, Option.some.injEq] at h ⊢
      simp [h]
    | cons c cs ih =>
      intro v w x h
      rw [digitsVal] at h ⊢
      cases hd : digitVal 10 c with
      | none => rw [hd] at h; cases h
      | some y =>
        rw [hd] at h
        simp only [] at h ⊢
        have := ih (v * 10) _ _ h
        rw [show (v + w) * 10 + y = v * 10 + (w * 10 + y) by omega, this, List.length_cons, Nat.pow_succ,
          Nat.mul_comm (10 ^ cs.length) 10, Nat.mul_assoc]
  intro s v x h
  have := key s v 0 x h
  rw [Nat.add_zero] at this
  exact this

theorem padZero_length (w n : Nat) (hw : 0 < w) (h : n < 10 ^ w) : (padZero w n).length = w := by
  unfold padZero
  have := decBytes_length w n hw h
  rw [List.length_append, List.length_replicate]
  omega

theorem padZero_val (w n : Nat) : digitsVal 10 0 (padZero w n) = some n := by
  unfold padZero
  rw [digitsVal_zeros, Nat.zero_mul, digitsVal_decBytes]

/-- All bytes are digits. -/
def Digits (s : Bytes) : Prop := ∀ b ∈ s, 48 ≤ b.toNat ∧ b.toNat ≤ 57

theorem Digits.append {a b : Bytes} (ha : Digits a) (hb : Digits b) : Digits (a ++ b) := by
  intro x hx
  rcases List.mem_append.1 hx with h | h
  · exact ha x h
  · exact hb x h

theorem digits_replicate (k : Nat) : Digits (List.replicate k 48) := by
  intro x hx
  rw [(List.mem_replicate.1 hx).2]
  decide

theorem digits_padZero (w n : Nat) : Digits (padZero w n) :=
  (digits_replicate _).append (decBytes_digit n)

theorem Digits.not_mem {s : Bytes} (h : Digits s) (c : UInt8) (hc : ¬ (48 ≤ c.toNat ∧ c.toNat ≤ 57)) : c ∉ s :=
  fun hm => hc (h c hm)

/-- A decimal number with fewer decimals than the denomination, read back. -/
theorem denotes_plain (d : Denom) (hd : d ≠ .sat) (ip fp : Bytes) (x : Nat) (hi : Digits ip) (hf : Digits fp)
    (hx : digitsVal 10 0 (ip ++ fp) = some x) (hle : fp.length ≤ decimals d) :
    Denotes d (ip ++ (if fp = [] then [] else 46 :: fp)) (x * 10 ^ (decimals d - fp.length)) := by
  have h95 : 95 ∉ ip ++ (if fp = [] then [] else 46 :: fp) := by
    intro hm
    rcases List.mem_append.1 hm with h | h
    · exact hi.not_mem 95 (by decide) h
    · split at h
      · cases h
      · rcases List.mem_cons.1 h with e | e
        · exact absurd e (by decide)
        · exact hf.not_mem 95 (by decide) e
  unfold Denotes
  rw [if_neg hd]
  refine ⟨(goodUs_iff _).2 (okUs_none _ _ h95), ip, fp, x, ?_, hx, hle, rfl⟩
  rw [clean_none _ h95]
  by_cases h : fp = []
  · left; rw [if_pos h, List.append_nil]; exact ⟨rfl, h⟩
  · right; rw [if_neg h]

theorem denotes_sat_plain (ip : Bytes) (x k : Nat) (hne : ip ≠ []) (hi : Digits ip)
    (hx : digitsVal 10 0 ip = some x) :
    Denotes .sat (ip ++ (if k = 0 then [] else 46 :: List.replicate k 48)) x := by
  have h95 : 95 ∉ ip := hi.not_mem 95 (by decide)
  unfold Denotes
  rw [if_pos rfl]
  refine ⟨ip, ?_, hne, hi.not_mem 46 (by decide), (goodUs_iff _).2 (okUs_none _ _ h95), ?_⟩
  · by_cases h : k = 0
    · left; rw [if_pos h, List.append_nil]
    · right; rw [if_neg h]; exact ⟨k, rfl⟩
  · rw [clean_none _ h95]; exact hx

/-- **C41 (display rounding).** Asking for fewer decimals than the denomination has rounds to the nearest
representable value, halves away from zero; otherwise nothing changes. -/
theorem C41_round (sat p : Nat) (prec : Option Nat) :
    roundTo sat p prec = match prec with
      | none => sat
      | some f => if f < p then (sat + 10 ^ (p - f) / 2) / 10 ^ (p - f) * 10 ^ (p - f) else sat := by
  unfold roundTo
  cases prec with
  | none => rfl
  | some f =>
    simp only []
    by_cases h : f < p
    · rw [if_pos h, if_pos h]
      obtain ⟨k, hk⟩ : ∃ k, p - f = k + 1 := ⟨p - f - 1, by omega⟩
      rw [hk, Nat.pow_succ]
      have hu : 0 < 10 ^ k := Nat.pow_pos (by omega)
      generalize 10 ^ k = u at hu
      rw [Nat.mul_div_cancel _ (by omega : 0 < 10)]
      have hh : u * 10 / 2 = u * 5 := by omega
      rw [hh]
      have hlt : sat % (u * 10) < u * 10 := Nat.mod_lt _ (by omega)
      have hdm := Nat.div_add_mod sat (u * 10)
      generalize sat % (u * 10) = r at *
      generalize sat / (u * 10) = q at *
      have hq : u * 10 * q = q * (u * 10) := Nat.mul_comm ..
      have hge : 5 ≤ r / u ↔ 5 * u ≤ r := Nat.le_div_iff_mul_le hu
      have e1 : sat - r = q * (u * 10) := by omega
      rw [e1]
      by_cases h5 : r / u ≥ 5
      · rw [if_pos h5]
        have h5' := hge.1 h5
        have : (sat + u * 5) / (u * 10) = q + 1 := by
          rw [show sat + u * 5 = (r - u * 5) + (u * 10) * (q + 1) by rw [Nat.mul_add]; omega,
            Nat.add_mul_div_left _ _ (by omega), Nat.div_eq_of_lt (by omega), Nat.zero_add]
        rw [this, Nat.succ_mul]
      · rw [if_neg h5]
        have h5' : ¬ 5 * u ≤ r := fun e => h5 (hge.2 e)
        have : (sat + u * 5) / (u * 10) = q := by
          rw [show sat + u * 5 = (r + u * 5) + (u * 10) * q by omega,
            Nat.add_mul_div_left _ _ (by omega), Nat.div_eq_of_lt (by omega), Nat.zero_add]
        rw [this]
    · rw [if_neg h, if_neg (by omega)]

/-- The decimals printed. -/
def fracText (t : Nat × Nat × Nat × Nat) : Bytes :=
  (if t.2.1 > 0 then padZero t.2.1 t.2.2.1 else []) ++ List.replicate t.2.2.2 48

/-- The number printed, without sign, denomination and padding. -/
def numText (t : Nat × Nat × Nat × Nat) : Bytes :=
  decBytes t.1 ++ (if fracText t = [] then [] else 46 :: fracText t)

/-- What the printed parts mean. -/
theorem fmtParts_spec (a : Nat) (d : Denom) (hd : d ≠ .sat) (prec : Option Nat)
    (hp : ∀ f, prec = some f → f ≤ decimals d) :
    let t := fmtParts a d prec
    (fracText t).length = t.2.1 + t.2.2.2 ∧ t.2.1 + t.2.2.2 ≤ decimals d ∧ Digits (fracText t) ∧
    t.1 = roundTo a (decimals d) prec / 10 ^ decimals d ∧
    ∃ x, digitsVal 10 0 (decBytes t.1 ++ fracText t) = some x ∧
      x * 10 ^ (decimals d - (fracText t).length) = roundTo a (decimals d) prec := by
  have hp0 : d.precision.natAbs = decimals d := by cases d <;> rfl
  have hpos : decimals d ≠ 0 := by cases d <;> first | exact absurd rfl hd | decide
  intro t
  have ht : t = fmtParts a d prec := rfl
  unfold fmtParts at ht
  rw [hp0] at ht
  simp only [] at ht
  rw [if_neg hpos] at ht
  have hround := C41_round a (decimals d) prec
  generalize hr : roundTo a (decimals d) prec = r at *
  generalize hD : decimals d = p at *
  have hdm := Nat.div_add_mod r (10 ^ p)
  have hlt : r % 10 ^ p < 10 ^ p := Nat.mod_lt _ (Nat.pow_pos (by omega))
  generalize r % 10 ^ p = after at *
  generalize r / 10 ^ p = before at *
  -- the decimals
  have norm : ∃ nb m tr, t = (before, nb, m, tr) ∧ nb ≤ p ∧ m < 10 ^ nb ∧ m * 10 ^ (p - nb) = after ∧
      nb + tr ≤ p := by
    by_cases h0 : after = 0
    · rw [if_pos h0] at ht
      refine ⟨0, 0, prec.getD 0 - 0, ht, Nat.zero_le _, by decide, by rw [h0]; simp, ?_⟩
      cases prec with
      | none => simp
      | some f => have := hp f rfl; simpa using this
    · rw [if_neg h0] at ht
      obtain ⟨h1, h2, h3, h4, h5⟩ := stripZeros_spec p after h0 hlt
      refine ⟨_, _, _, ht, h3, h4, h1, ?_⟩
      generalize (stripZeros p after).1 = nb at *
      generalize (stripZeros p after).2 = m at *
      cases prec with
      | none => simpa using h3
      | some f =>
        have hf := hp f rfl
        simp only [Option.getD_some]
        rcases Nat.lt_or_ge f nb with hlt' | hge
        · exfalso
          simp only [] at hround
          rw [if_pos (by omega)] at hround
          -- 10^(p-f) divides after, so 10 divides m
          have hdvd : 10 ^ (p - f) ∣ r := by rw [hround]; exact Nat.dvd_mul_left ..
          have hdvd2 : 10 ^ (p - f) ∣ after := by
            have : 10 ^ (p - f) ∣ 10 ^ p * before :=
              Nat.dvd_trans (Nat.pow_dvd_pow 10 (by omega)) (Nat.dvd_mul_right ..)
            exact (Nat.dvd_add_right this).1 (hdm ▸ hdvd)
          rw [← h1, show p - f = (p - nb) + ((nb - f - 1) + 1) by omega, Nat.pow_add, Nat.mul_comm m] at hdvd2
          have hdvd3 := Nat.dvd_of_mul_dvd_mul_left (Nat.pow_pos (by omega)) hdvd2
          rw [Nat.pow_succ] at hdvd3
          have : 10 ∣ m := Nat.dvd_trans (Nat.dvd_mul_left ..) hdvd3
          omega
        · omega
  obtain ⟨nb, m, tr, e, hnb, hm, hma, htr⟩ := norm
  rw [e]
  simp only [fracText]
  have hlen : ((if nb > 0 then padZero nb m else []) ++ List.replicate tr (48 : UInt8)).length = nb + tr := by
    rw [List.length_append, List.length_replicate]
    by_cases h : nb > 0
    · rw [if_pos h, padZero_length nb m h hm]
    · rw [if_neg h]; simp; omega
  have hdig : Digits ((if nb > 0 then padZero nb m else []) ++ List.replicate tr (48 : UInt8)) := by
    refine Digits.append ?_ (digits_replicate tr)
    by_cases h : nb > 0
    · rw [if_pos h]; exact digits_padZero nb m
    · rw [if_neg h]; intro b hb; cases hb
  refine ⟨hlen, htr, hdig, trivial, before * 10 ^ (nb + tr) + m * 10 ^ tr, ?_, ?_⟩
  · rw [digitsVal_append, digitsVal_decBytes, Option.bind_some]
    have : digitsVal 10 0 ((if nb > 0 then padZero nb m else []) ++ List.replicate tr (48 : UInt8)) =
        some (m * 10 ^ tr) := by
      rw [digitsVal_append]
      have h1 : digitsVal 10 0 (if nb > 0 then padZero nb m else []) = some m := by
        by_cases h : nb > 0
        · rw [if_pos h, padZero_val]
        · rw [if_neg h]
          have h0 : nb = 0 := by omega
          rw [h0] at hm
          simp at hm
          rw [hm]; rfl
      rw [h1, Option.bind_some]
      have := digitsVal_zeros tr m []
      rw [List.append_nil] at this
      rw [this]; rfl
    rw [digitsVal_shift _ _ _ this, hlen]
  · rw [hlen, ← hdm, ← hma, Nat.add_mul, Nat.mul_assoc, Nat.mul_assoc, ← Nat.pow_add, ← Nat.pow_add,
      show nb + tr + (p - (nb + tr)) = p by omega, show tr + (p - (nb + tr)) = p - nb by omega,
      Nat.mul_comm before]

theorem fmtParts_sat (a : Nat) (prec : Option Nat) : fmtParts a .sat prec = (a, 0, 0, prec.getD 0) := rfl

/-- The text without padding is sign, number, denomination. -/
theorem fmt_plain (a : Nat) (neg : Bool) (d : Denom) (sd : Bool) (prec : Option Nat) :
    fmtSatoshiIn a neg d sd { precision := prec } =
      (if neg then [45] else []) ++ numText (fmtParts a d prec) ++ (if sd then 32 :: d.asStr else []) := by
  unfold fmtSatoshiIn numText
  generalize fmtParts a d prec = t
  obtain ⟨before, nb, m, tr⟩ := t
  have hfrac : (fracText (before, nb, m, tr) = []) ↔ ¬ nb + tr > 0 := by
    unfold fracText
    simp only []
    constructor
    · intro h hgt
      rw [List.append_eq_nil_iff] at h
      by_cases hn : nb > 0
      · rw [if_pos hn] at h
        have := h.1
        unfold padZero at this
        rw [List.append_eq_nil_iff] at this
        exact decBytes_ne_nil m this.2
      · have : tr = 0 := by
          have := congrArg List.length h.2
          simpa using this
        omega
    · intro h
      have h1 : nb = 0 := by omega
      have h2 : tr = 0 := by omega
      rw [h1, h2]; rfl
  simp only [Option.getD_none, Nat.not_lt_zero, if_false, List.replicate_zero, List.append_nil,
    Bool.false_eq_true]
  by_cases hgt : nb + tr > 0
  · have hne : ¬ fracText (before, nb, m, tr) = [] := fun e => (hfrac.1 e) hgt
    rw [if_pos hgt, if_neg hne]
    simp [fracText, List.append_assoc]
  · have he := hfrac.2 hgt
    rw [if_neg hgt, if_pos he]
    unfold fracText at he
    rw [List.append_eq_nil_iff] at he
    rw [he.1, he.2]
    simp

theorem numText_length (a : Nat) (d : Denom) (prec : Option Nat) (ha : roundTo a (decimals d) prec < 10 ^ 16)
    (hp : ∀ f, prec = some f → f ≤ decimals d ∨ d = .sat ∧ f ≤ 33) :
    (numText (fmtParts a d prec)).length < 51 - (if d = .sat then 0 else 1) ∧
    numText (fmtParts a d prec) ≠ [] := by
  have hne : numText (fmtParts a d prec) ≠ [] := by
    unfold numText
    intro e
    exact decBytes_ne_nil _ (List.append_eq_nil_iff.1 e).1
  refine ⟨?_, hne⟩
  have dot : ∀ f : Bytes, (if f = [] then [] else (46 : UInt8) :: f).length ≤ f.length + 1 := by
    intro f; split <;> simp
  unfold numText
  rw [List.length_append]
  have hd := dot (fracText (fmtParts a d prec))
  by_cases hs : d = .sat
  · subst hs
    rw [if_pos rfl]
    rw [fmtParts_sat] at hd ⊢
    have hr : roundTo a (decimals .sat) prec = a := by
      unfold roundTo decimals
      cases prec with
      | none => rfl
      | some f => simp
    rw [hr] at ha
    have h1 := decBytes_length 16 a (by omega) ha
    have h2 : (fracText (a, 0, 0, prec.getD 0)).length ≤ 33 := by
      simp only [fracText, Nat.lt_irrefl, if_false, List.nil_append, List.length_replicate, gt_iff_lt]
      cases prec with
      | none => simp
      | some f => 
        have := hp f rfl
        simp only [Option.getD_some]
        rcases this with h | h
        · have h : f ≤ 0 := h
          omega
        · exact h.2
    simp only [] at hd ⊢
    omega
  · rw [if_neg hs]
    obtain ⟨h1, h2, _, h4, _⟩ := fmtParts_spec a d hs prec (fun f hf => (hp f hf).resolve_right fun e => hs e.1)
    have h8 : decimals d ≤ 8 := by cases d <;> decide
    have hb := decBytes_length 16 (fmtParts a d prec).1 (by omega) (by
      rw [h4]; exact Nat.lt_of_le_of_lt (Nat.div_le_self ..) ha)
    omega

/-- The printed number denotes the (rounded) amount. -/
theorem numText_denotes (a : Nat) (d : Denom) (prec : Option Nat)
    (hp : ∀ f, prec = some f → f ≤ decimals d ∨ d = .sat) :
    Denotes d (numText (fmtParts a d prec)) (roundTo a (decimals d) prec) := by
  by_cases hs : d = .sat
  · subst hs
    rw [fmtParts_sat]
    have hr : roundTo a (decimals .sat) prec = a := by
      unfold roundTo decimals
      cases prec with
      | none => rfl
      | some f => simp
    rw [hr]
    have := denotes_sat_plain (decBytes a) a (prec.getD 0) (decBytes_ne_nil a) (decBytes_digit a)
      (digitsVal_decBytes a)
    unfold numText fracText
    simp only [Nat.lt_irrefl, if_false, List.nil_append, gt_iff_lt, List.replicate_eq_nil_iff]
    exact this
  · obtain ⟨h1, h2, h3, _, x, h5, h6⟩ :=
      fmtParts_spec a d hs prec (fun f hf => (hp f hf).resolve_right fun e => hs e)
    have := denotes_plain d hs _ _ x (decBytes_digit _) h3 h5 (by rw [h1]; exact h2)
    rw [h6] at this
    exact this

theorem round_valid (a : Nat) (ha : Valid a) (d : Denom) (prec : Option Nat) :
    roundTo a (decimals d) prec ≤ 2100000000000000 := by
  unfold Valid at ha
  rw [C41_round]
  cases prec with
  | none => exact ha
  | some f =>
    simp only []
    by_cases h : f < decimals d
    · rw [if_pos h]
      have h8 : decimals d ≤ 8 := by cases d <;> decide
      obtain ⟨k, hk, hk1, hk8⟩ : ∃ k, decimals d - f = k ∧ 1 ≤ k ∧ k ≤ 8 := ⟨_, rfl, by omega, by omega⟩
      rw [hk]
      have hM : 2100000000000000 = 10 ^ k * (21 * 10 ^ (14 - k)) := by
        have : (10 : Nat) ^ 14 = 10 ^ k * 10 ^ (14 - k) := by rw [← Nat.pow_add]; congr 1; omega
        rw [← Nat.mul_assoc, Nat.mul_comm (10 ^ k) 21, Nat.mul_assoc, ← this]
      have hu : 0 < 10 ^ k := Nat.pow_pos (by omega)
      generalize 21 * 10 ^ (14 - k) = q at hM
      have h10 : 2 ≤ 10 ^ k := by
        have : 10 ^ 1 ≤ 10 ^ k := Nat.pow_le_pow_right (by omega) hk1
        omega
      generalize 10 ^ k = u at *
      rw [hM, Nat.mul_comm u q]
      apply Nat.mul_le_mul_right
      have : (a + u / 2) / u < q + 1 := by
        rw [Nat.div_lt_iff_lt_mul hu, Nat.succ_mul, Nat.mul_comm q u]
        omega
      omega
    · rw [if_neg h]; exact ha

/-- **C41 (round trip).** Formatting any valid amount in any denomination and parsing the text in that
denomination gives the amount back. -/
theorem C41_roundtrip (a : Nat) (ha : Valid a) (d : Denom) : fromStrIn (toStringIn a d) d = .ok a := by
  unfold toStringIn
  have hf := fmt_plain a false d false none
  rw [show ({} : FmtOpts) = { precision := none } from rfl, hf]
  simp only [Bool.false_eq_true, if_false, List.nil_append, List.append_nil]
  have ha' : a ≤ 2100000000000000 := ha
  have hl := numText_length a d none (by simp only [roundTo]; omega) (by intro f hf; cases hf)
  rw [C41_parse]
  exact ⟨by omega, hl.2, ha', numText_denotes a d none (by intro f hf; cases hf)⟩

/-- **C41 (printing with a precision).** With an explicit number of decimals, the text parses to the
amount rounded to that many decimals (`C41_round` says how), and to the amount itself if nothing had to
be rounded. -/
theorem C41_precision (a : Nat) (ha : Valid a) (d : Denom) (f : Nat) (hf : f ≤ decimals d ∨ d = .sat ∧ f ≤ 33) :
    fromStrIn (fmtSatoshiIn a false d false { precision := some f }) d = .ok (roundTo a (decimals d) (some f)) ∧
    (10 ^ (decimals d - f) ∣ a →
      fromStrIn (fmtSatoshiIn a false d false { precision := some f }) d = .ok a) := by
  have key : fromStrIn (fmtSatoshiIn a false d false { precision := some f }) d =
      .ok (roundTo a (decimals d) (some f)) := by
    rw [fmt_plain a false d false (some f)]
    simp only [Bool.false_eq_true, if_false, List.nil_append, List.append_nil]
    have hv := round_valid a ha d (some f)
    have hl := numText_length a d (some f) (by omega) (by intro f' hf'; cases hf'; exact hf)
    rw [C41_parse]
    exact ⟨by omega, hl.2, hv, numText_denotes a d (some f) (by intro f' hf'; cases hf'; exact hf.imp id (·.1))⟩
  refine ⟨key, fun hdvd => ?_⟩
  rw [key, C41_round]
  simp only []
  by_cases h : f < decimals d
  · rw [if_pos h]
    obtain ⟨q, rfl⟩ := hdvd
    have hu : 0 < 10 ^ (decimals d - f) := Nat.pow_pos (by omega)
    generalize 10 ^ (decimals d - f) = u at *
    rw [Nat.add_comm, Nat.add_mul_div_left _ _ hu, Nat.div_eq_of_lt (by omega), Nat.zero_add, Nat.mul_comm]
  · rw [if_neg h]

theorem sFmt (x : Int) (hx : SValid x) : unsignedAbs x = some x.natAbs :=
  (C40_conversions 0 0 x 0 (by decide) (by decide) hx (by decide)).2.2.2.2.2.1

/-- **C41 (round trip, signed).** -/
theorem C41_roundtrip_signed (x : Int) (hx : SValid x) (d : Denom) :
    ∃ s, sToStringIn x d = some s ∧ sFromStrIn s d = .ok x := by
  unfold sToStringIn
  rw [sFmt x hx]
  refine ⟨_, rfl, ?_⟩
  show sFromStrIn (fmtSatoshiIn x.natAbs (decide (x < 0)) d false { precision := none }) d = .ok x
  rw [fmt_plain]
  unfold SValid at hx
  simp only [Bool.false_eq_true, if_false, List.append_nil]
  have hl := numText_length x.natAbs d none (by simp only [roundTo]; omega) (by intro f hf; cases hf)
  have hd := numText_denotes x.natAbs d none (by intro f hf; cases hf)
  have hsat : d = .sat → (numText (fmtParts x.natAbs d none)).length ≤ 16 := by
    rintro rfl
    rw [fmtParts_sat]
    have := decBytes_length 16 x.natAbs (by omega) (by omega)
    simpa [numText, fracText] using this
  have hlen : (numText (fmtParts x.natAbs d none)).length < 50 := by
    by_cases h : d = .sat
    · have := hsat h; omega
    · rw [if_neg h] at hl; exact hl.1
  rw [C41_parse_signed]
  by_cases hneg : x < 0
  · simp only [hneg, decide_true, if_true]
    refine ⟨by rw [List.length_append]; simp; omega, x.natAbs, by omega, .inl ⟨_, hl.2, rfl, hd, by omega⟩⟩
  · simp only [hneg, decide_false, Bool.false_eq_true, if_false, List.nil_append]
    exact ⟨by omega, x.natAbs, by omega, .inr ⟨hl.2, hd, by omega⟩⟩

theorem forms_asStr (d : Denom) : Denom.fromStr d.asStr = some d := by cases d <;> rfl

theorem numText_no_space (a : Nat) (d : Denom) : 32 ∉ numText (fmtParts a d none) := by
  have hf : Digits (fracText (fmtParts a d none)) := by
    unfold fracText
    refine Digits.append ?_ (digits_replicate _)
    split
    · exact digits_padZero _ _
    · intro b hb; cases hb
  have hd : Digits (decBytes (fmtParts a d none).1) := decBytes_digit _
  unfold numText
  intro hm
  rcases List.mem_append.1 hm with h | h
  · exact hd.not_mem 32 (by decide) h
  · split at h
    · cases h
    · rcases List.mem_cons.1 h with e | e
      · exact absurd e (by decide)
      · exact hf.not_mem 32 (by decide) e

theorem splitDenom_text (alpha : Bytes → Option Nat) (t : Bytes) (d : Denom) (h : 32 ∉ t) :
    splitDenom alpha (t ++ 32 :: d.asStr) = .ok (t, d) := by
  unfold splitDenom
  rw [findByte_split 32 t _ h]
  simp only []
  have : (t ++ 32 :: d.asStr).drop (t.length + 1) = d.asStr := by
    rw [← List.drop_drop, List.drop_left']
    · rfl
    · rfl
  rw [this, forms_asStr, List.take_left']
  rfl

theorem text_with_denom (a : Nat) (neg : Bool) (d : Denom) :
    fmtSatoshiIn a neg d true {} = fmtSatoshiIn a neg d false {} ++ 32 :: d.asStr ∧
    32 ∉ fmtSatoshiIn a neg d false {} := by
  have h1 := fmt_plain a neg d true none
  have h2 := fmt_plain a neg d false none
  rw [show ({} : FmtOpts) = { precision := none } from rfl, h1, h2]
  refine ⟨by simp, ?_⟩
  intro hm
  have := numText_no_space a d
  cases neg <;> simp_all

/-- **C41 (round trip with the denomination in the text).** `FromStr` undoes
`to_string_with_denomination`, `Display` and the dynamic display.  `alpha` is the search for an alphabetic
character, which these texts never reach. -/
theorem C41_roundtrip_denomination (alpha : Bytes → Option Nat) (a : Nat) (ha : Valid a) (d : Denom) :
    fromStrAmt alpha (toStringWithDenom a d) = .ok a ∧
    fromStrWithDenom alpha (toStringWithDenom a d) = .ok a ∧
    fromStrAmt alpha (display a) = .ok a ∧ fromStrAmt alpha (displayDynamic a) = .ok a := by
  have key : ∀ d, fromStrWithDenom alpha (fmtSatoshiIn a false d true {}) = .ok a := by
    intro d
    obtain ⟨h1, h2⟩ := text_with_denom a false d
    unfold fromStrWithDenom
    rw [h1, splitDenom_text alpha _ d h2]
    exact C41_roundtrip a ha d
  have key2 : ∀ d, fromStrAmt alpha (fmtSatoshiIn a false d true {}) = .ok a := by
    intro d
    unfold fromStrAmt
    rw [key d]
  refine ⟨key2 d, key d, key2 .btc, ?_⟩
  unfold displayDynamic
  split
  · exact key2 .btc
  · exact key2 .sat

theorem C41_roundtrip_denomination_signed (alpha : Bytes → Option Nat) (x : Int) (hx : SValid x) (d : Denom) :
    ∃ s, sToStringWithDenom x d = some s ∧ sFromStrWithDenom alpha s = .ok x ∧ sFromStrAmt alpha s = .ok x := by
  obtain ⟨s, h1, h2⟩ := C41_roundtrip_signed x hx d
  unfold sToStringIn at h1
  unfold sToStringWithDenom
  rw [sFmt x hx] at h1 ⊢
  simp only [Option.map_some, Option.some.injEq] at h1 ⊢
  obtain ⟨t1, t2⟩ := text_with_denom x.natAbs (decide (x < 0)) d
  have key : sFromStrWithDenom alpha (fmtSatoshiIn x.natAbs (decide (x < 0)) d true {}) = .ok x := by
    unfold sFromStrWithDenom
    rw [t1, splitDenom_text alpha _ d t2, h1]
    exact h2
  refine ⟨_, rfl, key, ?_⟩
  unfold sFromStrAmt
  rw [key]

theorem decWidth_eq (n : Nat) : decWidth n = (decBytes n).length := by
  induction n using Nat.strongRecOn with
  | _ n ih =>
    unfold decWidth decBytes
    by_cases h : n / 10 = 0
    · rw [if_pos h, if_pos (by omega)]; rfl
    · rw [if_neg h, if_neg (by omega), ih (n / 10) (by omega), List.length_append]
      simp; omega

theorem fmt_nb (a : Nat) (d : Denom) (prec : Option Nat) :
    let t := fmtParts a d prec
    0 < t.2.1 → t.2.2.1 < 10 ^ t.2.1 := by
  intro t
  have ht : t = fmtParts a d prec := rfl
  unfold fmtParts at ht
  simp only [] at ht
  by_cases hp : d.precision.natAbs = 0
  · rw [if_pos hp] at ht
    rw [ht]; intro h; exact absurd h (by simp)
  · rw [if_neg hp] at ht
    rw [ht]
    simp only []
    by_cases h0 : roundTo a d.precision.natAbs prec % 10 ^ d.precision.natAbs = 0
    · rw [if_pos h0]; intro h; exact absurd h (by simp)
    · rw [if_neg h0]
      intro _
      exact (stripZeros_spec _ _ h0 (Nat.mod_lt _ (Nat.pow_pos (by omega)))).2.2.2.1

/-- **C41 (padding).** A requested width pads the text to exactly that width, never truncates it, and, unless
zero padding is asked for, leaves the number itself intact between fill characters. -/
theorem C41_width (a : Nat) (neg : Bool) (d : Denom) (sd : Bool) (o : FmtOpts) (w : Nat) :
    (fmtSatoshiIn a neg d sd { o with width := some w }).length =
      max w (fmtSatoshiIn a neg d sd { o with width := none }).length ∧
    (o.zeroPad = false → ∃ l r, fmtSatoshiIn a neg d sd { o with width := some w } =
      List.replicate l o.fill ++ fmtSatoshiIn a neg d sd { o with width := none } ++ List.replicate r o.fill) := by
  have hm := fmt_nb a d o.precision
  simp only [] at hm
  unfold fmtSatoshiIn
  simp only []
  generalize fmtParts a d o.precision = t at *
  obtain ⟨before, nb, m, tr⟩ := t
  simp only [Option.getD_none, Nat.not_lt_zero, if_false, List.replicate_zero, List.append_nil,
    Option.getD_some, decWidth_eq] at hm ⊢
  have hpad : (if nb > 0 then padZero nb m else []).length = nb := by
    by_cases h : nb > 0
    · rw [if_pos h, padZero_length nb m h (hm h)]
    · rw [if_neg h]; simp; omega
  have hdot : (if nb + tr > 0 then [(46 : UInt8)] else []).length + (nb + tr) =
      if nb + tr > 0 then 1 + (nb + tr) else 0 := by
    by_cases h : nb + tr > 0
    · rw [if_pos h, if_pos h]; rfl
    · rw [if_neg h, if_neg h]; simp; omega
  have hsign : (if neg = true then [(45 : UInt8)] else if o.signPlus = true then [43] else []).length =
      if (o.signPlus || neg) = true then 1 else 0 := by
    cases neg <;> cases o.signPlus <;> rfl
  have hden : (if sd = true then (32 : UInt8) :: d.asStr else []).length =
      if sd = true then d.asStr.length + 1 else 0 := by
    cases sd <;> rfl
  generalize hW : (if nb + tr > 0 then 1 + (nb + tr) else 0) + (decBytes before).length +
    (if (o.signPlus || neg) = true then 1 else 0) + (if sd = true then d.asStr.length + 1 else 0) = W
  constructor
  · cases hz : o.zeroPad with
    | true =>
      simp only [if_true, List.length_append, List.length_replicate, List.length_nil, hpad, hsign, hden]
      by_cases hlt : W < w
      · rw [if_pos hlt]; simp only []; omega
      · rw [if_neg hlt]; simp only []; omega
    | false =>
      simp only [Bool.false_eq_true, if_false, List.length_append, List.length_replicate, List.length_nil,
        hpad, hsign, hden]
      by_cases hlt : W < w
      · rw [if_pos hlt]
        cases o.align.getD .right <;> simp only [] <;> omega
      · rw [if_neg hlt]; omega
  · intro hz
    rw [hz]
    simp only [Bool.false_eq_true, if_false, List.append_nil, List.nil_append]
    generalize (if W < w then (match o.align.getD .right with
        | .right => (w - W, 0)
        | .left => (0, w - W)
        | .center => ((w - W) / 2, (w - W + 1) / 2)) else ((0, 0) : Nat × Nat)) = pads
    exact ⟨pads.1, pads.2, by simp only [List.append_assoc]⟩

/-! ### Findings and examples -/

/-- A lone point is accepted as zero in every denomination but satoshi, and so is a trailing underscore. -/
theorem C41_lenient : fromStrIn [46] .btc = .ok 0 ∧ fromStrIn [49, 95] .btc = .ok 100000000 ∧
    fromStrIn [49, 46, 95, 53] .btc = .ok 150000000 := by
  refine ⟨?_, ?_, ?_⟩
  · rw [C41_parse]
    refine ⟨by decide, by decide, by decide, ?_⟩
    unfold Denotes
    rw [if_neg (by decide)]
    exact ⟨by rw [goodUs_iff]; decide, [], [], 0, .inr (by decide), by decide, by decide, by decide⟩
  · rw [C41_parse]
    refine ⟨by decide, by decide, by decide, ?_⟩
    unfold Denotes
    rw [if_neg (by decide)]
    exact ⟨by rw [goodUs_iff]; decide, [49], [], 1, .inl (by decide), by decide, by decide, by decide⟩
  · rw [C41_parse]
    refine ⟨by decide, by decide, by decide, ?_⟩
    unfold Denotes
    rw [if_neg (by decide)]
    exact ⟨by rw [goodUs_iff]; decide, [49], [53], 15, .inr (by decide), by decide, by decide, by decide⟩

-- 1.23456789 BTC and back
example : fromStrIn (toStringIn 123456789 .btc) .btc = .ok 123456789 := C41_roundtrip _ (by decide) _
-- "0.00000001" and "0.000000001" as bitcoin: one satoshi, and refused
example : Denotes .btc [48, 46, 48, 48, 48, 48, 48, 48, 48, 49] 1 := by
  unfold Denotes
  rw [if_neg (by decide)]
  exact ⟨by rw [goodUs_iff]; decide, [48], [48, 48, 48, 48, 48, 48, 48, 49], 1, .inr (by decide), by decide,
    by decide, by decide⟩
example : ∃ p, fromStrIn [48, 46, 48, 48, 48, 48, 48, 48, 48, 48, 49] .btc = .error (.tooPrecise p) := ⟨10, rfl⟩
example : roundTo 123456789 8 (some 2) = 123000000 ∧ roundTo 123500000 8 (some 2) = 124000000 := by decide
example : ∃ s, sToStringIn (-150000) .mbtc = some s ∧ sFromStrIn s .mbtc = .ok (-150000) :=
  C41_roundtrip_signed _ (by decide) _
example : (fmtSatoshiIn 5 true .sat true { width := some 20, align := some .center }).length = 20 := by
  rw [(C41_width 5 true .sat true { align := some .center } 20).1]
  have := fmt_plain 5 true .sat true none
  unfold fmtSatoshiIn
  simp [fmtParts_sat, decBytes, Denom.asStr]

end Amt
end Btc
