import Verif.Base58.Base58
import Verif.Script.Laws
/-!
# C29, C30: base58 and base58check
-/
namespace Btc
namespace B58

theorem nil_or_snoc {α : Type} (l : List α) : l = [] ∨ ∃ m x, l = m ++ [x] := by
  rcases List.eq_nil_or_concat l with h | ⟨m, x, h⟩
  · exact .inl h
  · exact .inr ⟨m, x, by rw [h, List.concat_eq_append]⟩

/-! ### Specification -/

/-- Value of a list of digits, most significant first. -/
def beVal (B : Nat) (ds : Bytes) : Nat := ds.foldl (fun a d => a * B + d.toNat) 0

/-- The base58 alphabet, as a string. -/
def alphabet : List UInt8 := "123456789ABCDEFGHJKLMNPQRSTUVWXYZabcdefghijkmnopqrstuvwxyz".toList.map fun c => UInt8.ofNat c.toNat

/-- `t` is the base58 text of `b`: a `1` for every leading zero byte, then the number made of the rest in base 58
without leading zeroes. -/
def Text58 (b t : Bytes) : Prop :=
  ∃ (z : Nat) (body ds : Bytes), b = List.replicate z 0 ++ body ∧ body.head? ≠ some 0 ∧
    t = List.replicate z 49 ++ ds.filterMap (fun d => alphabet[d.toNat]?) ∧ (∀ d ∈ ds, d.toNat < 58) ∧ ds.head? ≠ some 0 ∧
    beVal 58 ds = beVal 256 body

/-! ### Little-endian digit lists -/

def leVal (B : Nat) : Bytes → Nat
  | [] => 0
  | d :: ds => d.toNat + B * leVal B ds

theorem leVal_append (B : Nat) (a b : Bytes) : leVal B (a ++ b) = leVal B a + B ^ a.length * leVal B b := by
  induction a with
  | nil => simp [leVal]
  | cons d a ih =>
    simp only [List.cons_append, leVal, ih, List.length_cons, Nat.pow_succ]
    rw [Nat.mul_add, ← Nat.mul_assoc, Nat.mul_comm B (B ^ _)]; omega

theorem beVal_snoc (B : Nat) (ds : Bytes) (d : UInt8) : beVal B (ds ++ [d]) = beVal B ds * B + d.toNat := by
  unfold beVal; rw [List.foldl_append]; rfl

theorem beVal_reverse (B : Nat) (ds : Bytes) : beVal B ds.reverse = leVal B ds := by
  induction ds with
  | nil => rfl
  | cons d ds ih => rw [List.reverse_cons, beVal_snoc, ih, leVal, Nat.mul_comm]; omega

theorem leVal_reverse (B : Nat) (ds : Bytes) : leVal B ds.reverse = beVal B ds := by
  rw [← beVal_reverse, List.reverse_reverse]

/-- All digits below the base, and the top digit not zero. -/
def Norm (B : Nat) (ds : Bytes) : Prop := (∀ d ∈ ds, d.toNat < B) ∧ ds.getLast? ≠ some 0

theorem leVal_lt {B : Nat} {ds : Bytes} (h : ∀ d ∈ ds, d.toNat < B) : leVal B ds < B ^ ds.length := by
  induction ds with
  | nil => simp [leVal]
  | cons d ds ih =>
    have h1 := h d (by simp)
    have h2 := ih (fun x hx => h x (by simp [hx]))
    simp only [leVal, List.length_cons, Nat.pow_succ]
    have : B * (leVal B ds + 1) ≤ B * B ^ ds.length := Nat.mul_le_mul_left _ h2
    rw [Nat.mul_comm (B ^ _)]
    rw [Nat.mul_add] at this
    omega

theorem Norm.tail {B : Nat} {d : UInt8} {ds : Bytes} (h : Norm B (d :: ds)) : Norm B ds := by
  refine ⟨fun x hx => h.1 x (by simp [hx]), ?_⟩
  cases ds with
  | nil => simp
  | cons e es => have := h.2; rw [List.getLast?_cons_cons] at this; exact this

theorem Norm.zero {B : Nat} (hB : 0 < B) {ds : Bytes} (h : Norm B ds) (hv : leVal B ds = 0) : ds = [] := by
  induction ds with
  | nil => rfl
  | cons d ds ih =>
    exfalso
    simp only [leVal] at hv
    have h1 : d.toNat = 0 := by omega
    have h2 : leVal B ds = 0 := by
      have : B * leVal B ds = 0 := by omega
      rcases Nat.mul_eq_zero.1 this with h | h
      · omega
      · exact h
    have := ih h.tail h2
    subst this
    exact h.2 (by rw [List.getLast?_singleton]; congr 1; exact UInt8.toNat_inj.1 h1)

theorem Norm.unique {B : Nat} (hB : 0 < B) {a : Bytes} (ha : Norm B a) : ∀ {b : Bytes}, Norm B b → leVal B a = leVal B b → a = b := by
  induction a with
  | nil => intro b hb he; exact (hb.zero hB he.symm).symm
  | cons d a ih =>
    intro b hb he
    cases b with
    | nil => exact ha.zero hB he
    | cons e b =>
      have hd := ha.1 d (by simp)
      have hd' := hb.1 e (by simp)
      simp only [leVal] at he
      have e1 : d.toNat = e.toNat := by
        have := congrArg (· % B) he
        simp only [Nat.add_mul_mod_self_left] at this
        rwa [Nat.mod_eq_of_lt hd, Nat.mod_eq_of_lt hd'] at this
      have e2 : leVal B a = leVal B b := Nat.eq_of_mul_eq_mul_left hB (by omega)
      rw [UInt8.toNat_inj.1 e1, ih ha.tail hb.tail e2]

theorem Norm.ge {B : Nat} {ds : Bytes} (h : Norm B ds) (hne : ds ≠ []) : B ^ (ds.length - 1) ≤ leVal B ds := by
  obtain ⟨init, d, rfl⟩ : ∃ init d, ds = init ++ [d] := by
    rcases nil_or_snoc ds with h | h
    · exact absurd h hne
    · exact h
  have hd : d ≠ 0 := by
    intro e; apply h.2; rw [List.getLast?_concat, e]
  have hd' : 1 ≤ d.toNat := by
    rcases Nat.eq_zero_or_pos d.toNat with h | h
    · exact absurd (UInt8.toNat_inj.1 h) hd
    · exact h
  rw [leVal_append]
  simp only [List.length_append, List.length_singleton, Nat.add_sub_cancel, leVal, Nat.mul_zero, Nat.add_zero]
  have := Nat.mul_le_mul_left (B ^ init.length) hd'
  rw [Nat.mul_one] at this
  omega

/-! ### The inner loops -/

theorem sweep_spec (B m : Nat) (hB : 0 < B) (hB2 : B ≤ 256) (ds : Bytes) : ∀ c,
    leVal B (sweep B m ds c).1 + B ^ ds.length * (sweep B m ds c).2 = m * leVal B ds + c ∧
    (sweep B m ds c).1.length = ds.length ∧ ∀ d ∈ (sweep B m ds c).1, d.toNat < B := by
  induction ds with
  | nil => intro c; simp [sweep, leVal]
  | cons d ds ih =>
    intro c
    obtain ⟨h1, h2, h3⟩ := ih ((c + d.toNat * m) / B)
    simp only [sweep, leVal, List.length_cons, List.mem_cons, h2, true_and]
    have hmod : (c + d.toNat * m) % B < B := Nat.mod_lt _ hB
    have hd : (UInt8.ofNat ((c + d.toNat * m) % B)).toNat = (c + d.toNat * m) % B := by
      rw [UInt8.toNat_ofNat']; omega
    constructor
    · rw [hd, Nat.pow_succ]
      have hdm := Nat.div_add_mod (c + d.toNat * m) B
      generalize (sweep B m ds ((c + d.toNat * m) / B)) = w at h1 ⊢
      have h1' : B * leVal B w.1 + B ^ ds.length * B * w.2 = B * (m * leVal B ds) + B * ((c + d.toNat * m) / B) := by
        rw [← Nat.mul_add, ← h1, Nat.mul_add, Nat.mul_comm (B ^ _) B, Nat.mul_assoc]
      have h2' : m * (d.toNat + B * leVal B ds) = d.toNat * m + B * (m * leVal B ds) := by
        rw [Nat.mul_add, Nat.mul_comm d.toNat, ← Nat.mul_assoc, ← Nat.mul_assoc, Nat.mul_comm m B]
      rw [h2']
      omega
    · rintro x (rfl | hx)
      · rw [hd]; exact hmod
      · exact h3 x hx

/-- Little-endian digits of a number. -/
def digitsLE (B n : Nat) : Bytes :=
  if h : n > 0 ∧ B > 1 then UInt8.ofNat (n % B) :: digitsLE B (n / B) else []
termination_by n
decreasing_by exact Nat.div_lt_self h.1 h.2

theorem digitsLE_spec (B : Nat) (hB : 1 < B) (hB2 : B ≤ 256) : ∀ n, leVal B (digitsLE B n) = n ∧ Norm B (digitsLE B n) := by
  intro n
  induction n using Nat.strongRecOn with
  | ind n ih =>
    rw [digitsLE]
    by_cases h : n > 0 ∧ B > 1
    · rw [dif_pos h]
      obtain ⟨h1, h2⟩ := ih (n / B) (Nat.div_lt_self h.1 h.2)
      have hmod : n % B < B := Nat.mod_lt _ (by omega)
      have hd : (UInt8.ofNat (n % B)).toNat = n % B := by rw [UInt8.toNat_ofNat']; omega
      refine ⟨?_, ?_, ?_⟩
      · simp only [leVal]; rw [hd, h1]; have := Nat.div_add_mod n B; omega
      · intro d hm
        rcases List.mem_cons.1 hm with rfl | hm
        · rw [hd]; exact hmod
        · exact h2.1 d hm
      · cases hc : digitsLE B (n / B) with
        | nil =>
          rw [List.getLast?_singleton]
          intro e
          have e' : n % B = 0 := by rw [← hd, Option.some.inj e]; rfl
          rw [hc] at h1
          simp only [leVal] at h1
          have := Nat.div_add_mod n B
          rw [← h1, e'] at this
          simp at this
          omega
        | cons x xs => rw [List.getLast?_cons_cons, ← hc]; exact h2.2
    · rw [dif_neg h]
      exact ⟨by simp [leVal]; omega, by simp [Norm]⟩

/-- A capacity is respected. -/
def fits (cap : Option Nat) (n : Nat) : Bool := match cap with | none => true | some m => decide (n ≤ m)

theorem pushCarry_spec (B : Nat) (cap : Option Nat) : ∀ (c : Nat) (buf : Bytes), fits cap buf.length = true →
    pushCarry B cap buf c = if fits cap (buf ++ digitsLE B c).length then some (buf ++ digitsLE B c) else none := by
  intro c
  induction c using Nat.strongRecOn with
  | ind c ih =>
    intro buf hf
    rw [pushCarry, digitsLE]
    by_cases h : c > 0 ∧ B > 1
    · rw [dif_pos h, dif_pos h]
      unfold tryPush
      cases cap with
      | none =>
        simp only []
        rw [ih (c / B) (Nat.div_lt_self h.1 h.2) _ rfl]
        simp [fits]
      | some m =>
        simp only []
        by_cases hm : buf.length < m
        · rw [if_pos hm]
          simp only []
          rw [ih (c / B) (Nat.div_lt_self h.1 h.2) _ (by simp [fits]; omega)]
          simp
        · rw [if_neg hm]
          simp only []
          rw [if_neg (by simp [fits]; omega)]
    · rw [dif_neg h, dif_neg h, List.append_nil, if_pos hf]

theorem getLast?_app {α : Type} (a b : List α) (h : b ≠ []) : (a ++ b).getLast? = b.getLast? := by
  rcases nil_or_snoc b with rfl | ⟨i, x, rfl⟩
  · exact absurd rfl h
  · rw [← List.append_assoc, List.getLast?_concat, List.getLast?_concat]

/-- One step of either conversion, without capacity. -/
def step (B m : Nat) (buf : Bytes) (c : Nat) : Bytes := (sweep B m buf c).1 ++ digitsLE B (sweep B m buf c).2

theorem step_spec (B m : Nat) (hB : 1 < B) (hB2 : B ≤ 256) (hm : 1 ≤ m) (buf : Bytes) (c : Nat) (hn : Norm B buf) :
    leVal B (step B m buf c) = m * leVal B buf + c ∧ Norm B (step B m buf c) ∧ buf.length ≤ (step B m buf c).length := by
  obtain ⟨h1, h2, h3⟩ := sweep_spec B m (by omega) hB2 buf c
  obtain ⟨d1, d2⟩ := digitsLE_spec B hB hB2 (sweep B m buf c).2
  have hv : leVal B (step B m buf c) = m * leVal B buf + c := by
    unfold step; rw [leVal_append, h2, d1, h1]
  refine ⟨hv, ⟨?_, ?_⟩, by unfold step; rw [List.length_append, h2]; omega⟩
  · intro d hd
    rcases List.mem_append.1 hd with hd | hd
    · exact h3 d hd
    · exact d2.1 d hd
  · by_cases hc : digitsLE B (sweep B m buf c).2 = []
    · unfold step
      rw [hc, List.append_nil]
      have hz : (sweep B m buf c).2 = 0 := by rw [hc] at d1; simp only [leVal] at d1; exact d1.symm
      rw [hz, Nat.mul_zero, Nat.add_zero] at h1
      by_cases hb : buf = []
      · rw [hb]; simp [sweep]
      · intro hl
        obtain ⟨init, e⟩ : ∃ init, (sweep B m buf c).1 = init ++ [0] := by
          rcases nil_or_snoc (sweep B m buf c).1 with h | ⟨i, x, h⟩
          · rw [h] at hl; simp at hl
          · rw [h, List.getLast?_concat] at hl
            exact ⟨i, by rw [h, Option.some.inj hl]⟩
        rw [e] at h1 h2 h3
        have hlt : leVal B init < B ^ init.length := leVal_lt (fun d hd => h3 d (by simp [hd]))
        rw [leVal_append] at h1
        have : leVal B [(0 : UInt8)] = 0 := by simp [leVal]
        rw [this, Nat.mul_zero, Nat.add_zero] at h1
        have hge := hn.ge hb
        have hl2 : init.length = buf.length - 1 := by simp at h2; omega
        rw [← hl2] at hge
        have : 1 * leVal B buf ≤ m * leVal B buf := Nat.mul_le_mul_right _ hm
        omega
    · unfold step
      rw [getLast?_app _ _ hc]
      exact d2.2

theorem step_zero (B m : Nat) : step B m [] 0 = [] := by
  unfold step sweep; rw [digitsLE]; simp

/-! ### The tables -/

theorem alphabet_eq : alphabet = CHARS := by decide

set_option maxRecDepth 8000 in
theorem digits_sound : ∀ c : UInt8,
    (match DIGITS[c.toNat]? with
     | some (some d) => decide (d.toNat < 58) && (CHARS[d.toNat]? == some c) && (decide (d = 0) == decide (c = 49))
     | _ => !(CHARS.contains c)) = true := by
  apply Scr.forall_u8; decide

set_option maxRecDepth 8000 in
theorem digits_complete : ∀ d : UInt8, d.toNat < 58 →
    (match CHARS[d.toNat]? with | some c => DIGITS[c.toNat]? == some (some d) | none => false) = true := by
  apply Scr.forall_u8; decide

theorem digits_chars : ∀ d : UInt8, d.toNat < 58 → ∃ c, CHARS[d.toNat]? = some c ∧ DIGITS[c.toNat]? = some (some d) := by
  intro d hd
  have h := digits_complete d hd
  cases hc : CHARS[d.toNat]? with
  | none => rw [hc] at h; simp at h
  | some c => rw [hc] at h; exact ⟨c, rfl, by simpa using h⟩

/-- Characters of digits. -/
def chars (ds : Bytes) : Bytes := ds.filterMap fun d => alphabet[d.toNat]?

theorem chars_nil : chars [] = [] := rfl

theorem chars_cons {d : UInt8} (ds : Bytes) (hd : d.toNat < 58) :
    ∃ c, CHARS[d.toNat]? = some c ∧ DIGITS[c.toNat]? = some (some d) ∧ chars (d :: ds) = c :: chars ds ∧ (c = 49 ↔ d = 0) := by
  obtain ⟨c, h1, h2⟩ := digits_chars d hd
  refine ⟨c, h1, h2, ?_, ?_⟩
  · show List.filterMap _ _ = _
    rw [List.filterMap_cons, alphabet_eq, h1]; simp only [chars, alphabet_eq]
  · have := digits_sound c
    rw [h2] at this
    simp only [Bool.and_eq_true, beq_iff_eq, decide_eq_decide] at this
    exact this.2.symm

theorem chars_append (a b : Bytes) : chars (a ++ b) = chars a ++ chars b := by unfold chars; rw [List.filterMap_append]

theorem chars_zeros (z : Nat) : chars (List.replicate z 0) = List.replicate z 49 := by
  induction z with
  | zero => rfl
  | succ z ih => rw [List.replicate_succ, List.replicate_succ, ← ih]; rfl

theorem chars_length {ds : Bytes} (h : ∀ d ∈ ds, d.toNat < 58) : (chars ds).length = ds.length := by
  induction ds with
  | nil => rfl
  | cons d ds ih =>
    obtain ⟨c, _, _, e, _⟩ := chars_cons ds (h d (by simp))
    rw [e, List.length_cons, List.length_cons, ih (fun x hx => h x (by simp [hx]))]

/-- Every text is made of characters of the alphabet, or has a first other character. -/
theorem text_cases (t : Bytes) : (∃ ds : Bytes, (∀ d ∈ ds, d.toNat < 58) ∧ t = chars ds) ∨
    ∃ (ds : Bytes) (c : UInt8) (post : Bytes), (∀ d ∈ ds, d.toNat < 58) ∧ c ∉ alphabet ∧ t = chars ds ++ c :: post := by
  induction t with
  | nil => exact .inl ⟨[], by simp, rfl⟩
  | cons c t ih =>
    have hs := digits_sound c
    by_cases hc : c ∈ CHARS
    · cases hd : DIGITS[c.toNat]? with
      | none => rw [hd] at hs; simp at hs; exact absurd hc hs
      | some o =>
        cases o with
        | none => rw [hd] at hs; simp at hs; exact absurd hc hs
        | some d =>
          rw [hd] at hs
          simp only [Bool.and_eq_true, beq_iff_eq, decide_eq_true_iff] at hs
          obtain ⟨c', h1, _, e, _⟩ := chars_cons (d := d) [] hs.1.1
          have hcc : c' = c := by rw [hs.1.2] at h1; exact (Option.some.inj h1).symm
          have key : ∀ ds, chars (d :: ds) = c :: chars ds := by
            intro ds
            rw [show d :: ds = [d] ++ ds from rfl, chars_append, e, hcc]; rfl
          rcases ih with ⟨ds, h2, rfl⟩ | ⟨ds, b, post, h2, h3, rfl⟩
          · refine .inl ⟨d :: ds, ?_, (key ds).symm⟩
            intro x hx
            rcases List.mem_cons.1 hx with rfl | hx
            · exact hs.1.1
            · exact h2 x hx
          · refine .inr ⟨d :: ds, b, post, ?_, h3, by rw [key]; rfl⟩
            intro x hx
            rcases List.mem_cons.1 hx with rfl | hx
            · exact hs.1.1
            · exact h2 x hx
    · exact .inr ⟨[], c, t, by simp, by rw [alphabet_eq]; exact hc, rfl⟩

/-! ### Decoding -/

/-- The unbounded conversion to base 256. -/
def conv (B m : Nat) (buf ds : Bytes) : Bytes := ds.foldl (fun b d => step B m b d.toNat) buf

theorem conv_spec (B m : Nat) (hB : 1 < B) (hB2 : B ≤ 256) (hm : 1 ≤ m) (ds : Bytes) : ∀ buf, Norm B buf →
    leVal B (conv B m buf ds) = ds.foldl (fun a d => a * m + d.toNat) (leVal B buf) ∧ Norm B (conv B m buf ds) ∧
      buf.length ≤ (conv B m buf ds).length := by
  induction ds with
  | nil => intro buf h; exact ⟨rfl, h, Nat.le_refl _⟩
  | cons d ds ih =>
    intro buf h
    obtain ⟨s1, s2, s3⟩ := step_spec B m hB hB2 hm buf d.toNat h
    obtain ⟨i1, i2, i3⟩ := ih _ s2
    refine ⟨?_, i2, by have : (conv B m (step B m buf d.toNat) ds).length = (conv B m buf (d :: ds)).length := rfl
                       omega⟩
    show leVal B (conv B m (step B m buf d.toNat) ds) = _
    rw [i1, s1, List.foldl_cons, Nat.mul_comm]

theorem fits_mono {cap : Option Nat} {a b : Nat} (h : a ≤ b) (hb : fits cap b = true) : fits cap a = true := by
  cases cap with
  | none => rfl
  | some m => simp [fits] at hb ⊢; omega

theorem norm_nil (B : Nat) : Norm B [] := by simp [Norm]

theorem build_chars (cap : Option Nat) (ds post : Bytes) (hd : ∀ d ∈ ds, d.toNat < 58) : ∀ scratch, Norm 256 scratch →
    fits cap scratch.length = true →
    buildBase256 cap (chars ds ++ post) scratch =
      if fits cap (conv 256 58 scratch ds).length then buildBase256 cap post (conv 256 58 scratch ds) else .error .buffer := by
  induction ds with
  | nil => intro scratch _ hf; rw [show conv 256 58 scratch [] = scratch from rfl, if_pos hf]; rfl
  | cons d ds ih =>
    intro scratch hn hf
    obtain ⟨c, h1, h2, e, _⟩ := chars_cons ds (hd d (by simp))
    rw [e, List.cons_append, buildBase256, h2]
    simp only []
    have hsl := (sweep_spec 256 58 (by omega) (by omega) scratch d.toNat).2.1
    rw [pushCarry_spec 256 cap _ _ (by rw [hsl]; exact hf)]
    obtain ⟨s1, s2, s3⟩ := step_spec 256 58 (by omega) (by omega) (by omega) scratch d.toNat hn
    show (match (if fits cap (step 256 58 scratch d.toNat).length = true then some (step 256 58 scratch d.toNat) else none) with
      | none => _ | some s => _) = _
    have hconv : conv 256 58 scratch (d :: ds) = conv 256 58 (step 256 58 scratch d.toNat) ds := rfl
    by_cases hfs : fits cap (step 256 58 scratch d.toNat).length = true
    · rw [if_pos hfs]
      simp only []
      rw [ih (fun x hx => hd x (by simp [hx])) _ s2 hfs, hconv]
    · rw [if_neg hfs]
      simp only []
      rw [if_neg]
      intro hc
      rw [hconv] at hc
      exact hfs (fits_mono (conv_spec 256 58 (by omega) (by omega) (by omega) ds _ s2).2.2 hc)

theorem build_bad (cap : Option Nat) (c : UInt8) (post scratch : Bytes) (hc : c ∉ alphabet) :
    buildBase256 cap (c :: post) scratch = .error (.invalidChar c) := by
  have hs := digits_sound c
  rw [buildBase256]
  cases hd : DIGITS[c.toNat]? with
  | none => rfl
  | some o =>
    cases o with
    | none => rfl
    | some d =>
      rw [hd] at hs
      simp only [Bool.and_eq_true, beq_iff_eq, decide_eq_true_iff] at hs
      rw [alphabet_eq] at hc
      exact absurd (List.mem_of_getElem? hs.1.2) hc

/-- Splitting off the leading zero digits. -/
theorem split_zeros (ds : Bytes) : ∃ (z : Nat) (rest : Bytes), ds = List.replicate z 0 ++ rest ∧ rest.head? ≠ some 0 := by
  induction ds with
  | nil => exact ⟨0, [], rfl, by simp⟩
  | cons d ds ih =>
    by_cases h : d = 0
    · obtain ⟨z, rest, e, hr⟩ := ih
      exact ⟨z + 1, rest, by rw [h, e]; rfl, hr⟩
    · exact ⟨0, d :: ds, rfl, by simpa using h⟩

theorem takeWhile_ones (z : Nat) (ds : Bytes) (hd : ∀ d ∈ ds, d.toNat < 58) (hh : ds.head? ≠ some 0) :
    (List.replicate z 49 ++ chars ds).takeWhile (· == 49) = List.replicate z (49 : UInt8) := by
  induction z with
  | zero =>
    cases ds with
    | nil => rfl
    | cons d ds =>
      obtain ⟨c, _, _, e, hc⟩ := chars_cons ds (hd d (by simp))
      have : c ≠ 49 := fun h => hh (by rw [hc.1 h]; rfl)
      rw [e]
      simp [this]
  | succ z ih => rw [List.replicate_succ, List.cons_append, List.takeWhile_cons]; simp [ih]

theorem takeWhile_zeros (z : Nat) (body : Bytes) (hb : body.head? ≠ some 0) :
    ((List.replicate z 0 ++ body).takeWhile (· == 0)).length = z := by
  induction z with
  | zero => cases body with
    | nil => rfl
    | cons x xs => have : x ≠ 0 := by simpa using hb
                   simp [this]
  | succ z ih => rw [List.replicate_succ, List.cons_append, List.takeWhile_cons_of_pos rfl, List.length_cons, ih]

theorem fold_eq_beVal (B : Nat) (ds : Bytes) : ds.foldl (fun a d => a * B + d.toNat) 0 = beVal B ds := rfl

theorem beVal_zeros (B z : Nat) (ds : Bytes) : beVal B (List.replicate z 0 ++ ds) = beVal B ds := by
  unfold beVal
  induction z with
  | zero => rfl
  | succ z ih => rw [List.replicate_succ, List.cons_append, List.foldl_cons]; simpa using ih

theorem norm_reverse {B : Nat} {ds : Bytes} (h1 : ∀ d ∈ ds, d.toNat < B) (h2 : ds.head? ≠ some 0) : Norm B ds.reverse :=
  ⟨fun d hd => h1 d (by simpa using hd), by rw [List.getLast?_reverse]; exact h2⟩

/-- What the base-256 digits of a list of base-58 digits are. -/
theorem conv_value (ds : Bytes) : Norm 256 (conv 256 58 [] ds) ∧ leVal 256 (conv 256 58 [] ds) = beVal 58 ds := by
  obtain ⟨h1, h2, _⟩ := conv_spec 256 58 (by omega) (by omega) (by omega) ds [] (norm_nil _)
  exact ⟨h2, by rw [h1]; rfl⟩

theorem build_all (cap : Option Nat) (ds : Bytes) (hd : ∀ d ∈ ds, d.toNat < 58) :
    buildBase256 cap (chars ds) [] = if fits cap (conv 256 58 [] ds).length then .ok (conv 256 58 [] ds) else .error .buffer := by
  have := build_chars cap ds [] hd [] (norm_nil _) (by cases cap <;> simp [fits])
  rw [List.append_nil] at this
  exact this

theorem decodeRaw_chars (z : Nat) (ds : Bytes) (hd : ∀ d ∈ ds, d.toNat < 58) (hh : ds.head? ≠ some 0) :
    decodeRaw (List.replicate z 49 ++ chars ds) = .ok (List.replicate z 0 ++ (conv 256 58 [] ds).reverse) := by
  have hall : ∀ d ∈ List.replicate z (0 : UInt8) ++ ds, d.toNat < 58 := by
    intro d h
    rcases List.mem_append.1 h with h | h
    · rw [List.eq_of_mem_replicate h]; decide
    · exact hd d h
  have e : List.replicate z 49 ++ chars ds = chars (List.replicate z 0 ++ ds) := by rw [chars_append, chars_zeros]
  have hc : conv 256 58 [] (List.replicate z 0 ++ ds) = conv 256 58 [] ds := by
    obtain ⟨n1, v1⟩ := conv_value (List.replicate z 0 ++ ds)
    obtain ⟨n2, v2⟩ := conv_value ds
    exact n1.unique (by omega) n2 (by rw [v1, v2, beVal_zeros])
  unfold decodeRaw
  rw [takeWhile_ones z ds hd hh, e, build_all none _ hall, hc]
  simp [fits]

/-- **C29 (decoding).** The decoder accepts exactly the base58 texts, and returns the bytes they stand for. -/
theorem C29_decode (t b : Bytes) : decodeRaw t = .ok b ↔ Text58 b t := by
  constructor
  · intro h
    rcases text_cases t with ⟨ds, hd, rfl⟩ | ⟨ds, c, post, hd, hc, rfl⟩
    · obtain ⟨z, rest, rfl, hh⟩ := split_zeros ds
      have hd' : ∀ d ∈ rest, d.toNat < 58 := fun d h => hd d (by simp [h])
      rw [chars_append, chars_zeros, decodeRaw_chars z rest hd' hh] at h
      cases h
      obtain ⟨n1, v1⟩ := conv_value rest
      refine ⟨z, _, rest, rfl, ?_, by rw [chars_append, chars_zeros]; rfl, hd', hh, ?_⟩
      · rw [List.head?_reverse]; exact n1.2
      · rw [beVal_reverse, v1]
    · exfalso
      unfold decodeRaw at h
      rw [build_chars none ds (c :: post) hd [] (norm_nil _) rfl, build_bad none c post _ hc] at h
      simp [fits] at h
  · rintro ⟨z, body, ds, rfl, hb, rfl, hd, hh, hv⟩
    show decodeRaw (List.replicate z 49 ++ chars ds) = _
    rw [decodeRaw_chars z ds hd hh]
    obtain ⟨n1, v1⟩ := conv_value ds
    have : conv 256 58 [] ds = body.reverse := by
      refine n1.unique (by omega) (norm_reverse (fun d _ => d.toNat_lt) hb) ?_
      rw [v1, hv, leVal_reverse]
    rw [this, List.reverse_reverse]

/-- **C29 (errors).** Decoding fails only for a character outside the alphabet, and reports the first one. -/
theorem C29_decode_error (t : Bytes) (e : DecErr) : decodeRaw t = .error e ↔
    ∃ (pre : Bytes) (c : UInt8) (post : Bytes), t = pre ++ c :: post ∧ (∀ x ∈ pre, x ∈ alphabet) ∧ c ∉ alphabet ∧
      e = .invalidChar c := by
  have hmem : ∀ ds : Bytes, ∀ x ∈ chars ds, x ∈ alphabet := by
    intro ds x hx
    obtain ⟨d, _, h⟩ := List.mem_filterMap.1 hx
    exact List.mem_of_getElem? h
  have hbad : ∀ (ds : Bytes) (c : UInt8) (post : Bytes), (∀ d ∈ ds, d.toNat < 58) → c ∉ alphabet →
      decodeRaw (chars ds ++ c :: post) = .error (.invalidChar c) := by
    intro ds c post hd hc
    unfold decodeRaw
    rw [build_chars none ds (c :: post) hd [] (norm_nil _) rfl, build_bad none c post _ hc]
    simp [fits]
  constructor
  · intro h
    rcases text_cases t with ⟨ds, hd, rfl⟩ | ⟨ds, c, post, hd, hc, rfl⟩
    · exfalso
      obtain ⟨z, rest, rfl, hh⟩ := split_zeros ds
      rw [chars_append, chars_zeros, decodeRaw_chars z rest (fun d h => hd d (by simp [h])) hh] at h
      cases h
    · rw [hbad ds c post hd hc] at h
      cases h
      exact ⟨chars ds, c, post, rfl, hmem ds, hc, rfl⟩
  · rintro ⟨pre, c, post, rfl, hp, hc, rfl⟩
    rcases text_cases pre with ⟨ds, hd, rfl⟩ | ⟨ds, c', post', hd, hc', rfl⟩
    · exact hbad ds c post hd hc
    · exact absurd (hp c' (by simp)) hc'

/-- **C29 (uniqueness).** A byte string has one text and a text stands for one byte string. -/
theorem C29_unique (b b' t t' : Bytes) (h : Text58 b t) (h' : Text58 b' t') : b = b' ↔ t = t' := by
  constructor
  · rintro rfl
    obtain ⟨z, body, ds, e, hb, rfl, hd, hh, hv⟩ := h
    obtain ⟨z', body', ds', e', hb', rfl, hd', hh', hv'⟩ := h'
    have hzz : z = z' := by rw [← takeWhile_zeros z body hb, ← e, e', takeWhile_zeros z' body' hb']
    subst hzz
    rw [e] at e'
    have := List.append_cancel_left e'
    subst this
    have hr : ds.reverse = ds'.reverse := by
      refine (norm_reverse hd hh).unique (by omega) (norm_reverse hd' hh') ?_
      rw [leVal_reverse, leVal_reverse, hv, hv']
    rw [List.reverse_inj.1 hr]
  · rintro rfl
    have := (C29_decode t b).2 h
    rw [(C29_decode t b').2 h'] at this
    exact (Except.ok.inj this).symm

/-! ### Encoding -/

theorem encLoop_spec (cap : Option Nat) (data : Bytes) : ∀ (buf : Bytes) (lz : Nat) (leading : Bool), Norm 58 buf →
    fits cap buf.length = true →
    encLoop cap data buf lz leading =
      if fits cap (conv 58 256 buf data).length then
        some (conv 58 256 buf data, lz + if leading then (data.takeWhile (· == 0)).length else 0)
      else none := by
  induction data with
  | nil => intro buf lz leading _ hf; rw [show conv 58 256 buf [] = buf from rfl, if_pos hf]; simp [encLoop]
  | cons d data ih =>
    intro buf lz leading hn hf
    rw [encLoop]
    simp only []
    have hsl := (sweep_spec 58 256 (by omega) (by omega) buf d.toNat).2.1
    rw [pushCarry_spec 58 cap _ _ (by rw [hsl]; exact hf)]
    obtain ⟨s1, s2, s3⟩ := step_spec 58 256 (by omega) (by omega) (by omega) buf d.toNat hn
    show (match (if fits cap (step 58 256 buf d.toNat).length = true then some (step 58 256 buf d.toNat) else none) with
      | none => _ | some s => _) = _
    have hconv : conv 58 256 buf (d :: data) = conv 58 256 (step 58 256 buf d.toNat) data := rfl
    by_cases hfs : fits cap (step 58 256 buf d.toNat).length = true
    · rw [if_pos hfs]
      simp only []
      rw [ih _ _ _ s2 hfs, hconv]
      congr 2
      cases leading with
      | false => simp
      | true =>
        by_cases hd : d = 0
        · subst hd; simp; omega
        · simp [hd]
    · rw [if_neg hfs]
      simp only []
      rw [if_neg]
      intro hc
      rw [hconv] at hc
      exact hfs (fits_mono (conv_spec 58 256 (by omega) (by omega) (by omega) data _ s2).2.2 hc)

theorem pushZeros_spec (cap : Option Nat) (k : Nat) : ∀ buf : Bytes, fits cap buf.length = true →
    pushZeros cap buf k = if fits cap (buf.length + k) then some (buf ++ List.replicate k 0) else none := by
  induction k with
  | zero => intro buf hf; rw [pushZeros, Nat.add_zero, if_pos hf]; simp
  | succ k ih =>
    intro buf hf
    rw [pushZeros]
    unfold tryPush
    cases cap with
    | none => simp only []; rw [ih _ rfl]; simp [fits, List.replicate_succ]
    | some m =>
      simp only []
      by_cases hm : buf.length < m
      · rw [if_pos hm]
        simp only []
        rw [ih _ (by simp [fits]; omega)]
        simp [fits, List.replicate_succ, Nat.add_assoc, Nat.add_comm 1 k]
      · rw [if_neg hm]
        simp only []
        rw [if_neg (by simp [fits]; omega)]

theorem mapM_chars {ds : Bytes} (h : ∀ d ∈ ds, d.toNat < 58) : (ds.mapM fun c => CHARS[c.toNat]?) = some (chars ds) := by
  induction ds with
  | nil => rfl
  | cons d ds ih =>
    obtain ⟨c, h1, _, e, _⟩ := chars_cons ds (h d (by simp))
    rw [List.mapM_cons, h1, ih (fun x hx => h x (by simp [hx])), e]
    rfl

/-- **C29 (encoding).** Encoding into a growable buffer always gives the base58 text; encoding into a fixed buffer gives
it exactly if it fits. -/
theorem C29_encode (b : Bytes) : ∃ t, Text58 b t ∧
    encodeToBuffer none b = some (some t) ∧
    ∀ n, encodeToBuffer (some n) b = some (if t.length ≤ n then some t else none) := by
  obtain ⟨z, body, rfl, hb⟩ := split_zeros b
  obtain ⟨hv, hn, _⟩ := conv_spec 58 256 (by omega) (by omega) (by omega) (List.replicate z 0 ++ body) [] (norm_nil _)
  generalize hr : conv 58 256 [] (List.replicate z 0 ++ body) = r at hv hn
  have hv' : leVal 58 r = beVal 256 body := by
    rw [hv]; exact beVal_zeros 256 z body
  have hz : ((List.replicate z 0 ++ body).takeWhile (· == 0)).length = z := takeWhile_zeros z body hb
  have hlt : ∀ d ∈ r ++ List.replicate z 0, d.toNat < 58 := by
    intro d hd
    rcases List.mem_append.1 hd with h | h
    · exact hn.1 d h
    · rw [List.eq_of_mem_replicate h]; decide
  have hrev : (r ++ List.replicate z 0).reverse = List.replicate z 0 ++ r.reverse := by simp
  have hlen : (List.replicate z 49 ++ chars r.reverse).length = r.length + z := by
    rw [List.length_append, chars_length (fun d hd => hn.1 d (by simpa using hd))]; simp; omega
  have key : ∀ cap, encodeToBuffer cap (List.replicate z 0 ++ body) =
      some (if fits cap (List.replicate z 49 ++ chars r.reverse).length then some (List.replicate z 49 ++ chars r.reverse) else none) := by
    intro cap
    unfold encodeToBuffer
    rw [encLoop_spec cap _ [] 0 true (norm_nil _) (by cases cap <;> simp [fits]), hr, hz, hlen]
    by_cases hf : fits cap r.length = true
    · rw [if_pos hf]
      simp only [if_true, Nat.zero_add]
      rw [pushZeros_spec cap z r hf]
      by_cases hf2 : fits cap (r.length + z) = true
      · rw [if_pos hf2, if_pos hf2]
        simp only []
        rw [hrev, mapM_chars (fun d hd => hlt d (by rw [← hrev] at hd; simpa [or_comm] using hd)), chars_append, chars_zeros]
        rfl
      · rw [if_neg hf2, if_neg hf2]
    · rw [if_neg hf, if_neg (fun h => hf (fits_mono (by omega) h))]
  refine ⟨List.replicate z 49 ++ chars r.reverse, ⟨z, body, r.reverse, rfl, hb, rfl, fun d hd => hn.1 d (by simpa using hd), ?_, ?_⟩, ?_, ?_⟩
  · rw [List.head?_reverse]; exact hn.2
  · rw [beVal_reverse, hv']
  · rw [key]; rfl
  · intro n
    rw [key]
    simp [fits]

/-- **C29 (round trip).** -/
theorem C29_round_trip (b t : Bytes) :
    (encodeToBuffer none b = some (some t) → decodeRaw t = .ok b) ∧ (decodeRaw t = .ok b → encodeToBuffer none b = some (some t)) := by
  obtain ⟨t', h1, h2, _⟩ := C29_encode b
  constructor
  · intro h
    rw [h2] at h
    cases h
    exact (C29_decode _ _).2 h1
  · intro h
    rw [h2, (C29_unique b b t' t h1 ((C29_decode _ _).1 h)).1 rfl]

/-! ### Base58check -/

theorem leNat4 {a b : Bytes} (ha : a.length = 4) (hb : b.length = 4) : leNat a = leNat b ↔ a = b := by
  constructor
  · intro h
    rw [← leBytes_leNat' 4 a ha, ← leBytes_leNat' 4 b hb, h]
  · rintro rfl; rfl

theorem H4 (H : Bytes → Arr 32) (p : Bytes) : ((H p).val.take 4).length = 4 := by
  rw [List.length_take, (H p).property]; rfl

/-- **C30 (decoding).** `decode_check` accepts exactly the base58 texts of a payload followed by its checksum. -/
theorem C30_decode_check (H : Bytes → Arr 32) (t p : Bytes) :
    decodeCheck H t = .ok p ↔ Text58 (p ++ (H p).val.take 4) t := by
  rw [← C29_decode]
  unfold decodeCheck
  constructor
  · intro h
    cases hr : decodeRaw t with
    | error e => rw [hr] at h; cases h
    | ok ret =>
      rw [hr] at h
      simp only [] at h
      by_cases h1 : ret.length < 4
      · rw [if_pos h1] at h; cases h
      · rw [if_neg h1] at h
        by_cases h2 : leNat (ret.drop (ret.length - 4)) ≠ check32 H (ret.take (ret.length - 4))
        · rw [if_pos h2] at h; cases h
        · rw [if_neg h2] at h
          cases h
          have := (leNat4 (by simp; omega) (H4 H _)).1 (Decidable.not_not.1 h2)
          rw [← this, List.take_append_drop]
  · intro h
    rw [h]
    simp only []
    have hl := H4 H p
    have hlen : (p ++ (H p).val.take 4).length - 4 = p.length := by rw [List.length_append, hl]; omega
    rw [if_neg (by rw [List.length_append, hl]; omega), hlen, List.take_left, List.drop_left]
    rw [if_neg (by simp [check32])]

/-- **C30 (errors).** What `decode_check` reports otherwise. -/
theorem C30_decode_check_errors (H : Bytes → Arr 32) (t : Bytes) (e : DecErr) : decodeCheck H t = .error e ↔
    (∃ (pre : Bytes) (c : UInt8) (post : Bytes), t = pre ++ c :: post ∧ (∀ x ∈ pre, x ∈ alphabet) ∧ c ∉ alphabet ∧ e = .invalidChar c) ∨
    (∃ b, Text58 b t ∧ b.length < 4 ∧ e = .tooShort b.length) ∨
    (∃ p c : Bytes, Text58 (p ++ c) t ∧ c.length = 4 ∧ c ≠ (H p).val.take 4 ∧ e = .incorrectChecksum (leNat c) (leNat ((H p).val.take 4))) := by
  rw [← C29_decode_error]
  constructor
  · intro h
    unfold decodeCheck at h
    cases hr : decodeRaw t with
    | error e' => rw [hr] at h; simp only [Except.error.injEq] at h; rw [h]; exact .inl rfl
    | ok ret =>
      rw [hr] at h
      simp only [] at h
      by_cases h1 : ret.length < 4
      · rw [if_pos h1] at h
        cases h
        exact .inr (.inl ⟨ret, (C29_decode _ _).1 hr, h1, rfl⟩)
      · rw [if_neg h1] at h
        by_cases h2 : leNat (ret.drop (ret.length - 4)) ≠ check32 H (ret.take (ret.length - 4))
        · rw [if_pos h2] at h
          cases h
          refine .inr (.inr ⟨ret.take (ret.length - 4), ret.drop (ret.length - 4), ?_, by simp; omega, ?_, rfl⟩)
          · rw [List.take_append_drop]; exact (C29_decode _ _).1 hr
          · intro e; exact h2 (by rw [e]; rfl)
        · rw [if_neg h2] at h; cases h
  · rintro (h | ⟨b, hb, hl, rfl⟩ | ⟨p, c, hc, hl, hne, rfl⟩)
    · unfold decodeCheck; rw [h]
    · unfold decodeCheck
      rw [(C29_decode _ _).2 hb]
      simp only []
      rw [if_pos hl]
    · unfold decodeCheck
      rw [(C29_decode _ _).2 hc]
      simp only []
      have hlen : (p ++ c).length - 4 = p.length := by rw [List.length_append, hl]; omega
      rw [if_neg (by rw [List.length_append, hl]; omega), hlen, List.take_left, List.drop_left, if_pos]
      · rfl
      · intro e; exact hne ((leNat4 hl (H4 H p)).1 e)

/-- **C30 (arrays).** `decode_check_to_array` accepts the same texts, for payloads of exactly the expected length, as long
as the payload and checksum fit its buffer of 128 bytes. -/
theorem C30_decode_check_to_array (H : Bytes → Arr 32) (N : Nat) (t p : Bytes) :
    decodeCheckToArray H N t = .ok p ↔ decodeCheck H t = .ok p ∧ p.length = N ∧ N + 4 ≤ 128 := by
  have hcase : ∀ (z : Nat) (rest : Bytes), (∀ d ∈ rest, d.toNat < 58) → rest.head? ≠ some 0 →
      (decodeCheckToArray H N (List.replicate z 49 ++ chars rest) = .ok p ↔
       decodeCheck H (List.replicate z 49 ++ chars rest) = .ok p ∧ p.length = N ∧ N + 4 ≤ 128) := by
    intro z rest hd hh
    have hall : ∀ d ∈ List.replicate z (0 : UInt8) ++ rest, d.toNat < 58 := by
      intro d h
      rcases List.mem_append.1 h with h | h
      · rw [List.eq_of_mem_replicate h]; decide
      · exact hd d h
    have hc : conv 256 58 [] (List.replicate z 0 ++ rest) = conv 256 58 [] rest := by
      obtain ⟨n1, v1⟩ := conv_value (List.replicate z 0 ++ rest)
      obtain ⟨n2, v2⟩ := conv_value rest
      exact n1.unique (by omega) n2 (by rw [v1, v2, beVal_zeros])
    have e : List.replicate z 49 ++ chars rest = chars (List.replicate z 0 ++ rest) := by rw [chars_append, chars_zeros]
    have hb : buildBase256 (some BUF_LEN) (List.replicate z 49 ++ chars rest) [] =
        if (conv 256 58 [] rest).length ≤ 128 then .ok (conv 256 58 [] rest) else .error .buffer := by
      rw [e, build_all _ _ hall, hc]
      by_cases h : (conv 256 58 [] rest).length ≤ 128
      · rw [if_pos h, if_pos (show fits (some BUF_LEN) (conv 256 58 [] rest).length = true from decide_eq_true h)]
      · rw [if_neg h, if_neg (show ¬ fits (some BUF_LEN) (conv 256 58 [] rest).length = true from fun c => h (of_decide_eq_true c))]
    unfold decodeCheckToArray decodeCheck
    rw [hb, decodeRaw_chars z rest hd hh, takeWhile_ones z rest hd hh]
    generalize conv 256 58 [] rest = r
    simp only [List.length_replicate]
    have hlen : (List.replicate z 0 ++ r.reverse : Bytes).length = z + r.length := by simp
    by_cases h1 : r.length ≤ 128
    · rw [if_pos h1]
      simp only []
      by_cases h2 : z + r.length > BUF_LEN
      · rw [if_pos h2]
        simp only [reduceCtorEq, false_iff]
        rintro ⟨hx, hN, h128⟩
        split at hx
        · cases hx
        · split at hx
          · cases hx
          · cases hx
            rw [hlen, List.length_take, hlen] at hN
            unfold BUF_LEN at h2
            omega
      · rw [if_neg h2]
        by_cases h3 : (List.replicate z 0 ++ r.reverse : Bytes).length < 4
        · rw [if_pos h3, if_pos h3]; simp
        · rw [if_neg h3, if_neg h3]
          have hpl : ((List.replicate z 0 ++ r.reverse : Bytes).take ((List.replicate z 0 ++ r.reverse : Bytes).length - 4)).length =
              z + r.length - 4 := by rw [List.length_take, hlen]; omega
          by_cases h4 : z + r.length - 4 = N
          · rw [if_neg (by rw [hpl]; simpa using h4)]
            by_cases h5 : leNat ((List.replicate z 0 ++ r.reverse).drop ((List.replicate z 0 ++ r.reverse : Bytes).length - 4)) ≠
                check32 H ((List.replicate z 0 ++ r.reverse).take ((List.replicate z 0 ++ r.reverse : Bytes).length - 4))
            · rw [if_pos h5, if_pos h5]; simp
            · rw [if_neg h5, if_neg h5]
              constructor
              · intro h
                cases h
                refine ⟨rfl, by rw [hpl]; exact h4, ?_⟩
                unfold BUF_LEN at h2
                rw [hlen] at h3
                omega
              · rintro ⟨h, _, _⟩
                cases h; rfl
          · rw [if_pos (by rw [hpl]; exact h4)]
            simp only [reduceCtorEq, false_iff]
            rintro ⟨hx, hN, _⟩
            split at hx
            · cases hx
            · cases hx
              rw [hpl] at hN
              exact h4 hN
    · rw [if_neg h1]
      simp only [reduceCtorEq, false_iff]
      rintro ⟨hx, hN, h128⟩
      split at hx
      · cases hx
      · split at hx
        · cases hx
        · cases hx
          rw [hlen, List.length_take, hlen] at hN
          omega
  rcases text_cases t with ⟨ds, hd, rfl⟩ | ⟨ds, c, post, hd, hc, rfl⟩
  · obtain ⟨z, rest, rfl, hh⟩ := split_zeros ds
    rw [chars_append, chars_zeros]
    exact hcase z rest (fun d h => hd d (by simp [h])) hh
  · constructor
    · intro h
      exfalso
      unfold decodeCheckToArray at h
      rw [build_chars _ ds (c :: post) hd [] (norm_nil _) (by simp [fits]), build_bad _ c post _ hc] at h
      by_cases hf : fits (some BUF_LEN) (conv 256 58 [] ds).length = true
      · rw [if_pos hf] at h; cases h
      · rw [if_neg hf] at h; cases h
    · rintro ⟨h, _, _⟩
      exfalso
      unfold decodeCheck decodeRaw at h
      rw [build_chars none ds (c :: post) hd [] (norm_nil _) rfl, build_bad none c post _ hc] at h
      simp [fits] at h

/-- Text length: a text of at most 93 bytes has at most 128 characters. -/
theorem text_short {b t : Bytes} (h : Text58 b t) (hl : b.length ≤ 93) : t.length ≤ 128 := by
  obtain ⟨z, body, ds, rfl, hb, rfl, hd, hh, hv⟩ := h
  show (List.replicate z 49 ++ chars ds).length ≤ 128
  rw [List.length_append, chars_length hd, List.length_replicate]
  rw [List.length_append, List.length_replicate] at hl
  by_cases hds : ds = []
  · rw [hds]; simp; omega
  · have hge := (norm_reverse hd hh).ge (by simpa using hds)
    rw [leVal_reverse, List.length_reverse, hv, ← leVal_reverse] at hge
    have hlt := leVal_lt (B := 256) (ds := body.reverse) (fun d _ => d.toNat_lt)
    rw [List.length_reverse] at hlt
    have hpow : ∀ m : Fin 94, 256 ^ m.val ≤ 58 ^ (m.val + 35) := by decide +kernel
    have hp := hpow ⟨body.length, by omega⟩
    simp only [] at hp
    have : 58 ^ (ds.length - 1) < 58 ^ (body.length + 35) := by omega
    have := (Nat.pow_lt_pow_iff_right (by omega)).1 this
    have hpos : 0 < ds.length := List.length_pos_iff.2 hds
    omega

/-- **C30 (encoding).** `encode_unbounded` gives the base58 text of payload and checksum, which `decode_check` reads back;
it panics exactly for payloads of 90 bytes whose text does not fit 128 characters. -/
theorem C30_encode (H : Bytes → Arr 32) (p : Bytes) : ∃ t, Text58 (p ++ (H p).val.take 4) t ∧ decodeCheck H t = .ok p ∧
    encodeUnbounded H p = (if p.length = 90 ∧ t.length > 128 then none else some t) ∧
    encodeNoAlloc H p = some (if t.length ≤ 128 then some t else none) := by
  obtain ⟨t, h1, h2, h3⟩ := C29_encode (p ++ (H p).val.take 4)
  refine ⟨t, h1, (C30_decode_check H t p).2 h1, ?_, ?_⟩
  · unfold encodeUnbounded withCheck reserveLen BUF_LEN
    have hlen : (p ++ (H p).val.take 4).length = p.length + 4 := by rw [List.length_append, H4]
    by_cases hr : (p.length + 4) * 137 / 100 ≤ 128
    · rw [if_pos hr, h3 128]
      by_cases h90 : p.length = 90
      · by_cases ht : t.length ≤ 128
        · rw [if_pos ht, if_neg (by omega)]
        · rw [if_neg ht, if_pos (by omega)]
      · have ht := text_short h1 (by rw [hlen]; omega)
        rw [if_pos ht, if_neg (by omega)]
    · rw [if_neg hr, h2, if_neg (by omega)]
  · unfold encodeNoAlloc withCheck
    rw [h3 BUF_LEN]; rfl

/-- Finding: `encode_unbounded` (and with the `alloc` feature `encode`, which promises no failure) panics for every payload
of 90 bytes that begins with a byte of at least 57. -/
theorem C30_encode_panics (H : Bytes → Arr 32) (first : UInt8) (rest : Bytes) (hf : 57 ≤ first.toNat) (hl : rest.length = 89) :
    encodeUnbounded H (first :: rest) = none := by
  obtain ⟨t, h1, _, h3, _⟩ := C30_encode H (first :: rest)
  rw [h3, if_pos]
  refine ⟨by simp; omega, ?_⟩
  obtain ⟨z, body, ds, e, hb, rfl, hd, hh, hv⟩ := h1
  have hz : z = 0 := by
    cases z with
    | zero => rfl
    | succ z =>
      rw [List.replicate_succ, List.cons_append, List.cons_append] at e
      have := (List.cons.inj e).1
      rw [this] at hf
      simp at hf
  subst hz
  rw [List.replicate_zero, List.nil_append] at e
  show 128 < (List.replicate 0 49 ++ chars ds).length
  rw [List.replicate_zero, List.nil_append, chars_length hd]
  -- the value is at least 57 * 256^93
  have hval : 57 * 256 ^ 93 ≤ beVal 256 body := by
    rw [← e, ← leVal_reverse]
    have hlen : (rest ++ (H (first :: rest)).val.take 4).length = 93 := by rw [List.length_append, H4]; omega
    rw [List.cons_append, List.reverse_cons, leVal_append, List.length_reverse, hlen]
    simp only [leVal, Nat.mul_zero, Nat.add_zero]
    rw [Nat.mul_comm 57]
    exact Nat.le_trans (Nat.mul_le_mul_left _ hf) (Nat.le_add_left _ _)
  have hlt := leVal_lt (B := 58) (ds := ds.reverse) (fun d h => hd d (by simpa using h))
  rw [leVal_reverse, List.length_reverse, hv] at hlt
  have hpow : 58 ^ 128 ≤ 57 * 256 ^ 93 := by decide +kernel
  have : 58 ^ 128 < 58 ^ ds.length := by
    exact Nat.lt_of_le_of_lt hpow (Nat.lt_of_le_of_lt hval hlt)
  exact (Nat.pow_lt_pow_iff_right (by omega)).1 this

/-! ### Examples -/

example : Text58 [0, 0, 1, 2] [49, 49, 53, 84] :=
  ⟨2, [1, 2], [4, 26], rfl, by decide, by decide, by decide, by decide, by decide⟩
example : decodeRaw [49, 49, 53, 84] = .ok [0, 0, 1, 2] :=
  (C29_decode _ _).2 ⟨2, [1, 2], [4, 26], rfl, by decide, by decide, by decide, by decide, by decide⟩
example : (alphabet.contains 48) = false := by decide

end B58
end Btc
