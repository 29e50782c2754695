import Verif.Units.AmountFloat
import Verif.Props.C41
import Verif.Props.C82
/-!
# C86: amounts survive the trip through `f64`

The decimal number `n / 10^k` is compared with the double of bits `b` (value `scaled b * 2^-1074`, see C82) by
`dist n k b`, their distance times `10^k * 2^1074`.
-/
namespace Btc
namespace Amt
open U256 (scaled)

/-! ## What is assumed of the standard library -/

/-- The value 1 in units of the smallest double. -/
def oneScaled : Nat := 2 ^ 1074

theorem oneScaled_pos : 0 < oneScaled := Nat.two_pow_pos 1074

theorem oneScaled_eq : oneScaled = 2 ^ 1022 * 2 ^ 52 := by unfold oneScaled; rw [← Nat.pow_add]

/-- The distance between the decimal `n / 10^k` and the double with bits `b`, times `10^k * 2^1074`. -/
def dist (n k b : Nat) : Nat := ((scaled b * 10 ^ k : Nat) - (n * oneScaled : Nat) : Int).natAbs

/-- `b` is the non-negative double nearest to `n / 10^k`, in case of a tie the even one; the bits of infinity stand for
the value `2^1024`, as in IEEE 754 (overflow rule of round to nearest). -/
def NearestDec (n k b : Nat) : Prop :=
  b ≤ infBits ∧ ∀ c, c ≤ infBits → dist n k b ≤ dist n k c ∧ (c ≠ b → dist n k b = dist n k c → b % 2 = 0)

/-- `n / 10^k` written with exactly `k` decimals, without exponent. -/
def plainText (n k : Nat) : Bytes :=
  decBytes (n / 10 ^ k) ++ (if k = 0 then [] else 46 :: padZero k (n % 10 ^ k))

/-- `n` has at most `j` significant decimal digits. -/
def SigDigits (n j : Nat) : Prop := ∃ y t, n = y * 10 ^ t ∧ y < 10 ^ j

/-- `s` is the text of the finite non-negative double with bits `b`: a decimal without exponent and without trailing zeros
behind the point that rounds to `b`, and no decimal with fewer significant digits rounds to `b`.  (Rust also promises the
closest of those; that is not needed.) -/
def Shows (b : Nat) (s : Bytes) : Prop :=
  ∃ n k, s = plainText n k ∧ (k = 0 ∨ n % 10 ≠ 0) ∧ NearestDec n k b ∧
    ∀ m l j, NearestDec m l b → SigDigits m j → SigDigits n j

/-- What is assumed of `f64::to_string`. -/
structure ShowLaws (shw : Nat → Bytes) : Prop where
  finite : ∀ b, b < infBits → Shows b (shw b)
  negative : ∀ b, b ≤ infBits → shw (2 ^ 63 + b) = 45 :: shw b
  infinite : shw infBits = [105, 110, 102]
  nan : ∀ v, v < 2 ^ 64 → infBits < v % 2 ^ 63 → shw v = [78, 97, 78]

/-- What is assumed of `str::parse::<f64>`: decimal texts are rounded correctly. -/
structure ParseLaws (parse : Bytes → Option Nat) : Prop where
  decimal : ∀ n k b, NearestDec n k b → parse (plainText n k) = some b
  negative : ∀ n k b, NearestDec n k b → parse (45 :: plainText n k) = some (2 ^ 63 + b)

/-! ## The doubles in order -/

theorem scaled_step (b : Nat) : ∃ u, 0 < u ∧ scaled (b + 1) = scaled b + u ∧
    (2 ^ 52 ≤ b → u * 2 ^ 52 ≤ scaled b) ∧ (0 < b → scaled b ≤ scaled (b - 1) + u) := by
  have hf : b % 2 ^ 52 < 2 ^ 52 := Nat.mod_lt _ (by decide)
  by_cases h0 : b < 2 ^ 52
  · refine ⟨1, by decide, ?_, by omega, ?_⟩
    · have e1 : scaled b = b := by
        unfold scaled; rw [if_pos (by omega)]; omega
      rw [e1]
      by_cases h1 : b + 1 < 2 ^ 52
      · unfold scaled; rw [if_pos (by omega)]; omega
      · have : b + 1 = 0 * 2 ^ 52 + 2 ^ 52 := by omega
        rw [this, U256.scaled_result 0 _ (by omega) (by omega)]
    · intro hb
      have e1 : scaled b = b := by
        unfold scaled; rw [if_pos (by omega)]; omega
      have e2 : scaled (b - 1) = b - 1 := by
        unfold scaled; rw [if_pos (by omega)]; omega
      omega
  · obtain ⟨E, m, hb, h1, h2⟩ : ∃ E m, b = E * 2 ^ 52 + m ∧ 2 ^ 52 ≤ m ∧ m < 2 ^ 53 :=
      ⟨b / 2 ^ 52 - 1, 2 ^ 52 + b % 2 ^ 52, by omega, by omega, by omega⟩
    have hu : 0 < 2 ^ E := Nat.two_pow_pos E
    have e1 := U256.scaled_result E m h1 (by omega)
    have e2 := U256.scaled_result E (m + 1) (by omega) (by omega)
    refine ⟨2 ^ E, hu, ?_, fun _ => ?_, fun _ => ?_⟩
    · rw [hb, Nat.add_assoc, e2, e1, Nat.add_mul, Nat.one_mul]
    · rw [hb, e1, Nat.mul_comm]; exact Nat.mul_le_mul_right _ h1
    · rw [hb, e1]
      by_cases hm : m = 2 ^ 52
      · subst hm
        cases E with
        | zero =>
          have : scaled (0 * 2 ^ 52 + 2 ^ 52 - 1) = 2 ^ 52 - 1 := by decide
          rw [this]; decide
        | succ E =>
          have e3 := U256.scaled_result E (2 ^ 53 - 1) (by omega) (by omega)
          rw [show (E + 1) * 2 ^ 52 + 2 ^ 52 - 1 = E * 2 ^ 52 + (2 ^ 53 - 1) by omega, e3]
          simp only [Nat.pow_succ]
          omega
      · have e3 := U256.scaled_result E (m - 1) (by omega) (by omega)
        rw [show E * 2 ^ 52 + m - 1 = E * 2 ^ 52 + (m - 1) by omega, e3]
        obtain ⟨m', rfl⟩ : ∃ m', m = m' + 1 := ⟨m - 1, by omega⟩
        rw [Nat.add_mul, Nat.add_sub_cancel]; omega

theorem scaled_lt {b c : Nat} (h : b < c) : scaled b < scaled c := by
  induction c with
  | zero => omega
  | succ c ih =>
    obtain ⟨u, hu, e, _⟩ := scaled_step c
    by_cases hc : b = c
    · subst hc; omega
    · have := ih (by omega); omega

theorem scaled_le {b c : Nat} (h : b ≤ c) : scaled b ≤ scaled c := by
  rcases Nat.eq_or_lt_of_le h with rfl | h
  · exact Nat.le_refl _
  · exact Nat.le_of_lt (scaled_lt h)

theorem mul_lt {a b k : Nat} (h : a < b) : a * 10 ^ k < b * 10 ^ k :=
  Nat.mul_lt_mul_of_pos_right h (Nat.pow_pos (by decide))

theorem bracket (f : Nat → Nat) (X : Nat) (h0 : f 0 ≤ X) : ∀ N, f N ≤ X ∨ ∃ b, b < N ∧ f b ≤ X ∧ X < f (b + 1)
  | 0 => .inl h0
  | N + 1 => by
    rcases bracket f X h0 N with h | ⟨b, h1, h2, h3⟩
    · by_cases h' : f (N + 1) ≤ X
      · exact .inl h'
      · exact .inr ⟨N, by omega, h, by omega⟩
    · exact .inr ⟨b, by omega, h2, h3⟩

/-- Every decimal has a nearest double. -/
theorem nearest_exists (n k : Nat) : ∃ b, NearestDec n k b := by
  unfold NearestDec dist
  generalize n * oneScaled = X
  have hmono : ∀ {b c}, b ≤ c → scaled b * 10 ^ k ≤ scaled c * 10 ^ k :=
    fun h => Nat.mul_le_mul_right _ (scaled_le h)
  have hlt : ∀ {b c}, b < c → scaled b * 10 ^ k < scaled c * 10 ^ k := fun h => mul_lt (scaled_lt h)
  have h0 : scaled 0 * 10 ^ k ≤ X := by
    rw [show scaled 0 = 0 by decide, Nat.zero_mul]; exact Nat.zero_le _
  rcases bracket (fun b => scaled b * 10 ^ k) X h0 infBits with h | ⟨b, h1, h2, h3⟩
  · refine ⟨infBits, Nat.le_refl _, fun c hc => ?_⟩
    have h : scaled infBits * 10 ^ k ≤ X := h
    rcases Nat.eq_or_lt_of_le hc with rfl | hc
    · exact ⟨Nat.le_refl _, fun h => absurd rfl h⟩
    · have := hlt hc
      omega
  · have h2 : scaled b * 10 ^ k ≤ X := h2
    have h3 : X < scaled (b + 1) * 10 ^ k := h3
    have hs : scaled b * 10 ^ k < scaled (b + 1) * 10 ^ k := hlt (by omega)
    have hc : ∀ c, c = b ∨ c = b + 1 ∨ scaled c * 10 ^ k < scaled b * 10 ^ k ∨
        scaled (b + 1) * 10 ^ k < scaled c * 10 ^ k := by
      intro c
      by_cases h : c < b
      · exact .inr (.inr (.inl (hlt h)))
      · by_cases h' : b + 1 < c
        · exact .inr (.inr (.inr (hlt h')))
        · omega
    by_cases hd : X - scaled b * 10 ^ k < scaled (b + 1) * 10 ^ k - X ∨
        (X - scaled b * 10 ^ k = scaled (b + 1) * 10 ^ k - X ∧ b % 2 = 0)
    · refine ⟨b, by omega, fun c _ => ?_⟩
      rcases hc c with rfl | rfl | h | h <;> omega
    · refine ⟨b + 1, by omega, fun c _ => ?_⟩
      rcases hc c with rfl | rfl | h | h <;> omega

theorem nearest_unique {n k b c : Nat} (hb : NearestDec n k b) (hc : NearestDec n k c) : b = c := by
  obtain ⟨b1, b2⟩ := hb
  obtain ⟨c1, c2⟩ := hc
  have hb := b2 c c1
  have hc := c2 b b1
  by_cases h : b = c
  · exact h
  exfalso
  have e1 := hb.2 (fun e => h e.symm) (by omega)
  have e2 := hc.2 h (by omega)
  -- both even and distinct: the one between is nearer
  have key : ∀ {b c : Nat}, b < c → b % 2 = 0 → c % 2 = 0 → c ≤ infBits →
      (∀ d, d ≤ infBits → dist n k b ≤ dist n k d ∧ (d ≠ b → dist n k b = dist n k d → b % 2 = 0)) →
      (∀ d, d ≤ infBits → dist n k c ≤ dist n k d ∧ (d ≠ c → dist n k c = dist n k d → c % 2 = 0)) → False := by
    intro b c h p1 p2 hi f1 f2
    have g1 := (f1 (b + 1) (by omega)).1
    have g2 := (f2 (b + 1) (by omega)).1
    have l1 : scaled b * 10 ^ k < scaled (b + 1) * 10 ^ k := mul_lt (scaled_lt (by omega))
    have l2 : scaled (b + 1) * 10 ^ k < scaled c * 10 ^ k := mul_lt (scaled_lt (by omega))
    unfold dist at g1 g2
    generalize n * oneScaled = X at *
    omega
  rcases Nat.lt_or_gt_of_ne h with h | h
  · exact key h e1 e2 c1 b2 c2
  · exact key h e2 e1 b1 c2 b2

/-- The nearest double depends on the number only, not on the way it is written. -/
theorem nearest_congr {n k m l b : Nat} (h : n * 10 ^ l = m * 10 ^ k) (hb : NearestDec n k b) : NearestDec m l b := by
  have hd : ∀ c, dist n k c * 10 ^ l = dist m l c * 10 ^ k := by
    intro c
    unfold dist
    have e : ∀ (x : Int) (j : Nat), x.natAbs * 10 ^ j = (x * (10 ^ j : Nat)).natAbs := by
      intro x j; rw [Int.natAbs_mul, Int.natAbs_natCast]
    rw [e, e, Int.sub_mul, Int.sub_mul]
    have e1 : scaled c * 10 ^ k * 10 ^ l = scaled c * 10 ^ l * 10 ^ k := Nat.mul_right_comm ..
    have e2 : n * oneScaled * 10 ^ l = m * oneScaled * 10 ^ k := by
      rw [Nat.mul_right_comm, h, Nat.mul_right_comm]
    rw [← Int.natCast_mul, ← Int.natCast_mul, ← Int.natCast_mul, ← Int.natCast_mul, e1, e2]
  refine ⟨hb.1, fun c hc => ?_⟩
  obtain ⟨h1, h2⟩ := hb.2 c hc
  have pl : 0 < 10 ^ l := Nat.pow_pos (by decide)
  have pk : 0 < 10 ^ k := Nat.pow_pos (by decide)
  constructor
  · apply Nat.le_of_mul_le_mul_right _ pk
    rw [← hd, ← hd]
    exact Nat.mul_le_mul_right _ h1
  · intro hne he
    apply h2 hne
    apply Nat.eq_of_mul_eq_mul_right pl
    rw [hd, hd, he]

/-- The nearest double is monotone. -/
theorem nearest_mono {n m k b c : Nat} (h : n ≤ m) (hb : NearestDec n k b) (hc : NearestDec m k c) : b ≤ c := by
  rcases Nat.eq_or_lt_of_le h with rfl | h
  · exact Nat.le_of_eq (nearest_unique hb hc)
  apply Nat.le_of_not_lt
  intro hlt
  have g1 := (hb.2 c hc.1).1
  have g2 := (hc.2 b hb.1).1
  have l1 : scaled c * 10 ^ k < scaled b * 10 ^ k := mul_lt (scaled_lt hlt)
  have l2 : n * oneScaled < m * oneScaled := Nat.mul_lt_mul_of_pos_right h oneScaled_pos
  unfold dist at g1 g2
  generalize n * oneScaled = X at *
  generalize m * oneScaled = Y at *
  omega

theorem half_arith {S S' U X : Nat} (g1 : ((S : Int) - X).natAbs ≤ (((S + U : Nat) : Int) - X).natAbs)
    (g2 : ((S : Int) - X).natAbs ≤ ((S' : Int) - X).natAbs) (l1 : S' < S) (l3 : S ≤ S' + U)
    (l4 : U * 2 ^ 52 ≤ S) : ((S : Int) - X).natAbs * 2 ^ 53 ≤ S := by
  have : ((S : Int) - X).natAbs * 2 ≤ U := by omega
  calc ((S : Int) - X).natAbs * 2 ^ 53 = ((S : Int) - X).natAbs * 2 * 2 ^ 52 := by rw [Nat.mul_assoc]
    _ ≤ U * 2 ^ 52 := Nat.mul_le_mul_right _ this
    _ ≤ S := l4

/-- A decimal that rounds to a normal double is within half a unit in the last place of it. -/
theorem nearest_half {n k b : Nat} (h0 : 2 ^ 52 ≤ b) (hi : b < infBits) (hb : NearestDec n k b) :
    dist n k b * 2 ^ 53 ≤ scaled b * 10 ^ k := by
  obtain ⟨u, hu, e1, e2, e3⟩ := scaled_step b
  have g1 := (hb.2 (b + 1) (by omega)).1
  have g2 := (hb.2 (b - 1) (by omega)).1
  have l1 : scaled (b - 1) * 10 ^ k < scaled b * 10 ^ k := mul_lt (scaled_lt (by omega))
  have l2 : scaled (b + 1) * 10 ^ k = scaled b * 10 ^ k + u * 10 ^ k := by rw [e1, Nat.add_mul]
  have l3 : scaled b * 10 ^ k ≤ scaled (b - 1) * 10 ^ k + u * 10 ^ k := by
    rw [← Nat.add_mul]; exact Nat.mul_le_mul_right _ (e3 (by omega))
  have l4 : u * 10 ^ k * 2 ^ 52 ≤ scaled b * 10 ^ k := by
    rw [Nat.mul_right_comm]; exact Nat.mul_le_mul_right _ (e2 h0)
  have l5 : 0 < u * 10 ^ k := Nat.mul_pos hu (Nat.pow_pos (by decide))
  unfold dist at g1 g2 ⊢
  rw [l2] at g1
  exact half_arith g1 g2 l1 l3 l4

/-- A decimal of at least `10^-l`, `l` not huge, rounds to a normal double. -/
theorem nearest_normal {n k b : Nat} (hn : 10 ^ k ≤ n * 2 ^ 100) (hb : NearestDec n k b) : 2 ^ 52 ≤ b := by
  apply Nat.le_of_not_lt
  intro hlt
  have g := (hb.2 (2 ^ 52) (by decide)).1
  have l : scaled b * 10 ^ k < scaled (2 ^ 52) * 10 ^ k := mul_lt (scaled_lt hlt)
  have hs : scaled (2 ^ 52) = 2 ^ 52 := by decide
  rw [hs] at l
  have : 2 ^ 52 * 10 ^ k ≤ n * oneScaled := by
    rw [oneScaled_eq, ← Nat.mul_assoc, Nat.mul_comm (2 ^ 52)]
    refine Nat.mul_le_mul_right _ (Nat.le_trans hn (Nat.mul_le_mul_left _ ?_))
    exact Nat.pow_le_pow_right (by decide) (by decide)
  unfold dist at g
  rw [hs] at g
  generalize n * oneScaled = X at *
  omega

theorem nearest_zero {k b : Nat} (hb : NearestDec 0 k b) : b = 0 := by
  have g := (hb.2 0 (by decide)).1
  unfold dist at g
  rw [show scaled 0 = 0 by decide, Nat.zero_mul, Nat.zero_mul] at g
  apply Nat.eq_zero_of_not_pos
  intro h
  have : 0 < scaled b := by
    have := scaled_lt h
    omega
  have := Nat.mul_pos this (Nat.pow_pos (n := k) (show 0 < 10 by decide))
  omega

theorem nearest_of_exact {n k b : Nat} (hb : b ≤ infBits) (h : scaled b * 10 ^ k = n * oneScaled) : NearestDec n k b := by
  have h0 : dist n k b = 0 := by unfold dist; rw [h]; simp
  refine ⟨hb, fun c _ => ?_⟩
  rw [h0]
  refine ⟨Nat.zero_le _, fun hne he => ?_⟩
  exfalso
  unfold dist at he
  rw [← h] at he
  rcases Nat.lt_or_gt_of_ne hne with hlt | hlt
  · have := mul_lt (k := k) (scaled_lt hlt); omega
  · have := mul_lt (k := k) (scaled_lt hlt); omega

theorem nearest_small {n k b : Nat} (hn : n < 2 ^ 60) (hb : NearestDec n k b) : b < infBits := by
  apply Nat.lt_of_le_of_ne hb.1
  rintro rfl
  have hc : (1082 * 2 ^ 52 + 2 ^ 52 : Nat) < infBits := by decide
  have g := (hb.2 _ (Nat.le_of_lt hc)).1
  have l : _ < scaled infBits * 10 ^ k := mul_lt (scaled_lt hc)
  have hs : scaled (1082 * 2 ^ 52 + 2 ^ 52) = 2 ^ 60 * oneScaled := by
    rw [U256.scaled_result 1082 _ (by decide) (by decide)]
    unfold oneScaled
    rw [← Nat.pow_add, ← Nat.pow_add]
  have l2 : n * oneScaled < scaled (1082 * 2 ^ 52 + 2 ^ 52) * 10 ^ k := by
    rw [hs]
    calc n * oneScaled < 2 ^ 60 * oneScaled := Nat.mul_lt_mul_of_pos_right hn oneScaled_pos
      _ = 2 ^ 60 * oneScaled * 1 := (Nat.mul_one _).symm
      _ ≤ 2 ^ 60 * oneScaled * 10 ^ k := Nat.mul_le_mul_left _ (Nat.pow_pos (by decide))
  unfold dist at g
  generalize scaled (1082 * 2 ^ 52 + 2 ^ 52) * 10 ^ k = C at *
  generalize scaled infBits * 10 ^ k = I at *
  generalize n * oneScaled = X at *
  omega

theorem close_mul {W A D D1 D2 m : Nat} (e : D ≤ D1 + D2) (f : W ≤ A + D1) (h1 : D1 * (m + 1) ≤ W)
    (h2 : D2 * (m + 1) ≤ W) : D * m ≤ 2 * A := by
  have g1 : D * (m + 1) ≤ 2 * A + 2 * D1 := by
    have := Nat.mul_le_mul_right (m + 1) e
    rw [Nat.add_mul] at this
    omega
  have g2 : D1 * m ≤ A := by
    rw [Nat.mul_add, Nat.mul_one] at h1
    omega
  refine Nat.le_of_mul_le_mul_right (c := m + 1) ?_ (by omega)
  calc D * m * (m + 1) = D * (m + 1) * m := Nat.mul_right_comm ..
    _ ≤ (2 * A + 2 * D1) * m := Nat.mul_le_mul_right _ g1
    _ = 2 * A * m + 2 * (D1 * m) := by rw [Nat.add_mul, Nat.mul_assoc 2 D1]
    _ ≤ 2 * A * m + 2 * A := by omega
    _ = 2 * A * (m + 1) := by rw [Nat.mul_add, Nat.mul_one]

theorem close_arith {W A N : Nat} (h1 : ((W : Int) - A).natAbs * 2 ^ 53 ≤ W) (h2 : ((W : Int) - N).natAbs * 2 ^ 53 ≤ W) :
    ((A : Int) - N).natAbs * (2 ^ 53 - 1) ≤ 2 * A := by
  have e : ((A : Int) - N).natAbs ≤ ((W : Int) - A).natAbs + ((W : Int) - N).natAbs := by omega
  have f : W ≤ A + ((W : Int) - A).natAbs := by omega
  generalize ((A : Int) - N).natAbs = D at *
  generalize ((W : Int) - A).natAbs = D1 at *
  generalize ((W : Int) - N).natAbs = D2 at *
  exact close_mul (m := 2 ^ 53 - 1) e f h1 h2

theorem abs_scale (x y z : Nat) : ((x : Int) - y).natAbs * z = (((x * z : Nat) : Int) - (y * z : Nat)).natAbs := by
  rw [Int.natCast_mul, Int.natCast_mul, ← Int.sub_mul, Int.natAbs_mul, Int.natAbs_natCast]

/-- Two decimals that round to the same normal double are close. -/
theorem nearest_close {a p n k b : Nat} (h0 : 2 ^ 52 ≤ b) (hi : b < infBits) (ha : NearestDec a p b)
    (hn : NearestDec n k b) :
    (((a * 10 ^ k : Nat) : Int) - (n * 10 ^ p : Nat)).natAbs * (2 ^ 53 - 1) ≤ 2 * (a * 10 ^ k) := by
  have h1 := Nat.mul_le_mul_right (10 ^ k) (nearest_half h0 hi ha)
  have h2 := Nat.mul_le_mul_right (10 ^ p) (nearest_half h0 hi hn)
  unfold dist at h1 h2
  rw [Nat.mul_right_comm, abs_scale] at h1 h2
  rw [Nat.mul_right_comm (scaled b) (10 ^ k) (10 ^ p), Nat.mul_right_comm n] at h2
  rw [Nat.mul_right_comm a] at h1
  have := close_arith h1 h2
  rw [← abs_scale, Nat.mul_right_comm, ← Nat.mul_assoc] at this
  exact Nat.le_of_mul_le_mul_right this oneScaled_pos

theorem sig_small {n j : Nat} (h : SigDigits n j) (hn : n % 10 ≠ 0) : n < 10 ^ j := by
  obtain ⟨y, t, rfl, hy⟩ := h
  cases t with
  | zero => simpa using hy
  | succ t => rw [Nat.pow_succ, ← Nat.mul_assoc, Nat.mul_mod_left] at hn; exact absurd rfl hn

theorem digits_of (a : Nat) (ha : 0 < a) : ∃ D, 10 ^ D ≤ a ∧ a < 10 ^ (D + 1) := by
  induction a using Nat.strongRecOn with
  | _ a ih =>
    by_cases h : a < 10
    · exact ⟨0, ha, by simpa using h⟩
    · obtain ⟨D, h1, h2⟩ := ih (a / 10) (by omega) (by omega)
      refine ⟨D + 1, ?_, ?_⟩
      · rw [Nat.pow_succ]; omega
      · rw [Nat.pow_succ]; omega

/-- The shortest decimal that rounds to the double of an amount is the amount. -/
theorem shortest_eq {a p n k b : Nat} (ha0 : 0 < a) (ha : a ≤ 2100000000000000) (hp : p ≤ 8)
    (hna : NearestDec a p b) (hnn : NearestDec n k b) (hk : k = 0 ∨ n % 10 ≠ 0)
    (hmin : ∀ m l j, NearestDec m l b → SigDigits m j → SigDigits n j) :
    k ≤ p ∧ n * 10 ^ (p - k) = a := by
  have h8 : 10 ^ p ≤ 10 ^ 8 := Nat.pow_le_pow_right (by decide) hp
  have h0 : 2 ^ 52 ≤ b := nearest_normal (by
    have : 1 * 2 ^ 100 ≤ a * 2 ^ 100 := Nat.mul_le_mul_right _ ha0
    omega) hna
  have hi : b < infBits := nearest_small (by omega) hna
  have hc := nearest_close h0 hi hna hnn
  have hK : 0 < 10 ^ k := Nat.pow_pos (by decide)
  have hlt : (((a * 10 ^ k : Nat) : Int) - (n * 10 ^ p : Nat)).natAbs * 2 < 10 ^ k := by
    have : a * 10 ^ k ≤ 2100000000000000 * 10 ^ k := Nat.mul_le_mul_right _ ha
    generalize (((a * 10 ^ k : Nat) : Int) - (n * 10 ^ p : Nat)).natAbs = E at *
    generalize a * 10 ^ k = Z at *
    omega
  by_cases hkp : k ≤ p
  · refine ⟨hkp, ?_⟩
    have hP : (10 : Nat) ^ p = 10 ^ (p - k) * 10 ^ k := by rw [← Nat.pow_add]; congr 1; omega
    rw [hP, ← Nat.mul_assoc, ← abs_scale] at hlt
    generalize 10 ^ k = K at *
    generalize n * 10 ^ (p - k) = Z at *
    rw [Nat.mul_right_comm] at hlt
    have : ((a : Int) - Z).natAbs * 2 < 1 := by
      apply Nat.lt_of_mul_lt_mul_right (a := K)
      omega
    omega
  · exfalso
    have hn10 : n % 10 ≠ 0 := hk.resolve_left (by omega)
    obtain ⟨q, rfl⟩ : ∃ q, k = p + (q + 1) := ⟨k - p - 1, by omega⟩
    have hP : 0 < 10 ^ p := Nat.pow_pos (by decide)
    have e1 : a * 10 ^ (p + (q + 1)) = a * 10 ^ (q + 1) * 10 ^ p := by
      rw [Nat.pow_add, Nat.mul_comm (10 ^ p), Nat.mul_assoc]
    rw [e1, ← abs_scale] at hlt hc
    rw [Nat.mul_right_comm, show (10 : Nat) ^ (p + (q + 1)) = 10 ^ (q + 1) * 10 ^ p by
      rw [Nat.pow_add, Nat.mul_comm]] at hlt
    have hlt := Nat.lt_of_mul_lt_mul_right hlt
    rw [Nat.mul_right_comm, ← Nat.mul_assoc] at hc
    have hc := Nat.le_of_mul_le_mul_right hc hP
    have hQ : 0 < 10 ^ q := Nat.pow_pos (by decide)
    have hQs : (10 : Nat) ^ (q + 1) = 10 * 10 ^ q := by rw [Nat.pow_succ]; omega
    obtain ⟨D, hD1, hD2⟩ := digits_of a ha0
    have hnD : n < 10 ^ (D + 1) := sig_small (hmin a p (D + 1) hna ⟨a, 0, by simp, hD2⟩) hn10
    have hge : ∀ c, c * 10 ≤ c * 10 ^ (q + 1) := fun c => Nat.mul_le_mul_left _ (by omega)
    have hpos : 0 < 10 ^ D := Nat.pow_pos (by decide)
    by_cases hgt : a * 10 ^ (q + 1) ≤ n
    · have := hge a
      rw [Nat.pow_succ] at hnD
      omega
    · by_cases hD : a = 10 ^ D
      · have hn1 : n < 10 ^ 1 := sig_small (hmin a p 1 hna ⟨1, D, by omega, by decide⟩) hn10
        rw [hQs] at hlt hc
        by_cases ha1 : a = 1
        · subst ha1
          omega
        · have : 2 * 10 ^ q ≤ a * 10 ^ q := Nat.mul_le_mul_right _ (by omega)
          have e : a * (10 * 10 ^ q) = 10 * (a * 10 ^ q) := by rw [Nat.mul_left_comm]
          rw [e] at hlt
          clear hc
          generalize a * 10 ^ q = Z at *
          omega
      · have hge' := hge (a - 1)
        have e : (a - 1) * 10 ^ (q + 1) + 10 ^ (q + 1) = a * 10 ^ (q + 1) := by
          conv => rhs; rw [show a = a - 1 + 1 by omega, Nat.add_mul, Nat.one_mul]
        rw [Nat.pow_succ] at hnD
        generalize a * 10 ^ (q + 1) = Z at *
        generalize (a - 1) * 10 ^ (q + 1) = Z' at *
        omega

/-! ## Texts -/

theorem digits_of_val : ∀ (s : Bytes) (v x : Nat), digitsVal 10 v s = some x → Digits s
  | [], _, _, _ => by intro b hb; cases hb
  | c :: s, v, x, h => by
    by_cases hc : 48 ≤ c ∧ c ≤ 57
    · rw [digitsVal_cons hc] at h
      have ih := digits_of_val s _ _ h
      intro b hb
      rcases List.mem_cons.1 hb with rfl | hb
      · exact ⟨UInt8.le_iff_toNat_le.1 hc.1, UInt8.le_iff_toNat_le.1 hc.2⟩
      · exact ih b hb
    · rw [digitsVal_bad hc] at h; cases h

/-- The digits behind the point. -/
def fracDigits (n k : Nat) : Bytes := if k = 0 then [] else padZero k (n % 10 ^ k)

theorem fracDigits_length (n k : Nat) : (fracDigits n k).length = k := by
  unfold fracDigits
  split
  · rename_i h; rw [h]; rfl
  · exact padZero_length k _ (by omega) (Nat.mod_lt _ (Nat.pow_pos (by decide)))

theorem fracDigits_digits (n k : Nat) : Digits (fracDigits n k) := by
  unfold fracDigits
  split
  · intro b hb; cases hb
  · exact digits_padZero _ _

theorem plainText_eq (n k : Nat) : plainText n k = decBytes (n / 10 ^ k) ++
    (if fracDigits n k = [] then [] else 46 :: fracDigits n k) := by
  unfold plainText
  have hl := fracDigits_length n k
  by_cases h : k = 0
  · rw [if_pos h, if_pos (by rw [← List.length_eq_zero_iff, hl, h])]
  · rw [if_neg h, if_neg (by rw [← List.length_eq_zero_iff, hl]; exact h)]
    unfold fracDigits
    rw [if_neg h]

theorem plainText_val (n k : Nat) : digitsVal 10 0 (decBytes (n / 10 ^ k) ++ fracDigits n k) = some n := by
  rw [digitsVal_append, digitsVal_decBytes, Option.bind_some]
  unfold fracDigits
  split
  · rename_i h; subst h; simp [digitsVal]
  · rename_i h
    rw [digitsVal_shift _ _ _ (padZero_val k (n % 10 ^ k)),
      padZero_length k _ (by omega) (Nat.mod_lt _ (Nat.pow_pos (by decide)))]
    rw [Nat.mul_comm, Nat.div_add_mod]

/-- The text of an amount. -/
theorem fmt_plainText (a : Nat) (d : Denom) : ∃ x k, toStringIn a d = plainText x k ∧ k ≤ decimals d ∧
    x * 10 ^ (decimals d - k) = a ∧ (k = 0 ∨ x % 10 ≠ 0) := by
  unfold toStringIn
  have hf := fmt_plain a false d false none
  rw [show ({} : FmtOpts) = { precision := none } from rfl, hf]
  simp only [Bool.false_eq_true, if_false, List.nil_append, List.append_nil]
  by_cases hd : d = .sat
  · subst hd
    refine ⟨a, 0, ?_, Nat.le_refl _, by simp [decimals], .inl rfl⟩
    rw [fmtParts_sat]
    simp [numText, fracText, plainText]
  · have hp0 : d.precision.natAbs = decimals d := by cases d <;> rfl
    have hpos : decimals d ≠ 0 := by cases d <;> first | exact absurd rfl hd | decide
    unfold fmtParts
    simp only [hp0, hpos, if_false, roundTo, Option.getD_none, Nat.zero_sub]
    generalize decimals d = p at *
    have hdm := Nat.div_add_mod a (10 ^ p)
    have hlt : a % 10 ^ p < 10 ^ p := Nat.mod_lt _ (Nat.pow_pos (by decide))
    by_cases h0 : a % 10 ^ p = 0
    · refine ⟨a / 10 ^ p, 0, ?_, Nat.zero_le _, ?_, .inl rfl⟩
      · rw [if_pos h0]; simp [numText, fracText, plainText]
      · rw [Nat.sub_zero, Nat.mul_comm]; omega
    · rw [if_neg h0]
      obtain ⟨h1, h2, h3, h4, h5⟩ := stripZeros_spec p _ h0 hlt
      generalize (stripZeros p (a % 10 ^ p)).1 = nb at *
      generalize (stripZeros p (a % 10 ^ p)).2 = m at *
      have hpw : 0 < 10 ^ nb := Nat.pow_pos (by decide)
      have e1 : (a / 10 ^ p * 10 ^ nb + m) / 10 ^ nb = a / 10 ^ p := by
        rw [Nat.mul_comm, Nat.mul_add_div hpw, Nat.div_eq_of_lt h4, Nat.add_zero]
      have e2 : (a / 10 ^ p * 10 ^ nb + m) % 10 ^ nb = m := by
        rw [Nat.mul_comm, Nat.mul_add_mod, Nat.mod_eq_of_lt h4]
      refine ⟨a / 10 ^ p * 10 ^ nb + m, nb, ?_, h3, ?_, .inr ?_⟩
      · unfold numText fracText plainText
        rw [e1, e2]
        simp only [if_pos h2, List.replicate_zero, List.append_nil]
        rw [if_neg (show ¬ nb = 0 by omega), if_neg]
        intro e
        have := padZero_length nb m h2 h4
        rw [e] at this
        simp at this
        omega
      · rw [Nat.add_mul, h1, Nat.mul_assoc, ← Nat.pow_add, show nb + (p - nb) = p by omega, Nat.mul_comm]
        exact hdm
      · obtain ⟨r, hr⟩ : ∃ r, nb = r + 1 := ⟨nb - 1, by omega⟩
        rw [hr, Nat.pow_succ, ← Nat.mul_assoc]
        omega

/-- A number has one way of being written without superfluous decimals. -/
theorem canonical_unique {p x k n l : Nat} (hk : k ≤ p) (hl : l ≤ p) (h : x * 10 ^ (p - k) = n * 10 ^ (p - l))
    (hx : k = 0 ∨ x % 10 ≠ 0) (hn : l = 0 ∨ n % 10 ≠ 0) : x = n ∧ k = l := by
  have key : ∀ {x k n l : Nat}, k ≤ p → l ≤ p → x * 10 ^ (p - k) = n * 10 ^ (p - l) → (l = 0 ∨ n % 10 ≠ 0) →
      ¬ k < l := by
    intro x k n l hk hl h hn hlt
    have e : (10 : Nat) ^ (p - k) = 10 ^ (l - k) * 10 ^ (p - l) := by rw [← Nat.pow_add]; congr 1; omega
    rw [e, ← Nat.mul_assoc] at h
    have h := Nat.eq_of_mul_eq_mul_right (Nat.pow_pos (by decide)) h
    have h10 : n % 10 ≠ 0 := hn.resolve_left (by omega)
    apply h10
    rw [← h, show l - k = l - k - 1 + 1 by omega, Nat.pow_succ, ← Nat.mul_assoc, Nat.mul_mod_left]
  have h1 := key hk hl h hn
  have h2 := key hl hk h.symm hx
  have hkl : k = l := by omega
  subst hkl
  exact ⟨Nat.eq_of_mul_eq_mul_right (Nat.pow_pos (by decide)) h, rfl⟩

theorem decimals_le (d : Denom) : decimals d ≤ 8 := by cases d <;> decide

/-- The text of the double of an amount is the text of the amount. -/
theorem shows_eq {a b : Nat} {s : Bytes} (d : Denom) (ha : Valid a) (hb : NearestDec a (decimals d) b) (hs : Shows b s) :
    s = toStringIn a d := by
  obtain ⟨n, k, rfl, hk, hn, hmin⟩ := hs
  obtain ⟨x, l, ht, hl, hx, hc⟩ := fmt_plainText a d
  have h : k ≤ decimals d ∧ n * 10 ^ (decimals d - k) = a := by
    by_cases h0 : a = 0
    · subst h0
      obtain ⟨y, t, e, hy⟩ := hmin 0 (decimals d) 0 hb ⟨0, 0, by simp, by decide⟩
      have hy : y = 0 := by simpa using hy
      have hn0 : n = 0 := by rw [e, hy, Nat.zero_mul]
      have hk0 : k = 0 := hk.resolve_right (by rw [hn0]; decide)
      rw [hn0, hk0]
      exact ⟨Nat.zero_le _, Nat.zero_mul _⟩
    · exact shortest_eq (by omega) ha (decimals_le d) hb hn hk hmin
  obtain ⟨rfl, rfl⟩ := canonical_unique h.1 hl (h.2.trans hx.symm) hk hc
  exact ht.symm

theorem dot_mem {n k : Nat} (h : k ≠ 0) : plainText n k = decBytes (n / 10 ^ k) ++ 46 :: fracDigits n k := by
  rw [plainText_eq, if_neg]
  rw [← List.length_eq_zero_iff, fracDigits_length]; exact h

theorem split_at {c : UInt8} : ∀ {a b x y : Bytes}, c ∉ a → c ∉ x → a ++ c :: b = x ++ c :: y → a = x ∧ b = y
  | [], b, [], y, _, _, h => by simpa using h
  | [], b, u :: x, y, _, hx, h => by
    simp only [List.nil_append, List.cons_append, List.cons.injEq] at h
    exact absurd (by rw [h.1]; exact List.mem_cons_self) hx
  | u :: a, b, [], y, ha, _, h => by
    simp only [List.nil_append, List.cons_append, List.cons.injEq] at h
    exact absurd (by rw [h.1]; exact List.mem_cons_self) ha
  | u :: a, b, w :: x, y, ha, hx, h => by
    simp only [List.cons_append, List.cons.injEq] at h
    obtain ⟨h1, h2⟩ := split_at (fun hm => ha (List.mem_cons_of_mem _ hm)) (fun hm => hx (List.mem_cons_of_mem _ hm)) h.2
    exact ⟨by rw [h.1, h1], h2⟩

theorem dec_no_dot (n : Nat) : (46 : UInt8) ∉ decBytes n := Digits.not_mem (decBytes_digit n) 46 (by decide)

theorem plainText_no_us (n k : Nat) : (95 : UInt8) ∉ plainText n k := by
  rw [plainText_eq]
  intro hm
  rcases List.mem_append.1 hm with h | h
  · exact Digits.not_mem (decBytes_digit _) 95 (by decide) h
  · split at h
    · cases h
    · rcases List.mem_cons.1 h with e | e
      · exact absurd e (by decide)
      · exact (fracDigits_digits n k).not_mem 95 (by decide) e

/-- What a decimal text means as an amount. -/
theorem denotes_plainText {d : Denom} {n k a : Nat} (hk : k = 0 ∨ n % 10 ≠ 0) (h : Denotes d (plainText n k) a) :
    n * 10 ^ decimals d = a * 10 ^ k := by
  unfold Denotes at h
  by_cases hd : d = .sat
  · rw [if_pos hd] at h
    obtain ⟨t, ht, _, hdot, hgood, hv⟩ := h
    subst hd
    by_cases h0 : k = 0
    · subst h0
      have e : plainText n 0 = decBytes n := by simp [plainText]
      rw [e] at ht
      rcases ht with ht | ⟨j, ht⟩
      · rw [← ht, clean_none _ (Digits.not_mem (decBytes_digit _) 95 (by decide)), digitsVal_decBytes] at hv
        cases hv
        simp [decimals]
      · exact absurd (by rw [ht]; simp) (dec_no_dot n)
    · exfalso
      rw [dot_mem h0] at ht
      rcases ht with ht | ⟨j, ht⟩
      · exact hdot (by rw [← ht]; simp)
      · obtain ⟨_, e⟩ := split_at (dec_no_dot _) hdot ht
        have h1 : digitsVal 10 0 (fracDigits n k) = some (n % 10 ^ k) := by
          unfold fracDigits; rw [if_neg h0]; exact padZero_val _ _
        have h2 := digitsVal_zeros j 0 []
        rw [List.append_nil, ← e, h1, Nat.zero_mul] at h2
        have h2 : n % 10 ^ k = 0 := by simpa [digitsVal] using h2
        apply hk.resolve_left h0
        rw [show k = k - 1 + 1 by omega, Nat.pow_succ] at h2
        have := Nat.div_add_mod n (10 ^ (k - 1) * 10)
        rw [h2, Nat.add_zero, Nat.mul_comm (10 ^ (k - 1)) 10, Nat.mul_assoc] at this
        rw [← this, Nat.mul_mod_right]
  · rw [if_neg hd] at h
    obtain ⟨_, ip, fp, x, ht, hv, hle, rfl⟩ := h
    rw [clean_none _ (plainText_no_us n k)] at ht
    have hdig := digits_of_val _ _ _ hv
    have hi : (46 : UInt8) ∉ ip := fun hm => hdig.not_mem 46 (by decide) (List.mem_append_left _ hm)
    by_cases h0 : k = 0
    · subst h0
      have e : plainText n 0 = decBytes n := by simp [plainText]
      rw [e] at ht
      rcases ht with ⟨rfl, rfl⟩ | ht
      · rw [List.append_nil, digitsVal_decBytes] at hv
        cases hv
        simp
      · exact absurd (by rw [ht]; simp) (dec_no_dot n)
    · rw [dot_mem h0] at ht
      rcases ht with ⟨rfl, rfl⟩ | ht
      · exact absurd (by simp) hi
      · obtain ⟨rfl, rfl⟩ := split_at (dec_no_dot _) hi ht
        rw [plainText_val] at hv
        cases hv
        rw [fracDigits_length] at hle ⊢
        rw [Nat.mul_assoc, ← Nat.pow_add]
        congr 2
        omega

theorem plainText_inj {n k m l : Nat} (h : plainText n k = plainText m l) : n = m ∧ k = l := by
  have key : k = 0 ↔ l = 0 := by
    have : ∀ {n k m l : Nat}, plainText n k = plainText m l → k = 0 → l = 0 := by
      intro n k m l h hk
      apply Decidable.byContradiction
      intro hl
      rw [dot_mem hl, hk] at h
      have e : plainText n 0 = decBytes n := by simp [plainText]
      rw [e] at h
      exact absurd (by rw [h]; simp) (dec_no_dot n)
    exact ⟨this h, this h.symm⟩
  by_cases hk : k = 0
  · have hl := key.1 hk
    subst hk; subst hl
    have e : ∀ n, plainText n 0 = decBytes n := by intro n; simp [plainText]
    rw [e, e] at h
    have := congrArg (digitsVal 10 0) h
    rw [digitsVal_decBytes, digitsVal_decBytes] at this
    exact ⟨Option.some.inj this, rfl⟩
  · have hl : l ≠ 0 := fun e => hk (key.2 e)
    rw [dot_mem hk, dot_mem hl] at h
    obtain ⟨h1, h2⟩ := split_at (dec_no_dot _) (dec_no_dot _) h
    have h3 := plainText_val n k
    rw [h1, h2, plainText_val] at h3
    have h4 := congrArg List.length h2
    rw [fracDigits_length, fracDigits_length] at h4
    exact ⟨(Option.some.inj h3).symm, h4⟩

theorem plainText_head (n k : Nat) (t : Bytes) : plainText n k ≠ 45 :: t := by
  intro h
  rw [plainText_eq] at h
  cases hd : decBytes (n / 10 ^ k) with
  | nil => exact decBytes_ne_nil _ hd
  | cons c cs =>
    rw [hd, List.cons_append, List.cons.injEq] at h
    have := decBytes_digit (n / 10 ^ k) c (by rw [hd]; exact List.mem_cons_self)
    rw [h.1] at this
    exact absurd this (by decide)

theorem not_denotes_minus {d : Denom} {t : Bytes} {n : Nat} : ¬ Denotes d (45 :: t) n := by
  intro h
  have hc : ∀ t : Bytes, clean (45 :: t) = 45 :: clean t := by intro t; rfl
  have hbad : ∀ (v : Nat) (t : Bytes), digitsVal 10 v (45 :: t) = none := fun v t => digitsVal_bad (by decide) v t
  unfold Denotes at h
  by_cases hd : d = .sat
  · rw [if_pos hd] at h
    obtain ⟨u, hu, hne, _, _, hv⟩ := h
    obtain ⟨w, rfl⟩ : ∃ w, u = 45 :: w := by
      cases u with
      | nil => exact absurd rfl hne
      | cons c w =>
        refine ⟨w, ?_⟩
        rcases hu with hu | ⟨k, hu⟩
        · rw [List.cons.injEq] at hu; rw [hu.1]
        · rw [List.cons_append, List.cons.injEq] at hu; rw [hu.1]
    rw [hc, hbad] at hv
    cases hv
  · rw [if_neg hd] at h
    obtain ⟨_, ip, fp, x, ht, hv, _⟩ := h
    rw [hc] at ht
    rcases ht with ⟨rfl, rfl⟩ | ht
    · rw [List.append_nil, hbad] at hv; cases hv
    · cases ip with
      | nil => simp at ht
      | cons c w =>
        rw [List.cons_append, List.cons.injEq] at ht
        rw [List.cons_append, ← ht.1, hbad] at hv
        cases hv

/-! ## The assumptions can be met -/

theorem least (P : Nat → Prop) {j : Nat} (h : P j) : ∃ i, P i ∧ ∀ l, P l → i ≤ l := by
  induction j using Nat.strongRecOn with
  | _ j ih =>
    by_cases hm : ∃ l, l < j ∧ P l
    · obtain ⟨l, h1, h2⟩ := hm
      exact ih l h1 h2
    · exact ⟨j, h, fun l hl => Nat.le_of_not_lt fun hlt => hm ⟨l, hlt, hl⟩⟩

/-- Superfluous decimals can be dropped. -/
theorem strip_decimals : ∀ (l m : Nat), ∃ n k, m * 10 ^ k = n * 10 ^ l ∧ (k = 0 ∨ n % 10 ≠ 0) ∧
    ∀ j, SigDigits m j → SigDigits n j
  | 0, m => ⟨m, 0, rfl, .inl rfl, fun _ h => h⟩
  | l + 1, m => by
    by_cases h : m % 10 = 0
    · obtain ⟨n, k, h1, h2, h3⟩ := strip_decimals l (m / 10)
      have hm : m = m / 10 * 10 := by omega
      refine ⟨n, k, ?_, h2, fun j hj => h3 j ?_⟩
      · rw [Nat.pow_succ, ← Nat.mul_assoc, ← h1, hm, Nat.mul_div_cancel _ (by decide), Nat.mul_right_comm]
      · obtain ⟨y, t, e, hy⟩ := hj
        cases t with
        | zero =>
          have e : m = y := by simpa using e
          exact ⟨m / 10, 0, by simp, by omega⟩
        | succ t =>
          refine ⟨y, t, ?_, hy⟩
          rw [e, Nat.pow_succ, ← Nat.mul_assoc, Nat.mul_div_cancel _ (by decide)]
    · exact ⟨m, l + 1, rfl, .inr h, fun _ h => h⟩

theorem sig_mono {n i j : Nat} (h : SigDigits n i) (hij : i ≤ j) : SigDigits n j := by
  obtain ⟨y, t, e, hy⟩ := h
  exact ⟨y, t, e, Nat.lt_of_lt_of_le hy (Nat.pow_le_pow_right (by decide) hij)⟩

/-- Every finite double has a text. -/
theorem shows_exists (b : Nat) (hb : b < infBits) : ∃ s, Shows b s := by
  -- the exact value is a decimal
  have hex : NearestDec (scaled b * 5 ^ 1074) 1074 b := by
    apply nearest_of_exact (Nat.le_of_lt hb)
    unfold oneScaled
    rw [Nat.mul_assoc, ← Nat.mul_pow]
  have hs : SigDigits (scaled b * 5 ^ 1074) (scaled b * 5 ^ 1074) :=
    ⟨_, 0, (Nat.mul_one _).symm, Nat.lt_pow_self (by decide)⟩
  obtain ⟨i, ⟨m, l, h1, h2⟩, h3⟩ := least (fun j => ∃ m l, NearestDec m l b ∧ SigDigits m j) ⟨_, _, hex, hs⟩
  obtain ⟨n, k, e, hk, hj⟩ := strip_decimals l m
  exact ⟨_, n, k, rfl, hk, nearest_congr e h1, fun m' l' j hm hj' => sig_mono (hj i h2) (h3 j ⟨m', l', hm, hj'⟩)⟩

/-- There are conversions with the assumed properties. -/
theorem laws_exist : ∃ shw parse, ShowLaws shw ∧ ParseLaws parse := by
  classical
  have hsh : ∀ b, ∃ s, b < infBits → Shows b s := by
    intro b
    by_cases h : b < infBits
    · obtain ⟨s, hs⟩ := shows_exists b h; exact ⟨s, fun _ => hs⟩
    · exact ⟨[], fun h' => absurd h' h⟩
  obtain ⟨f, hf⟩ := Classical.axiomOfChoice hsh
  have hpa : ∀ s : Bytes, ∃ r : Option Nat, (∀ n k b, s = plainText n k → NearestDec n k b → r = some b) ∧
      (∀ n k b, s = 45 :: plainText n k → NearestDec n k b → r = some (2 ^ 63 + b)) := by
    intro s
    by_cases h1 : ∃ n k, s = plainText n k
    · obtain ⟨n, k, rfl⟩ := h1
      obtain ⟨b, hb⟩ := nearest_exists n k
      refine ⟨some b, fun n' k' b' e h => ?_, fun n' k' b' e _ => absurd e (plainText_head n k _)⟩
      obtain ⟨rfl, rfl⟩ := plainText_inj e
      rw [nearest_unique hb h]
    · by_cases h2 : ∃ n k, s = 45 :: plainText n k
      · obtain ⟨n, k, rfl⟩ := h2
        obtain ⟨b, hb⟩ := nearest_exists n k
        refine ⟨some (2 ^ 63 + b), fun n' k' b' e _ => absurd ⟨n', k', e⟩ h1, fun n' k' b' e h => ?_⟩
        rw [List.cons.injEq] at e
        obtain ⟨rfl, rfl⟩ := plainText_inj e.2
        rw [nearest_unique hb h]
      · exact ⟨none, fun n k _ e _ => absurd ⟨n, k, e⟩ h1, fun n k _ e _ => absurd ⟨n, k, e⟩ h2⟩
  obtain ⟨g, hg⟩ := Classical.axiomOfChoice hpa
  let mag : Nat → Bytes := fun b => if b < infBits then f b else if b = infBits then [105, 110, 102] else [78, 97, 78]
  refine ⟨fun v => if v < 2 ^ 63 then mag v else if v ≤ 2 ^ 63 + infBits then 45 :: mag (v - 2 ^ 63) else [78, 97, 78], g, ?_, ?_⟩
  · have hi : infBits = 9218868437227405312 := by decide
    constructor
    · intro b hb
      simp only [mag, show b < 2 ^ 63 by omega, hb, if_true]
      exact hf b hb
    · intro b hb
      simp only [show ¬ 2 ^ 63 + b < 2 ^ 63 by omega, show 2 ^ 63 + b ≤ 2 ^ 63 + infBits by omega, if_true, if_false,
        show b < 2 ^ 63 by omega, Nat.add_sub_cancel_left]
    · simp only [mag, show infBits < 2 ^ 63 by omega, Nat.lt_irrefl, if_true, if_false]
    · intro v hv hn
      by_cases h : v < 2 ^ 63
      · rw [Nat.mod_eq_of_lt h] at hn
        simp only [mag, h, show ¬ v < infBits by omega, show ¬ v = infBits by omega, if_true, if_false]
      · have : v % 2 ^ 63 = v - 2 ^ 63 := by omega
        simp only [h, show ¬ v ≤ 2 ^ 63 + infBits by omega, if_false]
  · exact ⟨fun n k b h => (hg _).1 n k b rfl h, fun n k b h => (hg _).2 n k b rfl h⟩

/-! ## The claims -/

theorem zero_text (d : Denom) : toStringIn 0 d = [48] := by cases d <;> decide +kernel

/-- Whether a result is a success. -/
def okB {α : Type} : Except PErr α → Bool
  | .ok _ => true
  | .error _ => false

theorem bad_texts (d : Denom) (a : Nat) (x : Int) :
    fromStrIn [105, 110, 102] d ≠ .ok a ∧ fromStrIn [78, 97, 78] d ≠ .ok a ∧ fromStrIn (45 :: toStringIn 0 d) d ≠ .ok a ∧
    sFromStrIn [105, 110, 102] d ≠ .ok x ∧ sFromStrIn [45, 105, 110, 102] d ≠ .ok x ∧ sFromStrIn [78, 97, 78] d ≠ .ok x := by
  rw [zero_text]
  have key : ∀ {α : Type} {r : Except PErr α} (a : α), okB r = false → r ≠ .ok a := by
    intro α r a h e; rw [e] at h; cases h
  refine ⟨key _ ?_, key _ ?_, key _ ?_, key _ ?_, key _ ?_, key _ ?_⟩ <;> cases d <;> decide +kernel

/-- **C86 (conversion to a double).** `to_float_in` never panics and gives the double nearest to the amount, ties to even. -/
theorem C86_nearest {parse : Bytes → Option Nat} (P : ParseLaws parse) (a : Nat) (d : Denom) (v : Nat) :
    toFloatIn parse a d = some v ↔ NearestDec a (decimals d) v := by
  obtain ⟨x, k, ht, hk, hx, _⟩ := fmt_plainText a d
  obtain ⟨b, hb⟩ := nearest_exists a (decimals d)
  have hb' : NearestDec x k b := by
    refine nearest_congr ?_ hb
    rw [← hx, Nat.mul_assoc, ← Nat.pow_add]
    congr 2; omega
  have e : toFloatIn parse a d = some b := by unfold toFloatIn; rw [ht]; exact P.decimal x k b hb'
  rw [e]
  exact ⟨fun h => Option.some.inj h ▸ hb, fun h => congrArg some (nearest_unique hb h)⟩

/-- **C86 (conversion from a double).** `from_float_in` accepts exactly the doubles that are the nearest double of an amount in
range, and gives that amount. -/
theorem C86_from {shw : Nat → Bytes} (S : ShowLaws shw) (v : Nat) (hv : v < 2 ^ 64) (d : Denom) (a : Nat) :
    fromFloatIn shw v d = .ok a ↔ Valid a ∧ NearestDec a (decimals d) v := by
  have hi : infBits = 9218868437227405312 := by decide
  unfold fromFloatIn ltZero
  constructor
  · intro h
    split at h
    · cases h
    · rename_i hneg
      have hneg : ¬ (2 ^ 63 < v ∧ v ≤ 2 ^ 63 + infBits) := by simpa using hneg
      by_cases h1 : v < infBits
      · obtain ⟨n, k, hs, hk, hn, _⟩ := S.finite v h1
        rw [hs, C41_parse] at h
        exact ⟨h.2.2.1, nearest_congr (denotes_plainText hk h.2.2.2) hn⟩
      · exfalso
        by_cases h2 : v = infBits
        · rw [h2, S.infinite] at h; exact (bad_texts d a 0).1 h
        · by_cases h3 : v = 2 ^ 63
          · have := S.negative 0 (by omega)
            rw [Nat.add_zero] at this
            have hz : NearestDec 0 (decimals d) 0 := nearest_of_exact (by omega) (by
              rw [show scaled 0 = 0 by decide, Nat.zero_mul, Nat.zero_mul])
            rw [h3, this, shows_eq d (a := 0) (by decide) hz (S.finite 0 (by omega))] at h
            exact (bad_texts d a 0).2.2.1 h
          · rw [S.nan v hv (by omega)] at h
            exact (bad_texts d a 0).2.1 h
  · rintro ⟨ha, hb⟩
    have h1 : v < infBits := nearest_small (by unfold Valid at ha; omega) hb
    have hneg : (decide (2 ^ 63 < v) && decide (v ≤ 2 ^ 63 + infBits)) = false := by
      rw [Bool.and_eq_false_iff]; left; simp; omega
    rw [hneg, shows_eq d ha hb (S.finite v h1)]
    exact C41_roundtrip a ha d

/-- **C86 (round trip).** An amount converted to a double and back is the same amount, in every denomination. -/
theorem C86_roundtrip {shw : Nat → Bytes} {parse : Bytes → Option Nat} (S : ShowLaws shw) (P : ParseLaws parse)
    (a : Nat) (ha : Valid a) (d : Denom) : ∃ v, toFloatIn parse a d = some v ∧ fromFloatIn shw v d = .ok a := by
  obtain ⟨b, hb⟩ := nearest_exists a (decimals d)
  have hi : infBits < 2 ^ 64 := by decide
  exact ⟨b, (C86_nearest P a d b).2 hb, (C86_from S b (Nat.lt_of_le_of_lt hb.1 hi) d a).2 ⟨ha, hb⟩⟩

/-- **C86 (the double survives).** A double that is accepted is the double of the amount it was read as. -/
theorem C86_back {shw : Nat → Bytes} {parse : Bytes → Option Nat} (S : ShowLaws shw) (P : ParseLaws parse)
    (v : Nat) (hv : v < 2 ^ 64) (d : Denom) (a : Nat) (h : fromFloatIn shw v d = .ok a) :
    Valid a ∧ v < infBits ∧ toFloatIn parse a d = some v := by
  obtain ⟨ha, hb⟩ := (C86_from S v hv d a).1 h
  exact ⟨ha, nearest_small (by unfold Valid at ha; omega) hb, (C86_nearest P a d v).2 hb⟩

/-- **C86 (order).** A smaller amount has a smaller double; in particular different amounts have different doubles. -/
theorem C86_order {parse : Bytes → Option Nat} (P : ParseLaws parse) (a a' : Nat) (ha' : Valid a') (d : Denom)
    (v v' : Nat) (h : toFloatIn parse a d = some v) (h' : toFloatIn parse a' d = some v') (hlt : a < a') : v < v' := by
  rw [C86_nearest P] at h h'
  refine Nat.lt_of_le_of_ne (nearest_mono (Nat.le_of_lt hlt) h h') ?_
  rintro rfl
  obtain ⟨shw, _, S, _⟩ := laws_exist
  have ha : Valid a := by unfold Valid at *; omega
  have hv : v < 2 ^ 64 := Nat.lt_of_le_of_lt h.1 (by decide)
  have e1 := (C86_from S v hv d a).2 ⟨ha, h⟩
  have e2 := (C86_from S v hv d a').2 ⟨ha', h'⟩
  rw [e1] at e2
  cases e2
  omega

/-- **C86 (negative zero).** `-0.0` is refused by `Amount` as negative although `-0.0 < 0.0` is false, and accepted by
`SignedAmount`. -/
theorem C86_minus_zero {shw : Nat → Bytes} (S : ShowLaws shw) (d : Denom) :
    ltZero (2 ^ 63) = false ∧ fromFloatIn shw (2 ^ 63) d = .error (.outOfRange ⟨false, false⟩) ∧
    sFromFloatIn shw (2 ^ 63) d = .ok 0 := by
  have := S.negative 0 (by decide)
  rw [Nat.add_zero] at this
  have hz : NearestDec 0 (decimals d) 0 := nearest_of_exact (by decide) (by
    rw [show scaled 0 = 0 by decide, Nat.zero_mul, Nat.zero_mul])
  have e : shw (2 ^ 63) = 45 :: toStringIn 0 d := by
    rw [this, shows_eq d (a := 0) (by decide) hz (S.finite 0 (by decide))]
  have h0 : ltZero (2 ^ 63) = false := by decide
  refine ⟨h0, ?_, ?_⟩
  · unfold fromFloatIn
    rw [h0, e, zero_text]
    cases d <;> with_unfolding_all rfl
  · unfold sFromFloatIn
    rw [e, zero_text]
    cases d <;> with_unfolding_all rfl

/-- The double of a signed amount: sign and magnitude; a negative zero has the same value as zero. -/
def SignedNearest (x : Int) (p v : Nat) : Prop :=
  ∃ b, NearestDec x.natAbs p b ∧ (v = b ∧ 0 ≤ x ∨ v = 2 ^ 63 + b ∧ x ≤ 0)

theorem sText (x : Int) (hx : SValid x) (d : Denom) :
    sToStringIn x d = some (if x < 0 then 45 :: toStringIn x.natAbs d else toStringIn x.natAbs d) := by
  unfold sToStringIn
  rw [sFmt x hx]
  unfold toStringIn
  rw [Option.map_some, show ({} : FmtOpts) = { precision := none } from rfl, fmt_plain, fmt_plain]
  by_cases h : x < 0
  · simp [h]
  · simp [h]

/-- **C86 (signed, to a double).** Nearest double with the sign of the amount; zero is positive. -/
theorem C86_nearest_signed {parse : Bytes → Option Nat} (P : ParseLaws parse) (x : Int) (hx : SValid x) (d : Denom) (v : Nat) :
    sToFloatIn parse x d = some v ↔
      ∃ b, NearestDec x.natAbs (decimals d) b ∧ v = if x < 0 then 2 ^ 63 + b else b := by
  obtain ⟨y, k, ht, hk, hy, _⟩ := fmt_plainText x.natAbs d
  obtain ⟨b, hb⟩ := nearest_exists x.natAbs (decimals d)
  have hb' : NearestDec y k b := by
    refine nearest_congr ?_ hb
    rw [← hy, Nat.mul_assoc, ← Nat.pow_add]
    congr 2; omega
  have e : sToFloatIn parse x d = some (if x < 0 then 2 ^ 63 + b else b) := by
    unfold sToFloatIn
    rw [sText x hx d]
    simp only []
    split
    · rw [ht]; exact P.negative y k b hb'
    · rw [ht]; exact P.decimal y k b hb'
  rw [e]
  constructor
  · intro h; exact ⟨b, hb, (Option.some.inj h).symm⟩
  · rintro ⟨c, hc, rfl⟩
    rw [nearest_unique hb hc]

/-- **C86 (signed, from a double).** -/
theorem C86_from_signed {shw : Nat → Bytes} (S : ShowLaws shw) (v : Nat) (hv : v < 2 ^ 64) (d : Denom) (x : Int) :
    sFromFloatIn shw v d = .ok x ↔ SValid x ∧ SignedNearest x (decimals d) v := by
  have hi : infBits = 9218868437227405312 := by decide
  unfold sFromFloatIn
  constructor
  · intro h
    by_cases h1 : v < infBits
    · obtain ⟨n, k, hs, hk, hn, _⟩ := S.finite v h1
      rw [hs, C41_parse_signed] at h
      obtain ⟨_, m, hm, ⟨body, _, e, _⟩ | ⟨_, hden, rfl⟩⟩ := h
      · exact absurd e (plainText_head n k _)
      · exact ⟨by unfold SValid; omega, v, nearest_congr (denotes_plainText hk hden) hn, .inl ⟨rfl, by omega⟩⟩
    · by_cases h2 : v = infBits
      · rw [h2, S.infinite] at h; exact absurd h (bad_texts d 0 x).2.2.2.1
      · by_cases h3 : infBits < v % 2 ^ 63
        · rw [S.nan v hv h3] at h; exact absurd h (bad_texts d 0 x).2.2.2.2.2
        · obtain ⟨b, rfl⟩ : ∃ b, v = 2 ^ 63 + b := ⟨v - 2 ^ 63, by omega⟩
          rw [S.negative b (by omega)] at h
          by_cases h4 : b = infBits
          · rw [h4, S.infinite] at h; exact absurd h (bad_texts d 0 x).2.2.2.2.1
          · obtain ⟨n, k, hs, hk, hn, _⟩ := S.finite b (by omega)
            rw [hs, C41_parse_signed] at h
            obtain ⟨_, m, hm, ⟨body, _, e, hden, rfl⟩ | ⟨_, hden, _⟩⟩ := h
            · rw [List.cons.injEq] at e
              rw [← e.2] at hden
              refine ⟨by unfold SValid; omega, b, ?_, .inr ⟨rfl, by omega⟩⟩
              rw [Int.natAbs_neg, Int.natAbs_natCast]
              exact nearest_congr (denotes_plainText hk hden) hn
            · exact absurd hden not_denotes_minus
  · rintro ⟨hx, b, hb, hcase⟩
    have ha : Valid x.natAbs := by unfold Valid SValid at *; omega
    have h1 : b < infBits := nearest_small (by unfold Valid at ha; omega) hb
    have hs := shows_eq d ha hb (S.finite b h1)
    obtain ⟨s, e1, e2⟩ := C41_roundtrip_signed x hx d
    rw [sText x hx d] at e1
    have e1 := Option.some.inj e1
    rcases hcase with ⟨rfl, h0⟩ | ⟨rfl, h0⟩
    · rw [hs]
      rw [if_neg (by omega)] at e1
      rw [e1]; exact e2
    · rw [S.negative b (by omega), hs]
      by_cases hneg : x < 0
      · rw [if_pos hneg] at e1
        rw [e1]; exact e2
      · obtain rfl : x = 0 := by omega
        show sFromStrIn (45 :: toStringIn 0 d) d = .ok 0
        rw [zero_text]
        cases d <;> with_unfolding_all rfl

/-- **C86 (signed, round trip).** -/
theorem C86_roundtrip_signed {shw : Nat → Bytes} {parse : Bytes → Option Nat} (S : ShowLaws shw) (P : ParseLaws parse)
    (x : Int) (hx : SValid x) (d : Denom) : ∃ v, sToFloatIn parse x d = some v ∧ sFromFloatIn shw v d = .ok x := by
  obtain ⟨b, hb⟩ := nearest_exists x.natAbs (decimals d)
  have hi : infBits < 2 ^ 63 := by decide
  have hb1 := hb.1
  refine ⟨_, (C86_nearest_signed P x hx d _).2 ⟨b, hb, rfl⟩, (C86_from_signed S _ ?_ d x).2 ⟨hx, b, hb, ?_⟩⟩
  · split <;> omega
  · split
    · right; exact ⟨rfl, by omega⟩
    · left; exact ⟨rfl, by omega⟩

/-! ## Instances -/

/-- One satoshi, the largest amount and a third of a bitcoin survive `to_btc` and `from_btc`. -/
example : ∃ shw parse, ShowLaws shw ∧ ParseLaws parse ∧ ∀ a, a = 1 ∨ a = 2100000000000000 ∨ a = 33333333 →
    ∃ v, toBtc parse a = some v ∧ fromBtc shw v = .ok a := by
  obtain ⟨shw, parse, S, P⟩ := laws_exist
  refine ⟨shw, parse, S, P, fun a ha => ?_⟩
  exact C86_roundtrip S P a (by unfold Valid; omega) .btc

/-- Half a bitcoin is the double `0.5`, exactly. -/
example : NearestDec 50000000 8 (1022 * 2 ^ 52) := by
  apply nearest_of_exact (by decide)
  rw [show (1022 * 2 ^ 52 : Nat) = 1021 * 2 ^ 52 + 2 ^ 52 by decide, U256.scaled_result 1021 _ (by decide) (by decide)]
  unfold oneScaled
  rw [show (2 : Nat) ^ 52 * 2 ^ 1021 = 2 ^ 1073 from (Nat.pow_add 2 52 1021).symm,
    show (2 : Nat) ^ 1074 = 2 ^ 1073 * 2 from Nat.pow_succ ..]
  generalize (2 : Nat) ^ 1073 = X
  omega

end Amt
end Btc
