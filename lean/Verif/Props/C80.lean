import Verif.Units.HexInt
import Verif.Units.U256Text
import Verif.Addresses.Network
/-!
# C80: hexadecimal integers in text
-/
namespace Btc
namespace HexInt
open U256 (digitsVal_shift val_ofU128 val_ofLeBytes toBeBytes_eq val_lt val_inj isZero_iff lt_iff val_shr val_zero)

/-- `s` is a hexadecimal number: digits of either case, at least one, possibly after a plus sign. -/
def IsHex (s : Bytes) (n : Nat) : Prop := ∃ ds, (s = ds ∨ s = 43 :: ds) ∧ ds ≠ [] ∧ digitsVal 16 0 ds = some n

theorem unchecked_ok (bits : Nat) (s : Bytes) (n : Nat) : unchecked bits s = .ok n ↔ IsHex s n ∧ n < 2 ^ bits := by
  unfold unchecked IsHex
  rw [parseUInt_ok_iff (by omega)]
  have hp : 0 < 2 ^ bits := Nat.pow_pos (by omega)
  constructor
  · rintro ⟨ds, h1, h2, h3, h4⟩
    exact ⟨⟨ds, h1, h2, h3⟩, by omega⟩
  · rintro ⟨⟨ds, h1, h2, h3⟩, h4⟩
    exact ⟨ds, h1, h2, h3, by omega⟩

theorem mapErr_ok {α : Type} (r : Except IntErr α) (a : α) : mapErr r = .ok a ↔ r = .ok a := by
  cases r <;> simp [mapErr]

theorem removePrefix_ok (s r : Bytes) : removePrefix s = .ok r ↔ s = 48 :: 120 :: r ∨ s = 48 :: 88 :: r := by
  unfold removePrefix
  split
  · constructor
    · intro h; cases h; exact .inl rfl
    · rintro (h | h) <;> cases h <;> rfl
  · constructor
    · intro h; cases h; exact .inr rfl
    · rintro (h | h) <;> cases h <;> rfl
  · rename_i h1 h2
    constructor
    · intro h; cases h
    · rintro (h | h)
      · exact absurd h (h1 r)
      · exact absurd h (h2 r)

theorem digitVal_x : digitVal 16 120 = none ∧ digitVal 16 88 = none := by decide

theorem not_isHex_x (r : Bytes) (n : Nat) : ¬ IsHex (48 :: 120 :: r) n ∧ ¬ IsHex (48 :: 88 :: r) n := by
  constructor
  · rintro ⟨ds, h | h, _, h3⟩
    · rw [← h] at h3
      simp [digitsVal, digitVal_x.1, show digitVal 16 48 = some 0 by decide] at h3
    · cases h
  · rintro ⟨ds, h | h, _, h3⟩
    · rw [← h] at h3
      simp [digitsVal, digitVal_x.2, show digitVal 16 48 = some 0 by decide] at h3
    · cases h

/-- The prefixed parsers accept exactly a prefix of either case before a number in range. -/
theorem C80_prefixed (bits : Nat) (s : Bytes) (n : Nat) :
    prefixed bits s = .ok n ↔ ∃ r, (s = 48 :: 120 :: r ∨ s = 48 :: 88 :: r) ∧ IsHex r n ∧ n < 2 ^ bits := by
  unfold prefixed
  constructor
  · intro h
    split at h
    · cases h
    · rename_i r hr
      exact ⟨r, (removePrefix_ok s r).1 hr, (unchecked_ok bits r n).1 ((mapErr_ok _ _).1 h)⟩
  · rintro ⟨r, hr, h⟩
    rw [(removePrefix_ok s r).2 hr]
    exact (mapErr_ok _ _).2 ((unchecked_ok bits r n).2 h)

theorem checkUnprefixed_cases (s : Bytes) : (checkUnprefixed s = .ok s ∧ removeOptionalPrefix s = s ∧ ∀ r, s ≠ 48 :: 120 :: r ∧ s ≠ 48 :: 88 :: r) ∨
    (checkUnprefixed s = .error .containsPrefix ∧ ∃ r, (s = 48 :: 120 :: r ∨ s = 48 :: 88 :: r) ∧ removeOptionalPrefix s = r) := by
  unfold checkUnprefixed removeOptionalPrefix
  split
  · exact .inr ⟨rfl, _, .inl rfl, rfl⟩
  · exact .inr ⟨rfl, _, .inr rfl, rfl⟩
  · rename_i h1 h2
    exact .inl ⟨rfl, rfl, fun r => ⟨h1 r, h2 r⟩⟩

/-- The unprefixed parsers accept exactly a number in range (which cannot start with a prefix). -/
theorem C80_unprefixed (bits : Nat) (s : Bytes) (n : Nat) : unprefixed bits s = .ok n ↔ IsHex s n ∧ n < 2 ^ bits := by
  unfold unprefixed
  rcases checkUnprefixed_cases s with ⟨h, _⟩ | ⟨h, r, h' | h', _⟩
  · rw [h]
    exact (mapErr_ok _ _).trans (unchecked_ok bits s n)
  · rw [h, h']
    constructor
    · intro h; cases h
    · intro h; exact absurd h.1 (not_isHex_x r n).1
  · rw [h, h']
    constructor
    · intro h; cases h
    · intro h; exact absurd h.1 (not_isHex_x r n).2

/-- The parsers with optional prefix accept exactly what one of the others accepts; no string is accepted by both of those. -/
theorem C80_any (bits : Nat) (s : Bytes) (n m : Nat) :
    (any bits s = .ok n ↔ prefixed bits s = .ok n ∨ unprefixed bits s = .ok n) ∧
    ¬ (prefixed bits s = .ok n ∧ unprefixed bits s = .ok m) := by
  rw [C80_prefixed, C80_unprefixed, C80_unprefixed]
  unfold any
  rw [unchecked_ok]
  rcases checkUnprefixed_cases s with ⟨_, e, hn⟩ | ⟨_, r, h', e⟩
  · rw [e]
    refine ⟨⟨.inr, ?_⟩, ?_⟩
    · rintro (⟨r, h | h, _⟩ | h)
      · exact absurd h (hn r).1
      · exact absurd h (hn r).2
      · exact h
    · rintro ⟨⟨r, h | h, _⟩, _⟩
      · exact (hn r).1 h
      · exact (hn r).2 h
  · rw [e]
    refine ⟨⟨fun h => .inl ⟨r, h', h⟩, ?_⟩, ?_⟩
    · rintro (⟨r', h | h, hh⟩ | h)
      · rcases h' with h' | h' <;> rw [h'] at h <;> cases h
        exact hh
      · rcases h' with h' | h' <;> rw [h'] at h <;> cases h
        exact hh
      · rcases h' with rfl | rfl
        · exact absurd h.1 (not_isHex_x r n).1
        · exact absurd h.1 (not_isHex_x r n).2
    · rintro ⟨_, h, _⟩
      rcases h' with rfl | rfl
      · exact (not_isHex_x r m).1 h
      · exact (not_isHex_x r m).2 h

theorem isHex_radix (n : Nat) : IsHex (radixBytes 16 n) n := ⟨_, .inl rfl, radixBytes_ne_nil 16 n, digitsVal_radixBytes 16 n (by omega) (by omega)⟩

/-- What `{:x}` and `{:#x}` print is read back. -/
theorem C80_print (bits n : Nat) (h : n < 2 ^ bits) :
    unprefixed bits (radixBytes 16 n) = .ok n ∧ prefixed bits (48 :: 120 :: radixBytes 16 n) = .ok n ∧
    any bits (radixBytes 16 n) = .ok n ∧ any bits (48 :: 120 :: radixBytes 16 n) = .ok n := by
  have h1 : unprefixed bits (radixBytes 16 n) = .ok n := (C80_unprefixed _ _ _).2 ⟨isHex_radix n, h⟩
  have h2 : prefixed bits (48 :: 120 :: radixBytes 16 n) = .ok n := (C80_prefixed _ _ _).2 ⟨_, .inl rfl, isHex_radix n, h⟩
  exact ⟨h1, h2, ((C80_any bits _ n n).1).2 (.inr h1), ((C80_any bits _ n n).1).2 (.inl h2)⟩

/-! ## 256-bit integers -/

theorem val_ofHalves (h l : Nat) (hh : h < 2 ^ 128) (hl : l < 2 ^ 128) : (ofHalves h l).val = h * 2 ^ 128 + l := by
  unfold ofHalves
  rw [val_ofLeBytes]
  simp only []
  rw [leNat_append, leBytes_length, leNat_leBytes 16 l (by simpa using hl), leNat_leBytes 16 h (by simpa using hh)]
  rw [show (256 : Nat) ^ 16 = 2 ^ 128 by decide, Nat.mul_comm, Nat.add_comm]

theorem isHex_ascii {s : Bytes} {n : Nat} (h : IsHex s n) : s.any (fun b => decide (128 ≤ b.toNat)) = false := by
  have key : ∀ (ds : Bytes) (acc n : Nat), digitsVal 16 acc ds = some n → ds.any (fun b => decide (128 ≤ b.toNat)) = false := by
    intro ds
    induction ds with
    | nil => intros; rfl
    | cons b ds ih =>
      intro acc n h
      simp only [digitsVal] at h
      split at h
      · cases h
      · rename_i x hx
        rw [List.any_cons, ih _ _ h, Bool.or_false]
        have hb : ∀ b : UInt8, digitVal 16 b ≠ none → decide (128 ≤ b.toNat) = false := by
          intro b hb
          unfold digitVal at hb
          simp only [] at hb
          rw [decide_eq_false_iff_not]
          intro hc
          rw [if_neg (by omega), if_neg (by omega), if_neg (by omega)] at hb
          exact hb rfl
        exact hb b (by rw [hx]; simp)
  obtain ⟨ds, h | h, _, h3⟩ := h
  · rw [h]; exact key _ _ _ h3
  · rw [h, List.any_cons, key _ _ _ h3]; rfl

theorem any_append_false {s t : Bytes} (p : UInt8 → Bool) (hs : s.any p = false) (ht : t.any p = false) : (s ++ t).any p = false := by
  rw [List.any_append, hs, ht]; rfl

theorem hex_bound : ∀ (ds : Bytes) (n : Nat), digitsVal 16 0 ds = some n → n < 16 ^ ds.length := by
  intro ds
  induction ds with
  | nil => intro n h; simp [digitsVal] at h; subst h; simp
  | cons b ds ih =>
    intro n h
    simp only [digitsVal] at h
    split at h
    · cases h
    · rename_i y hy
      rw [digitsVal_shift] at h
      cases hd : digitsVal 16 0 ds with
      | none => rw [hd] at h; cases h
      | some m =>
        rw [hd] at h
        simp only [Option.map_some, Option.some.injEq] at h
        have h1 := ih m hd
        have h2 := digitVal_lt hy
        rw [List.length_cons, Nat.pow_succ, ← h]
        have h3 : (0 * 16 + y + 1) * 16 ^ ds.length ≤ 16 * 16 ^ ds.length := Nat.mul_le_mul_right _ (by omega)
        rw [Nat.add_mul] at h3
        omega

/-- Up to 32 characters the parser for 256 bits accepts numbers; above, it accepts two numbers one after the other, the second of
32 characters. -/
theorem C80_u256 (s : Bytes) (x : U256) : u256Unprefixed s = .ok x ↔
    (s.length ≤ 32 ∧ IsHex s x.val) ∨
    (∃ a b h l, s = a ++ b ∧ a ≠ [] ∧ b.length = 32 ∧ IsHex a h ∧ IsHex b l ∧ x.val = h * 2 ^ 128 + l ∧ h < 2 ^ 128 ∧ l < 2 ^ 128) := by
  have hshort : ∀ (s : Bytes) (n : Nat), IsHex s n → s.length ≤ 32 → n < 2 ^ 128 := by
    rintro s n ⟨ds, h1, _, h3⟩ hl
    have := hex_bound ds n h3
    have hd : ds.length ≤ 32 := by
      rcases h1 with h | h <;> rw [h] at hl
      · exact hl
      · simp at hl; omega
    have h16 : (16 : Nat) ^ ds.length ≤ 16 ^ 32 := Nat.pow_le_pow_right (by omega) hd
    rw [show (16 : Nat) ^ 32 = 2 ^ 128 by decide] at h16
    omega
  have hun : u256Unprefixed s = .ok x ↔ u256Unchecked s = .ok x ∧ checkUnprefixed s = .ok s := by
    unfold u256Unprefixed
    rcases checkUnprefixed_cases s with ⟨h, _⟩ | ⟨h, r, _⟩
    · rw [h]; simp [mapErr_ok]
    · rw [h]; simp
  rw [hun]
  constructor
  · rintro ⟨h, _⟩
    unfold u256Unchecked at h
    split at h
    · rename_i ha
      cases hu : unchecked 128 s with
      | error e => rw [hu] at h; cases h
      | ok n =>
        rw [isHex_ascii ((unchecked_ok _ _ _).1 hu).1] at ha
        cases ha
    · split at h
      · rename_i hl
        cases hu : unchecked 128 s with
        | error e => rw [hu] at h; cases h
        | ok n =>
          rw [hu] at h
          obtain ⟨u1, u2⟩ := (unchecked_ok _ _ _).1 hu
          obtain rfl := Except.ok.inj h
          refine .inl ⟨hl, ?_⟩
          rw [val_ofHalves 0 n (by omega) u2]
          simpa using u1
      · rename_i hl
        simp only [] at h
        cases hu : unchecked 128 (s.take (s.length - 32)) with
        | error e => rw [hu] at h; cases h
        | ok a =>
          rw [hu] at h
          simp only [] at h
          cases hu' : unchecked 128 (s.drop (s.length - 32)) with
          | error e => rw [hu'] at h; cases h
          | ok b =>
            rw [hu'] at h
            obtain ⟨u1, u2⟩ := (unchecked_ok _ _ _).1 hu
            obtain ⟨v1, v2⟩ := (unchecked_ok _ _ _).1 hu'
            obtain rfl := Except.ok.inj h
            refine .inr ⟨_, _, a, b, (List.take_append_drop _ _).symm, ?_, ?_, u1, v1, val_ofHalves a b u2 v2, u2, v2⟩
            · intro hc
              have := congrArg List.length hc
              rw [List.length_take] at this
              simp at this
              omega
            · rw [List.length_drop]; omega
  · intro h
    have hc : checkUnprefixed s = .ok s := by
      rcases checkUnprefixed_cases s with ⟨h, _⟩ | ⟨_, r, hr, _⟩
      · exact h
      · exfalso
        rcases h with ⟨_, h⟩ | ⟨a, b, h', l, rfl, hne, hb, ha, hb', _⟩
        · rcases hr with rfl | rfl
          · exact (not_isHex_x r _).1 h
          · exact (not_isHex_x r _).2 h
        · match a, hne with
          | [c], _ =>
            match b, hb with
            | d :: b, _ =>
              obtain ⟨ds, h1, _, h3⟩ := hb'
              rcases hr with h | h <;> cases h <;> rcases h1 with h1 | h1
              · rw [← h1] at h3; simp [digitsVal, digitVal_x.1] at h3
              · cases h1
              · rw [← h1] at h3; simp [digitsVal, digitVal_x.2] at h3
              · cases h1
          | c :: d :: a, _ =>
            rcases hr with h | h <;> cases h
            · exact (not_isHex_x a _).1 ha
            · exact (not_isHex_x a _).2 ha
    refine ⟨?_, hc⟩
    rcases h with ⟨hl, h⟩ | ⟨a, b, h', l, rfl, hne, hb, ha, hb', hv, h1, h2⟩
    · have hx := hshort s _ h hl
      unfold u256Unchecked
      rw [if_neg (by rw [isHex_ascii h]; simp), if_pos hl, (unchecked_ok 128 s x.val).2 ⟨h, hx⟩]
      simp only [Except.ok.injEq]
      apply val_inj
      rw [val_ofHalves 0 _ (by omega) hx]
      omega
    · unfold u256Unchecked
      have hal : 0 < a.length := List.length_pos_iff.2 hne
      rw [if_neg (by rw [any_append_false _ (isHex_ascii ha) (isHex_ascii hb')]; simp),
        if_neg (by rw [List.length_append]; omega)]
      simp only []
      rw [show (a ++ b).length - 32 = a.length by rw [List.length_append]; omega, List.take_left, List.drop_left,
        (unchecked_ok 128 a h').2 ⟨ha, h1⟩]
      simp only []
      rw [(unchecked_ok 128 b l).2 ⟨hb', h2⟩]
      simp only [Except.ok.injEq]
      apply val_inj
      rw [val_ofHalves _ _ h1 h2, hv]

/-- A string of hexadecimal digits of any length is accepted exactly if its value has 256 bits, as that value. -/
theorem C80_u256_digits (s : Bytes) (n : Nat) (hne : s ≠ []) (h : digitsVal 16 0 s = some n) :
    ∀ x : U256, u256Unprefixed s = .ok x ↔ x.val = n := by
  have hplus : ∀ (t : Bytes) (acc : Nat), digitsVal 16 acc (43 :: t) = none := fun t acc => by simp [digitsVal, digitVal]
  intro x
  rw [C80_u256]
  have hun : ∀ (t : Bytes) (m k : Nat), digitsVal 16 0 t = some m → IsHex t k → k = m := by
    rintro t m k ht ⟨ds, h1 | h1, _, h3⟩
    · rw [← h1, ht] at h3; exact (Option.some.inj h3).symm
    · rw [h1, hplus] at ht; cases ht
  constructor
  · rintro (⟨_, hx⟩ | ⟨a, b, h', l, rfl, hne', hb, ha, hb', hv, _, _⟩)
    · exact hun _ _ _ h hx
    · rw [digitsVal_append] at h
      cases hda : digitsVal 16 0 a with
      | none => rw [hda] at h; cases h
      | some m =>
        rw [hda] at h
        simp only [Option.bind_some] at h
        rw [digitsVal_shift] at h
        cases hdb : digitsVal 16 0 b with
        | none => rw [hdb] at h; cases h
        | some k =>
          rw [hdb] at h
          simp only [Option.map_some, Option.some.injEq] at h
          rw [hv, hun _ _ _ hda ha, hun _ _ _ hdb hb', ← h, hb]
  · intro hx
    by_cases hl : s.length ≤ 32
    · exact .inl ⟨hl, s, .inl rfl, hne, by rw [hx]; exact h⟩
    · right
      have hb : (s.drop (s.length - 32)).length = 32 := by rw [List.length_drop]; omega
      have ha : (s.take (s.length - 32)) ≠ [] := by
        intro hc
        have := congrArg List.length hc
        rw [List.length_take] at this
        simp at this
        omega
      generalize hae : s.take (s.length - 32) = a at ha
      generalize hbe : s.drop (s.length - 32) = b at hb
      have hs : s = a ++ b := by rw [← hae, ← hbe, List.take_append_drop]
      rw [hs, digitsVal_append] at h
      cases hda : digitsVal 16 0 a with
      | none => rw [hda] at h; cases h
      | some m =>
        rw [hda] at h
        simp only [Option.bind_some] at h
        rw [digitsVal_shift] at h
        cases hdb : digitsVal 16 0 b with
        | none => rw [hdb] at h; cases h
        | some k =>
          rw [hdb] at h
          simp only [Option.map_some, Option.some.injEq] at h
          rw [hb, show (16 : Nat) ^ 32 = 2 ^ 128 by decide] at h
          have hxl := val_lt x
          have hbne : b ≠ [] := by intro hc; rw [hc] at hb; cases hb
          have hk : k < 2 ^ 128 := by
            by_cases hkk : k < 2 ^ 128
            · exact hkk
            · exfalso
              have := hex_bound b k hdb
              rw [hb, show (16 : Nat) ^ 32 = 2 ^ 128 by decide] at this
              exact hkk this
          exact ⟨a, b, m, k, hs, ha, hb, ⟨a, .inl rfl, ha, hda⟩, ⟨b, .inl rfl, hbne, hdb⟩, by omega, by omega, hk⟩

/-- Contrary to what the users of `Work::from_hex` and `Target::from_hex` expect, a plus sign is accepted in the middle of a long number,
and a plus sign in front is refused before exactly 32 digits although it is accepted before 31 and 33. -/
theorem C80_u256_plus (x : U256) (hx : x.val = 2 ^ 128) :
    u256Unprefixed (49 :: 43 :: List.replicate 31 48) = .ok x ∧ u256Unprefixed (43 :: List.replicate 31 48) = .ok U256.zero ∧
    (∀ y, u256Unprefixed (43 :: List.replicate 32 48) ≠ .ok y) ∧ u256Unprefixed (43 :: List.replicate 33 48) = .ok U256.zero := by
  refine ⟨?_, ?_, ?_, ?_⟩
  · exact (C80_u256 _ _).2 (.inr ⟨[49], 43 :: List.replicate 31 48, 1, 0, rfl, by decide, by decide,
      ⟨[49], .inl rfl, by decide, by decide⟩, ⟨List.replicate 31 48, .inr rfl, by decide, by decide⟩, by rw [hx], by decide, by decide⟩)
  · exact (C80_u256 _ _).2 (.inl ⟨by decide, List.replicate 31 48, .inr rfl, by decide, by decide⟩)
  · intro y hy
    rcases (C80_u256 _ _).1 hy with ⟨h, _⟩ | ⟨a, b, h, l, hs, hne, hb, ⟨ds, h1, h2, h3⟩, _⟩
    · revert h; decide
    · have hl := congrArg List.length hs
      rw [List.length_append, hb, List.length_cons, List.length_replicate] at hl
      match a, hl with
      | [c], _ =>
        simp only [List.cons_append, List.nil_append, List.cons.injEq] at hs
        rcases h1 with h1 | h1
        · rw [← h1, ← hs.1] at h3; revert h3; simp [digitsVal, digitVal]
        · simp only [List.cons.injEq] at h1; exact h2 h1.2.symm
  · exact (C80_u256 _ _).2 (.inr ⟨[43, 48], List.replicate 32 48, 0, 0, rfl, by decide, by decide,
      ⟨[48], .inr rfl, by decide, by decide⟩, ⟨List.replicate 32 48, .inl rfl, by decide, by decide⟩, by decide, by decide, by decide⟩)

/-! ## Printing 256-bit integers -/

theorem digitVal_up (d : Nat) (h : d < 16) : digitVal 16 (upDigit d) = some d := by
  have : ∀ d : Fin 16, digitVal 16 (upDigit d.1) = some d.1 := by decide
  exact this ⟨d, h⟩

theorem nibbles (b : UInt8) : (b.toNat &&& 0xf0) >>> 4 = b.toNat / 16 ∧ b.toNat &&& 0xf = b.toNat % 16 := by
  have : ∀ n : Fin 256, (n.1 &&& 0xf0) >>> 4 = n.1 / 16 ∧ n.1 &&& 0xf = n.1 % 16 := by decide +kernel
  exact this ⟨b.toNat, b.toNat_lt⟩

theorem digits_flat (dig : Nat → UInt8) (hd : ∀ d, d < 16 → digitVal 16 (dig d) = some d) : ∀ (bs : Bytes) (acc : Nat),
    digitsVal 16 acc (bs.flatMap fun b => [dig ((b.toNat &&& 0xf0) >>> 4), dig (b.toNat &&& 0xf)]) = some (acc * 256 ^ bs.length + beNat bs) := by
  intro bs
  induction bs with
  | nil => intro acc; simp [digitsVal, beNat, leNat]
  | cons b bs ih =>
    intro acc
    have hb := b.toNat_lt
    rw [List.flatMap_cons]
    simp only [List.cons_append, List.nil_append, digitsVal, (nibbles b).1, (nibbles b).2, hd (b.toNat / 16) (by omega),
      hd (b.toNat % 16) (by omega)]
    rw [ih]
    have e : beNat (b :: bs) = beNat bs + 256 ^ bs.length * b.toNat := by
      unfold beNat
      rw [List.reverse_cons, leNat_append, List.length_reverse]
      simp [leNat]
    rw [e, List.length_cons, Nat.pow_succ, show (acc * 16 + b.toNat / 16) * 16 + b.toNat % 16 = acc * 256 + b.toNat by omega, Nat.add_mul,
      Nat.mul_assoc, Nat.mul_comm 256 (256 ^ bs.length), Nat.mul_comm b.toNat]
    congr 1
    omega

theorem flat_length (dig : Nat → UInt8) (bs : Bytes) :
    (bs.flatMap fun b => [dig ((b.toNat &&& 0xf0) >>> 4), dig (b.toNat &&& 0xf)]).length = 2 * bs.length := by
  induction bs with
  | nil => rfl
  | cons b bs ih => rw [List.flatMap_cons, List.length_append, ih]; simp; omega

/-- `{:x}`, `{:X}`, `{:#x}` and `{:#X}` print 64 digits, with their prefix, and are read back. -/
theorem C80_u256_print (x : U256) :
    (u256Lower false x).length = 64 ∧ u256Unprefixed (u256Lower false x) = .ok x ∧ u256Prefixed (u256Lower true x) = .ok x ∧
    (u256Upper false x).length = 64 ∧ u256Unprefixed (u256Upper false x) = .ok x ∧ u256Prefixed (u256Upper true x) = .ok x ∧
    u256FromSerdeStr (u256Lower false x) = some x ∧ u256Lower false x = hexBytes (beBytes 32 x.val) := by
  have hlen : x.toBeBytes.length = 32 := by rw [toBeBytes_eq, beBytes_length]
  have hval : beNat x.toBeBytes = x.val := by
    rw [toBeBytes_eq, beNat_beBytes 32 _ (by have := val_lt x; rw [show (256 : Nat) ^ 32 = 2 ^ 256 by decide]; exact this)]
  have key : ∀ (dig : Nat → UInt8), (∀ d, d < 16 → digitVal 16 (dig d) = some d) →
      let t := x.toBeBytes.flatMap fun b => [dig ((b.toNat &&& 0xf0) >>> 4), dig (b.toNat &&& 0xf)]
      t.length = 64 ∧ u256Unprefixed t = .ok x ∧ u256Prefixed ([48, 120] ++ t) = .ok x := by
    intro dig hd t
    have hl : t.length = 64 := by rw [show t.length = 2 * x.toBeBytes.length from flat_length dig _, hlen]
    have hne : t ≠ [] := by intro h; rw [h] at hl; cases hl
    have hv : digitsVal 16 0 t = some x.val := by
      rw [show digitsVal 16 0 t = _ from digits_flat dig hd _ 0, hval]; simp
    have hu : u256Unprefixed t = .ok x := (C80_u256_digits t x.val hne hv x).2 rfl
    refine ⟨hl, hu, ?_⟩
    show mapErr (u256Unchecked t) = .ok x
    unfold u256Unprefixed at hu
    rcases checkUnprefixed_cases t with ⟨h, _⟩ | ⟨h, _⟩
    · rw [h] at hu; exact hu
    · rw [h] at hu; cases hu
  obtain ⟨a1, a2, a3⟩ := key hexDigit digitVal_hexDigit
  obtain ⟨b1, b2, b3⟩ := key upDigit digitVal_up
  refine ⟨a1, a2, a3, b1, b2, b3, ?_, ?_⟩
  · unfold u256FromSerdeStr
    rw [if_neg (fun h => h a1)]
    show (match u256Unprefixed (u256Lower false x) with | .ok x => some x | .error _ => none) = some x
    rw [show u256Unprefixed (u256Lower false x) = .ok x from a2]
  · unfold u256Lower hexBytes
    rw [toBeBytes_eq, if_neg (by decide), List.nil_append]
    rw [show (fun b : UInt8 => [hexDigit ((b.toNat &&& 0xf0) >>> 4), hexDigit (b.toNat &&& 0xf)]) =
      fun b => [hexDigit (b.toNat / 16), hexDigit (b.toNat % 16)] from funext fun b => by rw [(nibbles b).1, (nibbles b).2]]

theorem radLoop_spec (r shift : Nat) (mask : BitVec 64) (hr : r = 2 ^ shift) (hs : 1 ≤ shift) (hs' : shift ≤ 4) (hm : mask.toNat = 2 ^ shift - 1) :
    ∀ (room : Nat) (v : U256) (acc : Bytes), v.val ≠ 0 → v.val < r ^ room →
      (∀ n, n < 16 → 48 + UInt8.ofNat n = hexDigit n ∨ r ≤ n) →
      radLoop mask shift room v acc = some (radixBytes r v.val ++ acc) := by
  have hr2 : 2 ≤ r := by rw [hr]; calc 2 = 2 ^ 1 := rfl
                          _ ≤ 2 ^ shift := Nat.pow_le_pow_right (by omega) hs
  have hr16 : r ≤ 16 := by rw [hr]; calc 2 ^ shift ≤ 2 ^ 4 := Nat.pow_le_pow_right (by omega) hs'
                            _ = 16 := rfl
  intro room
  induction room with
  | zero => intro v acc h0 h; simp at h; omega
  | succ room ih =>
    intro v acc h0 h hdig
    unfold radLoop
    rw [if_pos ((lt_iff _ _).2 (by rw [val_zero]; omega))]
    simp only []
    have hlow : (v.lowU64 &&& mask).toNat = v.val % r := by
      rw [BitVec.toNat_and, hm, Nat.and_two_pow_sub_one_eq_mod]
      unfold U256.lowU64 U256.val
      rw [BitVec.toNat_setWidth, hr]
      have d1 : 2 ^ shift ∣ 2 ^ 64 := Nat.pow_dvd_pow 2 (by omega)
      have d2 : 2 ^ shift ∣ 2 ^ 128 := Nat.pow_dvd_pow 2 (by omega)
      rw [Nat.mod_mod_of_dvd _ d1, Nat.add_mod, Nat.mod_eq_zero_of_dvd (Nat.dvd_mul_left_of_dvd d2 _), Nat.zero_add, Nat.mod_mod]
    have hmod : v.val % r < r := Nat.mod_lt _ (by omega)
    have hd : 48 + UInt8.ofNat (v.val % r) = hexDigit (v.val % r) := by
      rcases hdig (v.val % r) (by omega) with h | h
      · exact h
      · omega
    have hsh : (U256.shr v shift).val = v.val / r := by rw [val_shr v shift (by omega), hr]
    rw [hlow, hd]
    by_cases hz : v.val / r = 0
    · have hstop : radLoop mask shift room (U256.shr v shift) (hexDigit (v.val % r) :: acc) = some (hexDigit (v.val % r) :: acc) := by
        unfold radLoop
        rw [if_neg]
        intro hc
        have := (lt_iff _ _).1 hc
        rw [val_zero, hsh, hz] at this
        omega
      rw [hstop]
      have hlt : v.val < r := by
        rcases Nat.div_eq_zero_iff.1 hz with h | h <;> omega
      unfold radixBytes
      rw [dif_pos (.inl hlt), Nat.mod_eq_of_lt hlt]
      rfl
    · rw [ih _ _ (by rw [hsh]; exact hz) ?_ hdig, hsh]
      · conv => rhs; unfold radixBytes
        rw [dif_neg (by intro hc; rcases hc with hc | hc; exact hz (Nat.div_eq_of_lt hc); omega)]
        simp
      · rw [hsh, Nat.div_lt_iff_lt_mul (by omega)]
        rw [Nat.pow_succ] at h
        exact h

theorem digit_low : ∀ n, n < 16 → 48 + UInt8.ofNat n = hexDigit n ∨ 8 ≤ n := by
  intro n hn
  have : ∀ n : Fin 16, 48 + UInt8.ofNat n.1 = hexDigit n.1 ∨ 8 ≤ n.1 := by decide
  exact this ⟨n, hn⟩

/-- `{:b}` and `{:o}` print the digits without leading zeros; their buffers suffice. -/
theorem C80_u256_binary_octal (x : U256) : binary x = some (radixBytes 2 x.val) ∧ octal x = some (radixBytes 8 x.val) := by
  have h0 : ∀ r, 2 ≤ r → radixBytes r 0 = [48] := by
    intro r hr
    unfold radixBytes
    rw [dif_pos (.inl (by omega))]
    rfl
  have hx := val_lt x
  constructor
  · unfold binary
    split
    · rename_i h; rw [(isZero_iff x).1 h, h0 2 (by omega)]
    · rename_i h
      rw [radLoop_spec 2 1 1 rfl (by omega) (by omega) rfl 256 x [] (fun hc => h ((isZero_iff x).2 hc)) hx
        (fun n hn => (digit_low n hn).imp id (by omega)), List.append_nil]
  · unfold octal
    split
    · rename_i h; rw [(isZero_iff x).1 h, h0 8 (by omega)]
    · rename_i h
      rw [radLoop_spec 8 3 7 rfl (by omega) (by omega) rfl 86 x [] (fun hc => h ((isZero_iff x).2 hc))
        (Nat.lt_trans hx (by decide)) digit_low, List.append_nil]

/-! ## Examples -/

example : prefixed 32 (Net.str "0xffffffff") = .ok 4294967295 :=
  (C80_prefixed _ _ _).2 ⟨Net.str "ffffffff", .inl (by decide), ⟨_, .inl rfl, by decide, by decide⟩, by decide⟩
example : unprefixed 16 (Net.str "0x12") = .error .containsPrefix ∧ prefixed 16 (Net.str "12") = .error .missingPrefix ∧
    any 16 (Net.str "0X12") = .ok 0x12 ∧ any 16 (Net.str "10000") = .error .posOverflow := ⟨rfl, rfl, rfl, rfl⟩
example : binary ⟨0, 10⟩ = some (Net.str "1010") ∧ octal ⟨0, 10⟩ = some (Net.str "12") := by decide +kernel

end HexInt
end Btc
