import Verif.Bitcoin.Bip34
import Verif.Props.C34
/-!
# C78: the block height in the coinbase (BIP-34)
-/
namespace Btc
namespace Bip34
open Scr

/-! ## Specification -/

/-- How BIP-34 writes a height (`CScript() << height`): an opcode up to 16, then a push of the shortest little-endian form whose top bit
is clear. -/
def heightBytes (h : Nat) : Bytes :=
  if h = 0 then [0]
  else if h ≤ 16 then [UInt8.ofNat (0x50 + h)]
  else if h < 2 ^ 7 then 1 :: leBytes 1 h
  else if h < 2 ^ 15 then 2 :: leBytes 2 h
  else if h < 2 ^ 23 then 3 :: leBytes 3 h
  else 4 :: leBytes 4 h

/-! ## Lemmas -/

theorem numVal_leBytes (k h : Nat) (hk : 0 < k) (hh : h < 128 * 256 ^ (k - 1)) : numVal (leBytes k h) = h := by
  obtain ⟨j, rfl⟩ : ∃ j, k = j + 1 := ⟨k - 1, by omega⟩
  unfold numVal
  simp only [Nat.add_sub_cancel] at hh
  rw [leNat_leBytes _ _ (by rw [Nat.pow_succ]; omega), leBytes_length, half_pow, if_pos hh]

theorem minimal_leBytes (k h : Nat) (hk : 0 < k) (hh : h < 128 * 256 ^ (k - 1)) (h0 : 0 < h)
    (hlow : k = 1 ∨ 128 * 256 ^ (k - 2) ≤ h) : NumMinimal (leBytes k h) := by
  intro w hw
  rw [numVal_leBytes k h hk hh] at hw
  rw [leBytes_length]
  rcases hlow with rfl | hlow
  · cases w with
    | nil => rw [numVal_nil] at hw; omega
    | cons _ _ => simp
  · false_or_by_contra
    rename_i hc
    by_cases h2 : k = 1
    · subst h2
      cases w with
      | nil => rw [numVal_nil] at hw; omega
      | cons _ _ => simp at hc
    · have := natAbs_numVal_lt w (k - 2) (by omega)
      rw [hw] at this
      omega

/-- The minimal data for a positive number of at most 31 bits. -/
def dataOf (h : Nat) : Bytes :=
  if h = 0 then [] else if h < 2 ^ 7 then leBytes 1 h else if h < 2 ^ 15 then leBytes 2 h else if h < 2 ^ 23 then leBytes 3 h else leBytes 4 h

theorem dataOf_spec (h : Nat) (hh : h < 2 ^ 31) : (dataOf h).length ≤ 4 ∧ numVal (dataOf h) = h ∧ NumMinimal (dataOf h) := by
  unfold dataOf
  split
  · rename_i h0; subst h0; exact ⟨by simp, rfl, numMinimal_nil⟩
  split
  · exact ⟨by simp, numVal_leBytes 1 h (by omega) (by simpa using by omega), minimal_leBytes 1 h (by omega) (by simpa using by omega) (by omega) (.inl rfl)⟩
  split
  · exact ⟨by simp, numVal_leBytes 2 h (by omega) (by simp; omega), minimal_leBytes 2 h (by omega) (by simp; omega) (by omega) (.inr (by simp; omega))⟩
  split
  · exact ⟨by simp, numVal_leBytes 3 h (by omega) (by simp; omega), minimal_leBytes 3 h (by omega) (by simp; omega) (by omega) (.inr (by simp; omega))⟩
  · exact ⟨by simp, numVal_leBytes 4 h (by omega) (by simp; omega), minimal_leBytes 4 h (by omega) (by simp; omega) (by omega) (.inr (by simp; omega))⟩

theorem heightBytes_push (h : Nat) (hh : h < 2 ^ 31) (h16 : h = 0 ∨ 16 < h) :
    heightBytes h = pushHeader (dataOf h).length ++ dataOf h := by
  unfold heightBytes dataOf
  by_cases h0 : h = 0
  · subst h0; rfl
  · rw [if_neg h0, if_neg h0, if_neg (by omega)]
    split; · simp [pushHeader_eq]
    split; · simp [pushHeader_eq]
    split; · simp [pushHeader_eq]
    · simp [pushHeader_eq]

theorem walk_head (s : Bytes) (hs : s ≠ []) : ∃ r rest tl, next true s = some (r, rest) ∧ instructionsMinimal s = r :: tl := by
  cases s with
  | nil => exact absurd rfl hs
  | cons b l =>
    unfold instructionsMinimal
    rw [List.length_cons, walk]
    rcases next_cases true (b :: l) hs with ⟨p, i, rest, _, _, _, h⟩ | ⟨_, h, _⟩ | ⟨h, _⟩ <;> exact ⟨_, _, _, h, by rw [h]⟩

/-- What `heightOf` makes of a push: the value if the data is minimal and of at most four bytes. -/
theorem heightOf_push (s d : Bytes) (tl : List (Except ScrErr Instr)) (h : instructionsMinimal s = .ok (.push d) :: tl) :
    (4 < d.length → heightOf s = some (.error .notPresent)) ∧
    (d.length ≤ 4 → NumMinimal d → heightOf s = some (if numVal d < 0 then .error .negativeHeight else .ok (numVal d).toNat)) ∧
    (d.length ≤ 4 → ¬ NumMinimal d → heightOf s = some (.error .nonMinimalPush)) := by
  obtain ⟨r1, r2, r3⟩ := C34_read d
  have rn := C34_read_non_minimal d
  unfold heightOf
  rw [h]
  simp only [Instr.scriptNum, pushBytes, Option.map_some, rn]
  refine ⟨fun hl => ?_, fun hl hm => ?_, fun hl hm => ?_⟩
  · rw [if_neg (by omega), r1 hl]; rfl
  · rw [if_pos hl, r2 hl hm]
  · rw [if_pos hl, r3 hl hm]; rfl

theorem heightOf_op (s : Bytes) (o : UInt8) (tl : List (Except ScrErr Instr)) (h : instructionsMinimal s = .ok (.op o) :: tl) :
    heightOf s = some (if 0x51 ≤ o.toNat ∧ o.toNat ≤ 0x60 then .ok (o.toNat - 0x50) else if o = 0x4f then .error .negativeHeight
      else .error .notPresent) := by
  unfold heightOf
  rw [h]
  simp only [Instr.scriptNum, pushBytes, Option.map_none]
  have e1 : (0x51 : UInt8) ≤ o ↔ 0x51 ≤ o.toNat := UInt8.le_iff_toNat_le
  have e2 : o ≤ (0x60 : UInt8) ↔ o.toNat ≤ 0x60 := UInt8.le_iff_toNat_le
  simp only [e1, e2]
  by_cases hc : 0x51 ≤ o.toNat ∧ o.toNat ≤ 0x60
  · rw [if_pos hc, if_pos hc]
    simp only []
    rw [if_neg (by omega)]
    congr 2
    omega
  · rw [if_neg hc, if_neg hc]
    by_cases h4 : o = 0x4f
    · rw [if_pos h4, if_pos h4]; rfl
    · rw [if_neg h4, if_neg h4]

/-- The instruction that a height is written as. -/
def instrOf (h : Nat) : Instr := if 0 < h ∧ h ≤ 16 then .op (UInt8.ofNat (0x50 + h)) else .push (dataOf h)

theorem heightBytes_enc (h : Nat) (hh : h < 2 ^ 31) : Scr.Enc (heightBytes h) (instrOf h) ∧ MinEnc (heightBytes h) (instrOf h) := by
  unfold instrOf
  by_cases h16 : 0 < h ∧ h ≤ 16
  · rw [if_pos h16]
    unfold heightBytes
    rw [if_neg (by omega), if_pos h16.2]
    exact ⟨.op _ (by rw [toNat_ofNat8 (by omega)]; omega), trivial⟩
  · rw [if_neg h16]
    have e := heightBytes_push h hh (by omega)
    obtain ⟨hl, hv, hm⟩ := dataOf_spec h hh
    refine ⟨?_, e, ?_⟩
    · rw [e]
      have := Scr.Enc.direct (dataOf h) (by omega)
      rw [pushHeader_eq, if_pos (by omega)]
      exact this
    · rintro ⟨x, hx, hx'⟩
      rw [hx] at hv
      have e1 : numVal [x] = if x.toNat < 128 then (x.toNat : Int) else -((x.toNat - 128 : Nat) : Int) := by
        unfold numVal; simp [leNat]
      rw [e1] at hv
      rcases hx' with rfl | hx'
      · revert hv; simp
      · rw [if_pos (by omega)] at hv
        omega

theorem enc_unique {p p' : Bytes} {i i' : Instr} {r r' : Bytes} (h : Scr.Enc p i) (h' : Scr.Enc p' i') (e : p ++ r = p' ++ r') : i = i' ∧ r = r' := by
  have h1 := next_of_enc h r
  rw [e, next_of_enc h' r'] at h1
  cases h1
  exact ⟨rfl, rfl⟩

/-- Reading a height gives exactly the heights below 2^31 that the script starts with, in the form of BIP-34. -/
theorem heightOf_ok (s : Bytes) (h : Nat) : heightOf s = some (.ok h) ↔ h < 2 ^ 31 ∧ ∃ rest, s = heightBytes h ++ rest := by
  constructor
  · intro hs
    by_cases hne : s = []
    · subst hne; cases hs
    obtain ⟨r, rest, tl, hn, hi⟩ := walk_head s hne
    rcases next_cases true s hne with ⟨p, i, rest', hp, he, hm, h'⟩ | ⟨_, h', _⟩ | ⟨h', _⟩
    · rw [hn] at h'
      cases h'
      cases i with
      | op o =>
        rw [heightOf_op s o tl hi] at hs
        by_cases hc : 0x51 ≤ o.toNat ∧ o.toNat ≤ 0x60
        · rw [if_pos hc] at hs
          simp only [Option.some.injEq, Except.ok.injEq] at hs
          refine ⟨by omega, rest, ?_⟩
          rw [hp]
          congr 1
          cases he
          unfold heightBytes
          rw [if_neg (by omega), if_pos (by omega), show 0x50 + h = o.toNat by omega, ofNat_toNat8]
        · rw [if_neg hc] at hs
          split at hs <;> cases hs
      | push d =>
        obtain ⟨a1, a2, a3⟩ := heightOf_push s d tl hi
        by_cases hl : d.length ≤ 4
        · by_cases hmin : NumMinimal d
          · rw [a2 hl hmin] at hs
            split at hs
            · cases hs
            · rename_i hnn
              simp only [Option.some.injEq, Except.ok.injEq] at hs
              have hv : numVal d = (h : Int) := by omega
              have hlt : h < 2 ^ 31 := by
                have := natAbs_numVal_lt d 3 hl
                rw [hv] at this
                simp at this
                omega
              obtain ⟨_, hv', hm'⟩ := dataOf_spec h hlt
              have hd : d = dataOf h := numMinimal_unique _ _ hmin hm' (hv.trans hv'.symm)
              obtain ⟨hme, hsm⟩ := hm rfl
              refine ⟨hlt, rest, ?_⟩
              rw [hp, hme, heightBytes_push h hlt, hd]
              false_or_by_contra
              rename_i hc
              apply hsm
              have hh16 : 0 < h ∧ h ≤ 16 := by omega
              refine ⟨UInt8.ofNat h, ?_, .inr ?_⟩
              · rw [hd]; unfold dataOf
                rw [if_neg (by omega), if_pos (by omega)]
                simp [leBytes, Nat.mod_eq_of_lt (show h < 256 by omega)]
              · rw [toNat_ofNat8 (by omega)]; exact hh16
          · rw [a3 hl hmin] at hs; cases hs
        · rw [a1 (by omega)] at hs; cases hs
    · rw [hn] at h'; cases h'
      unfold heightOf at hs; rw [hi] at hs; cases hs
    · rw [hn] at h'; cases h'
      unfold heightOf at hs; rw [hi] at hs; cases hs
  · rintro ⟨hh, rest, e⟩
    obtain ⟨he, hm⟩ := heightBytes_enc h hh
    have hne : s ≠ [] := by
      intro c
      rw [c] at e
      exact he.ne_nil (List.append_eq_nil_iff.1 e.symm).1
    obtain ⟨r, rest', tl, hn, hi⟩ := walk_head s hne
    rcases next_cases true s hne with ⟨p, i, rest'', hp, he', hm', h'⟩ | ⟨_, _, h'⟩ | ⟨_, h'⟩
    · rw [hn] at h'
      cases h'
      obtain ⟨hii, _⟩ := enc_unique he' he (hp.symm.trans e)
      subst hii
      unfold instrOf at hi
      by_cases h16 : 0 < h ∧ h ≤ 16
      · rw [if_pos h16] at hi
        rw [heightOf_op s _ tl hi, toNat_ofNat8 (by omega), if_pos (by omega)]
        simp
      · rw [if_neg h16] at hi
        obtain ⟨hl, hv, hmin⟩ := dataOf_spec h hh
        rw [(heightOf_push s _ tl hi).2.1 hl hmin, hv, if_neg (by omega)]
        simp
    · exact absurd hm (h' _ _ _ e he)
    · exact absurd he (h' _ _ _ e)

/-- Reading a height never panics. -/
theorem heightOf_some (s : Bytes) : ∃ r, heightOf s = some r := by
  by_cases hne : s = []
  · subst hne; exact ⟨_, rfl⟩
  obtain ⟨r, rest, tl, hn, hi⟩ := walk_head s hne
  cases r with
  | error e => unfold heightOf; rw [hi]; exact ⟨_, rfl⟩
  | ok i =>
    cases i with
    | op o => exact ⟨_, heightOf_op s o tl hi⟩
    | push d =>
      obtain ⟨a1, a2, a3⟩ := heightOf_push s d tl hi
      by_cases hl : d.length ≤ 4
      · by_cases hmin : NumMinimal d
        · exact ⟨_, a2 hl hmin⟩
        · exact ⟨_, a3 hl hmin⟩
      · exact ⟨_, a1 (by omega)⟩

/-! ## Claims -/

/-- For a validated block the height is never a panic, and it is `h` exactly if the block's version (a signed number) is at least two and
the coinbase script starts with `h` in the form of BIP-34. -/
theorem C78_height (H : Bytes → Arr 32) (b : Block) (w : Option (Arr 32)) (hv : b.validate H = some (.ok w)) :
    ∃ cb i rest, b.txs = cb :: rest ∧ cb.inputs = [i] ∧ (∃ r, blockHeight b = some r) ∧
      ∀ h, blockHeight b = some (.ok h) ↔
        (2 ≤ b.header.version.toNat ∧ b.header.version.toNat < 2 ^ 31) ∧ h < 2 ^ 31 ∧ ∃ t, i.scriptSig = heightBytes h ++ t := by
  unfold Block.validate at hv
  split at hv
  · cases hv
  · rename_i cb rest htx
    by_cases hc : cb.isCoinbase = true
    · have : ∃ i, cb.inputs = [i] := by
        unfold Tx.isCoinbase at hc
        split at hc
        · rename_i i hi; exact ⟨i, hi⟩
        · cases hc
      obtain ⟨i, hi⟩ := this
      have key : blockHeight b = if b.header.version.toBitVec.toInt < 2 then some (.error .unsupported) else heightOf i.scriptSig := by
        unfold blockHeight
        rw [htx]
        simp only [hi]
      have hsig : b.header.version.toBitVec.toInt < 2 ↔ ¬ (2 ≤ b.header.version.toNat ∧ b.header.version.toNat < 2 ^ 31) := by
        rw [BitVec.toInt_eq_toNat_cond]
        have hlt := b.header.version.toNat_lt
        rw [UInt32.toNat_toBitVec]
        split <;> omega
      refine ⟨cb, i, rest, htx, hi, ?_, fun h => ?_⟩
      · rw [key]
        split
        · exact ⟨_, rfl⟩
        · exact heightOf_some _
      · rw [key]
        by_cases hver : b.header.version.toBitVec.toInt < 2
        · rw [if_pos hver]
          constructor
          · intro e; cases e
          · intro e; exact absurd e.1 (hsig.1 hver)
        · rw [if_neg hver, heightOf_ok]
          exact ⟨fun e => ⟨Decidable.not_not.1 (mt hsig.2 hver), e⟩, fun e => e.2⟩
    · rw [if_pos (by simpa using hc)] at hv
      cases hv

/-- A script that starts with a push in a longer form than needed; the data need not be complete. -/
def LongPush (s : Bytes) : Prop :=
  (∃ x t, s = 1 :: x :: t ∧ (x = 0x81 ∨ (0 < x.toNat ∧ x.toNat ≤ 16))) ∨ (∃ n t, s = 0x4c :: (leBytes 1 n ++ t) ∧ n < 76) ∨
  (∃ n t, s = 0x4d :: (leBytes 2 n ++ t) ∧ n < 256) ∨ (∃ n t, s = 0x4e :: (leBytes 4 n ++ t) ∧ n < 65536)

theorem pushLen_long (size m : Nat) (hs : size ≤ 4) (hm : m ≤ 256 ^ size) (tl : Bytes) :
    nextPushDataLen true tl size m = (.error .nonMinimalPush, []) ↔ ∃ n t, tl = leBytes size n ++ t ∧ n < m := by
  constructor
  · intro h
    rcases nextPushDataLen_cases true tl size m hs with ⟨d, rest, _, _, _, hr⟩ | ⟨_, _, hl, hlt⟩ | ⟨hr, _⟩
    · rw [hr] at h; cases h
    · refine ⟨leNat (tl.take size), tl.drop size, ?_, hlt⟩
      rw [leBytes_leNat' size _ (by rw [List.length_take]; omega), List.take_append_drop]
    · rw [hr] at h; cases h
  · rintro ⟨n, t, rfl, hn⟩
    unfold nextPushDataLen
    rw [readPushDataLen_eq, if_neg (by simp), List.take_left' (leBytes_length ..), leNat_leBytes size n (by omega)]
    simp only [true_and, if_pos hn]

theorem next_long (s : Bytes) : next true s = some (.error .nonMinimalPush, []) ↔ LongPush s := by
  cases s with
  | nil => simp [next, LongPush]
  | cons b tl =>
    unfold LongPush
    simp only [List.cons.injEq]
    by_cases hb : b.toNat ≤ 75
    · have e1 : b ≠ 0x4c := by rintro rfl; exact absurd hb (by decide)
      have e2 : b ≠ 0x4d := by rintro rfl; exact absurd hb (by decide)
      have e3 : b ≠ 0x4e := by rintro rfl; exact absurd hb (by decide)
      simp only [e1, e2, e3, false_and, exists_false, or_false]
      rw [next_cons, if_pos hb]
      split
      · rename_i hc
        obtain ⟨_, h1, x, hx, hx'⟩ := hc
        refine ⟨fun _ => ?_, fun _ => rfl⟩
        cases tl with
        | nil => cases hx
        | cons y ys => cases hx; exact ⟨x, ys, ⟨h1, rfl⟩, hx'⟩
      · rename_i hc
        constructor
        · intro h
          exfalso
          unfold takeSliceOrKill at h
          split at h <;> cases h
        · rintro ⟨x, t, ⟨h1, rfl⟩, hx⟩
          exact absurd ⟨rfl, h1, x, rfl, hx⟩ hc
    · have e1 : b ≠ 1 := by rintro rfl; exact hb (by decide)
      simp only [e1, false_and, exists_false, false_or]
      rw [next_cons, if_neg hb]
      by_cases c1 : b = 0x4c
      · subst c1
        rw [if_pos rfl, Option.some.injEq, pushLen_long 1 76 (by omega) (by decide)]
        simp
      rw [if_neg c1]
      by_cases c2 : b = 0x4d
      · subst c2
        rw [if_pos rfl, Option.some.injEq, pushLen_long 2 0x100 (by omega) (by decide)]
        simp
      rw [if_neg c2]
      by_cases c3 : b = 0x4e
      · subst c3
        rw [if_pos rfl, Option.some.injEq, pushLen_long 4 0x10000 (by omega) (by decide)]
        simp
      rw [if_neg c3]
      simp [c1, c2, c3]

theorem next_min {p : Bytes} {i : Instr} (h : Scr.Enc p i) (hm : MinEnc p i) (t : Bytes) : next true (p ++ t) = some (.ok i, t) := by
  rcases next_cases true (p ++ t) (by simp [h.ne_nil]) with ⟨q, j, r, e, hq, _, hn⟩ | ⟨_, _, hno⟩ | ⟨_, hno⟩
  · obtain ⟨rfl, rfl⟩ := enc_unique h hq e
    exact hn
  · exact absurd hm (hno p i t rfl h)
  · exact absurd h (hno p i t rfl)

theorem heightOf_next (s : Bytes) (r : Except ScrErr Instr) (rest : Bytes) (h : next true s = some (r, rest)) : ∃ tl, instructionsMinimal s = r :: tl := by
  have hne : s ≠ [] := by rintro rfl; cases h
  obtain ⟨r', rest', tl, hn, hi⟩ := walk_head s hne
  rw [h] at hn
  cases hn
  exact ⟨tl, hi⟩

/-- The four ways a script can start, and what is made of them. -/
theorem heightOf_long (s : Bytes) (h : LongPush s) : heightOf s = some (.error .nonMinimalPush) := by
  obtain ⟨tl, hi⟩ := heightOf_next s _ _ ((next_long s).2 h)
  unfold heightOf; rw [hi]; rfl
theorem heightOf_enc_op (p : Bytes) (o : UInt8) (t : Bytes) (h : Scr.Enc p (.op o)) :
    heightOf (p ++ t) = some (if 0x51 ≤ o.toNat ∧ o.toNat ≤ 0x60 then .ok (o.toNat - 0x50) else if o = 0x4f then .error .negativeHeight
      else .error .notPresent) := by
  obtain ⟨tl, hi⟩ := heightOf_next _ _ _ (next_min h trivial t)
  exact heightOf_op _ o tl hi
theorem heightOf_enc_push (p d t : Bytes) (h : Scr.Enc p (.push d)) (hm : MinEnc p (.push d)) :
    (4 < d.length → heightOf (p ++ t) = some (.error .notPresent)) ∧
    (d.length ≤ 4 → NumMinimal d → heightOf (p ++ t) = some (if numVal d < 0 then .error .negativeHeight else .ok (numVal d).toNat)) ∧
    (d.length ≤ 4 → ¬ NumMinimal d → heightOf (p ++ t) = some (.error .nonMinimalPush)) := by
  obtain ⟨tl, hi⟩ := heightOf_next _ _ _ (next_min h hm t)
  exact heightOf_push _ d tl hi
theorem start_cases (s : Bytes) : LongPush s ∨ (∃ p o t, s = p ++ t ∧ Scr.Enc p (.op o)) ∨
    (∃ p d t, s = p ++ t ∧ Scr.Enc p (.push d) ∧ MinEnc p (.push d)) ∨ (¬ LongPush s ∧ ∀ p i t, s = p ++ t → ¬ Scr.Enc p i) := by
  by_cases hl : LongPush s
  · exact .inl hl
  by_cases hne : s = []
  · subst hne
    exact .inr (.inr (.inr ⟨hl, fun p i t e he => he.ne_nil (List.append_eq_nil_iff.1 e.symm).1⟩))
  rcases next_cases true s hne with ⟨p, i, t, e, he, hm, _⟩ | ⟨_, hx, _⟩ | ⟨_, hno⟩
  · cases i with
    | op o => exact .inr (.inl ⟨p, o, t, e, he⟩)
    | push d => exact .inr (.inr (.inl ⟨p, d, t, e, he, hm rfl⟩))
  · exact absurd ((next_long s).1 hx) hl
  · exact .inr (.inr (.inr ⟨hl, hno⟩))
theorem heightOf_none (s : Bytes) (hl : ¬ LongPush s) (hno : ∀ p i t, s = p ++ t → ¬ Scr.Enc p i) : heightOf s = some (.error .notPresent) := by
  by_cases hne : s = []
  · subst hne; rfl
  rcases next_cases true s hne with ⟨p, i, t, e, he, _⟩ | ⟨_, hx, _⟩ | ⟨hx, _⟩
  · exact absurd he (hno p i t e)
  · exact absurd ((next_long s).1 hx) hl
  · obtain ⟨tl, hi⟩ := heightOf_next _ _ _ hx
    unfold heightOf; rw [hi]; rfl

/-- Which error a validated block gives.  The version is a signed number below two; or the script starts with a push in a longer form
than needed, or of up to four bytes that are not a minimal number; or it starts with OP_1NEGATE or a minimal push of a negative number
of up to four bytes; or else it has no complete first instruction, or a first instruction that is no number: another opcode or a push
of more than four bytes. -/
theorem C78_errors (H : Bytes → Arr 32) (b : Block) (w : Option (Arr 32)) (hv : b.validate H = some (.ok w)) :
    ∃ cb i rest, b.txs = cb :: rest ∧ cb.inputs = [i] ∧
      (blockHeight b = some (.error .unsupported) ↔ ¬ (2 ≤ b.header.version.toNat ∧ b.header.version.toNat < 2 ^ 31)) ∧
      ((2 ≤ b.header.version.toNat ∧ b.header.version.toNat < 2 ^ 31) →
        (blockHeight b = some (.error .nonMinimalPush) ↔ LongPush i.scriptSig ∨ ∃ p d t, i.scriptSig = p ++ t ∧ Scr.Enc p (.push d) ∧
          MinEnc p (.push d) ∧ d.length ≤ 4 ∧ ¬ NumMinimal d) ∧
        (blockHeight b = some (.error .negativeHeight) ↔ (∃ t, i.scriptSig = 0x4f :: t) ∨ ∃ p d t, i.scriptSig = p ++ t ∧
          Scr.Enc p (.push d) ∧ MinEnc p (.push d) ∧ d.length ≤ 4 ∧ NumMinimal d ∧ numVal d < 0) ∧
        (blockHeight b = some (.error .notPresent) ↔
          (¬ LongPush i.scriptSig ∧ ∀ p j t, i.scriptSig = p ++ t → ¬ Scr.Enc p j) ∨
          (∃ o t, i.scriptSig = o :: t ∧ (o.toNat = 0x50 ∨ 0x60 < o.toNat)) ∨
          ∃ p d t, i.scriptSig = p ++ t ∧ Scr.Enc p (.push d) ∧ MinEnc p (.push d) ∧ 4 < d.length)) := by
  obtain ⟨cb, i, rest, htx, hi, -⟩ := C78_height H b w hv
  have key : blockHeight b = if b.header.version.toBitVec.toInt < 2 then some (.error .unsupported) else heightOf i.scriptSig := by
    unfold blockHeight
    rw [htx]
    simp only [hi]
  have hsig : b.header.version.toBitVec.toInt < 2 ↔ ¬ (2 ≤ b.header.version.toNat ∧ b.header.version.toNat < 2 ^ 31) := by
    rw [BitVec.toInt_eq_toNat_cond]
    have hlt := b.header.version.toNat_lt
    rw [UInt32.toNat_toBitVec]
    split <;> omega
  refine ⟨cb, i, rest, htx, hi, ?_⟩
  generalize i.scriptSig = s at key
  have opform : ∀ p o, Scr.Enc p (.op o) → p = [o] ∧ 78 < o.toNat := fun p o h => by cases h with | op _ h => exact ⟨rfl, h⟩
  have n4f : ∀ o : UInt8, o = 0x4f ↔ o.toNat = 0x4f := fun o => ⟨fun h => by rw [h]; rfl, fun h => UInt8.toNat_inj.1 h⟩
  refine ⟨?_, fun hver => ?_⟩
  · rw [key]
    by_cases hb : b.header.version.toBitVec.toInt < 2
    · rw [if_pos hb]
      exact ⟨fun _ => hsig.1 hb, fun _ => rfl⟩
    · rw [if_neg hb]
      refine ⟨fun h => ?_, fun h => absurd (hsig.2 h) hb⟩
      exfalso
      rcases start_cases s with hl | ⟨p, o, t, rfl, he⟩ | ⟨p, d, t, rfl, he, hm⟩ | ⟨hl, hno⟩
      · rw [heightOf_long s hl] at h; cases h
      · rw [heightOf_enc_op p o t he] at h; split at h; · cases h
        split at h <;> cases h
      · obtain ⟨h1, h2, h3⟩ := heightOf_enc_push p d t he hm
        by_cases hl : d.length ≤ 4
        · by_cases hmin : NumMinimal d
          · rw [h2 hl hmin] at h; split at h <;> cases h
          · rw [h3 hl hmin] at h; cases h
        · rw [h1 (by omega)] at h; cases h
      · rw [heightOf_none s hl hno] at h; cases h
  · rw [if_neg (fun hb => hsig.1 hb hver)] at key
    rw [key]
    refine ⟨⟨fun h => ?_, ?_⟩, ⟨fun h => ?_, ?_⟩, ⟨fun h => ?_, ?_⟩⟩
    · rcases start_cases s with hl | ⟨p, o, t, rfl, he⟩ | ⟨p, d, t, rfl, he, hm⟩ | ⟨hl, hno⟩
      · exact .inl hl
      · rw [heightOf_enc_op p o t he] at h; split at h; · cases h
        split at h <;> cases h
      · obtain ⟨h1, h2, h3⟩ := heightOf_enc_push p d t he hm
        by_cases hl : d.length ≤ 4
        · by_cases hmin : NumMinimal d
          · rw [h2 hl hmin] at h; split at h <;> cases h
          · exact .inr ⟨p, d, t, rfl, he, hm, hl, hmin⟩
        · rw [h1 (by omega)] at h; cases h
      · rw [heightOf_none s hl hno] at h; cases h
    · rintro (hl | ⟨p, d, t, rfl, he, hm, hl, hmin⟩)
      · exact heightOf_long s hl
      · exact (heightOf_enc_push p d t he hm).2.2 hl hmin
    · rcases start_cases s with hl | ⟨p, o, t, rfl, he⟩ | ⟨p, d, t, rfl, he, hm⟩ | ⟨hl, hno⟩
      · rw [heightOf_long s hl] at h; cases h
      · obtain ⟨rfl, ho⟩ := opform p o he
        rw [heightOf_enc_op _ o t he] at h
        split at h; · cases h
        split at h
        · rename_i h4; exact .inl ⟨t, by rw [h4]; rfl⟩
        · cases h
      · obtain ⟨h1, h2, h3⟩ := heightOf_enc_push p d t he hm
        by_cases hl : d.length ≤ 4
        · by_cases hmin : NumMinimal d
          · rw [h2 hl hmin] at h
            split at h
            · rename_i hneg; exact .inr ⟨p, d, t, rfl, he, hm, hl, hmin, hneg⟩
            · cases h
          · rw [h3 hl hmin] at h; cases h
        · rw [h1 (by omega)] at h; cases h
      · rw [heightOf_none s hl hno] at h; cases h
    · rintro (⟨t, rfl⟩ | ⟨p, d, t, rfl, he, hm, hl, hmin, hneg⟩)
      · have := heightOf_enc_op [0x4f] 0x4f t (.op _ (by decide))
        rw [if_neg (by decide), if_pos rfl] at this
        exact this
      · rw [(heightOf_enc_push p d t he hm).2.1 hl hmin, if_pos hneg]
    · rcases start_cases s with hl | ⟨p, o, t, rfl, he⟩ | ⟨p, d, t, rfl, he, hm⟩ | ⟨hl, hno⟩
      · rw [heightOf_long s hl] at h; cases h
      · obtain ⟨rfl, ho⟩ := opform p o he
        rw [heightOf_enc_op _ o t he] at h
        split at h; · cases h
        split at h
        · cases h
        · rename_i h1 h2
          rw [n4f] at h2
          exact .inr (.inl ⟨o, t, rfl, by omega⟩)
      · obtain ⟨h1, h2, h3⟩ := heightOf_enc_push p d t he hm
        by_cases hl : d.length ≤ 4
        · by_cases hmin : NumMinimal d
          · rw [h2 hl hmin] at h; split at h <;> cases h
          · rw [h3 hl hmin] at h; cases h
        · exact .inr (.inr ⟨p, d, t, rfl, he, hm, by omega⟩)
      · exact .inl ⟨hl, hno⟩
    · rintro (⟨hl, hno⟩ | ⟨o, t, rfl, ho⟩ | ⟨p, d, t, rfl, he, hm, hl⟩)
      · exact heightOf_none s hl hno
      · have := heightOf_enc_op [o] o t (.op _ (by omega))
        rw [if_neg (by omega), if_neg (by rw [n4f]; omega)] at this
        exact this
      · exact (heightOf_enc_push p d t he hm).1 hl

/-- A block has at most one height: no two heights are written by prefixes of the same script. -/
theorem C78_unique (a b : Nat) (ha : a < 2 ^ 31) (hb : b < 2 ^ 31) (r s : Bytes) (h : heightBytes a ++ r = heightBytes b ++ s) : a = b ∧ r = s := by
  have h1 := (heightOf_ok _ a).2 ⟨ha, r, rfl⟩
  have h2 := (heightOf_ok _ b).2 ⟨hb, s, h⟩
  rw [h1] at h2
  cases h2
  exact ⟨rfl, List.append_cancel_left h⟩

/-- The library's own builder writes heights in that form. -/
theorem C78_builder (h : Nat) (hh : h < 2 ^ 31) : pushIntUnchecked [] h = some (heightBytes h) := by
  unfold pushIntUnchecked
  rw [if_neg (by omega)]
  by_cases h0 : h = 0
  · subst h0; rfl
  · rw [if_neg (by omega)]
    by_cases h16 : h ≤ 16
    · rw [if_pos (by omega)]
      unfold heightBytes
      rw [if_neg h0, if_pos h16]
      simp only [pushOpcode, List.nil_append, Option.some.injEq, List.cons.injEq, and_true]
      apply UInt8.toNat_inj.1
      rw [toNat_ofNat8 (by omega), UInt8.toNat_add, UInt8.toNat_ofNat']
      simp [OP_1]
      omega
    · rw [if_neg (by omega)]
      obtain ⟨w, hw, hv, hm⟩ := (C34_write (h : Int) ⟨by omega, by omega⟩).1 (by omega)
      obtain ⟨_, hv', hm'⟩ := dataOf_spec h hh
      unfold pushIntNonMinimal
      rw [hw, numMinimal_unique _ _ hm hm' (hv.trans hv'.symm), heightBytes_push h hh (by omega)]
      rfl

/-! ## Examples -/

/-- Block 227836 (the first with a height that had to be right), height 16, height 128 with its sign byte. -/
example : heightBytes 227836 = [3, 0xfc, 0x79, 0x03] ∧ heightBytes 16 = [0x60] ∧ heightBytes 128 = [2, 0x80, 0] := by decide
example : heightOf [3, 0xfc, 0x79, 0x03, 0xff, 0xee] = some (.ok 227836) := (heightOf_ok _ _).2 ⟨by decide, [0xff, 0xee], rfl⟩
example : heightOf [0x4f] = some (.error .negativeHeight) ∧ heightOf [1, 16] = some (.error .nonMinimalPush) ∧
    heightOf [0x4c, 5] = some (.error .nonMinimalPush) ∧ heightOf [0x4c, 80] = some (.error .notPresent) ∧
    heightOf [0x76] = some (.error .notPresent) ∧ heightOf [2, 1, 0] = some (.error .nonMinimalPush) := ⟨rfl, rfl, rfl, rfl, rfl, rfl⟩

end Bip34
end Btc
