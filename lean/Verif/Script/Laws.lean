import Verif.Script.Script
/-!
# Laws of the instruction iterator
-/
namespace Btc
namespace Scr

/-- Complete case analysis over the 256 opcodes. -/
theorem forall_u8 {p : UInt8 → Prop} [DecidablePred p] (h : ∀ i : Fin 256, p (UInt8.ofNat i.val)) : ∀ x, p x := by
  intro x
  have := h ⟨x.toNat, x.toNat_lt⟩
  simpa using this

set_option maxRecDepth 8000 in
/-- What `Instructions::next` needs to know about `classify`. -/
theorem classify_legacy : ∀ op : UInt8,
    (op.toNat ≤ 75 → classify op .legacy = .pushBytes op.toNat) ∧
    ((op = 0x4c ∨ op = 0x4d ∨ op = 0x4e) → classify op .legacy = .ordinary op) ∧
    (78 < op.toNat → (match classify op .legacy with
      | .pushBytes _ => false
      | .unreachable => false
      | .ordinary o => o == op
      | _ => true) = true) := by
  apply forall_u8
  decide

theorem pushHeader_eq (n : Nat) : pushHeader n =
    if n < 76 then [UInt8.ofNat n]
    else if n < 256 then [0x4c, UInt8.ofNat n]
    else if n < 65536 then [0x4d, UInt8.ofNat (n % 256), UInt8.ofNat (n / 256)]
    else [0x4e, UInt8.ofNat (n % 256), UInt8.ofNat (n / 256 % 256), UInt8.ofNat (n / 65536 % 256),
      UInt8.ofNat (n / 16777216)] := rfl

/-- The byte strings that encode one instruction. -/
inductive Enc : Bytes → Instr → Prop where
  | direct (d : Bytes) (h : d.length ≤ 75) : Enc (UInt8.ofNat d.length :: d) (.push d)
  | pushdata1 (d : Bytes) (h : d.length < 256) : Enc (0x4c :: (leBytes 1 d.length ++ d)) (.push d)
  | pushdata2 (d : Bytes) (h : d.length < 256 ^ 2) : Enc (0x4d :: (leBytes 2 d.length ++ d)) (.push d)
  | pushdata4 (d : Bytes) (h : d.length < 256 ^ 4) : Enc (0x4e :: (leBytes 4 d.length ++ d)) (.push d)
  | op (o : UInt8) (h : 78 < o.toNat) : Enc [o] (.op o)

theorem Enc.ne_nil {p : Bytes} {i : Instr} (h : Enc p i) : p ≠ [] := by cases h <;> simp

theorem fold_leNat (items : Bytes) : ∀ (k ret : Nat), ret < 2 ^ (k * 8) →
    (items.zipIdx k).foldl (fun ret (item, i) => ret ||| (item.toNat <<< (i * 8))) ret =
      ret + 2 ^ (k * 8) * leNat items := by
  induction items with
  | nil => intro k ret _; simp [leNat]
  | cons b bs ih =>
    intro k ret h
    have hb := b.toNat_lt
    rw [List.zipIdx_cons, List.foldl_cons]
    have e : ret ||| b.toNat <<< (k * 8) = ret + 2 ^ (k * 8) * b.toNat := by
      rw [Nat.shiftLeft_eq, Nat.mul_comm b.toNat, Nat.or_comm, ← Nat.two_pow_add_eq_or_of_lt h, Nat.add_comm]
    have hp : 2 ^ ((k + 1) * 8) = 2 ^ (k * 8) * 256 := by rw [Nat.add_mul, Nat.pow_add]
    have hlt : ret + 2 ^ (k * 8) * b.toNat < 2 ^ ((k + 1) * 8) := by
      rw [hp]
      have : 2 ^ (k * 8) * (b.toNat + 1) ≤ 2 ^ (k * 8) * 256 := Nat.mul_le_mul_left _ (by omega)
      rw [Nat.mul_add] at this
      omega
    show ((bs.zipIdx (k + 1)).foldl _ (ret ||| b.toNat <<< (k * 8))) = _
    rw [e, ih (k + 1) _ hlt, hp, leNat, Nat.mul_add, Nat.mul_assoc, Nat.add_assoc]

theorem readPushDataLen_eq (data : Bytes) (size : Nat) : readPushDataLen data size =
    if data.length < size then none else some (leNat (data.take size), data.drop size) := by
  unfold readPushDataLen
  by_cases h : data.length < size
  · rw [if_pos h, if_pos h]
  · rw [if_neg h, if_neg h, fold_leNat _ 0 0 (by simp)]
    simp

/-- One unfolding of `next`, without `classify`. -/
theorem next_cons (minimal : Bool) (b : UInt8) (rest : Bytes) : next minimal (b :: rest) =
    if b.toNat ≤ 75 then
      if minimal = true ∧ b = 1 ∧ (∃ x, rest.head? = some x ∧ (x = 0x81 ∨ (0 < x.toNat ∧ x.toNat ≤ 16))) then
        some (.error .nonMinimalPush, [])
      else some (takeSliceOrKill rest b.toNat)
    else if b = 0x4c then some (nextPushDataLen minimal rest 1 76)
    else if b = 0x4d then some (nextPushDataLen minimal rest 2 0x100)
    else if b = 0x4e then some (nextPushDataLen minimal rest 4 0x10000)
    else some (.ok (.op b), rest) := by
  obtain ⟨h1, h2, h3⟩ := classify_legacy b
  unfold next
  by_cases hb : b.toNat ≤ 75
  · rw [if_pos hb]
    simp only [h1 hb]
    have b1 : b = 1 ↔ b.toNat = 1 := by rw [← UInt8.toNat_inj]; exact Iff.rfl
    have range : ∀ x : UInt8, (x > 0 ∧ x ≤ 16) ↔ (0 < x.toNat ∧ x.toNat ≤ 16) := fun x => by
      rw [gt_iff_lt, UInt8.lt_iff_toNat_lt, UInt8.le_iff_toNat_le]; exact Iff.rfl
    generalize b.toNat = n at b1 hb
    split
    · rename_i x tl
      simp only [List.head?_cons]
      have : b = 1 := b1.2 rfl
      by_cases hc : x = 0x81 ∨ x > 0 ∧ x ≤ 16
      · rw [if_pos hc, if_pos ⟨by trivial, this, x, rfl, by rw [range] at hc; exact hc⟩]
      · rw [if_neg hc, if_neg]
        rintro ⟨_, _, y, hy, hh⟩
        cases hy
        rw [← range] at hh
        exact hc hh
    · rw [if_neg (by rintro ⟨_, _, y, hy, _⟩; cases hy)]
      rfl
    · rename_i hn1 hn2
      rw [if_neg]
      rintro ⟨hm, hb1, y, hy, _⟩
      cases rest with
      | nil => cases hy
      | cons z zs =>
        first
        | exact hn1 z zs hm rfl (b1.1 hb1)
        | exact hn2 z zs hm rfl (b1.1 hb1)
  · rw [if_neg hb]
    by_cases c1 : b = 0x4c
    · subst c1; rfl
    · by_cases c2 : b = 0x4d
      · subst c2; rfl
      · by_cases c3 : b = 0x4e
        · subst c3; rfl
        · rw [if_neg c1, if_neg c2, if_neg c3]
          have hgt : 78 < b.toNat := by
            have e1 : b.toNat ≠ 76 := fun e => c1 (UInt8.toNat_inj.1 e)
            have e2 : b.toNat ≠ 77 := fun e => c2 (UInt8.toNat_inj.1 e)
            have e3 : b.toNat ≠ 78 := fun e => c3 (UInt8.toNat_inj.1 e)
            omega
          have h3 := h3 hgt
          cases hc : classify b .legacy <;> simp only [hc, Bool.false_eq_true, beq_iff_eq] at h3 ⊢
          · rw [h3]
            exact (if_neg c1).trans ((if_neg c2).trans (if_neg c3))

theorem takeSliceOrKill_of_le {data : Bytes} {n : Nat} (h : n ≤ data.length) :
    takeSliceOrKill data n = (.ok (.push (data.take n)), data.drop n) := if_pos h
theorem takeSliceOrKill_of_lt {data : Bytes} {n : Nat} (h : data.length < n) :
    takeSliceOrKill data n = (.error .earlyEndOfScript, []) := if_neg (by omega)

theorem takeSliceOrKill_append (d rest : Bytes) : takeSliceOrKill (d ++ rest) d.length = (.ok (.push d), rest) := by
  rw [takeSliceOrKill_of_le (by simp)]; simp

theorem nextPushDataLen_append (minimal : Bool) (size minLen : Nat) (hs : size ≤ 4) (d rest : Bytes)
    (hd : d.length < 256 ^ size) (hm : minimal = true → minLen ≤ d.length) :
    nextPushDataLen minimal (leBytes size d.length ++ d ++ rest) size minLen = (.ok (.push d), rest) := by
  unfold nextPushDataLen
  rw [readPushDataLen_eq, if_neg (by simp only [List.length_append, leBytes_length]; omega)]
  simp only []
  rw [List.append_assoc, List.take_left' (leBytes_length ..), List.drop_left' (leBytes_length ..),
    leNat_leBytes _ _ hd]
  have hlt : d.length < 2 ^ 32 := Nat.lt_of_lt_of_le hd (by
    calc 256 ^ size ≤ 256 ^ 4 := Nat.pow_le_pow_right (by omega) hs
      _ = 2 ^ 32 := by decide)
  rw [if_neg (by rintro ⟨h, h'⟩; have := hm h; omega), if_pos hlt, takeSliceOrKill_append]

/-- Minimality of an encoding as the minimal iterator sees it. -/
def MinEnc (p : Bytes) : Instr → Prop
  | .op _ => True
  | .push d => p = pushHeader d.length ++ d ∧
      ¬ ∃ x, d = [x] ∧ (x = 0x81 ∨ (0 < x.toNat ∧ x.toNat ≤ 16))

theorem ofNat_toNat8 (b : UInt8) : UInt8.ofNat b.toNat = b := by simp

theorem toNat_ofNat8 {n : Nat} (h : n < 256) : (UInt8.ofNat n).toNat = n := by
  rw [UInt8.toNat_ofNat']; omega

/-- Encodings are read back, whatever follows. -/
theorem next_of_enc {p : Bytes} {i : Instr} (h : Enc p i) (rest : Bytes) :
    next false (p ++ rest) = some (.ok i, rest) := by
  cases h with
  | direct d h =>
    rw [List.cons_append, next_cons, toNat_ofNat8 (by omega), if_pos h, if_neg (by simp), takeSliceOrKill_append]
  | pushdata1 d h =>
    rw [List.cons_append, next_cons, if_neg (by decide), if_pos rfl,
      nextPushDataLen_append _ _ _ (by omega) _ _ h (by simp)]
  | pushdata2 d h =>
    rw [List.cons_append, next_cons, if_neg (by decide), if_neg (by decide), if_pos rfl,
      nextPushDataLen_append _ _ _ (by omega) _ _ h (by simp)]
  | pushdata4 d h =>
    rw [List.cons_append, next_cons, if_neg (by decide), if_neg (by decide), if_neg (by decide), if_pos rfl,
      nextPushDataLen_append _ _ _ (by omega) _ _ h (by simp)]
  | op o h =>
    rw [List.cons_append, next_cons, if_neg (by omega), if_neg, if_neg, if_neg]
    · rfl
    all_goals (rintro rfl; revert h; decide)

/-- What a length-prefixed push can return. -/
theorem nextPushDataLen_cases (minimal : Bool) (data : Bytes) (size minLen : Nat) (hs : size ≤ 4) :
    (∃ d rest, data = leBytes size d.length ++ d ++ rest ∧ d.length < 256 ^ size ∧
      (minimal = true → minLen ≤ d.length) ∧ nextPushDataLen minimal data size minLen = (.ok (.push d), rest)) ∨
    (minimal = true ∧ nextPushDataLen minimal data size minLen = (.error .nonMinimalPush, []) ∧
      size ≤ data.length ∧ leNat (data.take size) < minLen) ∨
    (nextPushDataLen minimal data size minLen = (.error .earlyEndOfScript, []) ∧
      (size ≤ data.length → data.length < size + leNat (data.take size))) := by
  unfold nextPushDataLen
  rw [readPushDataLen_eq]
  by_cases hl : data.length < size
  · rw [if_pos hl]
    exact .inr (.inr ⟨rfl, fun h => by omega⟩)
  · rw [if_neg hl]
    simp only []
    have hlt := leNat_lt (data.take size)
    rw [List.length_take, Nat.min_eq_left (by omega)] at hlt
    have hlt32 : leNat (data.take size) < 2 ^ 32 := Nat.lt_of_lt_of_le hlt (by
      calc 256 ^ size ≤ 256 ^ 4 := Nat.pow_le_pow_right (by omega) hs
        _ = 2 ^ 32 := by decide)
    by_cases hm : minimal = true ∧ leNat (data.take size) < minLen
    · rw [if_pos hm]
      exact .inr (.inl ⟨hm.1, rfl, by omega, hm.2⟩)
    · rw [if_neg hm, if_pos hlt32]
      by_cases hd : leNat (data.take size) ≤ (data.drop size).length
      · refine .inl ⟨(data.drop size).take (leNat (data.take size)), (data.drop size).drop (leNat (data.take size)),
          ?_, ?_, ?_, takeSliceOrKill_of_le hd⟩
        · have : ((data.drop size).take (leNat (data.take size))).length = leNat (data.take size) := by
            rw [List.length_take]; omega
          rw [this, leBytes_leNat' size _ (by rw [List.length_take]; omega), List.append_assoc, List.take_append_drop,
            List.take_append_drop]
        · rw [List.length_take]; omega
        · intro h
          rw [List.length_take]
          have : ¬ leNat (data.take size) < minLen := fun c => hm ⟨h, c⟩
          omega
      · refine .inr (.inr ⟨takeSliceOrKill_of_lt (by omega), fun _ => ?_⟩)
        rw [List.length_drop] at hd
        omega

/-- **Exhaustive description of one step of the iterator.** -/
theorem next_cases (minimal : Bool) (data : Bytes) (hne : data ≠ []) :
    (∃ p i rest, data = p ++ rest ∧ Enc p i ∧ (minimal = true → MinEnc p i) ∧ next minimal data = some (.ok i, rest)) ∨
    (minimal = true ∧ next minimal data = some (.error .nonMinimalPush, []) ∧
      ∀ p i rest, data = p ++ rest → Enc p i → ¬ MinEnc p i) ∨
    (next minimal data = some (.error .earlyEndOfScript, []) ∧ ∀ p i rest, data = p ++ rest → ¬ Enc p i) := by
  cases data with
  | nil => exact absurd rfl hne
  | cons b tl =>
    -- a parse of the whole input determines the result of the plain iterator
    have uniq : ∀ p i rest, b :: tl = p ++ rest → Enc p i → next false (b :: tl) = some (.ok i, rest) := by
      intro p i rest e he
      rw [e]; exact next_of_enc he rest
    have noparse : next false (b :: tl) = some (.error .earlyEndOfScript, []) →
        ∀ p i rest, b :: tl = p ++ rest → ¬ Enc p i := by
      intro h p i rest e he
      rw [uniq p i rest e he] at h
      cases h
    by_cases hb : b.toNat ≤ 75
    · by_cases hlen : b.toNat ≤ tl.length
      · have htl : (tl.take b.toNat).length = b.toNat := by rw [List.length_take]; omega
        have hdir : Enc (b :: tl.take b.toNat) (.push (tl.take b.toNat)) := by
          have := Enc.direct (tl.take b.toNat) (by omega)
          rwa [htl, ofNat_toNat8] at this
        have hsplit : b :: tl = (b :: tl.take b.toNat) ++ tl.drop b.toNat := by
          rw [List.cons_append, List.take_append_drop]
        by_cases hm : minimal = true ∧ b = 1 ∧ (∃ x, tl.head? = some x ∧ (x = 0x81 ∨ (0 < x.toNat ∧ x.toNat ≤ 16)))
        · refine .inr (.inl ⟨hm.1, by rw [next_cons, if_pos hb, if_pos hm], ?_⟩)
          intro p i rest e he hmin
          have hu := uniq p i rest e he
          rw [uniq _ _ _ hsplit hdir] at hu
          cases hu
          obtain ⟨_, hb1, x, hx, hx'⟩ := hm
          apply hmin.2
          refine ⟨x, ?_, hx'⟩
          subst hb1
          cases tl with
          | nil => cases hx
          | cons y ys => cases hx; rfl
        · refine .inl ⟨_, _, _, hsplit, hdir, ?_, ?_⟩
          · intro hmin
            refine ⟨?_, ?_⟩
            · rw [pushHeader_eq]
              rw [htl, if_pos (show b.toNat < 76 by omega), ofNat_toNat8]
              rfl
            · rintro ⟨x, hx, hx'⟩
              apply hm
              have hb1 : b.toNat = 1 := by rw [← htl, hx]; rfl
              refine ⟨hmin, UInt8.toNat_inj.1 hb1, x, ?_, hx'⟩
              rw [hb1] at hx
              cases tl with
              | nil => cases hx
              | cons y ys => simp only [List.take_succ_cons, List.take_zero, List.cons.injEq, and_true] at hx; rw [hx]; rfl
          · rw [next_cons, if_pos hb, if_neg hm, takeSliceOrKill_of_le hlen]
      · have hne : ∀ m, next m (b :: tl) = some (.error .earlyEndOfScript, []) ∨
            (m = true ∧ b = 1 ∧ (∃ x, tl.head? = some x ∧ (x = 0x81 ∨ (0 < x.toNat ∧ x.toNat ≤ 16)))) := by
          intro m
          by_cases hm : m = true ∧ b = 1 ∧ (∃ x, tl.head? = some x ∧ (x = 0x81 ∨ (0 < x.toNat ∧ x.toNat ≤ 16)))
          · exact .inr hm
          · left
            rw [next_cons, if_pos hb, if_neg hm, takeSliceOrKill_of_lt (by omega)]
        rcases hne minimal with h | ⟨_, hb1, x, hx, _⟩
        · refine .inr (.inr ⟨h, noparse ?_⟩)
          rcases hne false with h' | ⟨h', _⟩
          · exact h'
          · cases h'
        · exfalso
          subst hb1
          cases tl with
          | nil => cases hx
          | cons y ys => simp at hlen
    · -- the three length-prefixed forms share one argument
      have pd : ∀ (size minLen : Nat), size ≤ 4 →
          (∀ m, next m (b :: tl) = some (nextPushDataLen m tl size minLen)) →
          (∀ d : Bytes, d.length < 256 ^ size → Enc (b :: (leBytes size d.length ++ d)) (.push d)) →
          (∀ d : Bytes, d.length < 256 ^ size → minLen ≤ d.length → MinEnc (b :: (leBytes size d.length ++ d)) (.push d)) →
          (∀ d : Bytes, d.length < minLen → (pushHeader d.length ++ d).length < (b :: (leBytes size d.length ++ d)).length) →
          (∃ p i rest, b :: tl = p ++ rest ∧ Enc p i ∧ (minimal = true → MinEnc p i) ∧ next minimal (b :: tl) = some (.ok i, rest)) ∨
          (minimal = true ∧ next minimal (b :: tl) = some (.error .nonMinimalPush, []) ∧
            ∀ p i rest, b :: tl = p ++ rest → Enc p i → ¬ MinEnc p i) ∨
          (next minimal (b :: tl) = some (.error .earlyEndOfScript, []) ∧ ∀ p i rest, b :: tl = p ++ rest → ¬ Enc p i) := by
        intro size minLen hs hnext henc hmin hshort
        rcases nextPushDataLen_cases minimal tl size minLen hs with
          ⟨d, rest, e, hd, hm, hr⟩ | ⟨hm, hr, hl, hlt⟩ | ⟨hr, hl⟩
        · refine .inl ⟨_, _, rest, ?_, henc d hd, fun h => hmin d hd (hm h), by rw [hnext, hr]⟩
          rw [e, List.cons_append]
        · refine .inr (.inl ⟨hm, by rw [hnext, hr], ?_⟩)
          intro p i rest e he hmin'
          have hu := uniq p i rest e he
          rw [hnext false] at hu
          rcases nextPushDataLen_cases false tl size minLen hs with
            ⟨d, rest', e', hd, _, hr'⟩ | ⟨hm', _⟩ | ⟨hr', _⟩
          · rw [hr'] at hu
            cases hu
            have hdl : leNat (tl.take size) = d.length := by
              rw [e', List.append_assoc, List.take_left' (leBytes_length ..), leNat_leBytes _ _ hd]
            rw [hdl] at hlt
            have hp : p = b :: (leBytes size d.length ++ d) := by
              have : p ++ rest = (b :: (leBytes size d.length ++ d)) ++ rest := by
                rw [← e, e', List.cons_append]
              exact List.append_cancel_right this
            have := hshort d hlt
            rw [← hmin'.1, hp] at this
            omega
          · cases hm'
          · rw [hr'] at hu; cases hu
        · refine .inr (.inr ⟨by rw [hnext, hr], noparse ?_⟩)
          rw [hnext false]
          rcases nextPushDataLen_cases false tl size minLen hs with
            ⟨d, rest', e', hd, _, hr'⟩ | ⟨hm', _⟩ | ⟨hr', _⟩
          · exfalso
            have hdl : leNat (tl.take size) = d.length := by
              rw [e', List.append_assoc, List.take_left' (leBytes_length ..), leNat_leBytes _ _ hd]
            have hlen : tl.length = size + d.length + rest'.length := by
              rw [e']; simp only [List.length_append, leBytes_length]
            have := hl (by omega)
            omega
          · cases hm'
          · rw [hr']
      have notspecial : ∀ d : Bytes, 76 ≤ d.length → ¬ ∃ x, d = [x] ∧ (x = 0x81 ∨ (0 < x.toNat ∧ x.toNat ≤ 16)) := by
        rintro d h ⟨x, rfl, _⟩
        simp at h
      have hdr : ∀ n, (pushHeader n).length = if n < 76 then 1 else if n < 256 then 2 else if n < 65536 then 3 else 5 := by
        intro n
        rw [pushHeader_eq]
        by_cases h1 : n < 76
        · rw [if_pos h1, if_pos h1]; rfl
        · rw [if_neg h1, if_neg h1]
          by_cases h2 : n < 256
          · rw [if_pos h2, if_pos h2]; rfl
          · rw [if_neg h2, if_neg h2]
            by_cases h3 : n < 65536
            · rw [if_pos h3, if_pos h3]; rfl
            · rw [if_neg h3, if_neg h3]; rfl
      by_cases c1 : b = 0x4c
      · subst c1
        refine pd 1 76 (by omega) (fun m => by rw [next_cons, if_neg hb, if_pos rfl]) (fun d h => .pushdata1 d h) ?_ ?_
        · intro d hd hge
          refine ⟨?_, notspecial d hge⟩
          rw [pushHeader_eq]
          rw [if_neg (show ¬ d.length < 76 by omega), if_pos (show d.length < 0x100 by omega)]
          simp only [leBytes, List.cons_append, List.nil_append]
          rw [Nat.mod_eq_of_lt (by omega)]
        · intro d hd
          simp only [List.length_append, List.length_cons, leBytes_length, hdr, if_pos hd]
          omega
      · by_cases c2 : b = 0x4d
        · subst c2
          refine pd 2 256 (by omega) (fun m => by rw [next_cons, if_neg hb, if_neg (by decide), if_pos rfl])
            (fun d h => .pushdata2 d h) ?_ ?_
          · intro d hd hge
            refine ⟨?_, notspecial d (by omega)⟩
            rw [pushHeader_eq]
            rw [if_neg (show ¬ d.length < 76 by omega), if_neg (show ¬ d.length < 0x100 by omega),
              if_pos (show d.length < 0x10000 by omega)]
            simp only [leBytes, List.cons_append, List.nil_append]
            rw [Nat.mod_eq_of_lt (show d.length / 256 < 256 by omega)]
          · intro d hd
            simp only [List.length_append, List.length_cons, leBytes_length, hdr]
            split
            · omega
            · omega
        · by_cases c3 : b = 0x4e
          · subst c3
            refine pd 4 65536 (by omega)
              (fun m => by rw [next_cons, if_neg hb, if_neg (by decide), if_neg (by decide), if_pos rfl])
              (fun d h => .pushdata4 d h) ?_ ?_
            · intro d hd hge
              refine ⟨?_, notspecial d (by omega)⟩
              rw [pushHeader_eq]
              rw [if_neg (show ¬ d.length < 76 by omega), if_neg (show ¬ d.length < 0x100 by omega),
                if_neg (show ¬ d.length < 0x10000 by omega)]
              simp only [leBytes, List.cons_append, List.nil_append]
              have e1 : d.length / 256 / 256 % 256 = d.length / 65536 % 256 := by omega
              have e2 : d.length / 256 / 256 / 256 % 256 = d.length / 16777216 := by omega
              rw [e1, e2]
            · intro d hd
              simp only [List.length_append, List.length_cons, leBytes_length, hdr]
              split
              · omega
              · split
                · omega
                · omega
          · have hgt : 78 < b.toNat := by
              have e1 : b.toNat ≠ 76 := fun e => c1 (UInt8.toNat_inj.1 e)
              have e2 : b.toNat ≠ 77 := fun e => c2 (UInt8.toNat_inj.1 e)
              have e3 : b.toNat ≠ 78 := fun e => c3 (UInt8.toNat_inj.1 e)
              omega
            refine .inl ⟨[b], .op b, tl, rfl, .op b hgt, fun _ => trivial, ?_⟩
            rw [next_cons, if_neg hb, if_neg c1, if_neg c2, if_neg c3]

end Scr
end Btc
