import Verif.Codec.Wire
/-!
# What the errors of decoders say of the bytes

For every kind of decoder two relations between bytes and errors: `…Bad bs e`, the bytes contain at a place that is
described something which cannot be decoded, and `…Short bs e`, the bytes end inside something which began well.  They
are written with encodings only.  `Tells P bad short` says that the parser reports exactly these errors.
-/
namespace Btc
namespace Why

/-- First byte of the compact sizes that are followed by `w` more bytes. -/
inductive Marker : UInt8 → Nat → Prop
  | two : Marker 0xFD 2
  | four : Marker 0xFE 4
  | eight : Marker 0xFF 8

/-- The smallest number to be written with `w` bytes after the marker. -/
def least : Nat → Nat
  | 2 => 0xFD
  | 4 => 0x10000
  | _ => 0x100000000

/-- The bytes begin with a compact size that is longer than necessary, or with one above the limit. -/
inductive CsBad (lim : Nat) (bs : Bytes) : DErr → Prop
  | nonMinimal (m : UInt8) (w v : Nat) (r : Bytes) : Marker m w → v < least w → bs = m :: leBytes w v ++ r →
      CsBad lim bs (.nonMinimal v)
  | exceeds (v : Nat) (r : Bytes) : lim < v → v < 2 ^ 64 → bs = csEncode v ++ r → CsBad lim bs (.exceeds lim v)

/-- The bytes are the beginning of a compact size from which `m` more are known to be missing. -/
inductive CsShort (bs : Bytes) : Nat → Prop
  | none : bs = [] → CsShort bs 1
  | some (m : UInt8) (w : Nat) (t : Bytes) : Marker m w → bs = m :: t → t.length < w → CsShort bs (w - t.length)

/-- The parser reports exactly these errors. -/
structure Tells {α : Type} (P : Parser α) (bad short : Bytes → DErr → Prop) : Prop where
  fail : ∀ bs e, P bs = .fail e ↔ bad bs e
  more : ∀ bs e, P bs = .more e ↔ short bs e

/-! ### Compact sizes -/

theorem csNeed_marker {m : UInt8} {w : Nat} (h : Marker m w) : csNeed m = w + 1 := by cases h <;> rfl

theorem csShort_view {bs : Bytes} {m : Nat} (h : CsShort bs m) : csView bs = Option.none ∧ csLimit bs = m := by
  cases h with
  | none h => subst h; exact ⟨rfl, rfl⟩
  | some m w t hm hb hl =>
    subst hb
    have h1 := csNeed_marker hm
    refine ⟨csView_inv (by simp only [csInv]; omega), ?_⟩
    cases hm <;> simp [csLimit, csNeed] <;> omega

theorem csView_none {bs : Bytes} (h : csView bs = Option.none) : CsShort bs (csLimit bs) := by
  have h1 := csView_none_inv h
  match bs with
  | [] => exact .none rfl
  | b :: t =>
    simp only [csInv] at h1
    have key : ∃ w, Marker b w ∧ t.length < w := by
      unfold csNeed at h1
      split at h1
      · rename_i hb; subst hb; exact ⟨8, .eight, by omega⟩
      · split at h1
        · rename_i hb; subst hb; exact ⟨4, .four, by omega⟩
        · split at h1
          · rename_i hb; subst hb; exact ⟨2, .two, by omega⟩
          · omega
    obtain ⟨w, hm, hl⟩ := key
    have := CsShort.some (bs := b :: t) b w t hm rfl hl
    rw [(csShort_view this).2]; exact this

theorem csBad_view {lim : Nat} {bs : Bytes} {e : DErr} (h : CsBad lim bs e) :
    ∃ p r, csView bs = some (p, r) ∧ csEnd lim p = .error e := by
  cases h with
  | nonMinimal m w v r hm hv hb =>
    subst hb
    refine ⟨m :: leBytes w v, r, ?_, ?_⟩
    · rw [show m :: leBytes w v ++ r = (m :: leBytes w v) ++ r from rfl]
      exact csView_complete (by simp only [csComplete, leBytes_length, csNeed_marker hm]) r
    · have hd : csDecode (m :: leBytes w v) = .error (.nonMinimal v) := by
        have hlt : v < 256 ^ w := by
          cases hm <;> simp only [least] at hv <;> omega
        have hle := leNat_leBytes w v hlt
        cases hm <;> simp only [least] at hv <;> simp [csDecode, hle, hv]
      simp [csEnd, hd]
  | exceeds v r hl hv hb =>
    subst hb
    exact ⟨csEncode v, r, csView_csEncode v r, by rw [csEnd_csEncode _ _ hv, if_neg (by omega)]⟩

theorem csBad_of_end {lim : Nat} {bs p r : Bytes} {e : DErr} (hv : csView bs = some (p, r)) (he : csEnd lim p = .error e) :
    CsBad lim bs e := by
  obtain ⟨hb, hc⟩ := csView_some hv
  cases hd : csDecode p with
  | ok v =>
    simp only [csEnd, hd] at he
    split at he
    · cases he
    · cases he
      obtain ⟨h1, h2⟩ := csDecode_ok hc hd
      exact .exceeds v r (by omega) h2 (by rw [hb, h1])
  | error e' =>
    have hee : e' = e := by simpa [csEnd, hd] using he
    subst hee
    match p with
    | [] => exact hc.elim
    | b :: t =>
      simp only [csComplete] at hc
      have key : ∃ w, Marker b w ∧ t.length = w ∧ leNat t < least w ∧ e' = .nonMinimal (leNat t) := by
        simp only [csDecode] at hd
        by_cases h1 : b = 0xFF
        · subst h1
          have hl : t.length = 8 := by have : csNeed 0xFF = 9 := rfl
                                       omega
          rw [if_pos rfl, if_pos hl] at hd
          by_cases h2 : leNat t < 0x100000000
          · rw [if_pos h2] at hd; cases hd; exact ⟨8, .eight, hl, h2, rfl⟩
          · rw [if_neg h2] at hd; cases hd
        · rw [if_neg h1] at hd
          by_cases h3 : b = 0xFE
          · subst h3
            have hl : t.length = 4 := by have : csNeed 0xFE = 5 := rfl
                                         omega
            rw [if_pos rfl, if_pos hl] at hd
            by_cases h2 : leNat t < 0x10000
            · rw [if_pos h2] at hd; cases hd; exact ⟨4, .four, hl, h2, rfl⟩
            · rw [if_neg h2] at hd; cases hd
          · rw [if_neg h3] at hd
            by_cases h4 : b = 0xFD
            · subst h4
              have hl : t.length = 2 := by have : csNeed 0xFD = 3 := rfl
                                           omega
              rw [if_pos rfl, if_pos hl] at hd
              by_cases h2 : leNat t < 0xFD
              · rw [if_pos h2] at hd; cases hd; exact ⟨2, .two, hl, h2, rfl⟩
              · rw [if_neg h2] at hd; cases hd
            · rw [if_neg h4] at hd; cases hd
      obtain ⟨w, hm, hl, hlt, rfl⟩ := key
      refine .nonMinimal b w _ r hm hlt ?_
      rw [hb, leBytes_leNat' w t hl]

/-- Bytes begin with a compact size within the limit, or cannot, or are too short to tell. -/
theorem cs_cases (lim : Nat) (bs : Bytes) :
    (∃ v r, v ≤ lim ∧ v < 2 ^ 64 ∧ bs = csEncode v ++ r) ∨ (∃ e, CsBad lim bs e) ∨ CsShort bs (csLimit bs) := by
  cases h : csView bs with
  | none => exact .inr (.inr (csView_none h))
  | some x =>
    obtain ⟨p, r⟩ := x
    cases he : csEnd lim p with
    | error e => exact .inr (.inl ⟨e, csBad_of_end h he⟩)
    | ok v =>
      obtain ⟨hb, hc⟩ := csView_some h
      obtain ⟨h1, h2, h3⟩ := csEnd_ok hc he
      exact .inl ⟨v, r, by omega, by omega, by rw [hb, h1]⟩

section
variable {α : Type} {em : Bytes → DErr} {k : Bytes → Parser α}

theorem csThen_ok (v : Nat) (r : Bytes) : csThen em k [] (csEncode v ++ r) = k (csEncode v) r := by
  unfold csThen; rw [List.nil_append, csView_csEncode]

theorem csThen_bad {lim : Nat} {bs : Bytes} {e : DErr} (h : CsBad lim bs e)
    (hk : ∀ p r, csEnd lim p = .error e → k p r = .fail (.lenPrefix e)) : csThen em k [] bs = .fail (.lenPrefix e) := by
  obtain ⟨p, r, h1, h2⟩ := csBad_view h
  unfold csThen; rw [List.nil_append, h1]
  exact hk p r h2

theorem csThen_short {bs : Bytes} {m : Nat} (h : CsShort bs m) : csThen em k [] bs = .more (em bs) := by
  unfold csThen; rw [List.nil_append, (csShort_view h).1]
end

theorem csBad_unique {lim : Nat} {bs : Bytes} {e e' : DErr} (h : CsBad lim bs e) (h' : CsBad lim bs e') : e = e' := by
  obtain ⟨p, r, h1, h2⟩ := csBad_view h
  obtain ⟨p', r', h3, h4⟩ := csBad_view h'
  rw [h1] at h3; cases h3
  rw [h2] at h4; cases h4; rfl

theorem csShort_unique {bs : Bytes} {m m' : Nat} (h : CsShort bs m) (h' : CsShort bs m') : m = m' := by
  rw [← (csShort_view h).2, (csShort_view h').2]

/-! ### Compact sizes by themselves -/

/-- The end of input inside a compact size: how many bytes should follow the first one and how many do. -/
inductive CsCut (bs : Bytes) : DErr → Prop
  | none : bs = [] → CsCut bs (.csEof 1 0)
  | some (m : UInt8) (w : Nat) (t : Bytes) : Marker m w → bs = m :: t → t.length < w → CsCut bs (.csEof w t.length)

theorem csErr_cut {bs : Bytes} {e : DErr} (h : CsCut bs e) : csErr bs = e ∧ csView bs = Option.none := by
  cases h with
  | none h => subst h; exact ⟨rfl, rfl⟩
  | some m w t hm hb hl =>
    subst hb
    refine ⟨?_, (csShort_view (.some m w t hm rfl hl)).1⟩
    cases hm <;> simp [csErr, csDecode, Nat.ne_of_lt hl]

theorem cut_of_short {bs : Bytes} {m : Nat} (h : CsShort bs m) : ∃ e, CsCut bs e := by
  cases h with
  | none h => exact ⟨_, .none h⟩
  | some m w t hm hb hl => exact ⟨_, .some m w t hm hb hl⟩

theorem tells_cs (lim : Nat) : Tells (csParser (csEnd lim)) (CsBad lim) CsCut where
  fail bs e := by
    constructor
    · intro h
      rcases cs_cases lim bs with ⟨v, r, h1, h2, rfl⟩ | ⟨e', h1⟩ | h1
      · rw [csParser, csThen_ok, csEnd_csEncode _ _ h2, if_pos h1] at h; cases h
      · obtain ⟨p, r, h2, h3⟩ := csBad_view h1
        rw [csParser, csThen, List.nil_append, h2] at h
        simp only [h3, POut.ofEnd, POut.fail.injEq] at h
        subst h; exact h1
      · rw [csParser, csThen_short h1] at h; cases h
    · intro h
      obtain ⟨p, r, h2, h3⟩ := csBad_view h
      rw [csParser, csThen, List.nil_append, h2]
      simp only [h3, POut.ofEnd]
  more bs e := by
    constructor
    · intro h
      rcases cs_cases lim bs with ⟨v, r, h1, h2, rfl⟩ | ⟨e', h1⟩ | h1
      · rw [csParser, csThen_ok, csEnd_csEncode _ _ h2, if_pos h1] at h; cases h
      · obtain ⟨p, r, h2, h3⟩ := csBad_view h1
        rw [csParser, csThen, List.nil_append, h2] at h
        simp only [h3, POut.ofEnd] at h
        cases h
      · rw [csParser, csThen_short h1] at h
        cases h
        obtain ⟨e, he⟩ := cut_of_short h1
        rw [(csErr_cut he).1]; exact he
    · intro h
      rw [csParser, csThen, List.nil_append, (csErr_cut h).2, (csErr_cut h).1]

/-! ### Fixed and counted bytes -/

/-- Fewer than `N` bytes. -/
inductive ArrShort (N : Nat) (bs : Bytes) : DErr → Prop
  | mk (m : Nat) : 0 < m → bs.length + m = N → ArrShort N bs (.eof m)

/-- Never. -/
inductive Nev (bs : Bytes) : DErr → Prop

theorem tells_array (N : Nat) : Tells (arrayParser N []) Nev (ArrShort N) where
  fail bs e := by
    constructor
    · intro h
      simp only [arrayParser] at h
      split at h <;> cases h
    · intro h; cases h
  more bs e := by
    simp only [arrayParser, List.length_nil, Nat.sub_zero]
    constructor
    · intro h
      split at h
      · cases h
      · cases h; exact .mk _ (by omega) (by omega)
    · intro h
      cases h with
      | mk m h1 h2 =>
        rw [if_neg (by omega), show N - bs.length = m by omega]

/-- A byte vector whose length prefix is bad. -/
inductive BytesBad (lim : Nat) (bs : Bytes) : DErr → Prop
  | prefix (e : DErr) : CsBad lim bs e → BytesBad lim bs (.lenPrefix e)

/-- A byte vector that ends in its length prefix, or some bytes before its end. -/
inductive BytesShort (lim : Nat) (bs : Bytes) : DErr → Prop
  | prefix (m : Nat) : CsShort bs m → BytesShort lim bs (.eof m)
  | body (k m : Nat) (t : Bytes) : k ≤ lim → bs = csEncode k ++ t → 0 < m → t.length + m = k → BytesShort lim bs (.eof m)

theorem byteVec_ok {lim v : Nat} (h : v ≤ lim) (h2 : v < 2 ^ 64) (r : Bytes) :
    byteVecParser lim (csEncode v ++ r) = bytesParser [] v r := by
  rw [byteVecParser, csThen_ok, byteVecCont, csEnd_csEncode _ _ h2, if_pos h]

theorem byteVec_bad {lim : Nat} {bs : Bytes} {e : DErr} (h : CsBad lim bs e) : byteVecParser lim bs = .fail (.lenPrefix e) :=
  csThen_bad h (fun p r hp => by rw [byteVecCont, hp])

theorem byteVec_short {lim : Nat} {bs : Bytes} {m : Nat} (h : CsShort bs m) : byteVecParser lim bs = .more (.eof m) := by
  rw [byteVecParser, csThen_short h, (csShort_view h).2]

theorem tells_byteVec {lim : Nat} (hlim : lim < 2 ^ 64) : Tells (byteVecParser lim) (BytesBad lim) (BytesShort lim) where
  fail bs e := by
    constructor
    · intro h
      rcases cs_cases lim bs with ⟨v, r, h1, h2, rfl⟩ | ⟨e', h1⟩ | h1
      · rw [byteVec_ok h1 h2, bytesParser] at h
        split at h <;> cases h
      · rw [byteVec_bad h1] at h; cases h; exact .prefix e' h1
      · rw [byteVec_short h1] at h; cases h
    · rintro ⟨e, h⟩; exact byteVec_bad h
  more bs e := by
    constructor
    · intro h
      rcases cs_cases lim bs with ⟨v, r, h1, h2, rfl⟩ | ⟨e', h1⟩ | h1
      · rw [byteVec_ok h1 h2, bytesParser] at h
        simp only [List.length_nil, Nat.sub_zero] at h
        split at h
        · cases h
        · cases h; exact .body v _ r h1 rfl (by omega) (by omega)
      · rw [byteVec_bad h1] at h; cases h
      · rw [byteVec_short h1] at h; cases h; exact .prefix _ h1
    · intro h
      cases h with
      | «prefix» m h => exact byteVec_short h
      | body k m t h1 h2 h3 h4 =>
        subst h2
        rw [byteVec_ok h1 (by omega), bytesParser]
        simp only [List.length_nil, Nat.sub_zero]
        rw [if_neg (by omega), show k - t.length = m by omega]

/-! ### Counted items -/

/-- A vector whose count is bad or where, after some good items, one is bad. -/
inductive VecBad {α : Type} (enc : α → Bytes) (ok : α → Prop) (bad : Bytes → DErr → Prop) (lim : Nat) (bs : Bytes) : DErr → Prop
  | prefix (e : DErr) : CsBad lim bs e → VecBad enc ok bad lim bs (.lenPrefix e)
  | item (n : Nat) (l : List α) (r : Bytes) (e : DErr) : n ≤ lim → l.length < n → (∀ a ∈ l, ok a) →
      bs = csEncode n ++ (l.map enc).flatten ++ r → bad r e → VecBad enc ok bad lim bs (.item e)

/-- A vector that ends in its count or, `m` items being missing, in the first of these. -/
inductive VecShort {α : Type} (enc : α → Bytes) (ok : α → Prop) (short : Bytes → DErr → Prop) (lim : Nat) (bs : Bytes) : DErr → Prop
  | prefix (m : Nat) : CsShort bs m → VecShort enc ok short lim bs (.eof m)
  | item (m : Nat) (l : List α) (r : Bytes) (e : DErr) : l.length + m ≤ lim → 0 < m → (∀ a ∈ l, ok a) →
      bs = csEncode (l.length + m) ++ (l.map enc).flatten ++ r → short r e → VecShort enc ok short lim bs (.eof m)

section
variable {α : Type} {P : Parser α} {enc : α → Bytes} {ok : α → Prop} {bad short : Bytes → DErr → Prop}

theorem items_step (k : Nat) (buf : List α) (bs : Bytes) : itemsParser P (k + 1) buf P bs = match P bs with
    | .done a r => itemsParser P k (buf ++ [a]) P r
    | .fail e => .fail (.item e)
    | .more _ => .more (.eof (k + 1)) := rfl

theorem items_run (W : Wire P enc ok) : ∀ (l : List α) (k : Nat) (buf : List α) (r : Bytes), (∀ a ∈ l, ok a) →
    itemsParser P (l.length + k) buf P ((l.map enc).flatten ++ r) = itemsParser P k (buf ++ l) P r
  | [], k, buf, r, _ => by simp
  | a :: l, k, buf, r, h => by
    have h1 : P (((a :: l).map enc).flatten ++ r) = .done a ((l.map enc).flatten ++ r) :=
      (W _ _ _).mpr ⟨h a (by simp), by simp⟩
    rw [show (a :: l).length + k = (l.length + k) + 1 by simp only [List.length_cons]; omega, items_step, h1]
    simp only
    rw [items_run W l k (buf ++ [a]) r (fun x hx => h x (by simp [hx]))]
    simp

theorem items_stop (W : Wire P enc ok) : ∀ (k : Nat) (buf : List α) (bs : Bytes),
    (∃ l r, itemsParser P k buf P bs = .done l r) ∨
    ∃ (l : List α) (m : Nat) (r : Bytes), l.length + (m + 1) = k ∧ (∀ a ∈ l, ok a) ∧ bs = (l.map enc).flatten ++ r ∧
      ((∃ e, P r = .fail e ∧ itemsParser P k buf P bs = .fail (.item e)) ∨
       (∃ e, P r = .more e ∧ itemsParser P k buf P bs = .more (.eof (m + 1))))
  | 0, buf, bs => .inl ⟨buf, bs, rfl⟩
  | k + 1, buf, bs => by
    cases h : P bs with
    | done a r =>
      obtain ⟨h1, h2⟩ := (W _ _ _).mp h
      have hi : itemsParser P (k + 1) buf P bs = itemsParser P k (buf ++ [a]) P r := by rw [items_step, h]
      rw [hi]
      rcases items_stop W k (buf ++ [a]) r with h3 | ⟨l, m, r', h3, h4, h5, h6⟩
      · exact .inl h3
      · refine .inr ⟨a :: l, m, r', by simp only [List.length_cons]; omega, ?_, by rw [h2, h5]; simp, h6⟩
        intro x hx
        rcases List.mem_cons.mp hx with rfl | hx
        · exact h1
        · exact h4 x hx
    | fail e => exact .inr ⟨[], k, bs, by simp, by simp, by simp, .inl ⟨e, h, by rw [items_step, h]⟩⟩
    | more e => exact .inr ⟨[], k, bs, by simp, by simp, by simp, .inr ⟨e, h, by rw [items_step, h]⟩⟩

theorem vec_ok {lim v : Nat} (h : v ≤ lim) (h2 : v < 2 ^ 64) (r : Bytes) :
    vecParser P lim (csEncode v ++ r) = itemsParser P v [] P r := by
  rw [vecParser, csThen_ok, vecCont, csEnd_csEncode _ _ h2, if_pos h]

theorem vec_bad {lim : Nat} {bs : Bytes} {e : DErr} (h : CsBad lim bs e) : vecParser P lim bs = .fail (.lenPrefix e) :=
  csThen_bad h (fun p r hp => by rw [vecCont, hp])

theorem vec_short {lim : Nat} {bs : Bytes} {m : Nat} (h : CsShort bs m) : vecParser P lim bs = .more (.eof m) := by
  rw [vecParser, csThen_short h, (csShort_view h).2]

theorem tells_vec {lim : Nat} (hlim : lim < 2 ^ 64) (W : Wire P enc ok) (T : Tells P bad short) :
    Tells (vecParser P lim) (VecBad enc ok bad lim) (VecShort enc ok short lim) where
  fail bs e := by
    constructor
    · intro h
      rcases cs_cases lim bs with ⟨v, r, h1, h2, rfl⟩ | ⟨e', h1⟩ | h1
      · rw [vec_ok h1 h2] at h
        rcases items_stop W v [] r with ⟨_, _, h3⟩ | ⟨l, m, r', h3, h4, h5, ⟨e', h6, h7⟩ | ⟨e', _, h7⟩⟩
        · rw [h3] at h; cases h
        · rw [h7] at h; cases h
          exact .item v l r' e' h1 (by omega) h4 (by rw [h5]; simp) ((T.fail _ _).mp h6)
        · rw [h7] at h; cases h
      · rw [vec_bad h1] at h; cases h; exact .prefix e' h1
      · rw [vec_short h1] at h; cases h
    · intro h
      cases h with
      | «prefix» e h => exact vec_bad h
      | item n l r e h1 h2 h3 h4 h5 =>
        subst h4
        rw [List.append_assoc, vec_ok h1 (by omega), show n = l.length + ((n - l.length - 1) + 1) by omega, items_run W l _ _ _ h3,
          items_step, (T.fail _ _).mpr h5]
  more bs e := by
    constructor
    · intro h
      rcases cs_cases lim bs with ⟨v, r, h1, h2, rfl⟩ | ⟨e', h1⟩ | h1
      · rw [vec_ok h1 h2] at h
        rcases items_stop W v [] r with ⟨_, _, h3⟩ | ⟨l, m, r', h3, h4, h5, ⟨e', _, h7⟩ | ⟨e', h6, h7⟩⟩
        · rw [h3] at h; cases h
        · rw [h7] at h; cases h
        · rw [h7] at h; cases h
          exact .item (m + 1) l r' e' (by omega) (by omega) h4 (by rw [h5, h3]; simp) ((T.more _ _).mp h6)
      · rw [vec_bad h1] at h; cases h
      · rw [vec_short h1] at h; cases h; exact .prefix _ h1
    · intro h
      cases h with
      | «prefix» m h => exact vec_short h
      | item m l r e h1 h2 h3 h4 h5 =>
        subst h4
        obtain ⟨m, rfl⟩ : ∃ j, m = j + 1 := ⟨m - 1, by omega⟩
        rw [List.append_assoc, vec_ok h1 (by omega), items_run W l _ _ _ h3, items_step, (T.more _ _).mpr h5]
end

/-! ### One after the other, and conversions -/

/-- The first part is wrong, or the first is there and the second is wrong (`bad` and `short` alike). -/
inductive Either2 {α : Type} (enc : α → Bytes) (ok : α → Prop) (x y : Bytes → DErr → Prop) (bs : Bytes) : DErr → Prop
  | first (e : DErr) : x bs e → Either2 enc ok x y bs (.fst e)
  | second (a : α) (r : Bytes) (e : DErr) : ok a → bs = enc a ++ r → y r e → Either2 enc ok x y bs (.snd e)

theorem tells_seq {α β : Type} {P : Parser α} {Q : Parser β} {enc : α → Bytes} {ok : α → Prop} {bad short bad' short' : Bytes → DErr → Prop}
    (W : Wire P enc ok) (T : Tells P bad short) (T' : Tells Q bad' short') :
    Tells (seqParser P Q) (Either2 enc ok bad bad') (Either2 enc ok short short') where
  fail bs e := by
    constructor
    · intro h
      unfold seqParser at h
      cases hp : P bs with
      | done a r =>
        obtain ⟨h1, h2⟩ := (W _ _ _).mp hp
        rw [hp] at h
        simp only at h
        cases hq : Q r with
        | done b r' => rw [hq] at h; cases h
        | fail e' => rw [hq] at h; cases h; exact .second a r e' h1 h2 ((T'.fail _ _).mp hq)
        | more e' => rw [hq] at h; cases h
      | fail e' => rw [hp] at h; cases h; exact .first e' ((T.fail _ _).mp hp)
      | more e' => rw [hp] at h; cases h
    · intro h
      unfold seqParser
      cases h with
      | first e h => rw [(T.fail _ _).mpr h]
      | second a r e h1 h2 h3 =>
        rw [(W _ _ _).mpr ⟨h1, h2⟩]
        simp only
        rw [(T'.fail _ _).mpr h3]
  more bs e := by
    constructor
    · intro h
      unfold seqParser at h
      cases hp : P bs with
      | done a r =>
        obtain ⟨h1, h2⟩ := (W _ _ _).mp hp
        rw [hp] at h
        simp only at h
        cases hq : Q r with
        | done b r' => rw [hq] at h; cases h
        | fail e' => rw [hq] at h; cases h
        | more e' => rw [hq] at h; cases h; exact .second a r e' h1 h2 ((T'.more _ _).mp hq)
      | fail e' => rw [hp] at h; cases h
      | more e' => rw [hp] at h; cases h; exact .first e' ((T.more _ _).mp hp)
    · intro h
      unfold seqParser
      cases h with
      | first e h => rw [(T.more _ _).mpr h]
      | second a r e h1 h2 h3 =>
        rw [(W _ _ _).mpr ⟨h1, h2⟩]
        simp only
        rw [(T'.more _ _).mpr h3]

/-- A conversion that cannot fail on what can be read. -/
theorem tells_map {α β : Type} {P : Parser α} {enc : α → Bytes} {ok : α → Prop} {bad short : Bytes → DErr → Prop}
    {f : α → Except DErr β} (W : Wire P enc ok) (T : Tells P bad short) (hf : ∀ a, ok a → ∃ b, f a = .ok b) :
    Tells (P.mapE f id) bad short where
  fail bs e := by
    rw [← T.fail]
    unfold Parser.mapE
    cases hp : P bs with
    | done a r =>
      obtain ⟨b, hb⟩ := hf a ((W _ _ _).mp hp).1
      simp [hb, POut.ofEnd]
    | fail e' => simp
    | more e' => simp
  more bs e := by
    rw [← T.more]
    unfold Parser.mapE
    cases hp : P bs with
    | done a r =>
      obtain ⟨b, hb⟩ := hf a ((W _ _ _).mp hp).1
      simp [hb, POut.ofEnd]
    | fail e' => simp
    | more e' => simp

theorem Tells.congr {α : Type} {P : Parser α} {bad short bad' short' : Bytes → DErr → Prop} (T : Tells P bad short)
    (h : ∀ bs e, bad bs e ↔ bad' bs e) (h' : ∀ bs e, short bs e ↔ short' bs e) : Tells P bad' short' :=
  ⟨fun bs e => (T.fail bs e).trans (h bs e), fun bs e => (T.more bs e).trans (h' bs e)⟩

/-- What a decoder returns. -/
theorem Tells.decoder {α : Type} {d : Dec α} {P : Parser α} {bad short : Bytes → DErr → Prop} (L : Lawful d P) (T : Tells P bad short)
    (bs : Bytes) (e : DErr) : d.decodeSliceUnbounded bs = .err e ↔ bad bs e ∨ short bs e := by
  obtain ⟨inv, den, L, rfl⟩ := L
  rw [L.decodeSliceUnbounded_spec, ← T.fail, ← T.more]
  cases den d.init bs <;> simp [POut.outcome]

end Why
end Btc
