import Verif.Crypto.Signature
import Verif.Props.C55
/-!
# C60: signature byte forms round-trip
-/
namespace Btc
namespace Crypto

/-! ## Taproot -/

/-- Accepted are exactly the 64 byte strings (as default type) and the 65 byte strings whose last byte is one of the six non-default
types. -/
theorem C60_tap_from_slice (sl : Bytes) (s : TapSig) : TapSig.fromSlice sl = .ok s ↔
    (sl = s.sig.1 ∧ s.ty = .default) ∨ (s.ty ≠ .default ∧ sl = s.sig.1 ++ [s.ty.toU8]) := by
  obtain ⟨⟨sg, hsg⟩, ty⟩ := s
  unfold TapSig.fromSlice
  by_cases h1 : sl.length = 64
  · rw [dif_pos h1]
    constructor
    · intro h; cases h; exact .inl ⟨rfl, rfl⟩
    · rintro (⟨rfl, h⟩ | ⟨_, rfl⟩)
      · simp only at h; subst h; rfl
      · simp [hsg] at h1
  · rw [dif_neg h1]
    by_cases h2 : sl.length = 65
    · rw [dif_pos h2]
      have hsplit : sl = sl.take 64 ++ [sl[64]'(by omega)] := by
        rw [List.take_append_getElem]
        rw [List.take_of_length_le (by omega)]
      constructor
      · intro h
        split at h
        · cases h
        · rename_i t ht
          split at h
          · cases h
          · rename_i hne
            cases h
            exact .inr ⟨hne, by rw [← (C55_tap _ _).mp ht]; exact hsplit⟩
      · rintro (⟨rfl, h⟩ | ⟨hne, hsl⟩)
        · exact absurd hsg h1
        · simp only at hsl hne
          have hb : sl[64]'(by omega) = ty.toU8 := by
            simp only [hsl]; rw [List.getElem_append_right (by omega)]; simp
          have ht : sl.take 64 = sg := by rw [hsl, List.take_left' hsg]
          rw [hb, (C55_tap _ _).mpr rfl]
          simp only [if_neg hne]
          congr 2
          exact Subtype.ext ht
    · rw [dif_neg h2]
      constructor
      · intro h; cases h
      · rintro (⟨rfl, h⟩ | ⟨_, rfl⟩)
        · exact absurd hsg h1
        · simp [hsg] at h2

/-- The same as a description of the byte strings alone. -/
theorem C60_tap_accepts (sl : Bytes) : (∃ s, TapSig.fromSlice sl = .ok s) ↔
    sl.length = 64 ∨ ∃ h : sl.length = 65, sl[64] ∈ ([0x01, 0x02, 0x03, 0x81, 0x82, 0x83] : Bytes) := by
  constructor
  · rintro ⟨s, h⟩
    rcases (C60_tap_from_slice _ _).mp h with ⟨rfl, _⟩ | ⟨hne, rfl⟩
    · exact .inl s.sig.2
    · have hl := s.sig.2
      refine .inr ⟨by simp [hl], ?_⟩
      rw [List.getElem_append_right (by omega)]
      simp only [hl, Nat.sub_self, List.getElem_cons_zero]
      revert hne
      cases s.ty <;> decide
  · rintro (h | ⟨h, hm⟩)
    · exact ⟨⟨⟨sl, h⟩, .default⟩, (C60_tap_from_slice _ _).mpr (.inl ⟨rfl, rfl⟩)⟩
    · have hsplit : sl = sl.take 64 ++ [sl[64]] := by
        rw [List.take_append_getElem, List.take_of_length_le (by omega)]
      have : ∃ t : Tap, t ≠ .default ∧ sl[64] = t.toU8 := by
        simp only [List.mem_cons, List.not_mem_nil, or_false] at hm
        rcases hm with h | h | h | h | h | h <;> rw [h]
        · exact ⟨.all, by decide, rfl⟩
        · exact ⟨.none, by decide, rfl⟩
        · exact ⟨.single, by decide, rfl⟩
        · exact ⟨.allAcp, by decide, rfl⟩
        · exact ⟨.noneAcp, by decide, rfl⟩
        · exact ⟨.singleAcp, by decide, rfl⟩
      obtain ⟨t, h1, h2⟩ := this
      exact ⟨⟨⟨sl.take 64, by rw [List.length_take]; omega⟩, t⟩, (C60_tap_from_slice _ _).mpr (.inr ⟨h1, by rw [← h2]; exact hsplit⟩)⟩

/-- Every other string is refused: by its length, or by its last byte (which is reported; 0 is refused although the type exists). -/
theorem C60_tap_rejects (sl : Bytes) (e : TapSigErr) (h : TapSig.fromSlice sl = .error e) :
    (e = .size sl.length ∧ sl.length ≠ 64 ∧ sl.length ≠ 65) ∨ ∃ hl : sl.length = 65, e = .sighashType sl[64].toUInt32 := by
  unfold TapSig.fromSlice at h
  split at h
  · cases h
  split at h
  · rename_i h2
    refine .inr ⟨h2, ?_⟩
    split at h
    · rename_i e' he
      cases h
      have := ((C55_tap_error _ _).mp he).1
      congr 1
      apply UInt32.toNat_inj.mp
      rw [this]; simp
    · rename_i t ht
      split at h
      · rename_i hd
        cases h
        have := (C55_tap _ _).mp ht
        rw [this, hd]; rfl
      · cases h
  · rename_i h1 h2
    cases h
    exact .inl ⟨rfl, h1, h2⟩

theorem tap_serialize (s : TapSig) : ∃ r, s.serialize = some r ∧ r.bytes = s.toVec ∧ r.len = s.toVec.length ∧ r.len ≤ 65 := by
  obtain ⟨⟨sg, hsg⟩, ty⟩ := s
  unfold TapSig.serialize TapSig.toVec TapSer.fromRawParts
  by_cases ht : ty = .default
  · subst ht
    have hl : (sg ++ List.drop 64 (List.replicate 65 (0 : UInt8))).length = 65 := by simp [hsg]
    simp only [if_true, hl, dif_pos, ne_eq, not_true, if_false]
    exact ⟨_, rfl, List.take_left' hsg, hsg.symm, by show (64 : Nat) ≤ 65; omega⟩
  · have hset : (sg ++ List.drop 64 (List.replicate 65 (0 : UInt8))).set 64 ty.toU8 = sg ++ [ty.toU8] := by
      rw [List.set_append_right _ _ (by omega)]
      simp [hsg]
    have hl : (sg ++ [ty.toU8]).length = 65 := by simp [hsg]
    simp only [hset, ne_eq, ht, not_false_eq_true, if_true, if_false, dif_pos hl, Nat.le_refl]
    refine ⟨⟨⟨sg ++ [ty.toU8], hl⟩, 65⟩, rfl, ?_, hl.symm, Nat.le_refl 65⟩
    unfold TapSer.bytes
    exact List.take_of_length_le (by rw [hl]; exact Nat.le_refl _)

/-- `serialize` never panics, both ways of serializing give the same bytes, and reading them gives the signature back. -/
theorem C60_tap_round_trip (s : TapSig) : ∃ r, s.serialize = some r ∧ r.bytes = s.toVec ∧ r.toSignature = .ok s ∧
    TapSig.fromSlice s.toVec = .ok s := by
  obtain ⟨r, h1, h2, _, _⟩ := tap_serialize s
  have : TapSig.fromSlice s.toVec = .ok s := by
    apply (C60_tap_from_slice _ _).mpr
    unfold TapSig.toVec
    by_cases ht : s.ty = .default
    · simp [ht]
    · simp [ht]
  exact ⟨r, h1, h2, by unfold TapSer.toSignature; rw [h2]; exact this, this⟩

/-- The other way: an accepted string is what its signature serializes to. -/
theorem C60_tap_canonical (sl : Bytes) (s : TapSig) (h : TapSig.fromSlice sl = .ok s) : s.toVec = sl := by
  unfold TapSig.toVec
  rcases (C60_tap_from_slice _ _).mp h with ⟨rfl, ht⟩ | ⟨ht, rfl⟩
  · simp [ht]
  · simp [ht]

theorem hexToArray_ok {n : Nat} {s : Bytes} {b : Arr n} : hexToArray n s = .ok b ↔ unhex s = some b.1 := by
  unfold hexToArray
  constructor
  · intro h
    split at h
    · split at h
      · rename_i b' hb
        split at h
        · cases h; exact hb
        · cases h
      · cases h
    · cases h
  · intro h
    have hl := unhex_length _ _ h
    rw [b.2] at hl
    rw [if_pos hl, h]
    simp [b.2]

theorem hexToArray_bad {n : Nat} {s : Bytes} (h : s.length ≠ 2 * n) : hexToArray n s = .badLength := by
  unfold hexToArray; rw [if_neg h]

/-- The text form: accepted are exactly the hex strings, of either case, of accepted bytes, and what is printed reads back. -/
theorem C60_tap_text (s : Bytes) (t : TapSig) : TapSig.parse s = .ok t ↔ unhex s = some t.toVec := by
  have hgen : ∀ (n : Nat) (b : Arr n), ((TapSig.fromSlice b.1).mapError TapSigParseErr.decode = .ok t ↔ b.1 = t.toVec) := by
    intro n b
    constructor
    · intro h
      cases hf : TapSig.fromSlice b.1 with
      | error e => rw [hf] at h; cases h
      | ok t' => rw [hf] at h; cases h; exact (C60_tap_canonical _ _ hf).symm
    · intro h
      rw [h, (C60_tap_round_trip t).choose_spec.2.2.2]; rfl
  have hlen : t.toVec.length = 64 ∨ t.toVec.length = 65 := by
    unfold TapSig.toVec
    split
    · simp [t.sig.2]
    · simp [t.sig.2]
  unfold TapSig.parse
  cases h64 : hexToArray 64 s with
  | ok b =>
    rw [hexToArray_ok] at h64
    rw [h64]
    show (TapSig.fromSlice b.1).mapError TapSigParseErr.decode = .ok t ↔ _
    rw [hgen 64 b, Option.some.injEq]
  | badChar =>
    show (Except.error TapSigParseErr.char = .ok t) ↔ _
    constructor
    · intro h; cases h
    · intro h
      unfold hexToArray at h64
      rw [h] at h64
      split at h64
      · simp only at h64; split at h64 <;> cases h64
      · cases h64
  | badLength =>
    show (match hexToArray 65 s with
      | .ok b => (TapSig.fromSlice b.1).mapError TapSigParseErr.decode
      | .badChar => .error .char
      | .badLength => .error (.length s.length)) = .ok t ↔ _
    cases h65 : hexToArray 65 s with
    | ok b =>
      rw [hexToArray_ok] at h65
      rw [h65]
      show (TapSig.fromSlice b.1).mapError TapSigParseErr.decode = .ok t ↔ _
      rw [hgen 65 b, Option.some.injEq]
    | badChar =>
      show (Except.error TapSigParseErr.char = .ok t) ↔ _
      constructor
      · intro h; cases h
      · intro h
        unfold hexToArray at h65
        rw [h] at h65
        split at h65
        · simp only at h65; split at h65 <;> cases h65
        · cases h65
    | badLength =>
      show (Except.error (TapSigParseErr.length s.length) = .ok t) ↔ _
      constructor
      · intro h; cases h
      · intro h
        rcases hlen with hl | hl
        · have := hexToArray_ok (n := 64) (b := ⟨t.toVec, hl⟩) |>.mpr h
          rw [this] at h64; cases h64
        · have := hexToArray_ok (n := 65) (b := ⟨t.toVec, hl⟩) |>.mpr h
          rw [this] at h65; cases h65

theorem C60_tap_display (t : TapSig) : ∃ s, t.display = some s ∧ TapSig.parse s = .ok t := by
  obtain ⟨r, h1, h2, _⟩ := tap_serialize t
  refine ⟨hexBytes t.toVec, ?_, (C60_tap_text _ _).mpr (unhex_hexBytes _)⟩
  unfold TapSig.display
  rw [h1, ← h2]; rfl

/-! ### The byte iterator -/

/-- Iterator calls. -/
inductive IterOp where
  | next | nth (n : Nat) | nextBack

/-- The same calls on a list: take from the front, skip and take, take from the back. -/
def IterOp.onList (l : Bytes) : IterOp → Bytes × Option UInt8
  | .next => (l.drop 1, l[0]?)
  | .nth n => (l.drop (n + 1), l[n]?)
  | .nextBack => (l.dropLast, l.getLast?)
def IterOp.run (i : TapIter) : IterOp → Option (TapIter × Option UInt8)
  | .next => some i.next
  | .nth n => i.nth n
  | .nextBack => i.nextBack

def runIter : TapIter → List IterOp → Option (TapIter × List (Option UInt8))
  | i, [] => some (i, [])
  | i, o :: os => (o.run i).bind fun (i', b) => (runIter i' os).map fun (j, bs) => (j, b :: bs)
def runList : Bytes → List IterOp → Bytes × List (Option UInt8)
  | l, [] => (l, [])
  | l, o :: os => let (l', b) := o.onList l; let (m, bs) := runList l' os; (m, b :: bs)

theorem iter_step (i : TapIter) (l : Bytes) (hl : i.sig.len ≤ 65) (hp : i.pos ≤ i.sig.len) (hr : i.sig.bytes.drop i.pos = l) (o : IterOp) :
    ∃ i', o.run i = some (i', (o.onList l).2) ∧ i'.sig.len ≤ 65 ∧ i'.pos ≤ i'.sig.len ∧ i'.sig.bytes.drop i'.pos = (o.onList l).1 := by
  obtain ⟨⟨⟨d, hd⟩, len⟩, pos⟩ := i
  simp only [TapSer.bytes] at *
  have hbl : (d.take len).length = len := by rw [List.length_take]; omega
  have hll : l.length = len - pos := by rw [← hr, List.length_drop, hbl]
  cases o with
  | next =>
    simp only [IterOp.run, IterOp.onList, TapIter.next, TapSer.bytes]
    have h0 : l[0]? = (d.take len)[pos]? := by rw [← hr, List.getElem?_drop]; simp
    rw [h0]
    cases hg : (d.take len)[pos]? with
    | none =>
      rw [List.getElem?_eq_none_iff, hbl] at hg
      refine ⟨_, rfl, hl, hp, ?_⟩
      show List.drop pos (d.take len) = l.drop 1
      have hnil : l = [] := List.length_eq_zero_iff.mp (by omega)
      rw [hr, hnil]; rfl
    | some b =>
      have hlt : pos < len := by have := (List.getElem?_eq_some_iff.mp hg).1; omega
      refine ⟨_, rfl, hl, ?_, ?_⟩
      · show pos + 1 ≤ len; omega
      · show List.drop (pos + 1) (d.take len) = l.drop 1
        rw [← hr, List.drop_drop]
  | nth n =>
    simp only [IterOp.run, IterOp.onList, TapIter.nth, TapIter.len]
    rw [if_pos hp, Option.map_some]
    have h0 : l[n]? = (d.take len)[pos + n]? := by rw [← hr, List.getElem?_drop]
    by_cases hn : n ≥ len - pos
    · rw [if_pos hn]
      refine ⟨⟨⟨⟨d, hd⟩, len⟩, len⟩, ?_, hl, Nat.le_refl len, ?_⟩
      · rw [h0, List.getElem?_eq_none (by rw [hbl]; omega)]
      · show List.drop len (d.take len) = l.drop (n + 1)
        rw [List.drop_eq_nil_of_le (by omega), List.drop_eq_nil_of_le (by omega)]
    · rw [if_neg hn]
      simp only [TapIter.next, TapSer.bytes]
      rw [h0, List.getElem?_eq_getElem (by rw [hbl]; omega)]
      refine ⟨_, rfl, hl, ?_, ?_⟩
      · show pos + n + 1 ≤ len; omega
      · show List.drop (pos + n + 1) (d.take len) = l.drop (n + 1)
        rw [← hr, List.drop_drop]; congr 1
  | nextBack =>
    simp only [IterOp.run, IterOp.onList, TapIter.nextBack, TapSer.bytes]
    by_cases he : pos = len
    · have : l = [] := List.length_eq_zero_iff.mp (by omega)
      rw [if_pos he, this]
      refine ⟨_, rfl, hl, hp, ?_⟩
      show List.drop pos (d.take len) = []
      rw [hr, this]
    · have hlast : l.getLast? = (d.take len)[len - 1]? := by
        rw [List.getLast?_eq_getElem?, ← hr, List.getElem?_drop, List.length_drop, hbl]
        congr 1; omega
      rw [if_neg he, if_neg (by omega), hlast, List.getElem?_eq_getElem (by rw [hbl]; omega)]
      refine ⟨_, rfl, ?_, ?_, ?_⟩
      · show len - 1 ≤ 65; omega
      · show pos ≤ len - 1; omega
      · show List.drop pos (d.take (len - 1)) = l.dropLast
        rw [← hr, List.dropLast_eq_take, List.length_drop, hbl, List.drop_take, List.drop_take, List.take_take]
        congr 1
        omega

/-- The iterator over a serialized signature hands out its bytes from both ends, for every sequence of calls, without panicking, and
`as_slice` and `len` are what is left. -/
theorem C60_tap_iter (s : TapSer) (hs : s.len ≤ 65) (os : List IterOp) : ∃ i, runIter (TapIter.new s) os = some (i, (runList s.bytes os).2) ∧
    i.asSlice = some (runList s.bytes os).1 ∧ i.len = some (runList s.bytes os).1.length := by
  have gen : ∀ (os : List IterOp) (i : TapIter) (l : Bytes), i.sig.len ≤ 65 → i.pos ≤ i.sig.len → i.sig.bytes.drop i.pos = l →
      ∃ j, runIter i os = some (j, (runList l os).2) ∧ j.sig.len ≤ 65 ∧ j.pos ≤ j.sig.len ∧ j.sig.bytes.drop j.pos = (runList l os).1 := by
    intro os
    induction os with
    | nil => intro i l h1 h2 h3; exact ⟨i, rfl, h1, h2, h3⟩
    | cons o os ih =>
      intro i l h1 h2 h3
      obtain ⟨i', g1, g2, g3, g4⟩ := iter_step i l h1 h2 h3 o
      obtain ⟨j, k1, k2, k3, k4⟩ := ih i' _ g2 g3 g4
      refine ⟨j, ?_, k2, k3, k4⟩
      simp only [runIter, runList, g1, Option.bind_some, k1, Option.map_some]
  obtain ⟨j, k1, k2, k3, k4⟩ := gen os (TapIter.new s) s.bytes hs (Nat.zero_le _) rfl
  have hbl : j.sig.bytes.length = j.sig.len := by
    unfold TapSer.bytes; rw [List.length_take, j.sig.data.2]; omega
  refine ⟨j, k1, ?_, ?_⟩
  · unfold TapIter.asSlice; rw [if_pos (by omega), k4]
  · unfold TapIter.len; rw [if_pos k3, ← k4, List.length_drop, hbl]

/-! ## ECDSA -/

/-- Accepted are exactly the strings made of a DER signature and a byte of a standard type. -/
theorem C60_ecdsa_from_slice (D : Der) (sl : Bytes) (s : EcdsaSig D) : EcdsaSig.fromSlice D sl = .ok s ↔
    ∃ d, sl = d ++ [s.ty.toU32.toUInt8] ∧ D.parse d = some s.sig := by
  unfold EcdsaSig.fromSlice
  rcases List.eq_nil_or_concat sl with rfl | ⟨d, b, rfl⟩
  · simp
  · simp only [List.concat_eq_append, List.getLast?_append, List.getLast?_singleton, Option.some_or, List.dropLast_concat]
    constructor
    · intro h
      split at h
      · cases h
      · rename_i ty ht
        split at h
        · cases h
        · rename_i g hg
          cases h
          refine ⟨d, ?_, hg⟩
          rw [← (C55_from_standard _ _).mp ht]
          simp
    · rintro ⟨d', h1, h2⟩
      obtain ⟨rfl, h3⟩ := List.append_inj' h1 rfl
      obtain rfl : b = _ := by simpa using h3
      have : s.ty.toU32.toUInt8.toUInt32 = s.ty.toU32 := by cases s.ty <;> rfl
      rw [this, (C55_from_standard _ _).mpr rfl, h2]

theorem ecdsa_serialize {D : Der} (s : EcdsaSig D) : ∃ r, s.serialize = some r ∧ r.bytes = some s.toVec := by
  have hl := D.serialize_length s.sig
  unfold EcdsaSig.serialize
  simp only
  rw [if_pos (by omega)]
  have hlen : (D.serialize s.sig ++ List.drop (D.serialize s.sig).length (List.replicate 73 0)).length = 73 := by
    simp; omega
  rw [dif_pos (by rw [List.length_set]; exact hlen)]
  refine ⟨_, rfl, ?_⟩
  unfold EcdsaSer.bytes EcdsaSig.toVec
  simp only
  rw [if_pos (by omega)]
  congr 1
  have : ∃ k, List.drop (D.serialize s.sig).length (List.replicate 73 (0 : UInt8)) = 0 :: List.replicate k 0 := by
    refine ⟨72 - (D.serialize s.sig).length, ?_⟩
    rw [List.drop_replicate]
    rw [← List.replicate_succ]
    congr 1; omega
  obtain ⟨k, hk⟩ := this
  rw [hk, List.set_append_right _ _ (Nat.le_refl _)]
  simp only [Nat.sub_self, List.set_cons_zero]
  have e : D.serialize s.sig ++ s.ty.toU32.toUInt8 :: List.replicate k 0 =
      (D.serialize s.sig ++ [s.ty.toU32.toUInt8]) ++ List.replicate k 0 := by simp
  rw [e, List.take_left' (by simp)]

/-- `serialize` never panics (the buffer is long enough), agrees with `to_vec`, and reading it gives the signature back. -/
theorem C60_ecdsa_round_trip {D : Der} (s : EcdsaSig D) : ∃ r, s.serialize = some r ∧ r.bytes = some s.toVec ∧
    EcdsaSig.fromSlice D s.toVec = .ok s ∧ s.toVec.length ≤ 73 := by
  obtain ⟨r, h1, h2⟩ := ecdsa_serialize s
  refine ⟨r, h1, h2, (C60_ecdsa_from_slice _ _ _).mpr ⟨_, rfl, D.parse_serialize _⟩, ?_⟩
  have := D.serialize_length s.sig
  unfold EcdsaSig.toVec; simp; omega

/-- The other way: bytes are reproduced unless the external DER parser takes a form the external serializer does not write. -/
theorem C60_ecdsa_canonical (D : Der) (hD : ∀ d s, D.parse d = some s → D.serialize s = d) (sl : Bytes) (s : EcdsaSig D)
    (h : EcdsaSig.fromSlice D sl = .ok s) : s.toVec = sl := by
  obtain ⟨d, rfl, h2⟩ := (C60_ecdsa_from_slice _ _ _).mp h
  unfold EcdsaSig.toVec
  rw [hD _ _ h2]

/-- Refused strings: the empty one, a non-standard last byte, a DER error, in this order. -/
theorem C60_ecdsa_rejects (D : Der) (sl : Bytes) (e : EcdsaSigErr) : EcdsaSig.fromSlice D sl = .error e ↔
    (e = .empty ∧ sl = []) ∨ ∃ d b, sl = d ++ [b] ∧
      ((e = .sighashType b.toUInt32 ∧ b ∉ ([0x01, 0x02, 0x03, 0x81, 0x82, 0x83] : Bytes)) ∨
       (e = .invalidDer ∧ b ∈ ([0x01, 0x02, 0x03, 0x81, 0x82, 0x83] : Bytes) ∧ D.parse d = none)) := by
  have hmem : ∀ b : UInt8, b.toUInt32 ∈ ([0x01, 0x02, 0x03, 0x81, 0x82, 0x83] : List UInt32) ↔
      b ∈ ([0x01, 0x02, 0x03, 0x81, 0x82, 0x83] : Bytes) := by
    intro b
    have h : ∀ k : UInt8, b.toUInt32 = k.toUInt32 ↔ b = k := by
      intro k
      rw [← UInt32.toNat_inj, ← UInt8.toNat_inj]; simp
    simp only [List.mem_cons, List.not_mem_nil, or_false]
    rw [← h 1, ← h 2, ← h 3, ← h 0x81, ← h 0x82, ← h 0x83]
    rfl
  unfold EcdsaSig.fromSlice
  rcases List.eq_nil_or_concat sl with rfl | ⟨d, b, rfl⟩
  · simp only [List.getLast?_nil]
    constructor
    · intro h; cases h; exact .inl ⟨rfl, trivial⟩
    · rintro (⟨rfl, _⟩ | ⟨d, b, h, _⟩)
      · rfl
      · simp at h
  · simp only [List.concat_eq_append, List.getLast?_append, List.getLast?_singleton, Option.some_or, List.dropLast_concat]
    cases hs : Ecdsa.fromStandard b.toUInt32 with
    | error x =>
      simp only
      obtain ⟨rfl, hx⟩ := (C55_from_standard_error _ _).mp hs
      rw [hmem] at hx
      constructor
      · intro h; cases h
        exact .inr ⟨d, b, rfl, .inl ⟨rfl, hx⟩⟩
      · rintro (⟨_, h⟩ | ⟨d', b', h, h'⟩)
        · simp at h
        · obtain ⟨rfl, h3⟩ := List.append_inj' h rfl
          obtain rfl : b = b' := by simpa using h3
          rcases h' with ⟨rfl, _⟩ | ⟨_, h, _⟩
          · rfl
          · exact absurd h hx
    | ok ty =>
      simp only
      have hin : b ∈ ([0x01, 0x02, 0x03, 0x81, 0x82, 0x83] : Bytes) := by
        rw [← hmem]
        apply Classical.byContradiction
        intro hn
        have := (C55_from_standard_error b.toUInt32 b.toUInt32).mpr ⟨rfl, hn⟩
        rw [hs] at this; cases this
      cases hp : D.parse d with
      | none =>
        simp only
        constructor
        · intro h; cases h; exact .inr ⟨d, b, rfl, .inr ⟨rfl, hin, hp⟩⟩
        · rintro (⟨_, h⟩ | ⟨d', b', h, h'⟩)
          · simp at h
          · obtain ⟨rfl, h3⟩ := List.append_inj' h rfl
            obtain rfl : b = b' := by simpa using h3
            rcases h' with ⟨_, h⟩ | ⟨rfl, _, _⟩
            · exact absurd hin h
            · rfl
      | some g =>
        simp only
        constructor
        · intro h; cases h
        · rintro (⟨_, h⟩ | ⟨d', b', h, h'⟩)
          · simp at h
          · obtain ⟨rfl, h3⟩ := List.append_inj' h rfl
            obtain rfl : b = b' := by simpa using h3
            rcases h' with ⟨_, h⟩ | ⟨_, _, h⟩
            · exact absurd hin h
            · rw [hp] at h; cases h

/-- The text form. -/
theorem C60_ecdsa_text (D : Der) (s : EcdsaSig D) : ∃ t, s.display = some t ∧ EcdsaSig.parse D t = .ok s := by
  obtain ⟨r, h1, h2, h3, _⟩ := C60_ecdsa_round_trip s
  refine ⟨hexBytes s.toVec, ?_, ?_⟩
  · unfold EcdsaSig.display; rw [h1, Option.bind_some, h2]; rfl
  · unfold EcdsaSig.parse; rw [unhex_hexBytes]; simp only [h3]; rfl

/-! ## A concrete DER codec

To see that the requirements on `Der` can be met by the real format: strict DER of two integers below 2^256. -/

/-- Drop leading zeroes as long as the number stays non-negative in two's complement. -/
def derStrip : Bytes → Bytes
  | a :: b :: t => if a = 0 ∧ b < 0x80 then derStrip (b :: t) else a :: b :: t
  | l => l

theorem derStrip_val : ∀ l : Bytes, beNat (derStrip l) = beNat l
  | [] => rfl
  | [_] => rfl
  | a :: b :: t => by
    rw [derStrip]
    split
    · rename_i h
      rw [derStrip_val (b :: t), h.1]
      unfold beNat; rw [List.reverse_cons (a := 0), leNat_append]; rfl
    · rfl
theorem derStrip_length : ∀ l : Bytes, (derStrip l).length ≤ l.length
  | [] => Nat.le_refl _
  | [_] => Nat.le_refl _
  | a :: b :: t => by
    rw [derStrip]
    split
    · have := derStrip_length (b :: t); simp at *; omega
    · exact Nat.le_refl _

def derInt (n : Nat) : Bytes := derStrip (beBytes 33 n)
theorem derInt_length (n : Nat) : (derInt n).length ≤ 33 := by
  have := derStrip_length (beBytes 33 n)
  rw [beBytes_length] at this
  exact this

def derWrite (p : Nat × Nat) : Bytes :=
  let body := [0x02, UInt8.ofNat (derInt p.1).length] ++ derInt p.1 ++ ([0x02, UInt8.ofNat (derInt p.2).length] ++ derInt p.2)
  [0x30, UInt8.ofNat body.length] ++ body
def derReadInt : Bytes → Option (Nat × Bytes)
  | a :: l :: t => if a = 0x02 ∧ l.toNat ≤ t.length ∧ t.take l.toNat = derInt (beNat (t.take l.toNat)) then some (beNat (t.take l.toNat), t.drop l.toNat) else none
  | _ => none
def derRead : Bytes → Option (Nat × Nat)
  | a :: l :: t => if a = 0x30 ∧ l.toNat = t.length then
      match derReadInt t with
      | some (r, u) => match derReadInt u with
        | some (s, []) => some (r, s)
        | _ => none
      | none => none
    else none
  | _ => none

theorem derReadInt_write (n : Nat) (h : n < 2 ^ 256) (rest : Bytes) :
    derReadInt ([0x02, UInt8.ofNat (derInt n).length] ++ derInt n ++ rest) = some (n, rest) := by
  have hl := derInt_length n
  have hv : beNat (derInt n) = n := by
    unfold derInt; rw [derStrip_val, beNat_beBytes 33 n (by omega)]
  have h1 : (UInt8.ofNat (derInt n).length).toNat = (derInt n).length := by rw [UInt8.toNat_ofNat']; omega
  simp only [List.cons_append, List.nil_append, derReadInt]
  rw [h1, List.take_left, List.drop_left, hv, if_pos ⟨trivial, by simp, rfl⟩]

/-- Strict DER for pairs of numbers below 2^256. -/
def strictDer : Der where
  Sig := { p : Nat × Nat // p.1 < 2 ^ 256 ∧ p.2 < 2 ^ 256 }
  serialize p := derWrite p.1
  parse b := match derRead b with
    | some p => if h : p.1 < 2 ^ 256 ∧ p.2 < 2 ^ 256 then some ⟨p, h⟩ else none
    | none => none
  parse_serialize := by
    rintro ⟨⟨r, s⟩, hr, hs⟩
    have h1 := derInt_length r
    have h2 := derInt_length s
    have : derRead (derWrite (r, s)) = some (r, s) := by
      unfold derWrite
      generalize hb : [0x02, UInt8.ofNat (derInt r).length] ++ derInt r ++ ([0x02, UInt8.ofNat (derInt s).length] ++ derInt s) = body
      have hbl : body.length ≤ 70 := by
        rw [← hb]; simp only [List.length_append, List.length_cons, List.length_nil]; omega
      simp only [List.cons_append, List.nil_append, derRead]
      rw [if_pos]
      · rw [← hb, derReadInt_write r hr]
        simp only
        have := derReadInt_write s hs []
        rw [List.append_nil] at this
        rw [this]
      · exact ⟨trivial, by rw [UInt8.toNat_ofNat']; omega⟩
    simp only [this]
    rw [dif_pos ⟨hr, hs⟩]
  serialize_length := by
    rintro ⟨⟨r, s⟩, hr, hs⟩
    have h1 := derInt_length r
    have h2 := derInt_length s
    simp only [derWrite, List.length_append, List.length_cons, List.length_nil]
    omega

example : EcdsaSig.toVec (D := strictDer) ⟨⟨(255, 1), by decide, by decide⟩, .allAcp⟩ =
    [0x30, 0x07, 0x02, 0x02, 0x00, 0xff, 0x02, 0x01, 0x01, 0x81] := by decide
example : EcdsaSig.fromSlice strictDer [0x30, 0x07, 0x02, 0x02, 0x00, 0xff, 0x02, 0x01, 0x01, 0x81] =
    .ok ⟨⟨(255, 1), by decide, by decide⟩, .allAcp⟩ := by
  refine (C60_ecdsa_from_slice _ _ _).mpr ⟨[0x30, 0x07, 0x02, 0x02, 0x00, 0xff, 0x02, 0x01, 0x01], rfl, ?_⟩
  exact strictDer.parse_serialize ⟨(255, 1), by decide, by decide⟩
example : EcdsaSig.fromSlice strictDer [] = .error .empty ∧ EcdsaSig.fromSlice strictDer [0x30, 0x00] = .error (.sighashType 0) ∧
    EcdsaSig.fromSlice strictDer [0x30, 0x00, 0x01] = .error .invalidDer := ⟨rfl, rfl, rfl⟩
example : TapSig.fromSlice (List.replicate 64 7 ++ [0x83]) = .ok ⟨⟨List.replicate 64 7, rfl⟩, .singleAcp⟩ := by rfl
example : TapSig.fromSlice (List.replicate 64 7 ++ [0x00]) = .error (.sighashType 0) ∧ TapSig.fromSlice [1, 2] = .error (.size 2) := ⟨rfl, rfl⟩
example : (runList [1, 2, 3, 4] [.next, .nextBack, .nth 1]) = ([], [some 1, some 4, some 3]) := rfl

end Crypto
end Btc
