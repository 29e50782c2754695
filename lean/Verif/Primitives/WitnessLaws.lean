import Verif.Primitives.Witness
import Verif.Codec.CompactSize
import Verif.Codec.EncoderLaws
/-!
# The witness representation and the plain list of elements
-/
namespace Btc

theorem writeAt_mid (a b c d : Bytes) (h : d.length = b.length) :
    writeAt (a ++ (b ++ c)) a.length d = some (a ++ (d ++ c)) := by
  unfold writeAt
  rw [if_pos (by simp; omega)]
  congr 1
  rw [List.take_left, h, ← List.drop_drop, List.drop_left, List.drop_left, List.append_assoc]

theorem leNat_take_csEncode (k v : Nat) (r : Bytes) (h : v < 256 ^ k) :
    leNat ((leBytes k v ++ r).take k) = v ∧ (leBytes k v ++ r).drop k = r := by
  have hl := leBytes_length k v
  constructor
  · rw [List.take_append_of_le_length (by omega), List.take_of_length_le (by omega),
      leNat_leBytes k v h]
  · rw [List.drop_append_of_le_length (by omega), List.drop_of_length_le (by omega)]; rfl

theorem decodeUnchecked_csEncode (v : Nat) (hv : v < 2 ^ 64) (r : Bytes) :
    decodeUnchecked (csEncode v ++ r) = some (v, r) := by
  unfold csEncode
  split
  · rename_i h
    obtain ⟨h1, h2, h3⟩ := ofNat_ne_marker h
    simp [decodeUnchecked, h1, h2, h3]
    omega
  · split
    · obtain ⟨h1, h2⟩ := leNat_take_csEncode 2 v r (by omega)
      have hl : (leBytes 2 v ++ r).length ≥ 2 := by simp [leBytes_length]
      simp only [List.cons_append, decodeUnchecked, h1, h2]
      rw [if_neg (by decide), if_neg (by decide), if_pos (by decide), if_pos hl, if_pos (by omega)]
    · split
      · obtain ⟨h1, h2⟩ := leNat_take_csEncode 4 v r (by omega)
        have hl : (leBytes 4 v ++ r).length ≥ 4 := by simp [leBytes_length]
        simp only [List.cons_append, decodeUnchecked, h1, h2]
        rw [if_neg (by decide), if_pos (by decide), if_pos hl, if_pos (by omega)]
      · obtain ⟨h1, h2⟩ := leNat_take_csEncode 8 v r (by omega)
        have hl : (leBytes 8 v ++ r).length ≥ 8 := by simp [leBytes_length]
        simp only [List.cons_append, decodeUnchecked, h1, h2]
        rw [if_pos trivial, if_pos hl, if_pos (by omega)]

/-- Serialization of one witness element: length prefix and bytes. -/
def elemEnc (x : Bytes) : Bytes := csEncode x.length ++ x

theorem elemEnc_length (x : Bytes) : (elemEnc x).length = csSize x.length + x.length := by
  simp [elemEnc, csEncode_length]

/-- Serialization of a list of witness elements without the count. -/
def elemsEnc (l : List Bytes) : Bytes := (l.map elemEnc).flatten

@[simp] theorem elemsEnc_nil : elemsEnc [] = [] := rfl
@[simp] theorem elemsEnc_cons (x : Bytes) (l : List Bytes) :
    elemsEnc (x :: l) = elemEnc x ++ elemsEnc l := by simp [elemsEnc]
theorem elemsEnc_append (a b : List Bytes) : elemsEnc (a ++ b) = elemsEnc a ++ elemsEnc b := by
  simp [elemsEnc]

/-- The offset table: start of every element when the first starts at `p`. -/
def offTable : Nat → List Bytes → Bytes
  | _, [] => []
  | p, x :: l => leBytes 4 p ++ offTable (p + (elemEnc x).length) l

theorem offTable_length (p : Nat) (l : List Bytes) : (offTable p l).length = 4 * l.length := by
  induction l generalizing p with
  | nil => rfl
  | cons x l ih => simp [offTable, ih, leBytes_length]; omega

theorem offTable_append (p : Nat) (a b : List Bytes) :
    offTable p (a ++ b) = offTable p a ++ offTable (p + (elemsEnc a).length) b := by
  induction a generalizing p with
  | nil => simp [offTable]
  | cons x a ih => simp [offTable, ih, Nat.add_assoc]

/-- All element start offsets fit the 32-bit table entries: everything before the last element is
shorter than 4 GiB. -/
def OffsetsFit (l : List Bytes) : Prop :=
  ∀ a x b, l = a ++ x :: b → (elemsEnc a).length < 2 ^ 32

theorem OffsetsFit.left {a b : List Bytes} (h : OffsetsFit (a ++ b)) : OffsetsFit a :=
  fun c x d hc => h c x (d ++ b) (by simp [hc])

namespace Wit

/-- The representation of a list of elements. -/
def ofList (l : List Bytes) : Wit := ⟨elemsEnc l ++ offTable 0 l, l.length, (elemsEnc l).length⟩

theorem ofList_nil : ofList [] = empty := rfl

theorem contentSize_eq (l : List Bytes) :
    (l.map fun x => x.length + csSize x.length).sum = (elemsEnc l).length := by
  induction l with
  | nil => rfl
  | cons x l ih => simp only [List.map_cons, List.sum_cons, ih, elemsEnc_cons, List.length_append,
      elemEnc_length]; omega

theorem fromLoop_spec (total : Nat) : ∀ (todo donel : List Bytes),
    total = (elemsEnc (donel ++ todo)).length → OffsetsFit (donel ++ todo) →
    fromLoop total todo donel.length (elemsEnc donel).length
      (elemsEnc donel ++ (List.replicate (elemsEnc todo).length 0 ++
        (offTable 0 donel ++ List.replicate (4 * todo.length) 0)))
      = some (elemsEnc (donel ++ todo) ++ offTable 0 (donel ++ todo)) := by
  intro todo
  induction todo with
  | nil => intro donel _ _; simp [fromLoop]
  | cons x todo ih =>
    intro donel ht hf
    have hlt := hf donel x todo rfl
    unfold fromLoop
    have e1 : encodeCursor
        (elemsEnc donel ++ (List.replicate (elemsEnc (x :: todo)).length 0 ++
          (offTable 0 donel ++ List.replicate (4 * (x :: todo).length) 0)))
        total donel.length (elemsEnc donel).length
        = some (elemsEnc donel ++ (List.replicate (elemsEnc (x :: todo)).length 0 ++
          (offTable 0 (donel ++ [x]) ++ List.replicate (4 * todo.length) 0))) := by
      unfold encodeCursor
      rw [if_pos hlt]
      have hr : List.replicate (4 * (x :: todo).length) (0 : UInt8)
          = List.replicate 4 0 ++ List.replicate (4 * todo.length) 0 := by
        rw [List.replicate_append_replicate]; congr 1; simp; omega
      have := writeAt_mid (elemsEnc donel ++ (List.replicate (elemsEnc (x :: todo)).length 0 ++
        offTable 0 donel)) (List.replicate 4 0) (List.replicate (4 * todo.length) 0)
        (leBytes 4 (elemsEnc donel).length) (by simp [leBytes_length])
      rw [hr]
      rw [show total + donel.length * 4 = (elemsEnc donel ++
        (List.replicate (elemsEnc (x :: todo)).length 0 ++ offTable 0 donel)).length by
          rw [ht, elemsEnc_append]; simp [offTable_length]; omega]
      simp only [List.append_assoc] at this ⊢
      rw [this, offTable_append]
      simp [offTable]
    rw [e1]
    have hsplit : List.replicate (elemsEnc (x :: todo)).length (0 : UInt8)
        = List.replicate (csEncode x.length).length 0 ++ (List.replicate x.length 0 ++
          List.replicate (elemsEnc todo).length 0) := by
      rw [List.replicate_append_replicate, List.replicate_append_replicate]
      congr 1; simp [elemEnc]
    simp only [Option.bind_eq_bind, Option.bind_some]
    have e2 := writeAt_mid (elemsEnc donel) (List.replicate (csEncode x.length).length 0)
      ((List.replicate x.length 0 ++ List.replicate (elemsEnc todo).length 0) ++
        (offTable 0 (donel ++ [x]) ++ List.replicate (4 * todo.length) 0))
      (csEncode x.length) (by simp)
    rw [hsplit]
    simp only [List.append_assoc] at e2 ⊢
    rw [e2]
    simp only [Option.bind_some]
    have e3 := writeAt_mid (elemsEnc donel ++ csEncode x.length) (List.replicate x.length 0)
      (List.replicate (elemsEnc todo).length 0 ++
        (offTable 0 (donel ++ [x]) ++ List.replicate (4 * todo.length) 0)) x (by simp)
    rw [List.length_append] at e3
    simp only [List.append_assoc] at e3
    rw [e3]
    simp only [Option.bind_some]
    have := ih (donel ++ [x]) (by simpa using ht) (by simpa using hf)
    simp only [elemsEnc_append, elemsEnc_cons, elemsEnc_nil, List.append_nil, elemEnc,
      List.length_append, List.length_cons, List.length_nil, List.append_assoc, List.cons_append,
      List.nil_append, Nat.zero_add] at this ⊢
    rw [← Nat.add_assoc] at this
    exact this

theorem fromSlice_eq (l : List Bytes) (h : OffsetsFit l) : fromSlice l = some (ofList l) := by
  unfold fromSlice
  rw [contentSize_eq]
  have := fromLoop_spec (elemsEnc l).length l [] rfl h
  simp only [elemsEnc_nil, List.nil_append, offTable, List.length_nil,
    List.replicate_append_replicate] at this
  rw [Nat.mul_comm l.length 4]
  simp only [Option.bind_eq_bind]
  rw [this]
  rfl

theorem pushSlice_eq (l : List Bytes) (x : Bytes) (h : OffsetsFit (l ++ [x])) :
    (ofList l).pushSlice x = some (ofList (l ++ [x])) := by
  have hlt := h l x [] rfl
  unfold pushSlice ofList
  simp only
  obtain ⟨n, hn⟩ : ∃ n, n = (csEncode x.length).length + x.length := ⟨_, rfl⟩
  rw [← hn, if_neg (by simp)]
  -- the rotation
  have hdrop : (elemsEnc l ++ offTable 0 l ++ List.replicate (n + 4) (0 : UInt8)).drop
      (elemsEnc l).length = offTable 0 l ++ List.replicate 4 0 ++ List.replicate n 0 := by
    rw [List.append_assoc, List.drop_left, List.append_assoc, List.replicate_append_replicate,
      Nat.add_comm]
  have htake : (elemsEnc l ++ offTable 0 l ++ List.replicate (n + 4) (0 : UInt8)).take
      (elemsEnc l).length = elemsEnc l := by
    rw [List.append_assoc, List.take_left]
  rw [hdrop, htake]
  have hlen : (offTable 0 l ++ List.replicate 4 (0 : UInt8) ++ List.replicate n 0).length - n
      = (offTable 0 l ++ List.replicate 4 (0 : UInt8)).length := by
    simp only [List.length_append, List.length_replicate]; omega
  rw [hlen, List.drop_left, List.take_left]
  -- the cursor
  have e1 : encodeCursor (elemsEnc l ++ (List.replicate n 0 ++ (offTable 0 l ++ List.replicate 4 0)))
      ((elemsEnc l).length + n) (l.length + 1 - 1) (elemsEnc l).length
      = some (elemsEnc l ++ (List.replicate n 0 ++ offTable 0 (l ++ [x]))) := by
    unfold encodeCursor
    rw [if_pos hlt]
    have := writeAt_mid (elemsEnc l ++ (List.replicate n 0 ++ offTable 0 l)) (List.replicate 4 0) []
      (leBytes 4 (elemsEnc l).length) (by simp [leBytes_length])
    rw [show (elemsEnc l).length + n + (l.length + 1 - 1) * 4 = (elemsEnc l ++
      (List.replicate n 0 ++ offTable 0 l)).length by simp [offTable_length]; omega]
    simp only [List.append_assoc, List.append_nil] at this ⊢
    rw [this, offTable_append]
    simp [offTable]
  rw [e1]
  have hsplit : List.replicate n (0 : UInt8)
      = List.replicate (csEncode x.length).length 0 ++ List.replicate x.length 0 := by
    rw [List.replicate_append_replicate, hn]
  have e2 := writeAt_mid (elemsEnc l) (List.replicate (csEncode x.length).length 0)
    (List.replicate x.length 0 ++ offTable 0 (l ++ [x])) (csEncode x.length) (by simp)
  have e3 := writeAt_mid (elemsEnc l ++ csEncode x.length) (List.replicate x.length 0)
    (offTable 0 (l ++ [x])) x (by simp)
  rw [List.length_append] at e3
  simp only [Option.bind_eq_bind, Option.bind_some, hsplit, List.append_assoc] at e2 e3 ⊢
  rw [e2]
  simp only [Option.bind_some]
  rw [e3]
  simp [elemsEnc_append, elemEnc, hn]

/-- Element `i` of a represented list: what `get` returns. -/
theorem get_ofList (l : List Bytes) (h : OffsetsFit l) (h64 : ∀ x ∈ l, x.length < 2 ^ 64) (i : Nat) :
    (ofList l).get i = some (match l[i]? with
      | none => none
      | some x => if x.length ≤ 4000000 then some x else none) := by
  by_cases hi : i < l.length
  · obtain ⟨a, x, b, rfl, rfl⟩ : ∃ a x b, l = a ++ x :: b ∧ i = a.length := by
      refine ⟨l.take i, l[i], l.drop (i + 1), ?_, by simp; omega⟩
      rw [← List.drop_eq_getElem_cons hi, List.take_append_drop]
    have hlt := h a x b rfl
    have hx := h64 x (by simp)
    have hcur : decodeCursor (ofList (a ++ x :: b)).content (ofList (a ++ x :: b)).idx a.length
        = some (elemsEnc a).length := by
      unfold decodeCursor ofList
      simp only
      rw [offTable_append]
      simp only [offTable, Nat.zero_add]
      rw [if_pos (by simp [offTable_length, leBytes_length]; omega)]
      rw [← List.drop_drop, List.drop_left, show a.length * 4 = (offTable 0 a).length by
        simp [offTable_length]; omega, List.drop_left]
      rw [(leNat_take_csEncode 4 _ _ (by omega)).1]
    unfold get
    rw [hcur]
    simp only [List.getElem?_append_right (Nat.le_refl _), Nat.sub_self, List.getElem?_cons_zero]
    rw [if_neg (by simp [ofList, elemsEnc_append])]
    have hd : (ofList (a ++ x :: b)).content.drop (elemsEnc a).length
        = csEncode x.length ++ (x ++ (elemsEnc b ++ offTable 0 (a ++ x :: b))) := by
      simp only [ofList, elemsEnc_append, elemsEnc_cons, elemEnc, List.append_assoc, List.drop_left]
    rw [hd, decodeUnchecked_csEncode _ hx]
    simp only [castUsizeIfValid]
    by_cases hc : x.length ≤ 4000000
    · rw [if_neg (by omega), if_pos hc]
      simp
    · rw [if_pos (by omega), if_neg hc]
  · rw [List.getElem?_eq_none (by omega)]
    have : decodeCursor (ofList l).content (ofList l).idx i = none := by
      unfold decodeCursor ofList
      rw [if_neg (by simp [offTable_length]; omega)]
    simp [get, this]

theorem getBack_ofList (l : List Bytes) (h : OffsetsFit l) (hs : ∀ x ∈ l, x.length ≤ 4000000)
    (i : Nat) : (ofList l).getBack i = some l.reverse[i]? := by
  unfold getBack
  by_cases hi : l.length ≤ i
  · rw [if_pos (by simpa [ofList] using hi), List.getElem?_eq_none (by simpa using hi)]
  · rw [if_neg (by simpa [ofList] using hi),
      get_ofList l h (fun x hx => by have := hs x hx; omega),
      List.getElem?_reverse (by omega)]
    have : (ofList l).elems - 1 - i = l.length - 1 - i := rfl
    rw [this]
    have hlt : l.length - 1 - i < l.length := by omega
    rw [List.getElem?_eq_getElem hlt]
    simp only
    rw [if_pos (hs _ (List.getElem_mem hlt))]

theorem iterFrom_ofList (l : List Bytes) (h : OffsetsFit l) (hs : ∀ x ∈ l, x.length ≤ 4000000) :
    ∀ (fuel i : Nat), l.length < fuel + i → (ofList l).iterFrom fuel i = some (l.drop i) := by
  intro fuel
  induction fuel with
  | zero =>
    intro i hi
    rw [iterFrom, List.drop_eq_nil_of_le (by omega)]
  | succ fuel ih =>
    intro i hi
    rw [iterFrom, get_ofList l h (fun x hx => by have := hs x hx; omega)]
    by_cases hlt : i < l.length
    · rw [List.getElem?_eq_getElem hlt]
      simp only
      rw [if_pos (hs _ (List.getElem_mem hlt)), ih (i + 1) (by omega)]
      simp
    · rw [List.getElem?_eq_none (by omega), List.drop_eq_nil_of_le (by omega)]

theorem toVec_ofList (l : List Bytes) (h : OffsetsFit l) (hs : ∀ x ∈ l, x.length ≤ 4000000) :
    (ofList l).toVec = some l := by
  unfold toVec
  rw [iterFrom_ofList l h hs _ 0 (by simp [ofList, offTable_length]; omega)]
  rfl

theorem elemsEnc_inj {a b : List Bytes} (ha : ∀ x ∈ a, x.length < 2 ^ 64)
    (hb : ∀ x ∈ b, x.length < 2 ^ 64) (hl : a.length = b.length) {r s : Bytes}
    (h : elemsEnc a ++ r = elemsEnc b ++ s) : a = b ∧ r = s := by
  induction a generalizing b with
  | nil =>
    cases b with
    | nil => exact ⟨rfl, h⟩
    | cons => simp at hl
  | cons x a ih =>
    cases b with
    | nil => simp at hl
    | cons y b =>
      simp only [elemsEnc_cons, elemEnc, List.append_assoc] at h
      have h1 := csView_csEncode x.length (x ++ (elemsEnc a ++ r))
      rw [h, csView_csEncode] at h1
      simp only [Option.some.injEq, Prod.mk.injEq] at h1
      obtain ⟨h2, h3⟩ := h1
      have h4 := csDecode_csEncode x.length (ha x (by simp))
      rw [← h2, csDecode_csEncode y.length (hb y (by simp))] at h4
      simp only [Except.ok.injEq] at h4
      have h5 := List.append_inj h3.symm h4.symm
      obtain ⟨h6, h7⟩ := h5
      obtain ⟨h8, h9⟩ := ih (fun z hz => ha z (by simp [hz])) (fun z hz => hb z (by simp [hz]))
        (by simpa using hl) h7
      exact ⟨by rw [h6, h8], h9⟩

theorem ofList_inj {a b : List Bytes} (ha : ∀ x ∈ a, x.length < 2 ^ 64)
    (hb : ∀ x ∈ b, x.length < 2 ^ 64) (h : ofList a = ofList b) : a = b := by
  unfold ofList at h
  simp only [Wit.mk.injEq] at h
  exact (elemsEnc_inj ha hb h.2.1 h.1).1

end Wit
end Btc
