import Verif.Primitives.WitnessDecode
import Verif.Props.C06
import Verif.Codec.Drivers
/-!
# C18, C19: witnesses
-/
namespace Btc

/-- Mutating operations on a witness. -/
inductive WitOp where
  | push (x : Bytes)
  | extend (l : List Bytes)
  | clear
  | fromSlice (l : List Bytes)

/-- What the code does (`none`: panic).  `extend` is repeated `push` (witness.rs 670-672). -/
def WitOp.run (w : Wit) : WitOp → Option Wit
  | .push x => w.pushSlice x
  | .extend l => l.foldlM (fun w x => w.pushSlice x) w
  | .clear => some Wit.empty
  | .fromSlice l => Wit.fromSlice l

/-- What it means for the list of elements. -/
def WitOp.spec (l : List Bytes) : WitOp → List Bytes
  | .push x => l ++ [x]
  | .extend m => l ++ m
  | .clear => []
  | .fromSlice m => m

/-- Serialized size of the elements without the count. -/
def elemsSize (l : List Bytes) : Nat := (l.map fun x => csSize x.length + x.length).sum

theorem elemsSize_eq (l : List Bytes) : elemsSize l = (elemsEnc l).length := by
  rw [← Wit.contentSize_eq]
  unfold elemsSize
  congr 2
  funext x
  omega

/-- Everything fits: elements of at most 4,000,000 bytes, less than 4 GiB altogether. -/
def WitFits (l : List Bytes) : Prop := (∀ x ∈ l, x.length ≤ 4000000) ∧ elemsSize l < 2 ^ 32

theorem WitFits.offsets {l : List Bytes} (h : WitFits l) : OffsetsFit l := by
  intro a x b hab
  have := h.2
  rw [elemsSize_eq, hab, elemsEnc_append] at this
  simp only [List.length_append] at this
  omega

theorem WitFits.left {a b : List Bytes} (h : WitFits (a ++ b)) : WitFits a := by
  refine ⟨fun x hx => h.1 x (by simp [hx]), ?_⟩
  have := h.2
  simp only [elemsSize, List.map_append, List.sum_append] at this ⊢
  omega

/-- Run a sequence of operations on an initially empty witness. -/
def witRun (ops : List WitOp) : Option Wit := ops.foldlM WitOp.run Wit.empty

/-- The list after a sequence of operations. -/
def witSpec (ops : List WitOp) : List Bytes := ops.foldl WitOp.spec []

theorem run_eq (l : List Bytes) (op : WitOp) (h : WitFits (op.spec l)) :
    op.run (Wit.ofList l) = some (Wit.ofList (op.spec l)) := by
  cases op with
  | push x => exact Wit.pushSlice_eq l x h.offsets
  | clear => rfl
  | fromSlice m => exact Wit.fromSlice_eq m h.offsets
  | extend m =>
    simp only [WitOp.run, WitOp.spec] at h ⊢
    induction m generalizing l with
    | nil => simp
    | cons x m ih =>
      rw [List.foldlM_cons]
      have h1 : WitFits (l ++ [x]) := by
        have : l ++ x :: m = (l ++ [x]) ++ m := by simp
        rw [this] at h
        exact h.left
      rw [Wit.pushSlice_eq l x h1.offsets]
      simp only [Option.bind_eq_bind, Option.bind_some]
      rw [ih (l ++ [x]) (by simpa using h)]
      simp

/-- Everything observable about a witness agrees with the list `l`. -/
structure AgreesWith (w : Wit) (l : List Bytes) : Prop where
  len : w.elems = l.length
  isEmpty : w.isEmpty = l.isEmpty
  get : ∀ i, w.get i = some l[i]?
  getBack : ∀ i, w.getBack i = some l.reverse[i]?
  toVec : w.toVec = some l
  iterLen : ∀ i ≤ l.length, w.sizeHint i = some (l.length - i)
  size : w.size = some (csSize l.length + elemsSize l)
  eqSlice : ∀ m, w.eqSlice m = some (decide (l = m))

theorem agrees_ofList (l : List Bytes) (ho : OffsetsFit l) (h : ∀ x ∈ l, x.length ≤ 4000000) :
    AgreesWith (Wit.ofList l) l where
  len := rfl
  isEmpty := by cases l <;> simp [Wit.ofList, Wit.isEmpty]
  get i := by
    rw [Wit.get_ofList l ho (fun x hx => by have := h x hx; omega)]
    cases hi : l[i]? with
    | none => rfl
    | some x =>
      simp only
      rw [if_pos (h x (List.mem_of_getElem? hi))]
  getBack i := Wit.getBack_ofList l ho h i
  toVec := Wit.toVec_ofList l ho h
  iterLen i hi := by
    unfold Wit.sizeHint Wit.ofList
    have h1 : ((elemsEnc l ++ offTable 0 l).length - (elemsEnc l).length) / 4 = l.length := by
      simp [offTable_length]
    simp only [h1]
    rw [if_pos ⟨by simp, hi⟩]
  size := by
    unfold Wit.size
    rw [Wit.toVec_ofList l ho h]
    rfl
  eqSlice m := by
    unfold Wit.eqSlice
    rw [Wit.toVec_ofList l ho h]
    by_cases hl : l.length = m.length
    · rw [if_neg (by simpa [Wit.ofList] using hl)]
      simp only [Option.map_some, Option.some.injEq]
      rw [Bool.eq_iff_iff]
      simp only [List.all_eq_true, beq_iff_eq, decide_eq_true_eq]
      constructor
      · intro hz
        apply List.ext_getElem hl
        intro i h1 h2
        have : (l[i], m[i]) ∈ l.zip m := by
          rw [List.mem_iff_getElem]
          exact ⟨i, by simp; omega, by simp⟩
        exact hz _ this
      · rintro rfl p hp
        rw [List.mem_iff_getElem] at hp
        obtain ⟨i, hi, rfl⟩ := hp
        simp
    · rw [if_pos (by simpa [Wit.ofList] using hl)]
      have : l ≠ m := fun h => hl (by rw [h])
      simp [this]

theorem witRun_eq (ops : List WitOp) (h : ∀ pre suf, ops = pre ++ suf → WitFits (witSpec pre)) :
    witRun ops = some (Wit.ofList (witSpec ops)) := by
  suffices ∀ (ops : List WitOp) (l : List Bytes),
      (∀ pre suf, ops = pre ++ suf → WitFits (pre.foldl WitOp.spec l)) →
      ops.foldlM WitOp.run (Wit.ofList l) = some (Wit.ofList (ops.foldl WitOp.spec l)) from
    this ops [] h
  intro ops
  induction ops with
  | nil => intro l _; rfl
  | cons op ops ih =>
    intro l h
    rw [List.foldlM_cons, run_eq l op (h [op] ops rfl)]
    simp only [Option.bind_eq_bind, Option.bind_some]
    exact ih _ (fun pre suf hps => by
      have := h (op :: pre) suf (by simp [hps])
      simpa using this)

/-- After any sequence of operations whose intermediate lists fit, nothing has panicked and every
observation agrees with the plain list of elements. -/
theorem C18_list (ops : List WitOp) (h : ∀ pre suf, ops = pre ++ suf → WitFits (witSpec pre)) :
    ∃ w, witRun ops = some w ∧ AgreesWith w (witSpec ops) := by
  have hf := h ops [] (by simp)
  exact ⟨_, witRun_eq ops h, agrees_ofList _ hf.offsets hf.1⟩

/-- Two witnesses built by operation sequences are equal exactly when their lists are. -/
theorem C18_eq (ops ops' : List WitOp) (h : ∀ pre suf, ops = pre ++ suf → WitFits (witSpec pre))
    (h' : ∀ pre suf, ops' = pre ++ suf → WitFits (witSpec pre)) :
    witRun ops = witRun ops' ↔ witSpec ops = witSpec ops' := by
  rw [witRun_eq ops h, witRun_eq ops' h', Option.some.injEq]
  refine ⟨Wit.ofList_inj (fun x hx => ?_) (fun x hx => ?_), fun he => by rw [he]⟩
  · have := (h ops [] (by simp)).1 x hx; omega
  · have := (h' ops' [] (by simp)).1 x hx; omega

example : ∃ w, witRun [.fromSlice [[1], []], .push [2, 3], .extend [[4], [5]]] = some w ∧
    AgreesWith w [[1], [], [2, 3], [4], [5]] := by
  refine C18_list [.fromSlice [[1], []], .push [2, 3], .extend [[4], [5]]] ?_
  intro pre suf h
  have hw : ∀ n ≤ 3, WitFits (witSpec
      (([.fromSlice [[1], []], .push [2, 3], .extend [[4], [5]]] : List WitOp).take n)) := by
    intro n hn
    have : n = 0 ∨ n = 1 ∨ n = 2 ∨ n = 3 := by omega
    rcases this with rfl | rfl | rfl | rfl <;>
      simp [witSpec, WitOp.spec, WitFits, elemsSize, csSize]
  have hl := congrArg List.length h
  simp at hl
  have := hw pre.length (by omega)
  rw [h, List.take_left] at this
  exact this

/-- Outside that range the list view breaks: an element above 4,000,000 bytes can be pushed and is
counted by `len`, but `get` reports it missing and iteration stops before it. -/
theorem C18_large_element_hidden (x : Bytes) (h : 4000000 < x.length) (h' : x.length < 2 ^ 31) :
    ∃ w, witRun [.push x, .push [7]] = some w ∧ w.elems = 2 ∧ w.get 0 = some none ∧
      w.toVec = some [] := by
  have hlt : (elemsEnc [x]).length < 2 ^ 32 := by
    have : csSize x.length ≤ 9 := by unfold csSize; split; omega; split; omega; split <;> omega
    simp [elemEnc_length]; omega
  have hf : OffsetsFit [x, [7]] := by
    intro a y b hab
    match a, hab with
    | [], _ => simp
    | [z], hab =>
      simp only [List.cons_append, List.nil_append, List.cons.injEq] at hab
      rw [← hab.1]; exact hlt
    | _ :: _ :: _, hab => simp at hab
  have hf1 : OffsetsFit ([] ++ [x]) := by
    intro a y b hab
    match a, hab with
    | [], _ => simp
    | _ :: _, hab => simp at hab
  have h64 : ∀ y ∈ [x, [7]], y.length < 2 ^ 64 := by
    intro y hy
    simp at hy
    rcases hy with rfl | rfl
    · omega
    · simp
  refine ⟨Wit.ofList [x, [7]], ?_, rfl, ?_, ?_⟩
  · have h1 := Wit.pushSlice_eq [] x hf1
    have h2 := Wit.pushSlice_eq [x] [7] hf
    simp only [witRun, List.foldlM_cons, WitOp.run, List.foldlM_nil]
    rw [← Wit.ofList_nil, h1]
    simp only [List.nil_append, Option.bind_eq_bind, Option.bind_some]
    rw [h2]
    rfl
  · rw [Wit.get_ofList _ hf h64]
    simp only [List.getElem?_cons_zero]
    rw [if_neg (by omega)]
  · unfold Wit.toVec Wit.iterFrom
    rw [Wit.get_ofList _ hf h64]
    simp only [List.getElem?_cons_zero]
    rw [if_neg (by omega)]

example : ∃ x : Bytes, 4000000 < x.length ∧ x.length < 2 ^ 31 :=
  ⟨List.replicate 4000001 0, by rw [List.length_replicate]; decide, by
    rw [List.length_replicate]; decide⟩

/-- Beyond 4 GiB of content `push` panics. -/
theorem C18_push_panics (w : Wit) (x : Bytes) (h : 2 ^ 32 ≤ w.idx) : w.pushSlice x = none := by
  unfold Wit.pushSlice
  simp only
  split
  · rfl
  · unfold encodeCursor
    rw [if_neg (by omega)]
    rfl

/-! ## C19 -/

theorem encoder_drains (l : List Bytes) :
    Drains Wit.enc (Wit.ofList l).encoder (csEncode l.length ++ elemsEnc l) := by
  have := C06_tuple (es := [bytesEnc, bytesEnc]) (by simp)
    (csEncode (Wit.ofList l).elems, (Wit.ofList l).content.take (Wit.ofList l).idx, ())
    [csEncode l.length, elemsEnc l] ⟨C06_bytes _, ?_, rfl⟩
  · rw [show [csEncode l.length, elemsEnc l].flatten = csEncode l.length ++ elemsEnc l by simp] at this
    exact this
  · have : (Wit.ofList l).content.take (Wit.ofList l).idx = elemsEnc l := by
      simp [Wit.ofList]
    rw [this]
    exact C06_bytes _

/-- A witness of at most 4,000,000 elements serializes to the count followed by each element with
its length prefix, has exactly the reported size, and decodes back to an equal witness. -/
theorem C19_roundtrip (l : List Bytes) (hc : l.length ≤ 4000000) (h : WitFits l) :
    ∃ w bs, Wit.fromSlice l = some w ∧ Drains Wit.enc w.encoder bs ∧
      bs = csEncode l.length ++ (l.map fun x => csEncode x.length ++ x).flatten ∧
      w.size = some bs.length ∧ witDec.decodeSlice bs = .ok w := by
  refine ⟨Wit.ofList l, _, Wit.fromSlice_eq l h.offsets, encoder_drains l, rfl, ?_, ?_⟩
  · rw [(agrees_ofList l h.offsets h.1).size, elemsSize_eq]
    simp [csEncode_length]
  · obtain ⟨inv, den, L, hP⟩ := witDec_lawful
    rw [L.decodeSlice_ok_iff, hP, witParser_done]
    exact ⟨l, ⟨hc, h.1, h.offsets⟩, rfl, by simp⟩

/-- Every accepted byte string is the serialization of the witness it decodes to, and that witness
is a list of at most 4,000,000 elements of at most 4,000,000 bytes. -/
theorem C19_canonical (bs : Bytes) (w : Wit) (h : witDec.decodeSlice bs = .ok w) :
    Drains Wit.enc w.encoder bs ∧ w.size = some bs.length ∧
      ∃ l, AgreesWith w l ∧ l.length ≤ 4000000 ∧ (∀ x ∈ l, x.length ≤ 4000000) ∧
        Wit.fromSlice l = some w := by
  obtain ⟨inv, den, L, hP⟩ := witDec_lawful
  rw [L.decodeSlice_ok_iff, hP, witParser_done] at h
  obtain ⟨l, hl, rfl, rfl⟩ := h
  have ha := agrees_ofList l hl.fits hl.sizes
  refine ⟨by simpa using encoder_drains l, ?_, l, ha, hl.count, hl.sizes,
    Wit.fromSlice_eq l hl.fits⟩
  rw [ha.size, elemsSize_eq]
  simp [csEncode_length]

/-- Distinct byte strings never decode to equal witnesses. -/
theorem C19_injective (bs bs' : Bytes) (w : Wit) (h : witDec.decodeSlice bs = .ok w)
    (h' : witDec.decodeSlice bs' = .ok w) : bs = bs' :=
  (C19_canonical bs w h).1.det (C19_canonical bs' w h').1

example : ∃ w bs, Wit.fromSlice [[1, 2], []] = some w ∧ Drains Wit.enc w.encoder bs ∧
    bs = [2, 2, 1, 2, 0] ∧ w.size = some bs.length ∧ witDec.decodeSlice bs = .ok w :=
  C19_roundtrip [[1, 2], []] (by simp) ⟨by simp, by simp [elemsSize, csSize]⟩

/-- The decoder panics when the elements before the last one take 4 GiB or more. -/
theorem C19_decode_panics (l : List Bytes) (hc : l.length ≤ 4000000)
    (hs : ∀ x ∈ l, x.length ≤ 4000000) (h : ¬ OffsetsFit l) :
    witDec.decodeSlice (csEncode l.length ++ elemsEnc l) = .error (.parse .panic) := by
  obtain ⟨inv, den, L, hP⟩ := witDec_lawful
  have hden : den witDec.init (csEncode l.length ++ elemsEnc l) = .fail .panic := by
    rw [hP]
    have h1 := csThen_complete (em := fun _ => DErr.eof 0) (k := witCont) (buf := [])
      (c := csEncode l.length) (csComplete_csEncode _) (elemsEnc l)
    unfold witParser
    rw [h1, List.nil_append]
    unfold witCont
    rw [csEnd_csEncode _ _ (by omega), if_pos (by simpa [MAX_WITNESS_STACK_ITEMS] using hc)]
    simp only
    have h2 := wdItems_run l.length [] l [] hs
    rw [List.append_nil, List.nil_append] at h2
    rw [h2]
    cases hf : wdFinish l.length (elemsEnc l) with
    | ok w =>
      exact absurd ((wdFinish_ok (fun x hx => by have := hs x hx; omega) w).mp hf).1 h
    | error e =>
      unfold wdFinish at hf
      split at hf
      · cases hf
      · cases hf; rfl
  unfold Dec.decodeSlice
  rw [L.decodeSliceUnbounded_spec, hden]
  rfl

example : ∃ l : List Bytes, l.length ≤ 4000000 ∧ (∀ x ∈ l, x.length ≤ 4000000) ∧ ¬ OffsetsFit l := by
  refine ⟨List.replicate 1100 (List.replicate 4000000 0), by rw [List.length_replicate]; decide,
    fun x hx => ?_, fun h => ?_⟩
  · rw [(List.mem_replicate.mp hx).2, List.length_replicate]
    exact Nat.le_refl _
  · have h1 := h (List.replicate 1099 (List.replicate 4000000 0)) (List.replicate 4000000 0) []
      List.replicate_succ'
    rw [← elemsSize_eq] at h1
    unfold elemsSize at h1
    rw [List.map_replicate, List.sum_replicate_nat, List.length_replicate] at h1
    revert h1
    decide

end Btc
