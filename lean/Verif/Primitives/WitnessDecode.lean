import Verif.Primitives.WitnessLaws
import Verif.Codec.PushQ
/-!
# The witness decoder refines a parser
-/
namespace Btc

/-- Parser of `k` witness elements after `content` (with partial length prefix `lb` or `rem` missing
data bytes of the current element). -/
def wdItems (total : Nat) : Nat → Bytes → Bytes → Option Nat → Parser Wit
  | 0, content, _, _ => fun bs => .ofEnd (wdFinish total content) bs
  | k + 1, content, lb, rem =>
    let data (content : Bytes) (r : Nat) : Parser Wit := fun bs =>
      if bs.length < r then .more (.eof (k + 1))
      else wdItems total k (content ++ bs.take r) [] none (bs.drop r)
    match rem with
    | some r => data content r
    | none => csThen (fun _ => .eof (k + 1)) (fun p rest =>
        match csEnd MAX_WITNESS_ITEM_SIZE p with
        | .error e => .fail (.lenPrefix e)
        | .ok n => data (content ++ csEncode n) n rest) lb

/-- What follows the element count. -/
def witCont (p : Bytes) : Parser Wit := fun rest =>
  match csEnd MAX_WITNESS_STACK_ITEMS p with
  | .error e => .fail (.lenPrefix e)
  | .ok n => wdItems n n [] [] none rest

def witParser : Parser Wit := csThen (fun _ => .eof 0) witCont []

def wdElInv (lb : Bytes) : Option Nat → Prop
  | some r => 0 < r
  | none => csInv lb

def wdInv (s : WdState) : Prop :=
  match s.total with
  | none => csInv s.cntBuf ∧ s.content = [] ∧ s.lenBuf = [] ∧ s.rem = none
  | some _ => 0 < s.left ∧ wdElInv s.lenBuf s.rem

def wdDen (s : WdState) : Parser Wit :=
  match s.total with
  | none => csThen (fun _ => .eof 0) witCont s.cntBuf
  | some t => wdItems t s.left s.content s.lenBuf s.rem

theorem wdLoop_spec (total : Nat) : ∀ (k : Nat) (content lb : Bytes) (rem : Option Nat) (bs : Bytes),
    (0 < k → wdElInv lb rem) →
    PushOkQ wdFin wdInv wdDen (wdItems total k content lb rem) bs
      (wdLoop total k content lb rem bs) := by
  intro k
  induction k with
  | zero =>
    intro content lb rem bs _
    exact ⟨[], rfl, fun ext => by simp [wdItems, wdFin]⟩
  | succ k ih =>
    intro content lb rem bs hinv
    have hinv := hinv (by omega)
    -- copying data
    have hcopy : ∀ (content : Bytes) (r : Nat) (bs : Bytes), 0 < r → bs ≠ [] →
        PushOkQ wdFin wdInv wdDen (wdItems total (k + 1) content [] (some r)) bs
          (if r - min bs.length r = 0 then
            wdLoop total k (content ++ bs.take (min bs.length r)) [] none (bs.drop (min bs.length r))
          else .ok (⟨content ++ bs.take (min bs.length r), [], some total, k + 1, [],
            some (r - min bs.length r)⟩, bs.drop (min bs.length r), .needsMore)) := by
      intro content r bs hr hbs
      by_cases hle : r ≤ bs.length
      · rw [show min bs.length r = r by omega, if_pos (by omega)]
        refine PushOkQ.prepend (c := bs.take r) (rest := bs.drop r)
          (by rw [List.take_append_drop]) ?_ (ih _ [] none _ (fun _ => trivial))
        intro ext
        have hl : (bs.take r).length = r := by simp; omega
        simp only [wdItems]
        rw [if_neg (by simp; omega), List.take_append_of_le_length (by omega),
          List.take_of_length_le (by omega), List.drop_append_of_le_length (by omega),
          List.drop_of_length_le (by omega)]
        rfl
      · rw [show min bs.length r = bs.length by omega, if_neg (by omega)]
        rw [List.take_length, List.drop_length]
        refine ⟨bs, by simp, ⟨by simp, by simp [wdElInv]; omega⟩, fun ext => ?_, by simp⟩
        simp only [wdDen, wdItems]
        by_cases he : ext.length < r - bs.length
        · rw [if_pos (by simp; omega), if_pos he]
        · rw [if_neg (by simp; omega), if_neg he]
          rw [List.take_append, List.take_of_length_le (by omega), List.drop_append,
            List.drop_of_length_le (by omega)]
          simp
    unfold wdLoop
    by_cases hbs : bs = []
    · subst hbs
      simp only [if_true]
      exact ⟨[], rfl, ⟨by simp, hinv⟩, fun ext => rfl, by simp⟩
    · simp only [hbs, if_false]
      match rem with
      | some r =>
        have := hcopy content r bs hinv hbs
        exact this
      | none =>
        simp only
        rcases csPush_spec lb bs hinv with ⟨h1, h2⟩ | ⟨c, rest, h1, h2, h3⟩
        · rw [h1]
          refine ⟨bs, by simp, ⟨by simp, h2⟩, fun ext => ?_, by simp⟩
          simp only [wdDen, wdItems]
          exact csThen_step lb bs ext
        · rw [h2]
          simp only
          cases hend : csEnd MAX_WITNESS_ITEM_SIZE (lb ++ c) with
          | error e =>
            intro ext
            simp only [wdItems]
            rw [h1, List.append_assoc, csThen_complete h3, hend]
          | ok n =>
            simp only
            have hQ : ∀ ext, wdItems total (k + 1) content lb none (c ++ ext)
                = wdItems total (k + 1) (content ++ csEncode n) [] (some n) ext := by
              intro ext
              simp only [wdItems]
              rw [csThen_complete h3, hend]
            refine PushOkQ.prepend h1 hQ ?_
            by_cases hn : n = 0
            · subst hn
              simp only [if_true]
              refine PushOkQ.prepend (c := []) rfl ?_ (ih _ [] none rest (fun _ => trivial))
              intro ext
              simp [wdItems]
            · simp only [hn, if_false]
              by_cases hr : rest = []
              · subst hr
                simp only [if_true]
                refine ⟨[], rfl, ⟨by simp, ?_⟩, fun ext => rfl, by simp⟩
                simp only [wdElInv]; omega
              · simp only [hr, if_false]
                exact hcopy _ n rest (by omega) hr

theorem wdItems_nil (total k : Nat) (content lb : Bytes) (rem : Option Nat) (h : wdElInv lb rem) :
    wdItems total (k + 1) content lb rem [] = .more (.eof (k + 1)) := by
  match rem with
  | some r =>
    simp only [wdElInv] at h
    simp only [wdItems]
    rw [if_pos (by simpa using h)]
  | none =>
    simp only [wdItems]
    exact csThen_nil h

theorem wdItems_suffix (total : Nat) : ∀ (k : Nat) (content lb : Bytes) (rem : Option Nat)
    (bs : Bytes) (w : Wit) (rest : Bytes), (0 < k → wdElInv lb rem) →
    wdItems total k content lb rem bs = .done w rest → rest.length ≤ bs.length ∧
      (0 < k → wdElLimit lb rem + rest.length ≤ bs.length) := by
  intro k
  induction k with
  | zero =>
    intro content lb rem bs w rest _ h
    simp only [wdItems] at h
    cases hf : wdFinish total content with
    | ok a =>
      simp only [hf, POut.ofEnd, POut.done.injEq] at h
      rw [h.2]
      exact ⟨Nat.le_refl _, fun h => absurd h (by omega)⟩
    | error e => simp [hf, POut.ofEnd] at h
  | succ k ih =>
    intro content lb rem bs w rest hinv h
    have hinv := hinv (by omega)
    have data : ∀ (content : Bytes) (r : Nat) (bs : Bytes), (if bs.length < r then .more (.eof (k + 1))
        else wdItems total k (content ++ bs.take r) [] none (bs.drop r)) = POut.done w rest →
        r + rest.length ≤ bs.length := by
      intro content r bs h
      split at h
      · cases h
      · have := (ih _ [] none _ _ _ (fun _ => trivial) h).1
        simp at this
        omega
    match rem with
    | some r =>
      simp only [wdItems] at h
      have := data _ _ _ h
      exact ⟨by omega, fun _ => this⟩
    | none =>
      simp only [wdItems] at h
      have : csLimit lb + rest.length ≤ bs.length := by
        refine csThen_limit hinv (fun p bs hk => ?_) h
        split at hk
        · cases hk
        · have := data _ _ _ hk
          omega
      exact ⟨by omega, fun _ => this⟩

theorem wdPush_ok (s : WdState) (bs : Bytes) (hs : wdInv s) :
    PushOkQ wdFin wdInv wdDen (wdDen s) bs (wdPush s bs) := by
  match hp : s.total with
  | none =>
    simp only [wdInv, hp] at hs
    obtain ⟨h1, h2, h3, h4⟩ := hs
    simp only [wdDen, wdPush, hp]
    rcases csPush_spec s.cntBuf bs h1 with ⟨e1, e2⟩ | ⟨c, rest, e1, e2, e3⟩
    · rw [e1]
      refine ⟨bs, by simp, ?_, fun ext => ?_, by simp⟩
      · exact ⟨e2, h2, h3, h4⟩
      · simp only [wdDen]
        exact csThen_step _ _ _
    · rw [e2]
      simp only
      cases hend : csEnd MAX_WITNESS_STACK_ITEMS (s.cntBuf ++ c) with
      | error e =>
        intro ext
        rw [e1, List.append_assoc, csThen_complete e3, witCont, hend]
      | ok n =>
        simp only
        rw [h2, h3, h4]
        refine PushOkQ.prepend e1 ?_ (wdLoop_spec n n [] [] none rest (fun _ => trivial))
        intro ext
        rw [csThen_complete e3, witCont, hend]
  | some t =>
    simp only [wdInv, hp] at hs
    simp only [wdDen, wdPush, hp]
    exact wdLoop_spec t _ _ _ _ _ (fun _ => hs.2)

theorem witDec_lawful' : LawfulWith witDec wdInv wdDen where
  init := ⟨trivial, rfl, rfl, rfl⟩
  more := fun (s : WdState) hs => by
    match hp : s.total with
    | none =>
      simp only [wdInv, hp] at hs
      exact ⟨by simpa [witDec, wdLimit, hp] using csLimit_inv hs.1, .eof 0,
        by simp only [wdDen, hp]; exact csThen_nil hs.1, by simp [witDec, wdFin, hp]⟩
    | some t =>
      simp only [wdInv, hp] at hs
      obtain ⟨k, hk⟩ : ∃ k, s.left = k + 1 := ⟨s.left - 1, by omega⟩
      refine ⟨?_, .eof (k + 1), ?_, ?_⟩
      · simp only [witDec, wdLimit, hp]
        match hr : s.rem with
        | none => simp only [hr, wdElInv] at hs; exact csLimit_inv hs.2
        | some r => simp only [hr, wdElInv] at hs; exact hs.2
      · simp only [wdDen, hp, hk]
        exact wdItems_nil _ _ _ _ _ hs.2
      · simp [witDec, wdFin, hp, hk]
  push := fun (s : WdState) bs hs => (pushOk_iff (d := witDec)).mpr (wdPush_ok s bs hs)
  limit := fun (s : WdState) bs a rest hs h => by
    match hp : s.total with
    | none =>
      simp only [wdInv, hp] at hs
      simp only [wdDen, hp] at h
      simp only [witDec, wdLimit, hp]
      refine csThen_limit hs.1 (fun p bs hk => ?_) h
      unfold witCont at hk
      split at hk
      · cases hk
      · exact (wdItems_suffix _ _ _ [] none _ _ _ (fun _ => trivial) hk).1
    | some t =>
      simp only [wdInv, hp] at hs
      simp only [wdDen, hp] at h
      simp only [witDec, wdLimit, hp]
      exact (wdItems_suffix _ _ _ _ _ _ _ _ (fun _ => hs.2) h).2 hs.1

theorem witDec_lawful : Lawful witDec witParser := ⟨_, _, witDec_lawful', rfl⟩

/-! ## What the parser accepts -/

open Classical in
/-- The rebuilt index is the offset table. -/
theorem wdIndex_eq : ∀ (todo donel : List Bytes), (∀ x ∈ todo, x.length < 2 ^ 64) →
    wdIndex (elemsEnc (donel ++ todo)) todo.length (elemsEnc donel).length
      = if (∀ a x b, todo = a ++ x :: b → (elemsEnc (donel ++ a)).length < 2 ^ 32) then
          some (offTable (elemsEnc donel).length todo) else none := by
  intro todo
  induction todo with
  | nil => intro donel _; simp [wdIndex, offTable]
  | cons x todo ih =>
    intro donel h64
    have hx := h64 x (by simp)
    simp only [List.length_cons, wdIndex]
    by_cases hlt : (elemsEnc donel).length < 2 ^ 32
    · rw [if_pos ⟨hlt, by simp [elemsEnc_append]⟩]
      have hd : (elemsEnc (donel ++ x :: todo)).drop (elemsEnc donel).length
          = csEncode x.length ++ (x ++ elemsEnc todo) := by
        simp [elemsEnc_append, elemEnc]
      rw [hd, decodeUnchecked_csEncode _ hx]
      simp only
      have hpos : (elemsEnc donel).length + ((csEncode x.length ++ (x ++ elemsEnc todo)).length -
          (x ++ elemsEnc todo).length + x.length) = (elemsEnc (donel ++ [x])).length := by
        simp [elemsEnc_append, elemEnc]
      rw [hpos]
      have := ih (donel ++ [x]) (fun y hy => h64 y (by simp [hy]))
      rw [List.append_assoc] at this
      simp only [List.cons_append, List.nil_append] at this
      rw [this]
      by_cases hall : ∀ a y b, todo = a ++ y :: b → (elemsEnc (donel ++ x :: a)).length < 2 ^ 32
      · rw [if_pos (by simpa using hall), if_pos ?_]
        · simp [offTable, elemsEnc_append]
        · intro a y b hab
          cases a with
          | nil => simpa using hlt
          | cons z a =>
            simp only [List.cons_append, List.cons.injEq] at hab
            obtain ⟨rfl, hab⟩ := hab
            exact hall a y b hab
      · rw [if_neg (by simpa using hall), if_neg ?_]
        · rfl
        · intro hc
          exact hall (fun a y b hab => hc (x :: a) y b (by simp [hab]))
    · rw [if_neg (by simp; omega), if_neg ?_]
      intro hc
      exact hlt (by simpa using hc [] x todo rfl)

theorem wdFinish_ok {l : List Bytes} (h64 : ∀ x ∈ l, x.length < 2 ^ 64) (w : Wit) :
    wdFinish l.length (elemsEnc l) = .ok w ↔ OffsetsFit l ∧ w = Wit.ofList l := by
  have := wdIndex_eq l [] h64
  simp only [List.nil_append, elemsEnc_nil, List.length_nil] at this
  unfold wdFinish
  rw [this]
  by_cases hf : OffsetsFit l
  · rw [if_pos (show ∀ a x b, l = a ++ x :: b → (elemsEnc a).length < 2 ^ 32 from hf)]
    simp only [Except.ok.injEq, hf, true_and, Wit.ofList]
    exact eq_comm
  · rw [if_neg (show ¬ ∀ a x b, l = a ++ x :: b → (elemsEnc a).length < 2 ^ 32 from hf)]
    simp [hf]

theorem wdItems_done (w : Wit) (rest : Bytes) : ∀ (todo : Nat) (donel : List Bytes) (bs : Bytes)
    (total : Nat), total = donel.length + todo → (∀ x ∈ donel, x.length ≤ 4000000) →
    (wdItems total todo (elemsEnc donel) [] none bs = .done w rest ↔
      ∃ l, l.length = todo ∧ (∀ x ∈ l, x.length ≤ 4000000) ∧ bs = elemsEnc l ++ rest ∧
        OffsetsFit (donel ++ l) ∧ w = Wit.ofList (donel ++ l)) := by
  intro todo
  induction todo with
  | zero =>
    intro donel bs total ht h64
    subst ht
    have key := wdFinish_ok (l := donel) (fun x hx => by have := h64 x hx; omega)
    simp only [wdItems, Nat.add_zero]
    constructor
    · intro h
      cases hf : wdFinish donel.length (elemsEnc donel) with
      | error e => simp [hf, POut.ofEnd] at h
      | ok v =>
        simp only [hf, POut.ofEnd, POut.done.injEq] at h
        obtain ⟨rfl, rfl⟩ := h
        have := (key v).mp hf
        exact ⟨[], rfl, by simp, by simp, by simpa using this.1, by simpa using this.2⟩
    · rintro ⟨l, hl, _, hb, hf, hw⟩
      have : l = [] := List.length_eq_zero_iff.mp hl
      subst this
      rw [(key w).mpr ⟨by simpa using hf, by simpa using hw⟩]
      simp [POut.ofEnd, hb]
  | succ k ih =>
    intro donel bs total ht h64
    subst ht
    simp only [wdItems]
    rw [csThen_done]
    constructor
    · rintro ⟨p, r, h1, h2, h3⟩
      cases hend : csEnd MAX_WITNESS_ITEM_SIZE p with
      | error e => simp [hend] at h3
      | ok n =>
        simp only [hend] at h3
        split at h3
        · cases h3
        · rename_i hlen
          obtain ⟨g1, g2, g3⟩ := csEnd_ok h2 hend
          have hx : (r.take n).length = n := by simp; omega
          have hM : MAX_WITNESS_ITEM_SIZE = 4000000 := rfl
          have hd : elemsEnc (donel ++ [r.take n]) = elemsEnc donel ++ csEncode n ++ r.take n := by
            simp [elemsEnc_append, elemEnc, hx]
          rw [← hd] at h3
          obtain ⟨l, i1, i2, i3, i4, i5⟩ := (ih (donel ++ [r.take n]) (r.drop n) _
            (by simp; omega) (by
              intro x hx'
              rcases List.mem_append.mp hx' with h | h
              · exact h64 x h
              · simp only [List.mem_singleton] at h
                rw [h, hx]; omega)).mp h3
          refine ⟨r.take n :: l, by simp [i1], ?_, ?_, by simpa using i4, by simpa using i5⟩
          · intro x hx'
            rcases List.mem_cons.mp hx' with h | h
            · rw [h, hx]; omega
            · exact i2 x h
          · rw [h1, g1, elemsEnc_cons, elemEnc, hx]
            simp only [List.append_assoc]
            rw [← i3, List.take_append_drop]
    · rintro ⟨l, hl, h1, h2, h3, h4⟩
      obtain ⟨x, l, rfl⟩ := List.exists_cons_of_length_pos (by omega : 0 < l.length)
      have hx := h1 x (by simp)
      refine ⟨csEncode x.length, x ++ (elemsEnc l ++ rest), ?_, csComplete_csEncode _, ?_⟩
      · rw [h2]; simp [elemEnc]
      · rw [csEnd_csEncode _ _ (by omega), if_pos (by simpa [MAX_WITNESS_ITEM_SIZE] using hx)]
        simp only
        rw [if_neg (by simp), List.take_left, List.drop_left]
        have hd : elemsEnc (donel ++ [x]) = elemsEnc donel ++ csEncode x.length ++ x := by
          simp [elemsEnc_append, elemEnc]
        rw [← hd]
        refine (ih (donel ++ [x]) _ _ (by simp; omega) ?_).mpr ⟨l, by simpa using hl,
          fun y hy => h1 y (by simp [hy]), rfl, by simpa using h3, by simpa using h4⟩
        intro y hy
        rcases List.mem_append.mp hy with h | h
        · exact h64 y h
        · simp only [List.mem_singleton] at h
          rw [h]; exact hx

/-- Running the parser over the serialization of elements. -/
theorem wdItems_run (total : Nat) (rest : Bytes) : ∀ (l : List Bytes) (content : Bytes),
    (∀ x ∈ l, x.length ≤ 4000000) →
    wdItems total l.length content [] none (elemsEnc l ++ rest)
      = .ofEnd (wdFinish total (content ++ elemsEnc l)) rest := by
  intro l
  induction l with
  | nil => intro content _; simp [wdItems]
  | cons x l ih =>
    intro content h
    have hx := h x (by simp)
    simp only [List.length_cons, wdItems, elemsEnc_cons, elemEnc, List.append_assoc]
    have := csThen_complete (em := fun _ => DErr.eof (l.length + 1)) (k := fun p rest =>
        match csEnd MAX_WITNESS_ITEM_SIZE p with
        | .error e => POut.fail (.lenPrefix e)
        | .ok n => if rest.length < n then .more (.eof (l.length + 1))
          else wdItems total l.length (content ++ (csEncode n ++ rest.take n)) [] none (rest.drop n))
      (buf := []) (c := csEncode x.length) (csComplete_csEncode _) (x ++ (elemsEnc l ++ rest))
    rw [this, List.nil_append, csEnd_csEncode _ _ (by omega),
      if_pos (by simpa [MAX_WITNESS_ITEM_SIZE] using hx)]
    simp only
    rw [if_neg (by simp), List.take_left, List.drop_left, ih _ (fun y hy => h y (by simp [hy]))]
    simp

/-- Elements a witness decoder returns. -/
structure WitOk (l : List Bytes) : Prop where
  count : l.length ≤ 4000000
  sizes : ∀ x ∈ l, x.length ≤ 4000000
  fits : OffsetsFit l

theorem witParser_done (bs : Bytes) (w : Wit) (rest : Bytes) :
    witParser bs = .done w rest ↔
      ∃ l, WitOk l ∧ w = Wit.ofList l ∧ bs = csEncode l.length ++ elemsEnc l ++ rest := by
  unfold witParser
  rw [csThen_done]
  constructor
  · rintro ⟨p, r, h1, h2, h3⟩
    unfold witCont at h3
    cases hend : csEnd MAX_WITNESS_STACK_ITEMS p with
    | error e => simp [hend] at h3
    | ok n =>
      simp only [hend] at h3
      obtain ⟨g1, g2, g3⟩ := csEnd_ok h2 hend
      obtain ⟨l, i1, i2, i3, i4, i5⟩ := (wdItems_done w rest n [] r n (by simp) (by simp)).mp h3
      refine ⟨l, ⟨by rw [i1]; exact g3, i2, by simpa using i4⟩, by simpa using i5, ?_⟩
      rw [h1, g1, i1, i3, List.append_assoc]
  · rintro ⟨l, ⟨h1, h2, h3⟩, h4, h5⟩
    refine ⟨csEncode l.length, elemsEnc l ++ rest, by rw [h5, List.append_assoc],
      csComplete_csEncode _, ?_⟩
    unfold witCont
    rw [csEnd_csEncode _ _ (by omega), if_pos (by simpa [MAX_WITNESS_STACK_ITEMS] using h1)]
    simp only
    exact (wdItems_done w rest l.length [] _ l.length (by simp) (by simp)).mpr
      ⟨l, rfl, h2, rfl, by simpa using h3, by simpa using h4⟩

end Btc
