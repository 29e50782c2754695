import Verif.Codec.Combinators
/-!
# Every combinator refines a parser
-/
namespace Btc

/-! ## Compact size -/

/-- First complete compact size in `all` (by announced length) and what follows. -/
def csView : Bytes → Option (Bytes × Bytes)
  | [] => none
  | b0 :: t =>
    if csNeed b0 ≤ t.length + 1 then some ((b0 :: t).take (csNeed b0), (b0 :: t).drop (csNeed b0))
    else none

/-- More bytes are needed. -/
def csInv : Bytes → Prop
  | [] => True
  | b0 :: t => t.length + 1 < csNeed b0

/-- Exactly the announced number of bytes. -/
def csComplete : Bytes → Prop
  | [] => False
  | b0 :: t => t.length + 1 = csNeed b0

theorem csNeed_pos (b : UInt8) : 1 ≤ csNeed b := by
  unfold csNeed; split; omega; split; omega; split <;> omega

theorem csView_complete {p : Bytes} (h : csComplete p) (ext : Bytes) :
    csView (p ++ ext) = some (p, ext) := by
  match p with
  | [] => exact h.elim
  | b0 :: t =>
    simp only [csComplete] at h
    simp only [List.cons_append, csView]
    have : csNeed b0 ≤ (t ++ ext).length + 1 := by simp; omega
    simp only [this, if_true]
    rw [← h]
    simp

theorem csView_inv {p : Bytes} (h : csInv p) : csView p = none := by
  match p with
  | [] => rfl
  | b0 :: t =>
    simp only [csInv] at h
    simp only [csView]
    rw [if_neg (by omega)]

theorem csView_some {all p rest : Bytes} (h : csView all = some (p, rest)) :
    all = p ++ rest ∧ csComplete p := by
  match all with
  | [] => simp [csView] at h
  | b0 :: t =>
    simp only [csView] at h
    split at h
    · rename_i hle
      simp only [Option.some.injEq, Prod.mk.injEq] at h
      obtain ⟨rfl, rfl⟩ := h
      refine ⟨by rw [List.take_append_drop], ?_⟩
      have hp := csNeed_pos b0
      obtain ⟨n, hn⟩ : ∃ n, csNeed b0 = n + 1 := ⟨csNeed b0 - 1, by omega⟩
      rw [hn]
      simp only [List.take_succ_cons, csComplete, List.length_take]
      omega
    · cases h

theorem csView_none_inv {all : Bytes} (h : csView all = none) : csInv all := by
  match all with
  | [] => trivial
  | b0 :: t =>
    simp only [csView] at h
    split at h
    · cases h
    · simp only [csInv]; omega

theorem csPush_spec (buf bs : Bytes) (h : csInv buf) :
    (csPush buf bs = (buf ++ bs, [], .needsMore) ∧ csInv (buf ++ bs)) ∨
    (∃ c rest, bs = c ++ rest ∧ csPush buf bs = (buf ++ c, rest, .ready) ∧
      csComplete (buf ++ c)) := by
  match bs with
  | [] => left; simp [csPush, h]
  | b :: bs' =>
    match buf with
    | [] =>
      have hp := csNeed_pos b
      simp only [csPush, if_true]
      by_cases hlen : bs'.length + 1 < csNeed b
      · left
        have h1 : min bs'.length (csNeed b - [b].length) = bs'.length := by
          simp; omega
        rw [h1]
        refine ⟨?_, by simpa [csInv] using hlen⟩
        simp
        omega
      · right
        have h1 : min bs'.length (csNeed b - [b].length) = csNeed b - 1 := by
          simp; omega
        rw [h1]
        refine ⟨b :: bs'.take (csNeed b - 1), bs'.drop (csNeed b - 1), ?_, ?_, ?_⟩
        · simp
        · simp
          omega
        · simp [csComplete]; omega
    | b0 :: t =>
      simp only [csInv] at h
      simp only [csPush, List.cons_ne_nil, if_false]
      by_cases hlen : t.length + 1 + (bs'.length + 1) < csNeed b0
      · left
        have h1 : min (b :: bs').length (csNeed b0 - (b0 :: t).length) = (b :: bs').length := by
          simp; omega
        rw [h1]
        refine ⟨?_, by simp [csInv]; omega⟩
        simp
        omega
      · right
        have h1 : min (b :: bs').length (csNeed b0 - (b0 :: t).length)
            = csNeed b0 - (t.length + 1) := by
          simp; omega
        rw [h1]
        refine ⟨(b :: bs').take (csNeed b0 - (t.length + 1)),
          (b :: bs').drop (csNeed b0 - (t.length + 1)), ?_, ?_, ?_⟩
        · simp
        · simp
          omega
        · simp [csComplete]; omega

theorem csLimit_inv {buf : Bytes} (h : csInv buf) : 0 < csLimit buf := by
  match buf with
  | [] => simp [csLimit]
  | b0 :: t =>
    simp only [csInv, csNeed] at h
    simp only [csLimit]
    split at h <;> rename_i h1
    · simp only [h1, if_true]; omega
    · simp only [h1, if_false]
      split at h <;> rename_i h2
      · simp only [h2, if_true]; omega
      · simp only [h2, if_false]
        split at h <;> rename_i h3
        · simp only [h3, if_true]; omega
        · omega

/-- `csLimit` is at most what is missing. -/
theorem csLimit_le (buf c : Bytes) (h : csComplete (buf ++ c)) : csLimit buf ≤ c.length := by
  match buf with
  | [] =>
    match c with
    | [] => exact h.elim
    | _ :: _ => simp [csLimit]
  | b0 :: t =>
    simp only [List.cons_append, csComplete, csNeed, List.length_append] at h
    simp only [csLimit]
    split at h <;> rename_i h1
    · simp only [h1, if_true]; omega
    · simp only [h1, if_false]
      split at h <;> rename_i h2
      · simp only [h2, if_true]; omega
      · simp only [h2, if_false]
        split at h <;> rename_i h3
        · simp only [h3, if_true]; omega
        · simp only [h3, if_false]; omega

theorem csDecode_inv {buf : Bytes} (h : csInv buf) : ∃ e, csDecode buf = .error e := by
  match buf with
  | [] => exact ⟨_, rfl⟩
  | b0 :: t =>
    simp only [csInv, csNeed] at h
    simp only [csDecode]
    split at h <;> rename_i h1
    · simp only [h1, if_true]; rw [if_neg (by omega)]; exact ⟨_, rfl⟩
    · simp only [h1, if_false]
      split at h <;> rename_i h2
      · simp only [h2, if_true]; rw [if_neg (by omega)]; exact ⟨_, rfl⟩
      · simp only [h2, if_false]
        split at h <;> rename_i h3
        · simp only [h3, if_true]; rw [if_neg (by omega)]; exact ⟨_, rfl⟩
        · omega

/-- Parser of a decoder that reads a compact size, then continues with `k`; `em` is the error
reported on end of input. -/
def csThen {α : Type} (em : Bytes → DErr) (k : Bytes → Parser α) (buf : Bytes) : Parser α :=
  fun bs => match csView (buf ++ bs) with
    | some (p, rest) => k p rest
    | none => .more (em (buf ++ bs))

/-- Error reported by `compact_size_decode_u64` on an incomplete buffer. -/
def csErr (buf : Bytes) : DErr :=
  match csDecode buf with
  | .error e => e
  | .ok _ => .eof 0

/-- Compact-size parser with an arbitrary conversion `f` of the complete bytes. -/
def csParser (f : Bytes → Except DErr Nat) : Parser Nat :=
  csThen csErr (fun p rest => .ofEnd (f p) rest) []

theorem csThen_complete {α : Type} {em : Bytes → DErr} {k : Bytes → Parser α} {buf c : Bytes}
    (h : csComplete (buf ++ c)) (ext : Bytes) :
    csThen em k buf (c ++ ext) = k (buf ++ c) ext := by
  unfold csThen
  rw [← List.append_assoc, csView_complete h]

theorem csThen_step {α : Type} {em : Bytes → DErr} {k : Bytes → Parser α} (buf bs ext : Bytes) :
    csThen em k buf (bs ++ ext) = csThen em k (buf ++ bs) ext := by
  unfold csThen
  rw [← List.append_assoc]

theorem csThen_nil {α : Type} {em : Bytes → DErr} {k : Bytes → Parser α} {buf : Bytes}
    (h : csInv buf) : csThen em k buf [] = .more (em buf) := by
  unfold csThen
  rw [List.append_nil, csView_inv h]

theorem csThen_limit {α : Type} {em : Bytes → DErr} {k : Bytes → Parser α} {buf bs : Bytes} {a : α}
    {rest : Bytes} (hb : csInv buf) (hk : ∀ p bs, k p bs = .done a rest → rest.length ≤ bs.length)
    (h : csThen em k buf bs = .done a rest) : csLimit buf + rest.length ≤ bs.length := by
  unfold csThen at h
  split at h
  · rename_i p r hv
    obtain ⟨he, hc⟩ := csView_some hv
    -- `buf` is a proper prefix of `p`
    have hlen : buf.length ≤ p.length := by
      match buf, p with
      | [], _ => simp
      | b0 :: t, b1 :: u =>
        simp only [List.cons_append, List.cons.injEq] at he
        obtain ⟨rfl, he⟩ := he
        simp only [csInv] at hb
        simp only [csComplete] at hc
        simp; omega
      | b0 :: t, [] => exact hc.elim
    have hp : p = buf ++ p.drop buf.length := by
      have h1 : (buf ++ bs).take buf.length = (p ++ r).take buf.length := by rw [he]
      rw [List.take_left, List.take_append_of_le_length hlen] at h1
      calc p = p.take buf.length ++ p.drop buf.length := (List.take_append_drop _ _).symm
        _ = _ := by rw [← h1]
    rw [hp] at hc
    have h1 := csLimit_le _ _ hc
    have h2 := hk _ _ h
    have h3 := congrArg List.length he
    simp at h1 h3
    omega
  · cases h

theorem csCore_lawful (f : Bytes → Except DErr Nat)
    (hf : ∀ buf, csInv buf → f buf = .error (csErr buf)) :
    LawfulWith (⟨Bytes, [], fun s bs => .ok (csPush s bs), f, csLimit⟩ : Dec Nat) csInv
      (csThen csErr (fun p rest => .ofEnd (f p) rest)) where
  init := trivial
  more s hs := ⟨csLimit_inv hs, csErr s, csThen_nil hs, hf s hs⟩
  push s bs hs := by
    rcases csPush_spec s bs hs with ⟨h1, h2⟩ | ⟨c, rest, h1, h2, h3⟩
    · show PushOk _ _ _ s bs (.ok (csPush s bs))
      rw [h1]
      refine ⟨bs, by simp, h2, fun ext => csThen_step s bs ext, by simp⟩
    · show PushOk _ _ _ s bs (.ok (csPush s bs))
      rw [h2]
      exact ⟨c, h1, fun ext => csThen_complete h3 ext⟩
  limit s bs a rest hs h := by
    refine csThen_limit hs (fun p bs hk => ?_) h
    cases hfp : f p with
    | ok b => simp only [hfp, POut.ofEnd, POut.done.injEq] at hk; rw [hk.2]; exact Nat.le_refl _
    | error e => simp [hfp, POut.ofEnd] at hk

theorem csU64Dec_lawful : Lawful csU64Dec (csParser csDecode) :=
  ⟨_, _, csCore_lawful csDecode (fun buf h => by
    obtain ⟨e, he⟩ := csDecode_inv h
    rw [csErr, he]), rfl⟩

theorem csDec_lawful (lim : Nat) : Lawful (csDec lim) (csParser (csEnd lim)) :=
  ⟨_, _, csCore_lawful (csEnd lim) (fun buf h => by
    obtain ⟨e, he⟩ := csDecode_inv h
    rw [csErr, csEnd, he]), rfl⟩

/-! ## Arrays -/

/-- `N` bytes. -/
def arrayParser (N : Nat) (s : Bytes) : Parser Bytes := fun bs =>
  if N - s.length ≤ bs.length then .done (s ++ bs.take (N - s.length)) (bs.drop (N - s.length))
  else .more (.eof (N - s.length - bs.length))

theorem arrayDec_lawful' (N : Nat) (hN : 0 < N) :
    LawfulWith (arrayDec N) (fun s => s.length < N) (arrayParser N) where
  init := hN
  more s hs := by
    have hs' : s.length < N := hs
    refine ⟨by simp [arrayDec]; omega, .eof (N - s.length), ?_, ?_⟩
    · simp only [arrayParser, List.length_nil]
      rw [if_neg (by omega)]; simp
    · simp only [arrayDec]
      rw [if_neg (by omega)]
  push := fun (s : Bytes) bs hs => by
    have hs' : s.length < N := hs
    show PushOk (arrayDec N) _ _ _ bs (Except.ok ((s ++ bs.take (min bs.length (N - s.length)) : Bytes),
      bs.drop (min bs.length (N - s.length)),
      if (s ++ bs.take (min bs.length (N - s.length)) : Bytes).length < N then Status.needsMore
      else Status.ready))
    by_cases hb : bs.length < N - s.length
    · have h1 : min bs.length (N - s.length) = bs.length := by omega
      rw [h1]
      have h2 : (s ++ bs.take bs.length).length < N := by simp; omega
      simp only [h2, if_true]
      refine ⟨bs, by simp, h2, fun ext => ?_, by simp⟩
      simp only [arrayParser, List.take_length, List.length_append]
      by_cases hx : N - s.length ≤ bs.length + ext.length
      · rw [if_pos hx, if_pos (by omega)]
        have e1 : N - (s.length + bs.length) = N - s.length - bs.length := by omega
        rw [List.take_append, List.drop_append, List.take_of_length_le (by omega),
          List.drop_eq_nil_of_le (by omega), e1]
        simp
      · rw [if_neg hx, if_neg (by omega)]
        congr 2; omega
    · have h1 : min bs.length (N - s.length) = N - s.length := by omega
      rw [h1]
      have h2 : ¬ (s ++ bs.take (N - s.length)).length < N := by simp; omega
      simp only [h2, if_false]
      refine ⟨bs.take (N - s.length), by simp, fun ext => ?_⟩
      have h3 : (bs.take (N - s.length)).length = N - s.length := by simp; omega
      have h4 : (s ++ bs.take (N - s.length)).length = N := by simp; omega
      simp only [arrayDec, h4, if_true, POut.ofEnd, arrayParser]
      rw [if_pos (by simp; omega)]
      rw [List.take_append_of_le_length (by omega), List.take_of_length_le (by omega),
        List.drop_append, h3, List.drop_eq_nil_of_le (by omega)]
      simp
  limit s bs a rest hs h := by
    simp only [arrayParser] at h
    split at h
    · simp only [POut.done.injEq] at h
      rw [← h.2]
      simp only [arrayDec, List.length_drop]
      omega
    · cases h

theorem arrayDec_lawful (N : Nat) (hN : 0 < N) : Lawful (arrayDec N) (arrayParser N []) :=
  ⟨_, _, arrayDec_lawful' N hN, rfl⟩

/-! ## Byte vectors -/

/-- Bytes of a byte vector of length `k`, `buf` being already there. -/
def bytesParser (buf : Bytes) (k : Nat) : Parser Bytes := fun bs =>
  if k - buf.length ≤ bs.length then .done (buf ++ bs.take (k - buf.length)) (bs.drop (k - buf.length))
  else .more (.eof (k - buf.length - bs.length))

/-- Parser of `ByteVecDecoder`: length prefix, then that many bytes. -/
def byteVecCont (lim : Nat) (p : Bytes) : Parser Bytes := fun rest =>
  match csEnd lim p with
  | .error e => .fail (.lenPrefix e)
  | .ok k => bytesParser [] k rest

def byteVecParser (lim : Nat) : Parser Bytes :=
  csThen (fun b => .eof (csLimit b)) (byteVecCont lim) []

def bvInv (s : BvState) : Prop :=
  match s.pre with
  | some pb => csInv pb ∧ s.buffer = [] ∧ s.cap = 0
  | none => s.buffer.length < s.expected ∧ s.buffer.length ≤ s.cap

def bvDen (lim : Nat) (s : BvState) : Parser Bytes :=
  match s.pre with
  | some pb => csThen (fun b => .eof (csLimit b)) (byteVecCont lim) pb
  | none => bytesParser s.buffer s.expected

/-- `bvBody` copies a prefix of its input; it stops early only when the capacity is exhausted. -/
theorem bvBody_spec (s : BvState) (bs : Bytes) (hpre : s.pre = none)
    (hcap : s.buffer.length ≤ s.cap) (hexp : s.buffer.length ≤ s.expected) :
    (∃ c rest s', bs = c ++ rest ∧ bvBody s bs = (s', rest, .ready) ∧ s'.pre = none ∧
      s'.buffer = s.buffer ++ c ∧ s'.buffer.length = s.expected ∧ s'.expected = s.expected) ∨
    (∃ c rest s', bs = c ++ rest ∧ bvBody s bs = (s', rest, .needsMore) ∧ s'.pre = none ∧
      s'.buffer = s.buffer ++ c ∧ s'.buffer.length < s.expected ∧ s'.expected = s.expected ∧
      s'.buffer.length ≤ s'.cap ∧ (bs ≠ [] → c ≠ [])) := by
  have hr : (bvReserve s).pre = none ∧ (bvReserve s).buffer = s.buffer ∧
      (bvReserve s).expected = s.expected ∧ s.buffer.length ≤ (bvReserve s).cap ∧
      (s.buffer.length < s.expected → s.buffer.length < (bvReserve s).cap) := by
    unfold bvReserve
    split
    · refine ⟨hpre, rfl, rfl, by simp, fun h => ?_⟩
      simp [MAX_VECTOR_ALLOCATE]; omega
    · exact ⟨hpre, rfl, rfl, hcap, fun h => by omega⟩
  obtain ⟨r1, r2, r3, r4, r5⟩ := hr
  simp only [bvBody, r2, r3]
  generalize hn : min (min bs.length (s.expected - s.buffer.length))
    ((bvReserve s).cap - s.buffer.length) = n
  have hnb : n ≤ bs.length := by omega
  by_cases hlt : (s.buffer ++ bs.take n).length < s.expected
  · right
    refine ⟨bs.take n, bs.drop n, { bvReserve s with buffer := s.buffer ++ bs.take n }, by simp,
      by rw [if_pos hlt]; simp [r3], r1, rfl, hlt, r3, ?_, ?_⟩
    · simp; omega
    · intro hb
      have := List.length_pos_iff.mpr hb
      simp only [List.length_append, List.length_take] at hlt
      rw [ne_eq, List.take_eq_nil_iff, not_or]
      exact ⟨by omega, hb⟩
  · left
    refine ⟨bs.take n, bs.drop n, { bvReserve s with buffer := s.buffer ++ bs.take n }, by simp,
      by rw [if_neg hlt]; simp [r3], r1, rfl, ?_, r3⟩
    simp at hlt ⊢; omega

theorem bytesParser_full {buf c : Bytes} {k : Nat} (h : (buf ++ c).length = k) (ext : Bytes) :
    bytesParser buf k (c ++ ext) = .done (buf ++ c) ext := by
  have hc : k - buf.length = c.length := by simp at h; omega
  simp only [bytesParser, hc]
  rw [if_pos (by simp)]
  simp

theorem bytesParser_step {buf c : Bytes} {k : Nat} (h : (buf ++ c).length ≤ k) (ext : Bytes) :
    bytesParser buf k (c ++ ext) = bytesParser (buf ++ c) k ext := by
  have hl : buf.length + c.length ≤ k := by simpa using h
  simp only [bytesParser, List.length_append]
  have e1 : k - buf.length = c.length + (k - (buf.length + c.length)) := by omega
  by_cases hx : k - buf.length ≤ c.length + ext.length
  · rw [if_pos hx, if_pos (by omega), e1, List.take_length_add_append,
      List.drop_length_add_append]
    simp
  · rw [if_neg hx, if_neg (by omega)]
    congr 2; omega

theorem byteVecDec_lawful' (lim : Nat) : LawfulWith (byteVecDec lim) bvInv (bvDen lim) where
  init := ⟨trivial, rfl, rfl⟩
  more s hs := by
    match hp : s.pre with
    | some pb =>
      simp only [bvInv, hp] at hs
      refine ⟨by simpa [byteVecDec, hp] using csLimit_inv hs.1, .eof (csLimit pb), ?_, ?_⟩
      · simp only [bvDen, hp]; exact csThen_nil hs.1
      · simp [byteVecDec, hp]
    | none =>
      simp only [bvInv, hp] at hs
      refine ⟨by simp [byteVecDec, hp]; omega, .eof (s.expected - s.buffer.length), ?_, ?_⟩
      · simp only [bvDen, hp, bytesParser, List.length_nil]
        rw [if_neg (by omega)]; simp
      · simp only [byteVecDec, hp]
        rw [if_pos (by omega)]
  push s bs hs := by
    match hp : s.pre with
    | some pb =>
      simp only [bvInv, hp] at hs
      obtain ⟨hcs, hb, hc⟩ := hs
      simp only [byteVecDec, hp]
      rcases csPush_spec pb bs hcs with ⟨h1, h2⟩ | ⟨c, rest, h1, h2, h3⟩
      · rw [h1]
        refine ⟨bs, by simp, ⟨h2, hb, hc⟩, fun ext => ?_, by simp⟩
        simp only [bvDen, hp]
        exact csThen_step pb bs ext
      · rw [h2]
        simp only
        cases hend : csEnd lim (pb ++ c) with
        | error e =>
          intro ext
          simp only [bvDen, hp, h1, List.append_assoc]
          rw [csThen_complete h3]
          simp [byteVecCont, hend]
        | ok n =>
          simp only
          have hden : ∀ ext, bvDen lim s (c ++ ext) = bytesParser [] n ext := by
            intro ext
            simp only [bvDen, hp]
            rw [csThen_complete h3]
            simp [byteVecCont, hend]
          rcases bvBody_spec { s with pre := none, expected := n } rest rfl (by simp [hb])
            (by simp [hb]) with
            ⟨c', rest', s', e1, e2, e3, e4, e5, e6⟩ | ⟨c', rest', s', e1, e2, e3, e4, e5, e6, e7, e8⟩
          · rw [e2]
            simp only [hb, List.nil_append] at e4
            refine ⟨c ++ c', by rw [h1, e1, List.append_assoc], fun ext => ?_⟩
            rw [List.append_assoc, hden]
            have hfull : bytesParser [] n (c' ++ ext) = .done ([] ++ c') ext :=
              bytesParser_full (by simpa [e4] using e5) ext
            rw [hfull]
            have hl : ¬ s'.buffer.length ≠ s'.expected := by simp [e5, e6]
            simp only [e3]
            rw [if_neg hl]
            simp [POut.ofEnd, e4]
          · rw [e2]
            simp only [hb, List.nil_append] at e4
            refine ⟨c ++ c', by rw [h1, e1, List.append_assoc], ?_, fun ext => ?_, ?_⟩
            · simp only [bvInv, e3]
              exact ⟨by rw [e6]; exact e5, e7⟩
            · rw [List.append_assoc, hden]
              rw [bytesParser_step (by simp [e4] at e5 ⊢; omega)]
              simp only [bvDen, e3, e4, e6, List.nil_append]
            · intro hr
              have hne : rest ≠ [] := by
                intro h0; rw [h0] at e1
                have h9 : c' ++ rest' = [] := e1.symm
                exact hr (List.append_eq_nil_iff.mp h9).2
              exact fun h0 => e8 hne (List.append_eq_nil_iff.mp h0).2
    | none =>
      simp only [bvInv, hp] at hs
      simp only [byteVecDec, hp]
      rcases bvBody_spec s bs hp hs.2 (by omega) with
        ⟨c', rest', s', e1, e2, e3, e4, e5, e6⟩ | ⟨c', rest', s', e1, e2, e3, e4, e5, e6, e7, e8⟩
      · rw [e2]
        refine ⟨c', e1, fun ext => ?_⟩
        simp only [bvDen, hp]
        rw [bytesParser_full (by rw [← e4]; exact e5)]
        have hl : ¬ s'.buffer.length ≠ s'.expected := by simp [e5, e6]
        simp only [e3]
        rw [if_neg hl]
        simp [POut.ofEnd, e4]
      · rw [e2]
        refine ⟨c', e1, ?_, fun ext => ?_, ?_⟩
        · simp only [bvInv, e3]
          exact ⟨by rw [e6]; exact e5, e7⟩
        · simp only [bvDen, hp, e3, e4, e6]
          rw [bytesParser_step]
          rw [← e4]; omega
        · intro hr
          apply e8
          intro h0; rw [h0] at e1
          have h9 : c' ++ rest' = [] := e1.symm
          exact hr (List.append_eq_nil_iff.mp h9).2
  limit s bs a rest hs h := by
    match hp : s.pre with
    | some pb =>
      simp only [bvInv, hp] at hs
      simp only [bvDen, hp] at h
      simp only [byteVecDec, hp]
      refine csThen_limit hs.1 (fun p bs hk => ?_) h
      simp only [byteVecCont] at hk
      split at hk
      · cases hk
      · simp only [bytesParser] at hk
        split at hk
        · simp only [POut.done.injEq] at hk
          rw [← hk.2]; simp
        · cases hk
    | none =>
      simp only [bvInv, hp] at hs
      simp only [bvDen, hp, bytesParser] at h
      simp only [byteVecDec, hp]
      split at h
      · simp only [POut.done.injEq] at h
        rw [← h.2]
        simp only [List.length_drop]
        omega
      · cases h

theorem byteVecDec_lawful (lim : Nat) : Lawful (byteVecDec lim) (byteVecParser lim) :=
  ⟨_, _, byteVecDec_lawful' lim, rfl⟩

/-! ## Vectors -/

/-- `k` more items, the current one parsed by `cur`, the following ones by `P`. -/
def itemsParser {α : Type} (P : Parser α) : Nat → List α → Parser α → Parser (List α)
  | 0, buf, _ => fun bs => .done buf bs
  | k + 1, buf, cur => fun bs => match cur bs with
    | .done a r => itemsParser P k (buf ++ [a]) P r
    | .fail e => .fail (.item e)
    | .more _ => .more (.eof (k + 1))

def evInv {α : Type} {d : Dec α} (inv : d.S → Prop) (s : EvState d.S α) : Prop :=
  0 < s.left ∧ ∀ x, s.decoder = some x → inv x

/-- Parser of the current item. -/
def evCur {α : Type} {d : Dec α} (den : d.S → Parser α) (o : Option d.S) : Parser α :=
  den (o.getD d.init)

def evDen {α : Type} {d : Dec α} (den : d.S → Parser α) (s : EvState d.S α) : Parser (List α) :=
  itemsParser (den d.init) s.left s.buffer (evCur den s.decoder)

section Vec
variable {α : Type} {d : Dec α} {inv : d.S → Prop} {den : d.S → Parser α}

theorem evLoop_spec (L : LawfulWith d inv den) : ∀ (k : Nat) (buf : List α) (o : Option d.S)
    (bs : Bytes), (∀ x, o = some x → inv x) →
    match evLoop d k buf o bs with
    | .error e => ∀ ext, itemsParser (den d.init) k buf (evCur den o) (bs ++ ext) = .fail e
    | .ok (s', rest, .ready) => s'.left = 0 ∧ ∃ c, bs = c ++ rest ∧
        ∀ ext, itemsParser (den d.init) k buf (evCur den o) (c ++ ext) = .done s'.buffer ext
    | .ok (s', rest, .needsMore) => ∃ c, bs = c ++ rest ∧ evInv inv s' ∧
        (∀ ext, itemsParser (den d.init) k buf (evCur den o) (c ++ ext) = evDen den s' ext) ∧
        (rest ≠ [] → c ≠ []) := by
  intro k
  induction k with
  | zero =>
    intro buf o bs ho
    simp only [evLoop]
    exact ⟨trivial, [], rfl, fun ext => rfl⟩
  | succ k ih =>
    intro buf o bs ho
    simp only [evLoop]
    by_cases hb : bs = []
    · simp only [hb, if_true]
      refine ⟨[], rfl, ⟨by simp, ho⟩, fun ext => rfl, by simp⟩
    · simp only [hb, if_false]
      have hinv : inv (o.getD d.init) := by
        cases o with
        | none => exact L.init
        | some x => exact ho x rfl
      have hp := L.push (o.getD d.init) bs hinv
      match hpush : d.push (o.getD d.init) bs with
      | .error e =>
        rw [hpush] at hp
        intro ext
        simp only [itemsParser, evCur, hp ext]
      | .ok (s', rest, .needsMore) =>
        rw [hpush] at hp
        obtain ⟨c, hc, hs', hd, hprog⟩ := hp
        refine ⟨c, hc, ⟨by simp, fun x hx => by cases hx; exact hs'⟩, fun ext => ?_, hprog⟩
        simp only [evDen, itemsParser, evCur, hd, Option.getD_some]
      | .ok (s', rest, .ready) =>
        rw [hpush] at hp
        obtain ⟨c, hc, hd⟩ := hp
        simp only
        cases hfin : d.fin s' with
        | error e =>
          intro ext
          simp only [itemsParser, evCur, hc, List.append_assoc, hd, hfin, POut.ofEnd]
        | ok a =>
          simp only
          have hfirst : ∀ ext, itemsParser (den d.init) (k + 1) buf (evCur den o) (c ++ ext) =
              itemsParser (den d.init) k (buf ++ [a]) (evCur den none) ext := by
            intro ext
            simp only [itemsParser, evCur, hd, hfin, POut.ofEnd, Option.getD_none]
          have := ih (buf ++ [a]) none rest (by simp)
          match hl : evLoop d k (buf ++ [a]) none rest with
          | .error e =>
            rw [hl] at this
            intro ext
            rw [hc, List.append_assoc, hfirst, this]
          | .ok (s'', rest', .ready) =>
            rw [hl] at this
            obtain ⟨h1, c', hc', h2⟩ := this
            refine ⟨h1, c ++ c', by rw [hc, hc', List.append_assoc], fun ext => ?_⟩
            rw [List.append_assoc, hfirst, h2]
          | .ok (s'', rest', .needsMore) =>
            rw [hl] at this
            obtain ⟨c', hc', h1, h2, h3⟩ := this
            refine ⟨c ++ c', by rw [hc, hc', List.append_assoc], h1, fun ext => ?_, ?_⟩
            · rw [List.append_assoc, hfirst, h2]
            · intro hr h0
              exact h3 hr (List.append_eq_nil_iff.mp h0).2

theorem itemsParser_limit (L : LawfulWith d inv den) : ∀ (k : Nat) (buf : List α) (o : Option d.S)
    (bs : Bytes) (a : List α) (rest : Bytes), (∀ x, o = some x → inv x) →
    itemsParser (den d.init) k buf (evCur den o) bs = .done a rest →
    evLimit d ⟨k, buf, if k = 0 then none else o⟩ + rest.length ≤ bs.length := by
  intro k
  induction k with
  | zero =>
    intro buf o bs a rest _ h
    simp only [itemsParser, POut.done.injEq] at h
    simp [evLimit, h.2]
  | succ k ih =>
    intro buf o bs a rest ho h
    have hinv : inv (o.getD d.init) := by
      cases o with
      | none => exact L.init
      | some x => exact ho x rfl
    simp only [itemsParser, evCur] at h
    match hd : den (o.getD d.init) bs with
    | .done x r =>
      rw [hd] at h
      have h1 := L.limit _ _ _ _ hinv hd
      have h2 := ih (buf ++ [x]) none r a rest (by simp) h
      cases o with
      | none =>
        simp only [evLimit, Option.getD_none] at h1 ⊢
        simp only [evLimit, ite_self] at h2
        simp only [Nat.add_one_ne_zero, if_false]
        by_cases hk : k = 0
        · subst hk; simp at h2 ⊢; omega
        · simp only [hk, if_false] at h2
          rw [Nat.add_mul]; omega
      | some y =>
        simp only [evLimit, Option.getD_some, Nat.add_one_ne_zero, if_false] at h1 ⊢
        omega
    | .fail e => rw [hd] at h; cases h
    | .more e => rw [hd] at h; cases h

theorem evDen_nil (L : LawfulWith d inv den) (s : EvState d.S α) (hs : evInv inv s) :
    evDen den s [] = .more (.eof s.left) := by
  obtain ⟨hl, ho⟩ := hs
  obtain ⟨left, buf, o⟩ := s
  simp only at hl ho
  obtain ⟨k, rfl⟩ : ∃ k, left = k + 1 := ⟨left - 1, by omega⟩
  have hinv : inv (o.getD d.init) := by
    cases o with
    | none => exact L.init
    | some x => exact ho x rfl
  obtain ⟨_, e, h1, _⟩ := L.more _ hinv
  simp only [evDen, itemsParser, evCur, h1]

theorem evLimit_pos (L : LawfulWith d inv den) (s : EvState d.S α) (hs : evInv inv s) :
    0 < evLimit d s := by
  obtain ⟨hl, ho⟩ := hs
  simp only [evLimit]
  split
  · rename_i x hx
    exact (L.more x (ho x hx)).1
  · rw [if_neg (by omega)]
    exact Nat.mul_pos hl (L.more _ L.init).1

theorem exactVecDec_lawful' (L : LawfulWith d inv den) (count : Nat) (hc : 0 < count) :
    LawfulWith (exactVecDec d count) (evInv inv) (evDen den) where
  init := ⟨hc, by simp [exactVecDec]⟩
  more s hs := ⟨evLimit_pos L s hs, _, evDen_nil L s hs, by
    have : s.left ≠ 0 := by have := hs.1; omega
    simp [exactVecDec, evFin, this]⟩
  push s bs hs := by
    have := evLoop_spec L s.left s.buffer s.decoder bs hs.2
    simp only [exactVecDec]
    match hl : evLoop d s.left s.buffer s.decoder bs with
    | .error e => rw [hl] at this; exact this
    | .ok (s', rest, .ready) =>
      rw [hl] at this
      obtain ⟨h0, c, hc, hd⟩ := this
      refine ⟨c, hc, fun ext => ?_⟩
      simp only [evFin, h0, if_true, POut.ofEnd]
      exact hd ext
    | .ok (s', rest, .needsMore) => rw [hl] at this; exact this
  limit s bs a rest hs h := by
    have := itemsParser_limit L s.left s.buffer s.decoder bs a rest hs.2 h
    have hl : s.left ≠ 0 := by have := hs.1; omega
    simp only [hl, if_false] at this
    exact this

/-- Parser of `VecDecoder`: count prefix, then that many items. -/
def vecCont (P : Parser α) (lim : Nat) (p : Bytes) : Parser (List α) := fun rest =>
  match csEnd lim p with
  | .error e => .fail (.lenPrefix e)
  | .ok k => itemsParser P k [] P rest

def vecParser (P : Parser α) (lim : Nat) : Parser (List α) :=
  csThen (fun b => .eof (csLimit b)) (vecCont P lim) []

def vInv (inv : d.S → Prop) (s : VState d.S α) : Prop :=
  match s.pre with
  | some pb => csInv pb
  | none => evInv inv s.items

def vDen (den : d.S → Parser α) (lim : Nat) (s : VState d.S α) : Parser (List α) :=
  match s.pre with
  | some pb => csThen (fun b => .eof (csLimit b)) (vecCont (den d.init) lim) pb
  | none => evDen den s.items

theorem vecDec_lawful' (L : LawfulWith d inv den) (lim : Nat) :
    LawfulWith (vecDec d lim) (vInv inv) (vDen den lim) where
  init := trivial
  more s hs := by
    match hp : s.pre with
    | some pb =>
      simp only [vInv, hp] at hs
      refine ⟨by simpa [vecDec, hp] using csLimit_inv hs, .eof (csLimit pb), ?_, ?_⟩
      · simp only [vDen, hp]; exact csThen_nil hs
      · simp [vecDec, hp]
    | none =>
      simp only [vInv, hp] at hs
      refine ⟨by simpa [vecDec, hp] using evLimit_pos L _ hs, .eof s.items.left, ?_, ?_⟩
      · simp only [vDen, hp]; exact evDen_nil L _ hs
      · have : s.items.left ≠ 0 := by have := hs.1; omega
        simp [vecDec, hp, evFin, this]
  push s bs hs := by
    match hp : s.pre with
    | some pb =>
      simp only [vInv, hp] at hs
      simp only [vecDec, hp]
      rcases csPush_spec pb bs hs with ⟨h1, h2⟩ | ⟨c, rest, h1, h2, h3⟩
      · rw [h1]
        refine ⟨bs, by simp, h2, fun ext => ?_, by simp⟩
        simp only [vDen, hp]
        exact csThen_step pb bs ext
      · rw [h2]
        simp only
        cases hend : csEnd lim (pb ++ c) with
        | error e =>
          intro ext
          simp only [vDen, hp, h1, List.append_assoc]
          rw [csThen_complete h3]
          simp [vecCont, hend]
        | ok n =>
          simp only
          have hden : ∀ ext, vDen den lim s (c ++ ext) =
              itemsParser (den d.init) n [] (evCur den none) ext := by
            intro ext
            simp only [vDen, hp]
            rw [csThen_complete h3]
            simp [vecCont, hend, evCur]
          have := evLoop_spec L n [] none rest (by simp)
          match hl : evLoop d n [] none rest with
          | .error e =>
            rw [hl] at this
            intro ext
            rw [h1, List.append_assoc, hden, this]
          | .ok (s', rest', .ready) =>
            rw [hl] at this
            obtain ⟨h0, c', hc', hd⟩ := this
            refine ⟨c ++ c', by rw [h1, hc', List.append_assoc], fun ext => ?_⟩
            rw [List.append_assoc, hden, hd]
            simp [evFin, h0, POut.ofEnd]
          | .ok (s', rest', .needsMore) =>
            rw [hl] at this
            obtain ⟨c', hc', hi, hd, hprog⟩ := this
            refine ⟨c ++ c', by rw [h1, hc', List.append_assoc], hi, fun ext => ?_, ?_⟩
            · rw [List.append_assoc, hden, hd]
              rfl
            · intro hr h0
              exact hprog hr (List.append_eq_nil_iff.mp h0).2
    | none =>
      simp only [vInv, hp] at hs
      simp only [vecDec, hp]
      have := evLoop_spec L s.items.left s.items.buffer s.items.decoder bs hs.2
      match hl : evLoop d s.items.left s.items.buffer s.items.decoder bs with
      | .error e =>
        rw [hl] at this
        intro ext
        simp only [vDen, hp]
        exact this ext
      | .ok (s', rest', .ready) =>
        rw [hl] at this
        obtain ⟨h0, c', hc', hd⟩ := this
        refine ⟨c', hc', fun ext => ?_⟩
        simp only [vDen, hp, evFin, h0, if_true, POut.ofEnd]
        exact hd ext
      | .ok (s', rest', .needsMore) =>
        rw [hl] at this
        obtain ⟨c', hc', hi, hd, hprog⟩ := this
        refine ⟨c', hc', hi, fun ext => ?_, hprog⟩
        simp only [vDen, hp]
        exact hd ext
  limit s bs a rest hs h := by
    match hp : s.pre with
    | some pb =>
      simp only [vInv, hp] at hs
      simp only [vDen, hp] at h
      simp only [vecDec, hp]
      refine csThen_limit hs (fun p bs hk => ?_) h
      simp only [vecCont] at hk
      split at hk
      · cases hk
      · rename_i k _
        have := itemsParser_limit L k [] none bs a rest (by simp) (by simpa [evCur] using hk)
        omega
    | none =>
      simp only [vInv, hp] at hs
      simp only [vDen, hp] at h
      have := itemsParser_limit L s.items.left s.items.buffer s.items.decoder bs a rest hs.2 h
      have hl : s.items.left ≠ 0 := by have := hs.1; omega
      simp only [hl, if_false] at this
      simpa [vecDec, hp] using this

end Vec

theorem exactVecDec_lawful {α : Type} {d : Dec α} {P : Parser α} (h : Lawful d P) (count : Nat)
    (hc : 0 < count) : Lawful (exactVecDec d count) (itemsParser P count [] P) := by
  obtain ⟨inv, den, L, rfl⟩ := h
  exact ⟨_, _, exactVecDec_lawful' L count hc, rfl⟩

theorem vecDec_lawful {α : Type} {d : Dec α} {P : Parser α} (h : Lawful d P) (lim : Nat) :
    Lawful (vecDec d lim) (vecParser P lim) := by
  obtain ⟨inv, den, L, rfl⟩ := h
  exact ⟨_, _, vecDec_lawful' L lim, rfl⟩

/-! ## Tuples and newtypes -/

/-- Prefixing already consumed bytes. -/
theorem PushOk.trans {α : Type} {d : Dec α} {inv : d.S → Prop} {den : d.S → Parser α}
    {s s' : d.S} {bs c rest : Bytes} {r : Except DErr (d.S × Bytes × Status)}
    (h : PushOk d inv den s' rest r) (hc : bs = c ++ rest)
    (hd : ∀ ext, den s (c ++ ext) = den s' ext) : PushOk d inv den s bs r := by
  match r with
  | .error e =>
    intro ext
    rw [hc, List.append_assoc, hd]
    exact h ext
  | .ok (s'', rest', .ready) =>
    obtain ⟨c', hc', hd'⟩ := h
    exact ⟨c ++ c', by rw [hc, hc', List.append_assoc], fun ext => by
      rw [List.append_assoc, hd, hd']⟩
  | .ok (s'', rest', .needsMore) =>
    obtain ⟨c', hc', hi, hd', hprog⟩ := h
    exact ⟨c ++ c', by rw [hc, hc', List.append_assoc], hi, fun ext => by
      rw [List.append_assoc, hd, hd'], fun hr h0 => hprog hr (List.append_eq_nil_iff.mp h0).2⟩


/-- One parser after the other. -/
def seqParser {α β : Type} (P : Parser α) (Q : Parser β) : Parser (α × β) := fun bs =>
  match P bs with
  | .done a r => match Q r with
    | .done b r' => .done (a, b) r'
    | .fail e => .fail (.snd e)
    | .more e => .more (.snd e)
  | .fail e => .fail (.fst e)
  | .more e => .more (.fst e)

/-- Tag a finished first component. -/
def withFst {α β : Type} (a : α) (Q : Parser β) : Parser (α × β) := fun bs =>
  match Q bs with
  | .done b r' => .done (a, b) r'
  | .fail e => .fail (.snd e)
  | .more e => .more (.snd e)

section Tuple
variable {α β : Type} {da : Dec α} {db : Dec β} {inva : da.S → Prop} {invb : db.S → Prop}
  {dena : da.S → Parser α} {denb : db.S → Parser β}

def d2Inv (inva : da.S → Prop) (invb : db.S → Prop) : D2State da.S db.S α → Prop
  | .first a b => inva a ∧ invb b
  | .second _ b => invb b

def d2Den (dena : da.S → Parser α) (denb : db.S → Parser β) :
    D2State da.S db.S α → Parser (α × β)
  | .first a b => seqParser (dena a) (denb b)
  | .second x b => withFst x (denb b)

theorem dec2_lawful' (La : LawfulWith da inva dena) (Lb : LawfulWith db invb denb) :
    LawfulWith (dec2 da db) (d2Inv inva invb) (d2Den dena denb) where
  init := ⟨La.init, Lb.init⟩
  more s hs := by
    match s with
    | .first a b =>
      obtain ⟨ha, e, h1, h2⟩ := La.more a hs.1
      refine ⟨by simp [dec2]; omega, .fst e, ?_, ?_⟩
      · simp [d2Den, seqParser, h1]
      · simp [dec2, h2]
    | .second x b =>
      obtain ⟨hb, e, h1, h2⟩ := Lb.more b hs
      refine ⟨by simpa [dec2] using hb, .snd e, ?_, ?_⟩
      · simp [d2Den, withFst, h1]
      · simp [dec2, h2]
  push s bs hs := by
    have second : ∀ (x : α) (b : db.S) (bs : Bytes), invb b →
        PushOk (dec2 da db) (d2Inv inva invb) (d2Den dena denb) (.second x b) bs
          (match db.push b bs with
          | .error e => .error (.snd e)
          | .ok (b', rest, st) => .ok (D2State.second x b', rest, st)) := by
      intro x b bs hb
      have hp := Lb.push b bs hb
      match hpush : db.push b bs with
      | .error e =>
        rw [hpush] at hp
        intro ext
        simp only [d2Den, withFst, hp ext]
      | .ok (b', rest, .ready) =>
        rw [hpush] at hp
        obtain ⟨c, hc, hd⟩ := hp
        refine ⟨c, hc, fun ext => ?_⟩
        simp only [d2Den, withFst, hd, dec2]
        cases db.fin b' <;> simp [POut.ofEnd]
      | .ok (b', rest, .needsMore) =>
        rw [hpush] at hp
        obtain ⟨c, hc, hs', hd, hprog⟩ := hp
        refine ⟨c, hc, hs', fun ext => ?_, hprog⟩
        simp only [d2Den, withFst, hd]
    match s with
    | .second x b =>
      exact second x b bs hs
    | .first a b =>
      have hp := La.push a bs hs.1
      simp only [dec2]
      match hpush : da.push a bs with
      | .error e =>
        rw [hpush] at hp
        intro ext
        simp only [d2Den, seqParser, hp ext]
      | .ok (a', rest, .needsMore) =>
        rw [hpush] at hp
        obtain ⟨c, hc, hs', hd, hprog⟩ := hp
        refine ⟨c, hc, ⟨hs', hs.2⟩, fun ext => ?_, hprog⟩
        simp only [d2Den, seqParser, hd]
      | .ok (a', rest, .ready) =>
        rw [hpush] at hp
        obtain ⟨c, hc, hd⟩ := hp
        simp only
        cases hfin : da.fin a' with
        | error e =>
          intro ext
          simp only [d2Den, seqParser, hc, List.append_assoc, hd, hfin, POut.ofEnd]
        | ok x =>
          simp only
          have hfirst : ∀ ext, d2Den dena denb (.first a b) (c ++ ext) =
              d2Den dena denb (.second x b) ext := by
            intro ext
            simp only [d2Den, seqParser, hd, hfin, POut.ofEnd, withFst]
          exact PushOk.trans (second x b rest hs.2) hc hfirst
  limit s bs a rest hs h := by
    match s with
    | .first x y =>
      simp only [d2Den, seqParser] at h
      match h1 : dena x bs with
      | .done u r =>
        rw [h1] at h
        simp only at h
        match h2 : denb y r with
        | .done v r' =>
          rw [h2] at h
          simp only [POut.done.injEq] at h
          have e1 := La.limit _ _ _ _ hs.1 h1
          have e2 := Lb.limit _ _ _ _ hs.2 h2
          rw [h.2] at e2
          simp only [dec2]
          omega
        | .fail e => rw [h2] at h; cases h
        | .more e => rw [h2] at h; cases h
      | .fail e => rw [h1] at h; cases h
      | .more e => rw [h1] at h; cases h
    | .second x y =>
      simp only [d2Den, withFst] at h
      match h2 : denb y bs with
      | .done v r' =>
        rw [h2] at h
        simp only [POut.done.injEq] at h
        have e2 := Lb.limit _ _ _ _ hs h2
        rw [h.2] at e2
        simpa [dec2] using e2
      | .fail e => rw [h2] at h; cases h
      | .more e => rw [h2] at h; cases h

end Tuple

theorem dec2_lawful {α β : Type} {da : Dec α} {db : Dec β} {P : Parser α} {Q : Parser β}
    (ha : Lawful da P) (hb : Lawful db Q) : Lawful (dec2 da db) (seqParser P Q) := by
  obtain ⟨_, _, La, rfl⟩ := ha
  obtain ⟨_, _, Lb, rfl⟩ := hb
  exact ⟨_, _, dec2_lawful' La Lb, rfl⟩

/-- Converting the output and the errors of a parser. -/
def Parser.mapE {α β : Type} (P : Parser α) (f : α → Except DErr β) (g : DErr → DErr) : Parser β :=
  fun bs => match P bs with
    | .done a r => .ofEnd (f a) r
    | .fail e => .fail (g e)
    | .more e => .more (g e)

theorem mapE_lawful' {α β : Type} {d : Dec α} {inv : d.S → Prop} {den : d.S → Parser α}
    (L : LawfulWith d inv den) (f : α → Except DErr β) (g : DErr → DErr) :
    LawfulWith (d.mapE f g) inv (fun s => (den s).mapE f g) where
  init := L.init
  more s hs := by
    obtain ⟨h0, e, h1, h2⟩ := L.more s hs
    exact ⟨h0, g e, by simp [Parser.mapE, h1], by simp [Dec.mapE, h2]⟩
  push s bs hs := by
    have hp := L.push s bs hs
    simp only [Dec.mapE]
    match hpush : d.push s bs with
    | .error e =>
      rw [hpush] at hp
      intro ext
      simp only [Parser.mapE, hp ext]
    | .ok (s', rest, .ready) =>
      rw [hpush] at hp
      obtain ⟨c, hc, hd⟩ := hp
      refine ⟨c, hc, fun ext => ?_⟩
      simp only [Parser.mapE, hd]
      cases d.fin s' <;> simp [POut.ofEnd]
    | .ok (s', rest, .needsMore) =>
      rw [hpush] at hp
      obtain ⟨c, hc, hs', hd, hprog⟩ := hp
      exact ⟨c, hc, hs', fun ext => by simp only [Parser.mapE, hd], hprog⟩
  limit s bs a rest hs h := by
    simp only [Parser.mapE] at h
    match h1 : den s bs with
    | .done x r =>
      rw [h1] at h
      simp only at h
      cases hf : f x with
      | ok y =>
        simp only [hf, POut.ofEnd, POut.done.injEq] at h
        have := L.limit _ _ _ _ hs h1
        rw [h.2] at this
        exact this
      | error e => simp [hf, POut.ofEnd] at h
    | .fail e => rw [h1] at h; cases h
    | .more e => rw [h1] at h; cases h

theorem mapE_lawful {α β : Type} {d : Dec α} {P : Parser α} (h : Lawful d P)
    (f : α → Except DErr β) (g : DErr → DErr) : Lawful (d.mapE f g) (P.mapE f g) := by
  obtain ⟨_, _, L, rfl⟩ := h
  exact ⟨_, _, mapE_lawful' L f g, rfl⟩

end Btc
