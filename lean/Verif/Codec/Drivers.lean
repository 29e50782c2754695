import Verif.Codec.Lawful
/-!
# The decoding drivers, for every lawful decoder
-/
namespace Btc

/-- Plain hex decoding (specification side): pairs of hex digits. -/
def hexDecode : List Char → Option Bytes
  | [] => some []
  | [_] => none
  | a :: b :: cs => match hexPair a b, hexDecode cs with
    | some x, some xs => some (x :: xs)
    | _, _ => none

/-- Bytes a buffered reader delivers before end of file (an empty buffer or the end of the script)
or a fatal error. -/
def bufContent : List BufEvent → Bytes
  | [] => []
  | .interrupted :: es => bufContent es
  | .fatal :: _ => []
  | .buffer b :: es => if b = [] then [] else b ++ bufContent es

/-- The reader fails with a fatal error before end of file. -/
def hitsFatal : List BufEvent → Bool
  | [] => false
  | .interrupted :: es => hitsFatal es
  | .fatal :: _ => true
  | .buffer b :: es => if b = [] then false else hitsFatal es

namespace LawfulWith
variable {α : Type} {d : Dec α} {inv : d.S → Prop} {den : d.S → Parser α}

theorem hexDecode_even : ∀ (cs : List Char) (bs : Bytes), hexDecode cs = some bs → cs.length % 2 = 0
  | [], _, _ => rfl
  | [_], _, h => by simp [hexDecode] at h
  | a :: b :: cs, bs, h => by
    simp only [hexDecode] at h
    split at h
    · rename_i h2
      have := hexDecode_even cs _ h2
      simp; omega
    · cases h

theorem hexLoop_spec (L : LawfulWith d inv den) (cap : Nat) (hcap : 0 < cap) :
    ∀ (cs : List Char) (s : d.S) (buf : Bytes), inv s → cs.length % 2 = 0 →
    match d.hexLoop cap s buf cs with
    | .ok (s', buf') => inv s' ∧ ∃ bs, hexDecode cs = some bs ∧
        ∀ ext, den s (buf ++ bs ++ ext) = den s' (buf' ++ ext)
    | .error _ => ∀ bs, hexDecode cs = some bs → ∀ a, den s (buf ++ bs) ≠ .done a []
  | [], s, buf, hs, _ => by simp [Dec.hexLoop, hexDecode, hs]
  | [_], _, _, _, h => by simp at h
  | a :: b :: cs, s, buf, hs, hl => by
    have hl' : cs.length % 2 = 0 := by simp at hl; omega
    rw [Dec.hexLoop]
    cases hp : hexPair a b with
    | none => simp [hexDecode, hp]
    | some byte =>
      simp only [hexDecode, hp]
      by_cases hc : buf.length = cap
      · simp only [hc, if_true]
        have hf := L.feed_spec buf s hs
        match hfe : d.feed s buf with
        | .needsMore s' =>
          rw [hfe] at hf
          have ih := hexLoop_spec L cap hcap cs s' [byte] hf.1 hl'
          simp only
          match hh : d.hexLoop cap s' [byte] cs with
          | .ok (s'', buf'') =>
            rw [hh] at ih
            obtain ⟨h1, bs, h2, h3⟩ := ih
            refine ⟨h1, byte :: bs, by simp [h2], fun ext => ?_⟩
            rw [List.append_assoc, hf.2]
            simpa using h3 ext
          | .error e =>
            rw [hh] at ih
            intro bs hbs a
            match hd : hexDecode cs with
            | none => simp [hd] at hbs
            | some xs =>
              simp only [hd, Option.some.injEq] at hbs
              subst hbs
              rw [hf.2]
              exact ih xs hd a
        | .ready s' rest =>
          rw [hfe] at hf
          obtain ⟨c, hce, hd⟩ := hf
          intro bs hbs a
          match hd2 : hexDecode cs with
          | none => simp [hd2] at hbs
          | some xs =>
            simp only [hd2, Option.some.injEq] at hbs
            subst hbs
            rw [hce, List.append_assoc, hd]
            cases d.fin s' <;> simp [POut.ofEnd]
        | .err e =>
          rw [hfe] at hf
          intro bs _ a
          rw [hf]; simp
        | .stuck => rw [hfe] at hf; exact hf.elim
      · simp only [hc, if_false]
        have ih := hexLoop_spec L cap hcap cs s (buf ++ [byte]) hs hl'
        match hh : d.hexLoop cap s (buf ++ [byte]) cs with
        | .ok (s'', buf'') =>
          rw [hh] at ih
          obtain ⟨h1, bs, h2, h3⟩ := ih
          refine ⟨h1, byte :: bs, by simp [h2], fun ext => ?_⟩
          have := h3 ext
          simpa using this
        | .error e =>
          rw [hh] at ih
          intro bs hbs a
          match hd : hexDecode cs with
          | none => simp [hd] at hbs
          | some xs =>
            simp only [hd, Option.some.injEq] at hbs
            subst hbs
            have := ih xs hd a
            simpa using this

theorem decodeSlice_ok_iff (L : LawfulWith d inv den) (bs : Bytes) (a : α) :
    d.decodeSlice bs = .ok a ↔ den d.init bs = .done a [] := by
  unfold Dec.decodeSlice
  rw [L.decodeSliceUnbounded_spec]
  match den d.init bs with
  | .done b [] => simp [POut.outcome]
  | .done b (x :: xs) => simp [POut.outcome]
  | .fail e => simp [POut.outcome]
  | .more e => simp [POut.outcome]

theorem decodeHex_ok_iff (L : LawfulWith d inv den) (cap : Nat) (hcap : 0 < cap) (hex : List Char)
    (a : α) :
    d.decodeHex hex cap = .ok a ↔ ∃ bs, hexDecode hex = some bs ∧ d.decodeSlice bs = .ok a := by
  simp only [L.decodeSlice_ok_iff]
  unfold Dec.decodeHex
  by_cases hl : hex.length % 2 = 1
  · simp only [hl, if_true, reduceCtorEq, false_iff, not_exists, not_and]
    intro bs hbs
    have := hexDecode_even hex bs hbs
    omega
  · simp only [hl, if_false]
    have hspec := L.hexLoop_spec cap hcap hex d.init [] L.init (by omega)
    match hh : d.hexLoop cap d.init [] hex with
    | .error e =>
      rw [hh] at hspec
      simp only [reduceCtorEq, false_iff, not_exists, not_and]
      intro bs hbs
      exact hspec bs hbs a
    | .ok (s, buf) =>
      rw [hh] at hspec
      obtain ⟨hs, bs, hbs, hden⟩ := hspec
      have h0 := hden []
      simp only [List.nil_append, List.append_nil] at h0
      have key : (∃ bs, hexDecode hex = some bs ∧ den d.init bs = .done a []) ↔
          den s buf = .done a [] := by
        constructor
        · rintro ⟨bs', h1, h2⟩
          rw [hbs] at h1; cases h1
          rw [← h0]; exact h2
        · intro h; exact ⟨bs, hbs, by rw [h0]; exact h⟩
      rw [key]
      have hf := L.feed_spec buf s hs
      match hfe : d.feed s buf with
      | .needsMore s' =>
        rw [hfe] at hf
        have h2 := hf.2 []
        rw [List.append_nil] at h2
        obtain ⟨_, e, h3, h4⟩ := L.more s' hf.1
        simp [hfe, h2, h3, h4]
      | .ready s' [] =>
        rw [hfe] at hf
        obtain ⟨c, hc, hd⟩ := hf
        have h2 := hd []
        rw [← hc] at h2
        rw [h2]
        cases hfin : d.fin s' <;> simp [hfe, hfin, POut.ofEnd]
      | .ready s' (x :: xs) =>
        rw [hfe] at hf
        obtain ⟨c, hc, hd⟩ := hf
        have h2 := hd (x :: xs)
        rw [← hc] at h2
        rw [h2]
        cases hfin : d.fin s' <;> simp [hfe, POut.ofEnd]
      | .err e =>
        rw [hfe] at hf
        have h2 := hf []
        rw [List.append_nil] at h2
        simp [hfe, h2]
      | .stuck => rw [hfe] at hf; exact hf.elim

/-- The buffered reader. -/
theorem decodeRead_spec (L : LawfulWith d inv den) : ∀ (es : List BufEvent) (s : d.S), inv s →
    match den s (bufContent es) with
    | .done a rest => ∃ b es', d.decodeRead s es = .ok a (.buffer b :: es') ∧
        b ++ bufContent es' = rest
    | .fail e => d.decodeRead s es = .decode e
    | .more e => d.decodeRead s es = if hitsFatal es then .io else .decode e := by
  intro es
  induction hn : (es.map BufEvent.size).sum using Nat.strongRecOn generalizing es with
  | ind n ih =>
    intro s hs
    obtain ⟨_, e0, hm1, hm2⟩ := L.more s hs
    match es with
    | [] => simp [bufContent, hm1, Dec.decodeRead, hm2, hitsFatal]
    | .interrupted :: es =>
      have := ih _ (by rw [← hn]; simp [BufEvent.size]) es rfl s hs
      simp only [bufContent, hitsFatal]
      rw [Dec.decodeRead]
      exact this
    | .fatal :: es => simp [bufContent, hm1, Dec.decodeRead, hitsFatal]
    | .buffer b :: es =>
      rw [Dec.decodeRead]
      by_cases hb : b = []
      · simp [bufContent, hb, hm1, hm2, hitsFatal]
      · simp only [bufContent, hb, if_false, hitsFatal]
        have hp := L.push s b hs
        match hpush : d.push s b with
        | .error e =>
          rw [hpush] at hp
          have h2 := hp (bufContent es)
          simp only [h2]
        | .ok (s', rest, .ready) =>
          rw [hpush] at hp
          obtain ⟨c, hc, hd⟩ := hp
          have h2 := hd (rest ++ bufContent es)
          rw [← List.append_assoc, ← hc] at h2
          rw [h2]
          cases hfin : d.fin s' with
          | error e => simp [POut.ofEnd, hfin]
          | ok a =>
            simp only [POut.ofEnd]
            exact ⟨rest, es, by simp [hfin], rfl⟩
        | .ok (s', rest, .needsMore) =>
          rw [hpush] at hp
          obtain ⟨c, hc, hs', hd, hprog⟩ := hp
          have h2 := hd (rest ++ bufContent es)
          rw [← List.append_assoc, ← hc] at h2
          rw [h2]
          by_cases hr : rest = []
          · subst hr
            simp only [if_true, List.nil_append]
            exact ih _ (by rw [← hn]; simp [BufEvent.size]) es rfl s' hs'
          · have hlt : rest.length < b.length := by
              have := List.length_pos_iff.mpr (hprog hr)
              rw [hc]; simp; omega
            simp only [hr, if_false, hlt, if_true]
            have := ih _ (by rw [← hn]; simp [BufEvent.size, hlt]) (.buffer rest :: es) rfl s' hs'
            simpa [bufContent, hr, hitsFatal] using this

/-- The unbuffered reader: same result as the parser, and on success exactly the object's bytes
have been taken from the reader. -/
theorem decodeReadUnbuffered_spec (L : LawfulWith d inv den) (cap : Nat) (hcap : 0 < cap) :
    ∀ (src : Bytes) (evs : List ReadEvent) (s : d.S), inv s → ReadEvent.fatal ∉ evs →
    match den s src with
    | .done a rest => d.decodeReadUnbuffered cap s src evs = .ok a rest
    | .fail e => d.decodeReadUnbuffered cap s src evs = .decode e
    | .more e => d.decodeReadUnbuffered cap s src evs = .decode e := by
  intro src
  induction hn : src.length using Nat.strongRecOn generalizing src with
  | ind n ih =>
    intro evs
    induction evs with
    | cons ev evs ihe =>
      intro s hs hnf
      match ev with
      | .interrupted =>
        rw [Dec.decodeReadUnbuffered]
        have hl := (L.more s hs).1
        have hl0 : d.limit s ≠ 0 := by omega
        simp only [hl0, if_false]
        exact ihe s hs (fun h => hnf (List.mem_cons_of_mem _ h))
      | .fatal => exact absurd (List.mem_cons_self) hnf
      | .take k => exact step n ih src hn (.take k :: evs) s hs hnf (by simp) (by simp)
    | nil =>
      intro s hs hnf
      exact step n ih src hn [] s hs hnf (by simp) (by simp)
where
  step (n : Nat)
      (ih : ∀ m < n, ∀ src : Bytes, src.length = m → ∀ (evs : List ReadEvent) (s : d.S), inv s →
        ReadEvent.fatal ∉ evs →
        match den s src with
        | .done a rest => d.decodeReadUnbuffered cap s src evs = .ok a rest
        | .fail e => d.decodeReadUnbuffered cap s src evs = .decode e
        | .more e => d.decodeReadUnbuffered cap s src evs = .decode e)
      (src : Bytes) (hn : src.length = n) (evs : List ReadEvent) (s : d.S) (hs : inv s)
      (hnf : ReadEvent.fatal ∉ evs) (hni : ∀ es, evs ≠ .interrupted :: es)
      (hnf2 : ∀ es, evs ≠ .fatal :: es) :
      match den s src with
      | .done a rest => d.decodeReadUnbuffered cap s src evs = .ok a rest
      | .fail e => d.decodeReadUnbuffered cap s src evs = .decode e
      | .more e => d.decodeReadUnbuffered cap s src evs = .decode e := by
    obtain ⟨hl, e0, hm1, hm2⟩ := L.more s hs
    have hl0 : d.limit s ≠ 0 := by omega
    rw [Dec.decodeReadUnbuffered]
    rotate_left
    · intro es h; exact hni es h
    · intro es h; exact hnf2 es h
    simp only [hl0, if_false]
    generalize hk : readSize evs (min (d.limit s) cap) = k
    have hk1 : 0 < k ∧ k ≤ d.limit s := by
      rw [← hk]; unfold readSize
      split <;> omega
    have hft : ReadEvent.fatal ∉ evs.tail := fun h => hnf (List.mem_of_mem_tail h)
    by_cases hsrc : src = []
    · subst hsrc
      simp [hm1, hm2]
    · have hpos : 0 < src.length := List.length_pos_iff.mpr hsrc
      have hne : src.take k ≠ [] := by
        rw [ne_eq, List.take_eq_nil_iff]; simp [hsrc]; omega
      simp only [hne, dite_false]
      have hf := L.feed_spec (src.take k) s hs
      match hfe : d.feed s (src.take k) with
      | .needsMore s' =>
        rw [hfe] at hf
        have h2 := hf.2 (src.drop k)
        rw [List.take_append_drop] at h2
        rw [h2]
        exact ih (src.drop k).length (by simp; omega) (src.drop k) rfl evs.tail s' hf.1 hft
      | .ready s' rest =>
        rw [hfe] at hf
        obtain ⟨c, hc, hd⟩ := hf
        have h2 := hd (rest ++ src.drop k)
        rw [← List.append_assoc, ← hc, List.take_append_drop] at h2
        cases hfin : d.fin s' with
        | error e => rw [hfin] at h2; rw [h2]; simp [POut.ofEnd, hfin]
        | ok a =>
          rw [hfin] at h2
          simp only [POut.ofEnd] at h2
          have hlim := L.limit s src a _ hs h2
          have hrest : rest = [] := by
            have : rest.length = 0 := by
              simp at hlim; omega
            exact List.length_eq_zero_iff.mp this
          subst hrest
          rw [h2]
          simp [hfin]
      | .err e =>
        rw [hfe] at hf
        have h2 := hf (src.drop k)
        rw [List.take_append_drop] at h2
        rw [h2]
      | .stuck => rw [hfe] at hf; exact hf.elim

end LawfulWith
end Btc
