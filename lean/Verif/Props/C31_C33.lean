import Verif.Script.Laws
/-!
# C31–C33: script building, minimal pushes, script parsing
-/
namespace Btc
namespace Scr

theorem Enc.length_pos {p : Bytes} {i : Instr} (h : Enc p i) : 0 < p.length :=
  List.length_pos_iff.2 h.ne_nil

/-- The bytes of an encoded instruction are determined by any string that starts with it. -/
theorem enc_unique {p q r t : Bytes} {i j : Instr} (hp : Enc p i) (hq : Enc q j) (e : p ++ r = q ++ t) :
    p = q ∧ i = j ∧ r = t := by
  have h1 := next_of_enc hp r
  rw [e, next_of_enc hq t] at h1
  cases h1
  exact ⟨List.append_cancel_right e, rfl, rfl⟩

theorem next_min_of_enc {p : Bytes} {i : Instr} (h : Enc p i) (hm : MinEnc p i) (rest : Bytes) :
    next true (p ++ rest) = some (.ok i, rest) := by
  rcases next_cases true (p ++ rest) (by simp [h.ne_nil]) with ⟨q, j, t, e, hq, _, hn⟩ | ⟨_, _, hno⟩ | ⟨_, hno⟩
  · obtain ⟨_, e2, e3⟩ := enc_unique h hq e
    rw [hn, e2, e3]
  · exact absurd hm (hno p i rest rfl h)
  · exact absurd h (hno p i rest rfl)

theorem next_mode {p : Bytes} {i : Instr} (m : Bool) (h : Enc p i) (hm : m = true → MinEnc p i) (rest : Bytes) :
    next m (p ++ rest) = some (.ok i, rest) := by
  cases m with
  | false => exact next_of_enc h rest
  | true => exact next_min_of_enc h (hm rfl) rest

theorem next_nil (m : Bool) : next m [] = none := rfl

theorem walk_nil (m : Bool) (fuel : Nat) : walk m fuel [] = [] := by cases fuel <;> rfl

theorem walk_succ_some {m : Bool} {fuel : Nat} {data rest : Bytes} {r : Except ScrErr Instr}
    (h : next m data = some (r, rest)) : walk m (fuel + 1) data = r :: walk m fuel rest := by
  simp only [walk, h]

theorem walk_append (m : Bool) (ps : List (Bytes × Instr)) (hp : ∀ x ∈ ps, Enc x.1 x.2 ∧ (m = true → MinEnc x.1 x.2))
    (rest : Bytes) (fuel : Nat) :
    walk m (ps.length + fuel) ((ps.map Prod.fst).flatten ++ rest) = ps.map (fun x => .ok x.2) ++ walk m fuel rest := by
  induction ps with
  | nil => simp
  | cons x ps ih =>
    have hx := hp x (by simp)
    simp only [List.map_cons, List.flatten_cons, List.append_assoc, List.length_cons, List.cons_append]
    rw [show ps.length + 1 + fuel = (ps.length + fuel) + 1 by omega,
      walk_succ_some (next_mode m hx.1 hx.2 _), ih (fun y hy => hp y (by simp [hy]))]

/-- What is left when the iterator stops: nothing, or one error. -/
def Stuck (m : Bool) (rest : Bytes) (e : ScrErr) : Prop :=
  rest ≠ [] ∧
  ((e = .earlyEndOfScript ∧ ∀ p i t, rest = p ++ t → ¬ Enc p i) ∨
   (e = .nonMinimalPush ∧ m = true ∧ ∃ p i t, rest = p ++ t ∧ Enc p i ∧ ¬ MinEnc p i) ∨
   (e = .nonMinimalPush ∧ m = true ∧ ∀ p i t, rest = p ++ t → ¬ Enc p i))

/-- Fuel does not matter, and the iterator is fused: further calls yield nothing. -/
theorem walk_fuel (m : Bool) (n : Nat) : ∀ (data : Bytes) (fuel : Nat), data.length ≤ n → data.length ≤ fuel →
    walk m fuel data = walk m data.length data := by
  induction n with
  | zero =>
    intro data fuel hn _
    have : data = [] := List.length_eq_zero_iff.1 (by omega)
    subst this; rw [walk_nil, walk_nil]
  | succ n ih =>
    intro data fuel hn hf
    cases hd : data with
    | nil => rw [walk_nil, walk_nil]
    | cons b tl =>
      rw [← hd]
      have hne : data ≠ [] := by rw [hd]; simp
      have hpos : 0 < data.length := List.length_pos_iff.2 hne
      obtain ⟨f, rfl⟩ : ∃ f, fuel = f + 1 := ⟨fuel - 1, by omega⟩
      obtain ⟨g, hg⟩ : ∃ g, data.length = g + 1 := ⟨data.length - 1, by omega⟩
      rw [hg]
      rcases next_cases m data hne with ⟨p, i, t, e, hp, _, hn'⟩ | ⟨_, hn', _⟩ | ⟨hn', _⟩
      · have := hp.length_pos
        have hl : data.length = p.length + t.length := by rw [e, List.length_append]
        rw [walk_succ_some hn', walk_succ_some hn', ih t f (by omega) (by omega), ih t g (by omega) (by omega)]
      · rw [walk_succ_some hn', walk_succ_some hn', walk_nil, walk_nil]
      · rw [walk_succ_some hn', walk_succ_some hn', walk_nil, walk_nil]

theorem walk_tiles (m : Bool) (n : Nat) : ∀ (data : Bytes), data.length ≤ n →
    ∃ (ps : List (Bytes × Instr)) (rest : Bytes), data = (ps.map Prod.fst).flatten ++ rest ∧
      (∀ x ∈ ps, Enc x.1 x.2 ∧ (m = true → MinEnc x.1 x.2)) ∧
      ((rest = [] ∧ walk m data.length data = ps.map (fun x => .ok x.2)) ∨
       ∃ e, Stuck m rest e ∧ walk m data.length data = ps.map (fun x => .ok x.2) ++ [.error e]) := by
  induction n with
  | zero =>
    intro data hn
    have : data = [] := List.length_eq_zero_iff.1 (by omega)
    subst this
    exact ⟨[], [], rfl, by simp, .inl ⟨rfl, rfl⟩⟩
  | succ n ih =>
    intro data hn
    cases hd : data with
    | nil => exact ⟨[], [], rfl, by simp, .inl ⟨rfl, rfl⟩⟩
    | cons b tl =>
      rw [← hd]
      have hne : data ≠ [] := by rw [hd]; simp
      obtain ⟨g, hg⟩ : ∃ g, data.length = g + 1 := ⟨data.length - 1, by have := List.length_pos_iff.2 hne; omega⟩
      rw [hg]
      rcases next_cases m data hne with ⟨p, i, t, e, hp, hm, hn'⟩ | ⟨hm, hn', hno⟩ | ⟨hn', hno⟩
      · have := hp.length_pos
        have hl : data.length = p.length + t.length := by rw [e, List.length_append]
        obtain ⟨ps, rest, et, hps, hend⟩ := ih t (by omega)
        rw [walk_succ_some hn', walk_fuel m _ t g (Nat.le_refl _) (by omega)]
        refine ⟨(p, i) :: ps, rest, ?_, ?_, ?_⟩
        · rw [e, et]; simp
        · intro x hx
          rcases List.mem_cons.1 hx with rfl | hx
          · exact ⟨hp, hm⟩
          · exact hps x hx
        · rcases hend with ⟨hr, hw⟩ | ⟨e', hs, hw⟩
          · exact .inl ⟨hr, by rw [hw]; rfl⟩
          · exact .inr ⟨e', hs, by rw [hw]; rfl⟩
      · refine ⟨[], data, rfl, by simp, .inr ⟨.nonMinimalPush, ⟨hne, .inr ?_⟩, ?_⟩⟩
        · by_cases hex : ∃ p i t, data = p ++ t ∧ Enc p i
          · obtain ⟨p, i, t, e, he⟩ := hex
            exact .inl ⟨rfl, hm, p, i, t, e, he, hno p i t e he⟩
          · exact .inr ⟨rfl, hm, fun p i t e he => hex ⟨p, i, t, e, he⟩⟩
        · rw [walk_succ_some hn', walk_nil]; rfl
      · refine ⟨[], data, rfl, by simp, .inr ⟨.earlyEndOfScript, ⟨hne, .inl ⟨rfl, hno⟩⟩, ?_⟩⟩
        rw [walk_succ_some hn', walk_nil]; rfl

/-- **C33 (tiling).** Walking any byte string gives finitely many instructions followed by at most one error; the
byte ranges of the instructions tile a prefix of the script, the rest is empty if there is no error, and an error
is never a panic. -/
theorem C33_tiles (m : Bool) (s : Bytes) :
    ∃ (ps : List (Bytes × Instr)) (rest : Bytes), s = (ps.map Prod.fst).flatten ++ rest ∧
      (∀ x ∈ ps, Enc x.1 x.2 ∧ (m = true → MinEnc x.1 x.2)) ∧
      ((rest = [] ∧ walk m s.length s = ps.map (fun x => .ok x.2)) ∨
       ∃ e, Stuck m rest e ∧ walk m s.length s = ps.map (fun x => .ok x.2) ++ [.error e]) :=
  walk_tiles m s.length s (Nat.le_refl _)

/-- **C33 (termination, fused).** The iterator yields at most one item per byte, and once exhausted it yields
nothing more: giving it any number of further calls changes nothing. -/
theorem C33_terminates (m : Bool) (s : Bytes) (extra : Nat) :
    walk m (s.length + extra) s = walk m s.length s ∧ (walk m s.length s).length ≤ s.length := by
  refine ⟨walk_fuel m _ s _ (Nat.le_refl _) (by omega), ?_⟩
  have h : ∀ fuel data, (walk m fuel data).length ≤ fuel := by
    intro fuel
    induction fuel with
    | zero => intro data; simp [walk]
    | succ f ih =>
      intro data
      unfold walk
      split
      · simp
      · rename_i r rest _
        have := ih rest
        simp only [List.length_cons]; omega
  exact h _ _

/-- Byte offsets of the pieces of a script. -/
def offsets : Nat → List (Bytes × Instr) → List (Nat × Instr)
  | _, [] => []
  | pos, (p, i) :: ps => (pos, i) :: offsets (pos + p.length) ps

theorem walkIdx_append (m : Bool) (ps : List (Bytes × Instr)) (hp : ∀ x ∈ ps, Enc x.1 x.2 ∧ (m = true → MinEnc x.1 x.2))
    (rest : Bytes) (fuel : Nat) : ∀ pos,
    walkIdx m (ps.length + fuel) ((ps.map Prod.fst).flatten ++ rest) pos =
      (offsets pos ps).map .ok ++ walkIdx m fuel rest (pos + ((ps.map Prod.fst).flatten).length) := by
  induction ps with
  | nil => intro pos; simp [offsets]
  | cons x ps ih =>
    intro pos
    have hx := hp x (by simp)
    simp only [List.map_cons, List.flatten_cons, List.append_assoc, List.length_cons, List.cons_append, offsets]
    rw [show ps.length + 1 + fuel = (ps.length + fuel) + 1 by omega, walkIdx, nextIdx, next_mode m hx.1 hx.2 _]
    simp only [List.length_append, Nat.add_sub_cancel]
    rw [ih (fun y hy => hp y (by simp [hy])), Nat.add_assoc]

theorem walkIdx_nil (m : Bool) (fuel pos : Nat) : walkIdx m fuel [] pos = [] := by cases fuel <;> rfl

/-- **C33 (indices).** The index iterator yields the same instructions with the offset at which each one starts. -/
theorem C33_indices (m : Bool) (s : Bytes) :
    ∃ (ps : List (Bytes × Instr)) (rest : Bytes), s = (ps.map Prod.fst).flatten ++ rest ∧
      (∀ x ∈ ps, Enc x.1 x.2) ∧
      ((walk m s.length s = ps.map (fun x => .ok x.2) ∧ walkIdx m s.length s 0 = (offsets 0 ps).map .ok) ∨
       ∃ e, walk m s.length s = ps.map (fun x => .ok x.2) ++ [.error e] ∧
         walkIdx m s.length s 0 = (offsets 0 ps).map .ok ++ [.error e]) := by
  obtain ⟨ps, rest, es, hps, hend⟩ := C33_tiles m s
  have hlen : ps.length ≤ s.length := by
    have : ∀ qs : List (Bytes × Instr), (∀ x ∈ qs, Enc x.1 x.2) → qs.length ≤ ((qs.map Prod.fst).flatten).length := by
      intro qs
      induction qs with
      | nil => simp
      | cons x qs ih =>
        intro h
        have h1 := (h x (by simp)).length_pos
        have h2 := ih (fun y hy => h y (by simp [hy]))
        simp only [List.map_cons, List.flatten_cons, List.length_append, List.length_cons]
        omega
    have := this ps (fun x hx => (hps x hx).1)
    rw [es, List.length_append]; omega
  have hidx := walkIdx_append m ps hps rest (s.length - ps.length) 0
  rw [show ps.length + (s.length - ps.length) = s.length by omega, ← es] at hidx
  refine ⟨ps, rest, es, fun x hx => (hps x hx).1, ?_⟩
  rcases hend with ⟨hr, hw⟩ | ⟨e, hs, hw⟩
  · left
    refine ⟨hw, ?_⟩
    rw [hidx, hr, walkIdx_nil, List.append_nil]
  · right
    refine ⟨e, hw, ?_⟩
    rw [hidx]
    congr 1
    -- the plain walk ends in exactly this error
    have hw2 := walk_append m ps hps rest (s.length - ps.length)
    rw [show ps.length + (s.length - ps.length) = s.length by omega, ← es, hw] at hw2
    have hw3 := List.append_cancel_left hw2
    cases hf : s.length - ps.length with
    | zero => rw [hf] at hw3; simp [walk] at hw3
    | succ f =>
      rw [hf] at hw3
      rcases next_cases m rest hs.1 with ⟨p, i, t, _, _, _, hn⟩ | ⟨_, hn, _⟩ | ⟨hn, _⟩
      · rw [walk_succ_some hn] at hw3; simp at hw3
      · rw [walk_succ_some hn, walk_nil] at hw3
        simp only [List.cons.injEq, Except.error.injEq, and_true] at hw3
        rw [walkIdx, nextIdx, hn]
        simp only [walkIdx_nil]
        rw [hw3]
      · rw [walk_succ_some hn, walk_nil] at hw3
        simp only [List.cons.injEq, Except.error.injEq, and_true] at hw3
        rw [walkIdx, nextIdx, hn]
        simp only [walkIdx_nil]
        rw [hw3]

/-! ### C31 -/

/-- The instructions a builder can be asked to append: data below 2³² bytes, opcodes that are not pushes of data. -/
def Buildable : Instr → Prop
  | .push d => d.length < 2 ^ 32
  | .op o => 78 < o.toNat

/-- What `push_slice` makes of a push: one-byte numbers become number opcodes. -/
def norm : Instr → Instr
  | .push [b] => if b = 0x81 then .op 0x4f else if 1 ≤ b.toNat ∧ b.toNat ≤ 16 then .op (b + 0x50) else .push [b]
  | i => i

theorem norm_one (b : UInt8) : norm (.push [b]) =
    if b = 0x81 then .op 0x4f else if 1 ≤ b.toNat ∧ b.toNat ≤ 16 then .op (b + 0x50) else .push [b] := rfl

/-- The stack element an instruction pushes, for the instructions that push one (BIP-62 reading of `OP_1NEGATE`
and `OP_1`..`OP_16`). -/
def pushed : Instr → Option Bytes
  | .push d => some d
  | .op o => if o = 0x4f then some [0x81] else if 0x51 ≤ o.toNat ∧ o.toNat ≤ 0x60 then some [o - 0x50] else none

theorem enc_header (d : Bytes) (h : d.length < 2 ^ 32) : Enc (pushHeader d.length ++ d) (.push d) := by
  rw [pushHeader_eq]
  by_cases h1 : d.length < 76
  · rw [if_pos h1]; exact .direct d (by omega)
  · rw [if_neg h1]
    by_cases h2 : d.length < 256
    · rw [if_pos h2]
      have := Enc.pushdata1 d h2
      simp only [leBytes, List.cons_append, List.nil_append] at this
      rwa [Nat.mod_eq_of_lt h2] at this
    · rw [if_neg h2]
      by_cases h3 : d.length < 65536
      · rw [if_pos h3]
        have := Enc.pushdata2 d (by omega)
        simp only [leBytes, List.cons_append, List.nil_append] at this
        rwa [Nat.mod_eq_of_lt (show d.length / 256 < 256 by omega)] at this
      · rw [if_neg h3]
        have := Enc.pushdata4 d (by omega)
        simp only [leBytes, List.cons_append, List.nil_append] at this
        have e1 : d.length / 256 / 256 % 256 = d.length / 65536 % 256 := by omega
        have e2 : d.length / 256 / 256 / 256 % 256 = d.length / 16777216 := by omega
        rwa [e1, e2] at this

/-- The bytes appended for one instruction. -/
def pieceNoOpt : Instr → Bytes
  | .op o => [o]
  | .push d => pushHeader d.length ++ d

theorem pushInstrNoOpt_eq (s : Bytes) (i : Instr) : pushInstrNoOpt s i = s ++ pieceNoOpt i := by
  cases i with
  | op o => rfl
  | push d => exact List.append_assoc ..

theorem foldl_noOpt (is : List Instr) : ∀ s, is.foldl pushInstrNoOpt s = s ++ (is.map pieceNoOpt).flatten := by
  induction is with
  | nil => simp
  | cons i is ih => intro s; rw [List.foldl_cons, ih, pushInstrNoOpt_eq]; simp

theorem pieceNoOpt_enc {i : Instr} (h : Buildable i) : Enc (pieceNoOpt i) i := by
  cases i with
  | op o => exact .op o h
  | push d => exact enc_header d h

theorem pushInstr_eq (s : Bytes) (i : Instr) : pushInstr s i = s ++ pieceNoOpt (norm i) := by
  cases i with
  | op o => rfl
  | push d =>
    cases d with
    | nil => exact List.append_assoc ..
    | cons b tl =>
      cases tl with
      | cons c tl => exact List.append_assoc ..
      | nil =>
        unfold pushInstr pushSlice norm
        simp only []
        have hr : (1 ≤ b ∧ b ≤ 16) ↔ (1 ≤ b.toNat ∧ b.toNat ≤ 16) := by
          rw [UInt8.le_iff_toNat_le, UInt8.le_iff_toNat_le]; exact Iff.rfl
        by_cases h1 : b = 0x81
        · rw [if_pos h1, if_pos h1]; rfl
        · rw [if_neg h1, if_neg h1]
          by_cases h2 : 1 ≤ b.toNat ∧ b.toNat ≤ 16
          · rw [if_pos (hr.2 h2), if_pos h2]; rfl
          · rw [if_neg (fun e => h2 (hr.1 e)), if_neg h2]; exact List.append_assoc ..

theorem foldl_opt (is : List Instr) : ∀ s, is.foldl pushInstr s = s ++ ((is.map norm).map pieceNoOpt).flatten := by
  induction is with
  | nil => simp
  | cons i is ih => intro s; rw [List.foldl_cons, ih, pushInstr_eq]; simp

theorem norm_buildable {i : Instr} (h : Buildable i) : Buildable (norm i) := by
  cases i with
  | op o => exact h
  | push d =>
    cases d with
    | nil => exact h
    | cons b tl =>
      cases tl with
      | cons c tl => exact h
      | nil =>
        unfold norm
        simp only []
        by_cases h1 : b = 0x81
        · rw [if_pos h1]; show 78 < (0x4f : UInt8).toNat; decide
        · rw [if_neg h1]
          by_cases h2 : 1 ≤ b.toNat ∧ b.toNat ≤ 16
          · rw [if_pos h2]
            show 78 < (b + 0x50).toNat
            rw [UInt8.toNat_add]
            have : (0x50 : UInt8).toNat = 80 := rfl
            omega
          · rw [if_neg h2]; exact h

theorem norm_pushed : ∀ i : Instr, Buildable i → pushed (norm i) = pushed i
  | .op _, _ => rfl
  | .push [], _ => rfl
  | .push (_ :: _ :: _), _ => rfl
  | .push [b], _ => by
    rw [norm_one]
    by_cases h1 : b = 0x81
    · rw [if_pos h1, h1]; rfl
    · rw [if_neg h1]
      by_cases h2 : 1 ≤ b.toNat ∧ b.toNat ≤ 16
      · rw [if_pos h2]
        have hadd : (b + 0x50).toNat = b.toNat + 80 := by
          rw [UInt8.toNat_add, show (0x50 : UInt8).toNat = 80 from rfl]; omega
        show (if b + 0x50 = 0x4f then _ else _) = some [b]
        rw [if_neg (fun e => by have := congrArg UInt8.toNat e; rw [hadd] at this; have : b.toNat + 80 = 79 := this; omega),
          if_pos (by rw [hadd]; omega)]
        congr 2
        apply UInt8.toNat_inj.1
        rw [UInt8.toNat_sub_of_le _ _ (UInt8.le_iff_toNat_le.2 (by rw [hadd, show (0x50 : UInt8).toNat = 80 from rfl]; omega)), hadd,
          show (0x50 : UInt8).toNat = 80 from rfl]
        omega
      · rw [if_neg h2]

/-- Reading back any list of pieces. -/
theorem read_pieces (m : Bool) (is : List Instr) (hb : ∀ i ∈ is, Buildable i)
    (hm : m = true → ∀ i ∈ is, MinEnc (pieceNoOpt i) i) :
    walk m ((is.map pieceNoOpt).flatten).length ((is.map pieceNoOpt).flatten) = is.map .ok ∧
    walkIdx m ((is.map pieceNoOpt).flatten).length ((is.map pieceNoOpt).flatten) 0 =
      (offsets 0 (is.map fun i => (pieceNoOpt i, i))).map .ok := by
  have hps : ∀ x ∈ is.map (fun i => (pieceNoOpt i, i)), Enc x.1 x.2 ∧ (m = true → MinEnc x.1 x.2) := by
    intro x hx
    obtain ⟨i, hi, rfl⟩ := List.mem_map.1 hx
    exact ⟨pieceNoOpt_enc (hb i hi), fun h => hm h i hi⟩
  have hfst : (is.map (fun i => (pieceNoOpt i, i))).map Prod.fst = is.map pieceNoOpt := by
    rw [List.map_map]; rfl
  have hw := walk_append m _ hps [] 0
  have hi := walkIdx_append m _ hps [] 0 0
  rw [hfst, List.append_nil] at hw hi
  rw [walk_nil, List.append_nil] at hw
  rw [walkIdx_nil, List.append_nil] at hi
  have hlen : is.length ≤ ((is.map pieceNoOpt).flatten).length := by
    clear hw hi hfst hps hm
    induction is with
    | nil => simp
    | cons x qs ih =>
      have h1 := (pieceNoOpt_enc (hb x (by simp))).length_pos
      have h2 := ih (fun y hy => hb y (by simp [hy]))
      simp only [List.map_cons, List.flatten_cons, List.length_append, List.length_cons]
      omega
  have hi2 := walkIdx_append m _ hps [] (((is.map pieceNoOpt).flatten).length - is.length) 0
  rw [hfst, List.append_nil, walkIdx_nil, List.append_nil, List.length_map,
    show is.length + (((is.map pieceNoOpt).flatten).length - is.length) = ((is.map pieceNoOpt).flatten).length by omega] at hi2
  have hw2 := walk_append m _ hps [] (((is.map pieceNoOpt).flatten).length - is.length)
  rw [hfst, List.append_nil, walk_nil, List.append_nil, List.length_map,
    show is.length + (((is.map pieceNoOpt).flatten).length - is.length) = ((is.map pieceNoOpt).flatten).length by omega] at hw2
  refine ⟨?_, hi2⟩
  rw [hw2, List.map_map]; rfl

/-- **C31 (builder, plain pushes).** Appending any list of opcodes and data with `push_opcode` and
`push_slice_no_opt` gives a script whose instructions are that list, each at the offset where it was appended. -/
theorem C31_no_opt (is : List Instr) (hb : ∀ i ∈ is, Buildable i) :
    instructions (is.foldl pushInstrNoOpt []) = is.map .ok ∧
    ∃ ps : List (Bytes × Instr), ps.map Prod.snd = is ∧ (∀ x ∈ ps, pushInstrNoOpt [] x.2 = x.1) ∧
      is.foldl pushInstrNoOpt [] = (ps.map Prod.fst).flatten ∧
      instructionIndices (is.foldl pushInstrNoOpt []) = (offsets 0 ps).map .ok := by
  rw [foldl_noOpt, List.nil_append]
  have h := read_pieces false is hb (by simp)
  refine ⟨h.1, is.map (fun i => (pieceNoOpt i, i)), ?_, ?_, ?_, h.2⟩
  · rw [List.map_map]; exact List.map_id _
  · intro x hx
    obtain ⟨i, _, rfl⟩ := List.mem_map.1 hx
    rw [pushInstrNoOpt_eq]; rfl
  · rw [List.map_map]; rfl

/-- **C31 (builder).** The same for `push_slice`, which turns the one-byte numbers -1 and 1..16 into number opcodes:
what each instruction leaves on the stack is what was asked for, and everything else is unchanged. -/
theorem C31_push_slice (is : List Instr) (hb : ∀ i ∈ is, Buildable i) :
    instructions (is.foldl pushInstr []) = (is.map norm).map .ok ∧
    (∀ i ∈ is, pushed (norm i) = pushed i) ∧
    (∀ i ∈ is, norm i ≠ i → ∃ b, i = .push [b] ∧ (b = 0x81 ∨ (1 ≤ b.toNat ∧ b.toNat ≤ 16))) ∧
    ∃ ps : List (Bytes × Instr), ps.map Prod.snd = is.map norm ∧
      is.foldl pushInstr [] = (ps.map Prod.fst).flatten ∧ ps.map Prod.fst = is.map (pushInstr []) ∧
      instructionIndices (is.foldl pushInstr []) = (offsets 0 ps).map .ok := by
  rw [foldl_opt, List.nil_append]
  have hb' : ∀ i ∈ is.map norm, Buildable i := by
    intro x hx
    obtain ⟨i, hi, rfl⟩ := List.mem_map.1 hx
    exact norm_buildable (hb i hi)
  have h := read_pieces false (is.map norm) hb' (by simp)
  refine ⟨h.1, fun i hi => norm_pushed i (hb i hi), ?_, (is.map norm).map (fun i => (pieceNoOpt i, i)), ?_, ?_, ?_, h.2⟩
  · intro i _ hn
    cases i with
    | op o => exact absurd rfl hn
    | push d =>
      cases d with
      | nil => exact absurd rfl hn
      | cons b tl =>
        cases tl with
        | cons c tl => exact absurd rfl hn
        | nil =>
          refine ⟨b, rfl, ?_⟩
          by_cases h1 : b = 0x81
          · exact .inl h1
          · by_cases h2 : 1 ≤ b.toNat ∧ b.toNat ≤ 16
            · exact .inr h2
            · exact absurd (by rw [norm_one, if_neg h1, if_neg h2]) hn
  · rw [List.map_map]; exact List.map_id _
  · simp only [List.map_map]; rfl
  · simp only [List.map_map]
    apply List.map_congr_left
    intro i _
    simp only [Function.comp_apply, pushInstr_eq, List.nil_append]

/-- `Extend<Instruction>` for an honest `size_hint`: same stack effect; with an upper bound below 6 the pushes are
kept as they are. -/
theorem C31_extend (hint : Option Nat) (is : List Instr) (hh : ∀ m, hint = some m → is.length ≤ m)
    (hb : ∀ i ∈ is, Buildable i) :
    ∃ s, extendInstrs [] hint is = some s ∧
      (instructions s = is.map .ok ∨ instructions s = (is.map norm).map .ok) ∧
      ∃ js : List Instr, instructions s = js.map .ok ∧ js.map pushed = is.map pushed := by
  have h1 := (C31_no_opt is hb).1
  have h2 := C31_push_slice is hb
  have e2 : (is.map norm).map pushed = is.map pushed := by
    rw [List.map_map]
    exact List.map_congr_left (fun i hi => h2.2.1 i hi)
  unfold extendInstrs
  cases hint with
  | none => exact ⟨_, rfl, .inr h2.1, _, h2.1, e2⟩
  | some m =>
    simp only []
    by_cases hm : m < 6
    · rw [if_pos hm]
      have hl := hh m rfl
      have hd : (is.drop 5).isEmpty = true := by
        rw [List.drop_eq_nil_iff.2 (by omega)]; rfl
      rw [if_pos hd, List.take_of_length_le (by omega)]
      exact ⟨_, rfl, .inl h1, _, h1, rfl⟩
    · rw [if_neg hm]
      exact ⟨_, rfl, .inr h2.1, _, h2.1, e2⟩

/-- Finding: `extend` depends on the iterator's `size_hint`: the same instructions give different scripts. -/
theorem C31_extend_depends_on_hint : ∃ is : List Instr, ∃ s t, s ≠ t ∧
    extendInstrs [] (some 1) is = some s ∧ extendInstrs [] none is = some t :=
  ⟨[.push [5]], [1, 5], [0x55], by decide, by decide, by decide⟩

/-! ### C32 -/

/-- The byte strings that put `v` on the stack in one instruction. -/
def Pushes (p v : Bytes) : Prop := ∃ i, Enc p i ∧ pushed i = some v

theorem enc_push_length {p d : Bytes} (h : Enc p (.push d)) :
    (p.length = d.length + 1 ∧ d.length ≤ 75 ∧ p = UInt8.ofNat d.length :: d) ∨
    (p.length = d.length + 2 ∧ d.length < 256 ∧ p = 0x4c :: (leBytes 1 d.length ++ d)) ∨
    (p.length = d.length + 3 ∧ d.length < 65536 ∧ p = 0x4d :: (leBytes 2 d.length ++ d)) ∨
    (p.length = d.length + 5 ∧ p = 0x4e :: (leBytes 4 d.length ++ d)) := by
  cases h with
  | direct _ h => exact .inl ⟨by simp, h, rfl⟩
  | pushdata1 _ h => exact .inr (.inl ⟨by simp; omega, h, rfl⟩)
  | pushdata2 _ h => exact .inr (.inr (.inl ⟨by simp; omega, by omega, rfl⟩))
  | pushdata4 _ h => exact .inr (.inr (.inr ⟨by simp; omega, rfl⟩))

theorem enc_length_lt {p d : Bytes} (h : Enc p (.push d)) : d.length < 2 ^ 32 := by
  cases h <;> omega

theorem header_length (n : Nat) :
    (pushHeader n).length = if n < 76 then 1 else if n < 256 then 2 else if n < 65536 then 3 else 5 := by
  rw [pushHeader_eq]
  by_cases h1 : n < 76
  · rw [if_pos h1, if_pos h1]; rfl
  · rw [if_neg h1, if_neg h1]
    by_cases h2 : n < 256
    · rw [if_pos h2, if_pos h2]; rfl
    · rw [if_neg h2, if_neg h2]
      by_cases h3 : n < 65536
      · rw [if_pos h3, if_pos h3]; rfl
      · rw [if_neg h3, if_neg h3]; rfl

/-- The iterator's notion of minimality is "no shorter way to push the same data". -/
theorem minEnc_iff {p d : Bytes} (h : Enc p (.push d)) :
    MinEnc p (.push d) ↔ ∀ q, Pushes q d → p.length ≤ q.length := by
  have hlt := enc_length_lt h
  have henc := enc_header d hlt
  constructor
  · rintro ⟨hp, hs⟩ q ⟨i, hq, hi⟩
    have hpl : p.length = (pushHeader d.length).length + d.length := by rw [hp, List.length_append]
    rw [header_length] at hpl
    cases i with
    | push d' =>
      have : d' = d := Option.some.inj hi
      subst this
      rcases enc_push_length hq with ⟨e, h1, _⟩ | ⟨e, h1, _⟩ | ⟨e, h1, _⟩ | ⟨e, _⟩
      all_goals (repeat' split at hpl) <;> omega
    | op o =>
      exfalso
      unfold pushed at hi
      simp only [] at hi
      by_cases h1 : o = 0x4f
      · rw [if_pos h1] at hi
        exact hs ⟨0x81, (Option.some.inj hi).symm, .inl rfl⟩
      · rw [if_neg h1] at hi
        by_cases h2 : 0x51 ≤ o.toNat ∧ o.toNat ≤ 0x60
        · rw [if_pos h2] at hi
          refine hs ⟨o - 0x50, (Option.some.inj hi).symm, .inr ?_⟩
          have h50 : (0x50 : UInt8).toNat = 80 := rfl
          rw [UInt8.toNat_sub_of_le _ _ (UInt8.le_iff_toNat_le.2 (by rw [h50]; omega)), h50]
          omega
        · rw [if_neg h2] at hi; cases hi
  · intro hmin
    have hspec : ¬ ∃ x, d = [x] ∧ (x = 0x81 ∨ (0 < x.toNat ∧ x.toNat ≤ 16)) := by
      rintro ⟨x, rfl, hx⟩
      have hp2 : 2 ≤ p.length := by
        rcases enc_push_length h with ⟨e, _⟩ | ⟨e, _⟩ | ⟨e, _⟩ | ⟨e, _⟩ <;> simp at e <;> omega
      rcases hx with rfl | hx
      · have := hmin [0x4f] ⟨.op 0x4f, .op _ (by decide), rfl⟩
        simp at this; omega
      · have hb : (x + 0x50).toNat = x.toNat + 80 := by
          rw [UInt8.toNat_add, show (0x50 : UInt8).toNat = 80 from rfl]; omega
        have hn := norm_pushed (.push [x]) (show 1 < 2 ^ 32 by decide)
        have hne : x ≠ 0x81 := by rintro rfl; revert hx; decide
        have : norm (.push [x]) = .op (x + 0x50) := by
          rw [norm_one, if_neg hne, if_pos (by omega)]
        rw [this] at hn
        have := hmin [x + 0x50] ⟨.op (x + 0x50), .op _ (by omega), hn⟩
        simp at this; omega
    refine ⟨?_, hspec⟩
    have hle := hmin _ ⟨_, henc, rfl⟩
    rw [List.length_append, header_length] at hle
    rw [pushHeader_eq]
    rcases enc_push_length h with ⟨e, h1, ep⟩ | ⟨e, h1, ep⟩ | ⟨e, h1, ep⟩ | ⟨e, ep⟩
    · rw [if_pos (by omega), ep]; rfl
    · have h2 : ¬ d.length < 76 := fun c => by rw [if_pos c] at hle; omega
      rw [if_neg h2, if_pos h1, ep]
      simp only [leBytes, List.cons_append, List.nil_append]
      rw [Nat.mod_eq_of_lt h1]
    · have h2 : ¬ d.length < 76 := fun c => by rw [if_pos c] at hle; omega
      rw [if_neg h2] at hle
      have h3 : ¬ d.length < 256 := fun c => by rw [if_pos c] at hle; omega
      rw [if_neg h2, if_neg h3, if_pos h1, ep]
      simp only [leBytes, List.cons_append, List.nil_append]
      rw [Nat.mod_eq_of_lt (show d.length / 256 < 256 by omega)]
    · have h2 : ¬ d.length < 76 := fun c => by rw [if_pos c] at hle; omega
      rw [if_neg h2] at hle
      have h3 : ¬ d.length < 256 := fun c => by rw [if_pos c] at hle; omega
      rw [if_neg h3] at hle
      have h4 : ¬ d.length < 65536 := fun c => by rw [if_pos c] at hle; omega
      rw [if_neg h2, if_neg h3, if_neg h4, ep]
      simp only [leBytes, List.cons_append, List.nil_append]
      have e1 : d.length / 256 / 256 % 256 = d.length / 65536 % 256 := by omega
      have e2 : d.length / 256 / 256 / 256 % 256 = d.length / 16777216 := by omega
      rw [e1, e2]

/-- **C32 (exact).** At any point of a script where a data push starts, the minimal iterator accepts it exactly when
there is no shorter instruction that pushes the same data, and otherwise reports a non-minimal push and stops. -/
theorem C32_exact (p d rest : Bytes) (h : Enc p (.push d)) :
    ((∀ q, Pushes q d → p.length ≤ q.length) ∧ next true (p ++ rest) = some (.ok (.push d), rest)) ∨
    ((∃ q, Pushes q d ∧ q.length < p.length) ∧ next true (p ++ rest) = some (.error .nonMinimalPush, [])) := by
  rcases next_cases true (p ++ rest) (by simp [h.ne_nil]) with ⟨q, j, t, e, hq, hm, hn⟩ | ⟨_, hn, hno⟩ | ⟨_, hno⟩
  · obtain ⟨e1, e2, e3⟩ := enc_unique h hq e
    subst e1 e2 e3
    exact .inl ⟨(minEnc_iff h).1 (hm rfl), hn⟩
  · have hnm := hno p _ rest rfl h
    rw [minEnc_iff h] at hnm
    refine .inr ⟨?_, hn⟩
    false_or_by_contra
    rename_i hc
    exact hnm (fun q hq => Nat.le_of_not_lt (fun hlt => hc ⟨q, hq, hlt⟩))
  · exact absurd h (hno p _ rest rfl)

/-- **C32 (whole scripts).** The minimal iterator yields what the plain one yields, exactly when every data push in
the script is the shortest one; non-push opcodes are never rejected. -/
theorem C32_agree (ps : List (Bytes × Instr)) (hp : ∀ x ∈ ps, Enc x.1 x.2) :
    instructionsMinimal (ps.map Prod.fst).flatten = instructions (ps.map Prod.fst).flatten ↔
      ∀ x ∈ ps, ∀ d, x.2 = .push d → ∀ q, Pushes q d → x.1.length ≤ q.length := by
  have hlen : ∀ qs : List (Bytes × Instr), (∀ x ∈ qs, Enc x.1 x.2) → qs.length ≤ ((qs.map Prod.fst).flatten).length := by
    intro qs
    induction qs with
    | nil => simp
    | cons x qs ih =>
      intro h
      have h1 := (h x (by simp)).length_pos
      have h2 := ih (fun y hy => h y (by simp [hy]))
      simp only [List.map_cons, List.flatten_cons, List.length_append, List.length_cons]
      omega
  have wplain : ∀ qs : List (Bytes × Instr), (∀ x ∈ qs, Enc x.1 x.2) →
      instructions (qs.map Prod.fst).flatten = qs.map (fun x => .ok x.2) := by
    intro qs hq
    have hw := walk_append false qs (fun x hx => ⟨hq x hx, by simp⟩) []
      (((qs.map Prod.fst).flatten).length - qs.length)
    rw [List.append_nil, walk_nil, List.append_nil,
      show qs.length + (((qs.map Prod.fst).flatten).length - qs.length) = ((qs.map Prod.fst).flatten).length by
        have := hlen qs hq; omega] at hw
    exact hw
  rw [wplain ps hp]
  constructor
  · intro h x hx d hd
    rw [← minEnc_iff (by have := hp x hx; rwa [hd] at this)]
    obtain ⟨qs, rest, es, hqs, hend⟩ := C33_tiles true (ps.map Prod.fst).flatten
    rcases hend with ⟨hr, hw⟩ | ⟨e, _, hw⟩
    · rw [hr, List.append_nil] at es
      -- two tilings of the same bytes are equal
      have uniq : ∀ (as bs : List (Bytes × Instr)), (∀ x ∈ as, Enc x.1 x.2) → (∀ x ∈ bs, Enc x.1 x.2) →
          (as.map Prod.fst).flatten = (bs.map Prod.fst).flatten → as = bs := by
        intro as
        induction as with
        | nil =>
          intro bs _ hb e
          cases bs with
          | nil => rfl
          | cons b bs =>
            exact absurd (List.append_eq_nil_iff.1 e.symm).1 (hb b (by simp)).ne_nil
        | cons a as ih =>
          intro bs ha hb e
          cases bs with
          | nil =>
            exact absurd (List.append_eq_nil_iff.1 e).1 (ha a (by simp)).ne_nil
          | cons b bs =>
            simp only [List.map_cons, List.flatten_cons] at e
            obtain ⟨e1, e2, e3⟩ := enc_unique (ha a (by simp)) (hb b (by simp)) e
            rw [ih bs (fun y hy => ha y (by simp [hy])) (fun y hy => hb y (by simp [hy])) e3, Prod.ext e1 e2]
      have := uniq ps qs hp (fun y hy => (hqs y hy).1) es
      subst this
      have := (hqs x hx).2 rfl
      rwa [hd] at this
    · exfalso
      have h' : walk true ((ps.map Prod.fst).flatten).length (ps.map Prod.fst).flatten = ps.map (fun x => .ok x.2) := h
      rw [h'] at hw
      have : (Except.error e : Except ScrErr Instr) ∈ ps.map (fun x => (.ok x.2 : Except ScrErr Instr)) := by
        rw [hw]; simp
      obtain ⟨y, _, hy⟩ := List.mem_map.1 this
      cases hy
  · intro h
    have hall : ∀ x ∈ ps, Enc x.1 x.2 ∧ (true = true → MinEnc x.1 x.2) := by
      intro x hx
      refine ⟨hp x hx, fun _ => ?_⟩
      have he := hp x hx
      have hs := h x hx
      revert he hs
      obtain ⟨p, i⟩ := x
      cases i with
      | op o => intro _ _; trivial
      | push d => intro he hs; exact (minEnc_iff he).2 (hs d rfl)
    have hw := walk_append true ps hall [] (((ps.map Prod.fst).flatten).length - ps.length)
    rw [List.append_nil, walk_nil, List.append_nil,
      show ps.length + (((ps.map Prod.fst).flatten).length - ps.length) = ((ps.map Prod.fst).flatten).length by
        have := hlen ps hp; omega] at hw
    exact hw

/-- **C32 (builder is minimal).** A script built with `push_slice` and `push_opcode` passes the minimal iterator. -/
theorem C32_builder (is : List Instr) (hb : ∀ i ∈ is, Buildable i) :
    instructionsMinimal (is.foldl pushInstr []) = instructions (is.foldl pushInstr []) ∧
    instructionsMinimal (is.foldl pushInstr []) = (is.map norm).map .ok := by
  rw [(C31_push_slice is hb).1, foldl_opt, List.nil_append]
  have hb' : ∀ i ∈ is.map norm, Buildable i := by
    intro x hx
    obtain ⟨i, hi, rfl⟩ := List.mem_map.1 hx
    exact norm_buildable (hb i hi)
  have h := (read_pieces true (is.map norm) hb' (fun _ i hi => by
    obtain ⟨j, _, rfl⟩ := List.mem_map.1 hi
    cases hj : norm j with
    | op o => trivial
    | push d =>
      refine ⟨rfl, ?_⟩
      rintro ⟨x, rfl, hx⟩
      -- a one-byte push survives `norm` only if it is not one of the special bytes
      cases j with
      | op o => cases hj
      | push e =>
        cases e with
        | nil => cases hj
        | cons b tl =>
          cases tl with
          | cons c tl => cases hj
          | nil =>
            unfold norm at hj
            simp only [] at hj
            by_cases h1 : b = 0x81
            · rw [if_pos h1] at hj; cases hj
            · rw [if_neg h1] at hj
              by_cases h2 : 1 ≤ b.toNat ∧ b.toNat ≤ 16
              · rw [if_pos h2] at hj; cases hj
              · rw [if_neg h2] at hj
                cases hj
                rcases hx with hx | hx
                · exact h1 hx
                · exact h2 (by omega))).1
  exact ⟨h, h⟩

/-! ### Examples -/

example : instructions [0x76, 0xa9, 2, 0xAA, 0xBB, 0x88] =
    [.ok (.op 0x76), .ok (.op 0xa9), .ok (.push [0xAA, 0xBB]), .ok (.op 0x88)] := by rfl
example : instructionIndices [0x76, 0xa9, 2, 0xAA, 0xBB, 0x88] =
    [.ok (0, .op 0x76), .ok (1, .op 0xa9), .ok (2, .push [0xAA, 0xBB]), .ok (5, .op 0x88)] := by rfl
-- a truncated push ends the iteration with one error
example : instructions [0x51, 0x4c, 5, 1, 2] = [.ok (.op 0x51), .error .earlyEndOfScript] := by rfl
example : instructionsMinimal [0x51, 0x4c, 2, 1, 2, 0x52] = [.ok (.op 0x51), .error .nonMinimalPush] := by rfl
example : Enc [0x4c, 2, 1, 2] (.push [1, 2]) ∧ ∃ q, Pushes q [1, 2] ∧ q.length < 4 :=
  ⟨.pushdata1 [1, 2] (by decide), [2, 1, 2], ⟨.push [1, 2], .direct [1, 2] (by decide), rfl⟩, by decide⟩
example : ∀ i ∈ [Instr.op 0x76, .push [7], .push [0xFF, 0], .push []], Buildable i := by
  intro i hi
  simp only [List.mem_cons, List.not_mem_nil, or_false] at hi
  rcases hi with rfl | rfl | rfl | rfl <;> simp [Buildable]
example : [Instr.op 0x76, .push [7], .push [0xFF, 0], .push []].foldl pushInstr [] = [0x76, 0x57, 2, 0xFF, 0, 0] := by rfl

end Scr
end Btc
