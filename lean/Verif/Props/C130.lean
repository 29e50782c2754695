import Verif.Props.C129
/-!
# C130: what the builder appends does, when evaluated, what the builder's methods say

The rules of evaluation are those of C128 and C129.
-/
namespace Btc
namespace Scr
namespace Core

/-! ## The library and the consensus rules read the same opcodes -/

/-- The data of an instruction. -/
def dataOf : Instr → Bytes
  | .push d => d
  | .op _ => []

theorem cut_of (b : UInt8) (k : Nat) (d t : Bytes) (h : d.length < 256 ^ k) :
    (if k + leNat ((leBytes k d.length ++ d ++ t).take k) ≤ (leBytes k d.length ++ d ++ t).length then
      some (b, ((leBytes k d.length ++ d ++ t).drop k).take (leNat ((leBytes k d.length ++ d ++ t).take k)),
        (leBytes k d.length ++ d ++ t).drop (k + leNat ((leBytes k d.length ++ d ++ t).take k)))
    else none) = some (b, d, t) := by
  have e1 : (leBytes k d.length ++ d ++ t).take k = leBytes k d.length := by rw [List.append_assoc]; exact List.take_left' (leBytes_length _ _)
  have e2 : (leBytes k d.length ++ d ++ t).drop k = d ++ t := by rw [List.append_assoc]; exact List.drop_left' (leBytes_length _ _)
  rw [e1, leNat_leBytes k _ h, if_pos (by simp), ← List.drop_drop, e2, List.take_left' rfl, List.drop_left' rfl]

theorem getOp_4c (r : Bytes) : getOp (0x4c :: r) =
    if 1 + leNat (r.take 1) ≤ r.length then some (0x4c, (r.drop 1).take (leNat (r.take 1)), r.drop (1 + leNat (r.take 1))) else none := by
  unfold getOp
  simp only [show ¬ (0x4c : UInt8) < 0x4c by decide, show ¬ (0x4d : UInt8) = 0x4c by decide, show ¬ (0x4e : UInt8) = 0x4c by decide,
    show ¬ (0x4e : UInt8) = 0x4d by decide, if_false, if_true]

theorem getOp_4d (r : Bytes) : getOp (0x4d :: r) =
    if 2 + leNat (r.take 2) ≤ r.length then some (0x4d, (r.drop 2).take (leNat (r.take 2)), r.drop (2 + leNat (r.take 2))) else none := by
  unfold getOp
  simp only [show ¬ (0x4d : UInt8) < 0x4c by decide, show ¬ (0x4d : UInt8) = 0x4c by decide, show ¬ (0x4e : UInt8) = 0x4c by decide,
    show ¬ (0x4e : UInt8) = 0x4d by decide, if_false, if_true]

theorem getOp_4e (r : Bytes) : getOp (0x4e :: r) =
    if 4 + leNat (r.take 4) ≤ r.length then some (0x4e, (r.drop 4).take (leNat (r.take 4)), r.drop (4 + leNat (r.take 4))) else none := by
  unfold getOp
  simp only [show ¬ (0x4e : UInt8) < 0x4c by decide, show ¬ (0x4d : UInt8) = 0x4c by decide, show ¬ (0x4e : UInt8) = 0x4c by decide,
    show ¬ (0x4e : UInt8) = 0x4d by decide, if_false, if_true]

theorem enc_getOp {p : Bytes} {i : Instr} (h : Enc p i) (t : Bytes) : getOp (p ++ t) = some (p.headD 0, dataOf i, t) := by
  cases h with
  | direct d h =>
    have hn : (UInt8.ofNat d.length).toNat = d.length := UInt8.toNat_ofNat_of_lt' (by show d.length < 256; omega)
    show getOp (UInt8.ofNat d.length :: (d ++ t)) = _
    unfold getOp
    simp only []
    rw [if_pos (UInt8.lt_iff_toNat_lt.2 (by rw [hn]; show d.length < 76; omega)), hn, if_pos (by simp)]
    simp [dataOf]
  | pushdata1 d h =>
    show getOp (0x4c :: (leBytes 1 d.length ++ d ++ t)) = _
    rw [getOp_4c]
    exact cut_of 0x4c 1 d t h
  | pushdata2 d h =>
    show getOp (0x4d :: (leBytes 2 d.length ++ d ++ t)) = _
    rw [getOp_4d]
    exact cut_of 0x4d 2 d t h
  | pushdata4 d h =>
    show getOp (0x4e :: (leBytes 4 d.length ++ d ++ t)) = _
    rw [getOp_4e]
    exact cut_of 0x4e 4 d t h
  | op o h =>
    show getOp (o :: t) = _
    unfold getOp
    simp only []
    rw [if_neg, if_neg, if_neg, if_neg]
    · rfl
    · rintro rfl; exact absurd h (by decide)
    · rintro rfl; exact absurd h (by decide)
    · rintro rfl; exact absurd h (by decide)
    · intro hlt
      have := UInt8.lt_iff_toNat_lt.1 hlt
      have e : (0x4c : UInt8).toNat = 0x4c := rfl
      omega

theorem leBytes_leNat_take (k : Nat) (r : Bytes) (h : k ≤ r.length) : leBytes k (leNat (r.take k)) = r.take k := by
  have := leBytes_leNat (r.take k)
  rwa [List.length_take, Nat.min_eq_left h] at this

theorem above : ∀ op : UInt8, ¬ op < 0x4c → ¬ op = 0x4c → ¬ op = 0x4d → ¬ op = 0x4e → 78 < op.toNat := by
  set_option maxRecDepth 8000 in exact forall_u8 (by decide +kernel)

/-- Whatever the rules read as an opcode is an instruction for the library. -/
theorem getOp_enc {s : Bytes} {op : UInt8} {d t : Bytes} (h : getOp s = some (op, d, t)) : ∃ p i, s = p ++ t ∧ Enc p i ∧ p.headD 0 = op ∧ dataOf i = d := by
  cases s with
  | nil => cases h
  | cons b r =>
    unfold getOp at h
    simp only [] at h
    have cut : ∀ k, (if k + leNat (r.take k) ≤ r.length then some (b, (r.drop k).take (leNat (r.take k)), r.drop (k + leNat (r.take k))) else none) =
        some (op, d, t) → b = op ∧ r = leBytes k d.length ++ d ++ t ∧ d.length < 256 ^ k := by
      intro k h
      split at h
      · rename_i hl
        cases h
        have hk : ((r.drop k).take (leNat (r.take k))).length = leNat (r.take k) := by
          rw [List.length_take, List.length_drop]; omega
        refine ⟨rfl, ?_, ?_⟩
        · rw [hk, leBytes_leNat_take k r (by omega), List.append_assoc, ← List.drop_drop, List.take_append_drop, List.take_append_drop]
        · rw [hk]
          have := leNat_lt (r.take k)
          rwa [List.length_take, Nat.min_eq_left (by omega)] at this
      · cases h
    split at h
    · rename_i hb
      have hb := UInt8.lt_iff_toNat_lt.1 hb
      have e : (0x4c : UInt8).toNat = 0x4c := rfl
      split at h
      · rename_i hl
        cases h
        have hk : ((r.drop 0).take op.toNat).length = op.toNat := by
          rw [List.length_take, List.length_drop]; omega
        refine ⟨op :: (r.drop 0).take op.toNat, .push ((r.drop 0).take op.toNat), ?_, ?_, rfl, rfl⟩
        · simp
        · have := Enc.direct ((r.drop 0).take op.toNat) (by omega)
          rw [hk] at this
          simpa using this
      · cases h
    · split at h
      · rename_i hb
        obtain ⟨rfl, e2, e3⟩ := cut 1 h
        subst hb
        exact ⟨0x4c :: (leBytes 1 d.length ++ d), .push d, by rw [e2]; simp, .pushdata1 d e3, rfl, rfl⟩
      · split at h
        · rename_i hb
          obtain ⟨rfl, e2, e3⟩ := cut 2 h
          subst hb
          exact ⟨0x4d :: (leBytes 2 d.length ++ d), .push d, by rw [e2]; simp, .pushdata2 d e3, rfl, rfl⟩
        · split at h
          · rename_i hb
            obtain ⟨rfl, e2, e3⟩ := cut 4 h
            subst hb
            exact ⟨0x4e :: (leBytes 4 d.length ++ d), .push d, by rw [e2]; simp, .pushdata4 d e3, rfl, rfl⟩
          · rename_i h1 h2 h3 h4
            cases h
            refine ⟨[op], .op op, rfl, .op op ?_, rfl, rfl⟩
            exact above op h1 h2 h3 h4

/-- The opcode and data of a piece. -/
def opOf (x : Bytes × Instr) : UInt8 × Bytes := (x.1.headD 0, dataOf x.2)

theorem ops_tiles (t : Bytes) : ∀ ps : List (Bytes × Instr), (∀ x ∈ ps, Enc x.1 x.2) →
    ops ((ps.map Prod.fst).flatten ++ t) = (ps.map opOf ++ (ops t).1, (ops t).2)
  | [], _ => rfl
  | (p, i) :: ps, h => by
    have he := h (p, i) (List.mem_cons_self ..)
    simp only [] at he
    rw [List.map_cons, List.flatten_cons, List.append_assoc]
    have hg := enc_getOp he ((ps.map Prod.fst).flatten ++ t)
    cases p with
    | nil => exact absurd rfl he.ne_nil
    | cons b q =>
      rw [List.cons_append] at hg ⊢
      rw [ops_cons hg, ops_tiles t ps (fun x hx => h x (List.mem_cons_of_mem _ hx))]
      rfl

theorem ops_stuck {rest : Bytes} (h0 : rest ≠ []) (h : ∀ p i t, rest = p ++ t → ¬ Enc p i) : ops rest = ([], false) := by
  cases hg : getOp rest with
  | some r =>
    obtain ⟨op, d, t⟩ := r
    obtain ⟨p, i, e, he, -⟩ := getOp_enc hg
    exact absurd he (h p i t e)
  | none =>
    cases rest with
    | nil => exact absurd rfl h0
    | cons b r =>
      show opsIn (r.length + 1) (b :: r) = _
      rw [opsIn, hg]
      all_goals nofun

/-- An opcode with its data as an instruction: up to 0x4e they push. -/
def asInstr (o : UInt8 × Bytes) : Instr := if o.1.toNat ≤ 0x4e then .push o.2 else .op o.1

theorem asInstr_opOf {p : Bytes} {i : Instr} (h : Enc p i) : asInstr (opOf (p, i)) = i := by
  cases h with
  | direct d h =>
    have hn : (UInt8.ofNat d.length).toNat = d.length := UInt8.toNat_ofNat_of_lt' (by show d.length < 256; omega)
    exact if_pos (by show (UInt8.ofNat d.length).toNat ≤ _; omega)
  | pushdata1 d h => rfl
  | pushdata2 d h => rfl
  | pushdata4 d h => rfl
  | op o h => exact if_neg (by show ¬ o.toNat ≤ _; omega)

/-- `Script::instructions` yields exactly the opcodes and data that the consensus rules read, and an error exactly where those end in the middle of
a push. -/
theorem C130_instructions (s : Bytes) : instructions s =
    (ops s).1.map (fun o => Except.ok (asInstr o)) ++ (if (ops s).2 then [] else [Except.error ScrErr.earlyEndOfScript]) := by
  obtain ⟨ps, rest, es, hps, hend⟩ := C33_tiles false s
  have ho := ops_tiles rest ps (fun x hx => (hps x hx).1)
  rw [← es] at ho
  have hm : ps.map (fun x => (Except.ok x.2 : Except ScrErr Instr)) = (ps.map opOf).map (fun o => Except.ok (asInstr o)) := by
    rw [List.map_map]
    apply List.map_congr_left
    intro x hx
    show _ = Except.ok (asInstr (opOf (x.1, x.2)))
    rw [asInstr_opOf (hps x hx).1]
  show walk false s.length s = _
  rcases hend with ⟨hr, hw⟩ | ⟨er, hs, hw⟩
  · rw [hw, ho, hr, hm, ops_nil]
    simp
  · obtain ⟨h0, ⟨he, hn⟩ | ⟨_, hc, _⟩ | ⟨_, hc, _⟩⟩ := hs
    · rw [hw, ho, ops_stuck h0 hn, hm, he]
      simp
    · cases hc
    · cases hc

example : ops [0x76, 2, 7, 8, 0x4c, 1, 9, 0xac, 3, 1] = ([(0x76, []), (2, [7, 8]), (0x4c, [9]), (0xac, [])], false) ∧
    instructions [0x76, 2, 7, 8, 0x4c, 1, 9, 0xac, 3, 1] =
      [.ok (.op 0x76), .ok (.push [7, 8]), .ok (.push [9]), .ok (.op 0xac), .error .earlyEndOfScript] := ⟨by decide +kernel, rfl⟩

theorem ops_append {s : Bytes} (h : (ops s).2 = true) (t : Bytes) : ops (s ++ t) = ((ops s).1 ++ (ops t).1, (ops t).2) := by
  obtain ⟨ps, rest, es, hps, hend⟩ := C33_tiles false s
  have hp : ∀ x ∈ ps, Enc x.1 x.2 := fun x hx => (hps x hx).1
  have ho := ops_tiles rest ps hp
  rw [← es] at ho
  have hr : rest = [] := by
    rcases hend with ⟨hr, _⟩ | ⟨er, ⟨h0, ⟨_, hn⟩ | ⟨_, hc, _⟩ | ⟨_, hc, _⟩⟩, _⟩
    · exact hr
    · rw [ho, ops_stuck h0 hn] at h
      cases h
    · cases hc
    · cases hc
  subst hr
  rw [ho, es, List.append_nil, ops_tiles t ps hp, ops_nil]
  simp

/-! ## Pushing data and numbers -/

/-- Numbers from `OP_1NEGATE` to `OP_16` are pushed as their bytes. -/
def NumPush {σ : Type} (M : Machine σ) : Prop := ∀ (k : Int) (s : σ), M.num k s = M.push (numBytes k) s

theorem numPush_std (tap one : Bool) (H160 : Bytes → Arr 20) (chk : Bytes → Bytes → Bool) (other : UInt8 → List Bytes → Option (List Bytes))
    (lock : UInt8 → List Bytes → Bool) : NumPush (std tap one H160 chk other lock) := fun _ _ => rfl

/-- What an opcode does that pushes `d`. -/
def Pushes {σ : Type} (ctx : Ctx) (M : Machine σ) (d : Bytes) (o : UInt8 × Bytes) : Prop :=
  ∀ t : St σ, (ctx = .legacy → t.count ≤ 201) →
    step ctx M o t = if t.on = true then (if 520 < d.length then none else (M.push d t.s).map fun s => ⟨s, t.cond, t.count⟩)
      else if 520 < d.length then none else some t

theorem pushes_data {σ : Type} (ctx : Ctx) (M : Machine σ) (d : Bytes) (op : UInt8) (h : op.toNat ≤ 0x4e) : Pushes ctx M d (op, d) := by
  intro t hc
  have hb : bump ctx op t.count = t.count := if_neg (by omega)
  have hdis : op ∉ disabled := by
    intro hd
    have : ∀ d ∈ disabled, 0x4f ≤ d.toNat := by decide
    have := this op hd
    omega
  have hcnt : ¬ (ctx = .legacy ∧ 201 < t.count) := fun e => by have := hc e.1; omega
  unfold step
  simp only [hb]
  by_cases hl : 520 < d.length
  · simp [hl]
  · rw [if_neg hl, if_neg hcnt, if_neg hdis]
    by_cases ht : t.on = true
    · rw [if_pos ⟨ht, h⟩, if_pos ht, if_neg hl]
    · rw [if_neg (fun e => ht e.1), if_neg (by rintro (e | e); exact ht e; omega), if_neg ht, if_neg hl]

theorem pushes_num {σ : Type} (ctx : Ctx) (M : Machine σ) (hM : NumPush M) (k : Int) (op : UInt8) (ha : act ctx op = .num k) (h1 : 0x4f ≤ op.toNat)
    (h2 : op.toNat ≤ 0x60) : Pushes ctx M (numBytes k) (op, []) := by
  intro t hc
  have hb : bump ctx op t.count = t.count := if_neg (by omega)
  have hdis : op ∉ disabled := by
    intro hd
    have : ∀ d ∈ disabled, 0x61 ≤ d.toNat := by decide
    have := this op hd
    omega
  have hcnt : ¬ (ctx = .legacy ∧ 201 < t.count) := fun e => by have := hc e.1; omega
  have hl : ¬ 520 < (numBytes k).length := by unfold numBytes; split <;> simp
  have h0 : ¬ 520 < ([] : Bytes).length := by simp
  unfold step
  simp only [hb, ha, hM]
  rw [if_neg h0, if_neg hcnt, if_neg hdis]
  by_cases ht : t.on = true
  · rw [if_neg (by omega), if_pos (Or.inl ht), if_pos ht, if_neg hl, ← hM]
  · rw [if_neg (fun e => ht e.1), if_neg (by rintro (e | e); exact ht e; omega), if_neg ht, if_neg hl]

/-- `push_slice` appends one opcode, and that pushes exactly the data (if they have at most 520 bytes; otherwise the script fails), or is passed over
where it is not executed. -/
theorem C130_push_slice {σ : Type} (ctx : Ctx) (M : Machine σ) (hM : NumPush M) (s : Bytes) (hs : (ops s).2 = true) (d : Bytes) (hd : d.length < 2 ^ 32) :
    ∃ o, (∀ t, ops (pushSlice s d ++ t) = ((ops s).1 ++ o :: (ops t).1, (ops t).2)) ∧ Pushes ctx M d o := by
  have noOpt : ∃ o, (∀ t, ops (pushSliceNonMinimal s d ++ t) = ((ops s).1 ++ o :: (ops t).1, (ops t).2)) ∧ Pushes ctx M d o := by
    have he := enc_header d hd
    refine ⟨opOf (pushHeader d.length ++ d, .push d), fun t => ?_, ?_⟩
    · unfold pushSliceNonMinimal pushSliceNoOpt
      rw [List.append_assoc, List.append_assoc, ops_append hs]
      have := ops_tiles t [(pushHeader d.length ++ d, .push d)] (by intro x hx; rw [List.mem_singleton] at hx; rw [hx]; exact he)
      simp only [List.map_cons, List.map_nil, List.flatten_cons, List.flatten_nil, List.append_nil] at this
      rw [← List.append_assoc, this]
      rfl
    · have h1 := asInstr_opOf he
      unfold asInstr at h1
      split at h1
      · rename_i hle
        exact pushes_data ctx M d _ hle
      · cases h1
  have oneOp : ∀ op : UInt8, 0x4e < op.toNat → ∀ t, ops (pushOpcode s op ++ t) = ((ops s).1 ++ (op, []) :: (ops t).1, (ops t).2) := by
    intro op h t
    unfold pushOpcode
    rw [List.append_assoc, ops_append hs]
    show ((ops s).1 ++ (ops (op :: t)).1, (ops (op :: t)).2) = _
    rw [ops_op t h]
  match d, hd, noOpt with
  | [], _, noOpt => exact noOpt
  | b :: c :: ds, _, noOpt => exact noOpt
  | [b], _, noOpt =>
    unfold pushSlice
    simp only []
    split
    · rename_i hb
      subst hb
      exact ⟨(OP_1NEGATE, []), oneOp _ (by decide), pushes_num ctx M hM (-1) OP_1NEGATE rfl (by decide) (by decide)⟩
    · split
      · rename_i hb
        have h1 : ∀ b : UInt8, 1 ≤ b → b ≤ 16 → (b + (OP_1 - 1)).toNat = b.toNat + 0x50 ∧ 1 ≤ b.toNat ∧ b.toNat ≤ 16 := by
          set_option maxRecDepth 8000 in exact forall_u8 (by decide +kernel)
        obtain ⟨e1, e2, e3⟩ := h1 b hb.1 hb.2
        refine ⟨(b + (OP_1 - 1), []), oneOp _ (by omega), ?_⟩
        have := pushes_num ctx M hM b.toNat (b + (OP_1 - 1)) (by
          unfold act
          simp only [e1]
          rw [if_neg (by omega), if_pos (by omega)]
          congr 1) (by omega) (by omega)
        have e : numBytes b.toNat = [b] := by
          unfold numBytes
          rw [if_neg (by omega)]
          simp
        rwa [e] at this
      · exact noOpt

theorem pushSlice_plain (s w : Bytes) (h1 : numVal w ≠ -1) (h3 : ¬ (1 ≤ numVal w ∧ numVal w ≤ 16)) : pushSlice s w = pushSliceNoOpt s w := by
  have hb : ∀ b : UInt8, (b = 0x81 → numVal [b] = -1) ∧ (1 ≤ b ∧ b ≤ 16 → 1 ≤ numVal [b] ∧ numVal [b] ≤ 16) := by
    set_option maxRecDepth 8000 in exact forall_u8 (by decide +kernel)
  cases w with
  | nil => rfl
  | cons b t =>
    cases t with
    | cons c ds => rfl
    | nil =>
      have h81 : ¬ b = 0x81 := fun e => h1 ((hb b).1 e)
      have h16 : ¬ (1 ≤ b ∧ b ≤ 16) := fun e => h3 ((hb b).2 e)
      show (if b = 0x81 then _ else if 1 ≤ b ∧ b ≤ 16 then _ else _) = _
      rw [if_neg h81, if_neg h16]
      rfl

/-- `push_int_unchecked` is `push_slice` of the shortest encoding of the number. -/
theorem C130_push_int (s : Bytes) (n : Int) (h : -(2 ^ 63) < n ∧ n < 2 ^ 63) :
    ∃ d, pushIntUnchecked s n = some (pushSlice s d) ∧ numVal d = n ∧ NumMinimal d ∧ d.length ≤ 8 := by
  obtain ⟨w, hw, hv, hm⟩ := (C34_write n ⟨by omega, h.2⟩).1 (by omega)
  have hl : w.length ≤ 8 := by
    unfold writeScriptint at hw
    split at hw
    · cases hw; simp
    · simp only [] at hw
      split at hw
      · cases hw; assumption
      · cases hw
  refine ⟨w, ?_, hv, hm, hl⟩
  unfold pushIntUnchecked
  by_cases h1 : n = -1
  · rw [if_pos h1]
    subst h1
    have : writeScriptint (-1) = some [0x81] := by unfold writeScriptint; rw [writeLoop]; rfl
    rw [this] at hw
    cases hw
    rfl
  · rw [if_neg h1]
    by_cases h2 : n = 0
    · subst h2
      cases hw
      rw [if_pos rfl]
      show some (s ++ [0]) = some (s ++ [0] ++ [])
      rw [List.append_nil]
    · rw [if_neg h2]
      by_cases h3 : 1 ≤ n ∧ n ≤ 16
      · rw [if_pos h3]
        obtain ⟨k, rfl⟩ : ∃ k : Nat, n = k := ⟨n.toNat, by omega⟩
        have hk : 1 ≤ k ∧ k ≤ 16 := by omega
        have e : writeScriptint k = some [UInt8.ofNat k] := by
          have hand : ∀ k, k ≤ 16 → k &&& 0x80 = 0 ∧ k ||| 0 = k := by decide
          unfold writeScriptint
          have e : writeLoop k false = [UInt8.ofNat k] := by
            rw [writeLoop, if_neg (by omega), if_neg (by rw [(hand k hk.2).1]; simp)]
            simp
          rw [if_neg h2]
          simp only [Int.natAbs_natCast, show decide ((k : Int) < 0) = false by simp, e]
          rfl
        rw [e] at hw
        cases hw
        have hu : ∀ k, k ≤ 16 → 1 ≤ k → (UInt8.ofNat k ≠ 0x81 ∧ 1 ≤ UInt8.ofNat k ∧ UInt8.ofNat k ≤ 16) := by decide
        obtain ⟨u1, u2⟩ := hu k hk.2 hk.1
        unfold pushSlice
        simp only []
        rw [if_neg u1, if_pos u2]
        rfl
      · rw [if_neg h3]
        unfold pushIntNonMinimal
        rw [hw]
        show some (pushSliceNoOpt s w) = some (pushSlice s w)
        rw [pushSlice_plain s w (by rw [hv]; exact h1) (by rw [hv]; exact h3)]

/-- What is pushed by `push_lock_time`, `push_relative_lock_time` and `push_sequence` is the consensus number. -/
theorem C130_push_u32 (s : Bytes) (n : UInt32) : ∃ d, pushU32 s n = some (pushSlice s d) ∧ numVal d = n.toNat ∧ NumMinimal d ∧ d.length ≤ 5 := by
  have hn := n.toNat_lt
  obtain ⟨d, h1, h2, h3, -⟩ := C130_push_int s n.toNat ⟨by omega, by omega⟩
  refine ⟨d, h1, h2, h3, ?_⟩
  have hx : numVal (leBytes 5 n.toNat) = n.toNat := by
    unfold numVal
    rw [leNat_leBytes 5 _ (by omega), leBytes_length, if_pos (by omega)]
  have := h3 (leBytes 5 n.toNat) (by rw [hx, h2])
  rwa [leBytes_length] at this

example : (ops [0x76]).2 = true ∧ pushSlice [0x76] [5] = [0x76, 0x55] ∧ pushSlice [0x76] [0x81] = [0x76, 0x4f] ∧ pushSlice [0x76] [17] = [0x76, 1, 17] ∧
    ops ([0x76, 0x55] ++ [0x87]) = ([(0x76, []), (0x55, []), (0x87, [])], true) := by decide +kernel

/-! ## VERIFY forms -/

/-- The opcodes with a VERIFY form, and those. -/
def forms : List (UInt8 × UInt8) := [(0x87, 0x88), (0x9c, 0x9d), (0xac, 0xad), (0xae, 0xaf)]

/-- The stacks that can occur are closed under what the machine does, and on them each VERIFY form does what the opcode followed by `OP_VERIFY` does. -/
structure Lawful {σ : Type} (M : Machine σ) (Good : σ → Prop) : Prop where
  push : ∀ d s s', Good s → M.push d s = some s' → Good s'
  num : ∀ k s s', Good s → M.num k s = some s' → Good s'
  pop : ∀ s b s', Good s → M.popBool s = some (b, s') → Good s'
  exec : ∀ op s s', Good s → M.exec op s = some s' → Good s'
  verify : ∀ x ∈ forms, ∀ s, Good s → M.exec x.2 s = (M.exec x.1 s).bind (M.exec 0x69)

section
variable {σ : Type} {ctx : Ctx} {M : Machine σ} {Good : σ → Prop}

theorem step_good (hM : Lawful M Good) {o : UInt8 × Bytes} {t t' : St σ} (h : step ctx M o t = some t') (hg : Good t.s) : Good t'.s := by
  unfold step at h
  simp only [] at h
  split at h
  · cases h
  split at h
  · cases h
  split at h
  · cases h
  split at h
  · obtain ⟨s', e, rfl⟩ := Option.map_eq_some_iff.1 h
    exact hM.push _ _ _ hg e
  split at h
  · split at h
    · obtain ⟨s', e, rfl⟩ := Option.map_eq_some_iff.1 h
      exact hM.num _ _ _ hg e
    · cases h; exact hg
    · split at h
      · cases h; exact hg
      · cases h
    · split at h
      · obtain ⟨⟨b, s'⟩, e, rfl⟩ := Option.map_eq_some_iff.1 h
        exact hM.pop _ _ _ hg e
      · cases h; exact hg
    · split at h
      · cases h
      · cases h; exact hg
    · split at h
      · cases h
      · cases h; exact hg
    · obtain ⟨s', e, rfl⟩ := Option.map_eq_some_iff.1 h
      exact hM.exec _ _ _ hg e
    · cases h
  · cases h; exact hg

theorem run_good (hM : Lawful M Good) : ∀ {os : List (UInt8 × Bytes)} {t t' : St σ}, run ctx M os t = some t' → Good t.s → Good t'.s
  | [], _, _, h, hg => by cases h; exact hg
  | o :: os, t, t', h, hg => by
    rw [run] at h
    obtain ⟨u, h1, h2⟩ := Option.bind_eq_some_iff.1 h
    exact run_good hM h2 (step_good hM h1 hg)

/-- Equal but for the number of operations. -/
def Same (t t' : St σ) : Prop := t.s = t'.s ∧ t.cond = t'.cond

theorem bump_le (op : UInt8) (n : Nat) : n ≤ bump ctx op n ∧ bump ctx op n ≤ n + 1 := by
  unfold bump
  split <;> omega

theorem bump_mono (op : UInt8) {n m : Nat} (h : n ≤ m) : bump ctx op n ≤ bump ctx op m := by
  unfold bump
  split <;> omega

/-- A step depends on the number of operations only through the limit. -/
theorem step_count {o : UInt8 × Bytes} {t u t' : St σ} (hs : Same t u) (h : step ctx M o t = some t') (hn : ctx = .legacy → bump ctx o.1 u.count ≤ 201) :
    ∃ u', step ctx M o u = some u' ∧ Same t' u' ∧ t'.count = bump ctx o.1 t.count ∧ u'.count = bump ctx o.1 u.count := by
  obtain ⟨ts, tc, tn⟩ := t
  obtain ⟨us, uc, un⟩ := u
  obtain ⟨e1, e2⟩ := hs
  simp only [] at e1 e2 hn
  subst e1 e2
  have hon : (St.mk ts tc un).on = (St.mk ts tc tn).on := rfl
  have hcnt : ¬ (ctx = .legacy ∧ 201 < bump ctx o.1 un) := fun e => by have := hn e.1; omega
  unfold step at h ⊢
  simp only [hon] at h ⊢
  split at h
  · cases h
  rename_i h1
  rw [if_neg h1, if_neg hcnt]
  split at h
  · cases h
  split at h
  · cases h
  rename_i h3
  rw [if_neg h3]
  split at h
  · rename_i h4
    rw [if_pos h4]
    obtain ⟨s', e, rfl⟩ := Option.map_eq_some_iff.1 h
    rw [e]; exact ⟨_, rfl, ⟨rfl, rfl⟩, rfl, rfl⟩
  rename_i h4
  rw [if_neg h4]
  split at h
  · rename_i h5
    rw [if_pos h5]
    split at h
    · obtain ⟨s', e, rfl⟩ := Option.map_eq_some_iff.1 h
      rw [e]; exact ⟨_, rfl, ⟨rfl, rfl⟩, rfl, rfl⟩
    · cases h; exact ⟨_, rfl, ⟨rfl, rfl⟩, rfl, rfl⟩
    · split at h
      · rename_i hl; rw [if_pos hl]; cases h; exact ⟨_, rfl, ⟨rfl, rfl⟩, rfl, rfl⟩
      · cases h
    · split at h
      · rename_i hl
        rw [if_pos hl]
        obtain ⟨s', e, rfl⟩ := Option.map_eq_some_iff.1 h
        rw [e]; exact ⟨_, rfl, ⟨rfl, rfl⟩, rfl, rfl⟩
      · rename_i hl
        rw [if_neg hl]
        cases h; exact ⟨_, rfl, ⟨rfl, rfl⟩, rfl, rfl⟩
    · cases tc with
      | nil => cases h
      | cons c cs => cases h; exact ⟨_, rfl, ⟨rfl, rfl⟩, rfl, rfl⟩
    · cases tc with
      | nil => cases h
      | cons c cs => cases h; exact ⟨_, rfl, ⟨rfl, rfl⟩, rfl, rfl⟩
    · obtain ⟨s', e, rfl⟩ := Option.map_eq_some_iff.1 h
      rw [e]; exact ⟨_, rfl, ⟨rfl, rfl⟩, rfl, rfl⟩
    · cases h
  · rename_i h5
    rw [if_neg h5]
    cases h; exact ⟨_, rfl, ⟨rfl, rfl⟩, rfl, rfl⟩

theorem step_limit {o : UInt8 × Bytes} {t t' : St σ} (h : step ctx M o t = some t') (hc : ctx = .legacy) : bump ctx o.1 t.count ≤ 201 := by
  unfold step at h
  simp only [] at h
  split at h
  · cases h
  split at h
  · cases h
  · rename_i h2
    exact Nat.le_of_not_lt fun e => h2 ⟨hc, e⟩

/-- A run goes through also from a smaller number of operations, or from any if there are not too many opcodes. -/
theorem run_count : ∀ {os : List (UInt8 × Bytes)} {t u t' : St σ}, Same t u → run ctx M os t = some t' →
    (ctx = .legacy → u.count ≤ t.count ∨ u.count + os.length ≤ 201) → ∃ u', run ctx M os u = some u' ∧ Same t' u'
  | [], t, u, t', hs, h, _ => by cases h; exact ⟨u, rfl, hs⟩
  | o :: os, t, u, t', hs, h, hn => by
    rw [run] at h
    obtain ⟨v, h1, h2⟩ := Option.bind_eq_some_iff.1 h
    have hb := bump_le (ctx := ctx) o.1 u.count
    obtain ⟨w, hw, hsw, c1, c2⟩ := step_count hs h1 (fun hc => by
      rcases hn hc with hn | hn
      · have := step_limit h1 hc
        have := bump_mono (ctx := ctx) o.1 hn
        omega
      · simp only [List.length_cons] at hn
        omega)
    obtain ⟨u', hu, hsu⟩ := run_count hsw h2 (fun hc => by
      rcases hn hc with hn | hn
      · left
        rw [c1, c2]
        exact bump_mono o.1 hn
      · right
        simp only [List.length_cons] at hn
        omega)
    exact ⟨u', by rw [run, hw]; exact hu, hsu⟩

theorem run_append (os os' : List (UInt8 × Bytes)) (t : St σ) : run ctx M (os ++ os') t = (run ctx M os t).bind (run ctx M os') := by
  induction os generalizing t with
  | nil => rfl
  | cons o os ih =>
    rw [List.cons_append, run, run]
    cases step ctx M o t with
    | none => rfl
    | some u => exact ih u

theorem step_le {o : UInt8 × Bytes} {t t' : St σ} (h : step ctx M o t = some t') : t'.count ≤ t.count + 1 := by
  have hb := bump_le (ctx := ctx) o.1 t.count
  obtain ⟨u', hu, -, hc, -⟩ := step_count (u := t) ⟨rfl, rfl⟩ h (fun hc => step_limit h hc)
  omega

theorem run_le : ∀ {os : List (UInt8 × Bytes)} {t t' : St σ}, run ctx M os t = some t' → t'.count ≤ t.count + os.length
  | [], _, _, h => by cases h; exact Nat.le_refl _
  | o :: os, t, t', h => by
    rw [run] at h
    obtain ⟨u, h1, h2⟩ := Option.bind_eq_some_iff.1 h
    have := step_le h1
    have := run_le h2
    simp only [List.length_cons]
    omega

theorem step_plain (op : UInt8) (h1 : 0x68 < op.toNat) (h2 : op ∉ disabled) (ha : act ctx op = .exec ∨ act ctx op = .bad) (t : St σ) :
    step ctx M (op, []) t = if ctx = .legacy ∧ 201 < bump ctx op t.count then none
      else if t.on = true then (if act ctx op = .exec then (M.exec op t.s).map fun s => ⟨s, t.cond, bump ctx op t.count⟩ else none)
      else some ⟨t.s, t.cond, bump ctx op t.count⟩ := by
  unfold step
  simp only [List.length_nil, show ¬ 520 < 0 by omega, if_false, h2]
  split
  · rfl
  rw [if_neg (by omega)]
  by_cases ht : t.on = true
  · rw [if_pos (Or.inl ht), if_pos ht]
    rcases ha with ha | ha <;> rw [ha] <;> rfl
  · rw [if_neg (by rintro (e | e); exact ht e; omega), if_neg ht]

theorem forms_facts (x : UInt8 × UInt8) (h : x ∈ forms) :
    0x68 < x.1.toNat ∧ 0x68 < x.2.toNat ∧ x.1 ∉ disabled ∧ x.2 ∉ disabled ∧ isSuccess x.1 = false ∧ isSuccess x.2 = false := by
  revert x; decide
theorem forms_act (ctx : Ctx) (x : UInt8 × UInt8) (h : x ∈ forms) : act ctx x.1 = act ctx x.2 ∧ (act ctx x.1 = .exec ∨ act ctx x.1 = .bad) := by
  simp only [forms, List.mem_cons, List.not_mem_nil, or_false] at h
  cases ctx <;> rcases h with rfl | rfl | rfl | rfl <;> decide
theorem act_verify (ctx : Ctx) : act ctx 0x69 = .exec := by cases ctx <;> decide

/-- One opcode for two. -/
theorem pair_short (hM : Lawful M Good) {x : UInt8 × UInt8} (hx : x ∈ forms) {t v : St σ} (hg : Good t.s)
    (h : run ctx M [(x.1, []), (0x69, [])] t = some v) : ∃ w, step ctx M (x.2, []) t = some w ∧ Same v w ∧ w.count ≤ v.count := by
  obtain ⟨f1, f2, f3, f4, -, -⟩ := forms_facts x hx
  obtain ⟨a1, a2⟩ := forms_act ctx x hx
  have hv := hM.verify x hx t.s hg
  have hon : ∀ (a : σ) (n : Nat), St.on (St.mk a t.cond n) = t.on := fun _ _ => rfl
  have e12 : bump ctx x.1 t.count = bump ctx x.2 t.count := by
    unfold bump
    simp only [show 0x60 < x.1.toNat by omega, show 0x60 < x.2.toNat by omega, and_true]
  simp only [run] at h
  obtain ⟨u, h1, h2⟩ := Option.bind_eq_some_iff.1 h
  obtain ⟨v', h2, h3⟩ := Option.bind_eq_some_iff.1 h2
  cases h3
  rw [step_plain _ f1 f3 a2] at h1
  rw [step_plain 0x69 (by decide) (by decide) (.inl (act_verify ctx))] at h2
  rw [step_plain _ f2 f4 (a1 ▸ a2), ← e12, ← a1]
  split at h1
  · cases h1
  rename_i hc
  rw [if_neg hc]
  split at h2
  · cases h2
  by_cases ht : t.on = true
  · rw [if_pos ht] at h1 ⊢
    split at h1
    · rename_i hexec
      rw [if_pos hexec]
      obtain ⟨s', e, rfl⟩ := Option.map_eq_some_iff.1 h1
      rw [hon, if_pos ht, if_pos (act_verify ctx)] at h2
      obtain ⟨s'', e', rfl⟩ := Option.map_eq_some_iff.1 h2
      rw [hv, e]
      simp only [Option.bind_some]
      rw [e']
      exact ⟨_, rfl, ⟨rfl, rfl⟩, (bump_le _ _).1⟩
    · cases h1
  · rw [if_neg ht] at h1 ⊢
    cases h1
    rw [hon, if_neg ht] at h2
    cases h2
    exact ⟨_, rfl, ⟨rfl, rfl⟩, (bump_le _ _).1⟩

/-- Two opcodes for one. -/
theorem pair_long (hM : Lawful M Good) {x : UInt8 × UInt8} (hx : x ∈ forms) {t w : St σ} (hg : Good t.s)
    (h : step ctx M (x.2, []) t = some w) (hn : ctx = .legacy → t.count + 2 ≤ 201) :
    ∃ v, run ctx M [(x.1, []), (0x69, [])] t = some v ∧ Same w v ∧ v.count ≤ t.count + 2 := by
  obtain ⟨f1, f2, f3, f4, -, -⟩ := forms_facts x hx
  obtain ⟨a1, a2⟩ := forms_act ctx x hx
  have hv := hM.verify x hx t.s hg
  have hon : ∀ (a : σ) (n : Nat), St.on (St.mk a t.cond n) = t.on := fun _ _ => rfl
  have e12 : bump ctx x.1 t.count = bump ctx x.2 t.count := by
    unfold bump
    simp only [show 0x60 < x.1.toNat by omega, show 0x60 < x.2.toNat by omega, and_true]
  have b1 := bump_le (ctx := ctx) x.1 t.count
  have b2 := bump_le (ctx := ctx) 0x69 (bump ctx x.1 t.count)
  have hc1 : ¬ (ctx = .legacy ∧ 201 < bump ctx x.1 t.count) := fun e => by have := hn e.1; omega
  have hc2 : ¬ (ctx = .legacy ∧ 201 < bump ctx 0x69 (bump ctx x.1 t.count)) := fun e => by have := hn e.1; omega
  rw [step_plain _ f2 f4 (a1 ▸ a2), ← e12, ← a1, if_neg hc1] at h
  simp only [run]
  rw [step_plain _ f1 f3 a2, if_neg hc1]
  by_cases ht : t.on = true
  · rw [if_pos ht] at h ⊢
    split at h
    · rename_i hexec
      rw [if_pos hexec]
      obtain ⟨s'', e, rfl⟩ := Option.map_eq_some_iff.1 h
      rw [hv] at e
      obtain ⟨s', e1, e2⟩ := Option.bind_eq_some_iff.1 e
      rw [e1]
      simp only [Option.map_some, Option.bind_some]
      rw [step_plain 0x69 (by decide) (by decide) (.inl (act_verify ctx)), if_neg hc2, hon, if_pos ht, if_pos (act_verify ctx), e2]
      exact ⟨_, rfl, ⟨rfl, rfl⟩, by simp only []; omega⟩
    · cases h
  · rw [if_neg ht] at h ⊢
    cases h
    simp only [Option.bind_some]
    rw [step_plain 0x69 (by decide) (by decide) (.inl (act_verify ctx)), if_neg hc2, hon, if_neg ht]
    exact ⟨_, rfl, ⟨rfl, rfl⟩, by simp only []; omega⟩

/-- Either `OP_VERIFY` is appended, or the last opcode is one with a VERIFY form. -/
theorem pushVerify_cases (s : Bytes) : pushVerify s = s ++ [0x69] ∨
    ∃ q, ∃ x ∈ forms, s = q ++ [x.1] ∧ pushVerify s = q ++ [x.2] ∧ (ops q).2 = true := by
  unfold pushVerify
  cases hl : lastOpcode s with
  | none => exact .inl rfl
  | some o =>
    have hq : ∃ q, s = q ++ [o] ∧ (ops q).2 = true := by
      obtain ⟨ps, rest, es, hps, hend⟩ := C33_tiles false s
      have hw' : (walk false s.length s).getLast? = some (.ok (.op o)) := by
        unfold lastOpcode at hl
        split at hl
        · rename_i o' he
          cases hl
          exact he
        · cases hl
      rcases hend with ⟨hr, hw⟩ | ⟨er, _, hw⟩
      · rw [hw, List.getLast?_map] at hw'
        obtain ⟨⟨p, i⟩, hp, hi⟩ := Option.map_eq_some_iff.1 hw'
        obtain ⟨qs, rfl⟩ := List.getLast?_eq_some_iff.1 hp
        cases hi
        have he := (hps (p, .op o) (by simp)).1
        have hp : p = [o] := by cases he; rfl
        refine ⟨(qs.map Prod.fst).flatten, by rw [es, hr, hp]; simp, ?_⟩
        have := ops_tiles [] qs (fun y hy => (hps y (by simp [hy])).1)
        rw [List.append_nil] at this
        rw [this]
        rfl
      · rw [hw, List.getLast?_concat] at hw'
        cases hw'
    obtain ⟨q, rfl, hq⟩ := hq
    unfold opcodeToVerify pushOpcode
    simp only [List.dropLast_concat]
    by_cases h1 : o = OP_EQUAL
    · rw [if_pos h1, h1]; exact .inr ⟨q, (0x87, 0x88), by decide, rfl, rfl, hq⟩
    rw [if_neg h1]
    by_cases h2 : o = OP_NUMEQUAL
    · rw [if_pos h2, h2]; exact .inr ⟨q, (0x9c, 0x9d), by decide, rfl, rfl, hq⟩
    rw [if_neg h2]
    by_cases h3 : o = OP_CHECKSIG
    · rw [if_pos h3, h3]; exact .inr ⟨q, (0xac, 0xad), by decide, rfl, rfl, hq⟩
    rw [if_neg h3]
    by_cases h4 : o = OP_CHECKMULTISIG
    · rw [if_pos h4, h4]; exact .inr ⟨q, (0xae, 0xaf), by decide, rfl, rfl, hq⟩
    rw [if_neg h4]
    exact .inl rfl

/-- `push_verify` in the middle of a script does what `OP_VERIFY` at this place does: whatever succeeds with `OP_VERIFY` succeeds, and nothing else does
unless the script has more than 201 opcodes (the VERIFY form is one operation, not two). -/
theorem C130_push_verify (hM : Lawful M Good) (s t : Bytes) (x : σ) (hx : Good x) :
    (eval ctx M (s ++ [0x69] ++ t) x = true → eval ctx M (pushVerify s ++ t) x = true) ∧
    ((ctx = .legacy → (ops (s ++ [0x69] ++ t)).1.length ≤ 201) → eval ctx M (pushVerify s ++ t) x = eval ctx M (s ++ [0x69] ++ t) x) := by
  rcases pushVerify_cases s with e | ⟨q, y, hy, rfl, e, hq⟩
  · rw [e]; exact ⟨id, fun _ => rfl⟩
  rw [e]
  obtain ⟨f1, f2, -, -, g1, g2⟩ := forms_facts y hy
  have oL : ops (q ++ [y.1] ++ [0x69] ++ t) = ((ops q).1 ++ ([(y.1, []), (0x69, [])] ++ (ops t).1), (ops t).2) := by
    rw [show q ++ [y.1] ++ [0x69] ++ t = q ++ (y.1 :: 0x69 :: t) by simp, ops_append hq, ops_op _ (by omega), ops_op _ (by decide)]
    rfl
  have oS : ops (q ++ [y.2] ++ t) = ((ops q).1 ++ ((y.2, []) :: (ops t).1), (ops t).2) := by
    rw [show q ++ [y.2] ++ t = q ++ (y.2 :: t) by simp, ops_append hq, ops_op _ (by omega)]
  have hany : ((ops q).1 ++ ([(y.1, []), (0x69, [])] ++ (ops t).1)).any (fun o => isSuccess o.1) =
      ((ops q).1 ++ ((y.2, []) :: (ops t).1)).any fun o => isSuccess o.1 := by
    simp only [List.any_append, List.any_cons, List.any_nil, g1, g2, show isSuccess 0x69 = false by decide, Bool.false_or, Bool.or_false]
  have short : ∀ v, run ctx M ((ops q).1 ++ ([(y.1, []), (0x69, [])] ++ (ops t).1)) ⟨x, [], 0⟩ = some v →
      ∃ w, run ctx M ((ops q).1 ++ ((y.2, []) :: (ops t).1)) ⟨x, [], 0⟩ = some w ∧ Same v w := by
    intro v hv
    rw [run_append] at hv ⊢
    obtain ⟨u, h1, h2⟩ := Option.bind_eq_some_iff.1 hv
    rw [run_append] at h2
    obtain ⟨u', h2, h3⟩ := Option.bind_eq_some_iff.1 h2
    obtain ⟨w, hw, hs, hc⟩ := pair_short hM hy (run_good hM h1 hx) h2
    obtain ⟨w', hw', hs'⟩ := run_count hs h3 (fun _ => .inl hc)
    rw [h1]
    simp only [Option.bind_some, run]
    rw [hw]
    exact ⟨w', hw', hs'⟩
  have long : (ctx = .legacy → ((ops q).1 ++ ([(y.1, []), (0x69, [])] ++ (ops t).1)).length ≤ 201) →
      ∀ w, run ctx M ((ops q).1 ++ ((y.2, []) :: (ops t).1)) ⟨x, [], 0⟩ = some w →
      ∃ v, run ctx M ((ops q).1 ++ ([(y.1, []), (0x69, [])] ++ (ops t).1)) ⟨x, [], 0⟩ = some v ∧ Same w v := by
    intro hn w hw
    rw [run_append] at hw ⊢
    obtain ⟨u, h1, h2⟩ := Option.bind_eq_some_iff.1 hw
    rw [run] at h2
    obtain ⟨u', h2, h3⟩ := Option.bind_eq_some_iff.1 h2
    have hle := run_le h1
    simp only [List.length_append, List.length_cons, List.length_nil, Nat.zero_add] at hn hle
    obtain ⟨v, hv, hs, hc⟩ := pair_long hM hy (run_good hM h1 hx) h2 (fun e => by have := hn e; omega)
    obtain ⟨v', hv', hs'⟩ := run_count hs h3 (fun e => .inr (by have := hn e; omega))
    rw [h1]
    simp only [Option.bind_some]
    rw [run_append, hv]
    exact ⟨v', hv', hs'⟩
  have same : ∀ v w : St σ, Same v w → ((ops t).2 && v.cond.isEmpty && M.accept v.s) = ((ops t).2 && w.cond.isEmpty && M.accept w.s) := by
    intro v w h
    rw [h.1, h.2]
  unfold eval
  simp only [oL, oS, hany]
  split
  · exact ⟨id, fun _ => rfl⟩
  · constructor
    · intro h
      split at h
      · cases h
      · rename_i v hv
        obtain ⟨w, hw, hs⟩ := short v hv
        rw [hw]
        simp only []
        rw [← same v w hs]
        exact h
    · intro hn
      cases hL : run ctx M ((ops q).1 ++ ([(y.1, []), (0x69, [])] ++ (ops t).1)) ⟨x, [], 0⟩ with
      | some v =>
        obtain ⟨w, hw, hs⟩ := short v hL
        rw [hw]
        exact (same v w hs).symm
      | none =>
        cases hS : run ctx M ((ops q).1 ++ ((y.2, []) :: (ops t).1)) ⟨x, [], 0⟩ with
        | none => rfl
        | some w =>
          obtain ⟨v, hv, -⟩ := long hn w hS
          rw [hL] at hv
          cases hv

end

/-- What `OP_VERIFY` does. -/
def verifyTop : List Bytes → Option (List Bytes)
  | [] => none
  | x :: s => if castBool x then some s else none

theorem multisig_len {chk : Bytes → Bytes → Bool} {s s' : List Bytes} (h : multisig chk s = some s') : s'.length ≤ s.length := by
  unfold multisig at h
  cases s with
  | nil => cases h
  | cons nb s =>
    simp only [] at h
    split at h
    · cases h
    · rename_i n _
      split at h
      · cases h
      · split at h
        · cases h
        · rename_i mb r hr
          split at h
          · cases h
          · rename_i m _
            split at h
            · cases h
            · have l1 := congrArg List.length hr
              rw [List.length_drop, List.length_cons] at l1
              split at h
              · cases h
              · rename_i hr2
                have l2 := congrArg List.length hr2
                rw [List.length_drop, List.length_cons] at l2
                split at h
                · cases h
                · cases h
                  simp only [List.length_cons]
                  omega

theorem checksig_len {tap : Bool} {chk : Bytes → Bytes → Bool} {s s' : List Bytes} (h : checksig tap chk s = some s') : s'.length ≤ s.length := by
  unfold checksig at h
  split at h
  · split at h
    · cases h
    · split at h
      · cases h; simp
      · split at h
        · cases h
        · cases h; simp
  · cases h

/-- The machine of C129 is such a machine, if what it leaves open is as in Bitcoin: `OP_VERIFY`, the VERIFY forms, and a comparison that does not
make the stack larger. -/
theorem lawful_std (tap one : Bool) (H160 : Bytes → Arr 20) (chk : Bytes → Bytes → Bool) (other : UInt8 → List Bytes → Option (List Bytes))
    (lock : UInt8 → List Bytes → Bool) (h69 : ∀ s, other 0x69 s = verifyTop s) (h9c : ∀ s s', other 0x9c s = some s' → s'.length ≤ s.length)
    (h9d : ∀ s, other 0x9d s = (other 0x9c s).bind verifyTop) (had : ∀ s, other 0xad s = (checksig tap chk s).bind verifyTop)
    (haf : ∀ s, other 0xaf s = (multisig chk s).bind verifyTop) :
    Lawful (std tap one H160 chk other lock) (fun s => s.length ≤ 1000) := by
  have hlim : ∀ {a b : List Bytes}, lim a = some b → b.length ≤ 1000 := by
    intro a b h
    unfold lim at h
    split at h
    · cases h; assumption
    · cases h
  have key : ∀ f : List Bytes → Option (List Bytes), (∀ s s', f s = some s' → s'.length ≤ s.length) → ∀ s : List Bytes, s.length ≤ 1000 →
      ((f s).bind verifyTop).bind lim = ((f s).bind lim).bind fun s => (verifyTop s).bind lim := by
    intro f hf s hs
    cases h : f s with
    | none => rfl
    | some s' =>
      have := hf s s' h
      have e : lim s' = some s' := if_pos (by omega)
      simp only [Option.bind_some, e]
  have e69 : ∀ s, (std tap one H160 chk other lock).exec 0x69 s = (verifyTop s).bind lim := fun s => by
    show (other 0x69 s).bind lim = _
    rw [h69]
  refine ⟨fun d s s' _ h => hlim h, fun k s s' _ h => hlim h, ?_, ?_, ?_⟩
  · intro s b s' hs h
    cases s with
    | nil => cases h
    | cons y s =>
      cases h
      simp only [List.length_cons] at hs
      omega
  · intro op s s' _ h
    obtain ⟨r, -, h⟩ := Option.bind_eq_some_iff.1 h
    exact hlim h
  · intro x hx s hs
    rw [funext e69]
    simp only [forms, List.mem_cons, List.not_mem_nil, or_false] at hx
    rcases hx with rfl | rfl | rfl | rfl
    · have := key (fun s => match s with | x :: y :: s => some (boolBytes (decide (x = y)) :: s) | _ => none) (by
        intro s s' h
        split at h
        · cases h; simp
        · cases h) s hs
      refine Eq.trans ?_ this
      show Option.bind (match s with | x :: y :: s => if x = y then some s else none | _ => none) lim = _
      congr 1
      match s with
      | [] => rfl
      | [a] => rfl
      | a :: b :: s =>
        simp only [Option.bind_some, verifyTop]
        by_cases hab : a = b
        · rw [if_pos hab, decide_eq_true hab]; rfl
        · rw [if_neg hab, decide_eq_false hab]; rfl
    · show (other 0x9d s).bind lim = _
      rw [h9d]
      exact key _ h9c s hs
    · show (other 0xad s).bind lim = _
      rw [had]
      exact key _ (fun _ _ h => checksig_len h) s hs
    · show (other 0xaf s).bind lim = _
      rw [haf]
      exact key _ (fun _ _ h => multisig_len h) s hs

/-- A machine as in `lawful_std`, for examples: no comparison of numbers, no further opcodes. -/
def sample (tap : Bool) : Machine (List Bytes) :=
  let chk := fun k s => decide (k = s)
  std tap false (fun _ => ⟨List.replicate 20 0, rfl⟩) chk (fun op s => if op = 0x69 then verifyTop s else if op = 0xad then (checksig tap chk s).bind verifyTop
    else if op = 0xaf then (multisig chk s).bind verifyTop else none) (fun _ _ => true)

theorem lawful_sample (tap : Bool) : Lawful (sample tap) (fun s => s.length ≤ 1000) :=
  lawful_std tap false _ _ _ _ (fun _ => rfl) (fun _ _ h => by cases h) (fun _ => rfl) (fun _ => rfl) (fun _ => rfl)

example : pushVerify [0x76, 0xac] = [0x76, 0xad] ∧ eval .legacy (sample false) ([0x76, 0xad] ++ [0x51]) [[7]] = true ∧
    eval .legacy (sample false) ([0x76, 0xac] ++ [0x69] ++ [0x51]) [[7]] = true ∧ (ops ([0x76, 0xac] ++ [0x69] ++ [0x51])).1.length ≤ 201 := by
  decide +kernel

/-- The bound is needed: 200 operations and `OP_EQUALVERIFY` are within the limit, with two opcodes for the last they are not. -/
theorem C130_push_verify_limit : ∃ s t : Bytes, eval .legacy (sample false) (pushVerify s ++ t) [[7], [7]] = true ∧
    eval .legacy (sample false) (s ++ [0x69] ++ t) [[7], [7]] = false :=
  ⟨List.replicate 200 0x61 ++ [0x87], [0x51], by decide +kernel⟩

end Core
end Scr
end Btc
