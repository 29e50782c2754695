import Verif.Script.Templates
import Verif.Props.C34
/-!
# C35: script templates
-/
namespace Btc
namespace Scr

/-! ### Specification: the byte patterns -/

/-- BIP-141: the opcode of a witness version. -/
def verByte (v : UInt8) : UInt8 := if v = 0 then 0 else 0x50 + v

/-- A witness program of version `v`: version opcode, then one direct push of 2 to 40 bytes. -/
def WitnessScript (v : UInt8) (program s : Bytes) : Prop :=
  v.toNat ≤ 16 ∧ 2 ≤ program.length ∧ program.length ≤ 40 ∧ s = verByte v :: UInt8.ofNat program.length :: program

inductive Template where
  | p2pk | p2pkh | p2sh | p2wpkh | p2wsh | p2tr | p2a | opReturn | multisig
deriving DecidableEq

/-- The byte pattern of each template. -/
def Pattern : Template → Bytes → Prop
  | .p2pk, s => (∃ k : Bytes, k.length = 33 ∧ s = 0x21 :: k ++ [0xac]) ∨ (∃ k : Bytes, k.length = 65 ∧ s = 0x41 :: k ++ [0xac])
  | .p2pkh, s => ∃ h : Bytes, h.length = 20 ∧ s = [0x76, 0xa9, 0x14] ++ h ++ [0x88, 0xac]
  | .p2sh, s => ∃ h : Bytes, h.length = 20 ∧ s = [0xa9, 0x14] ++ h ++ [0x87]
  | .p2wpkh, s => ∃ h : Bytes, h.length = 20 ∧ s = [0, 0x14] ++ h
  | .p2wsh, s => ∃ h : Bytes, h.length = 32 ∧ s = [0, 0x20] ++ h
  | .p2tr, s => ∃ h : Bytes, h.length = 32 ∧ s = [0x51, 0x20] ++ h
  | .p2a, s => s = [0x51, 0x02, 0x4e, 0x73]
  | .opReturn, s => ∃ t, s = 0x6a :: t
  | .multisig, s => ∃ (m n : UInt8) (keys : List Bytes), 1 ≤ m.toNat ∧ m.toNat ≤ n.toNat ∧ n.toNat ≤ 16 ∧
      keys.length = n.toNat ∧
      instructions s = ([Instr.op (0x50 + m)] ++ keys.map Instr.push ++ [Instr.op (0x50 + n), .op 0xae]).map .ok

/-- The predicate of the library for each template. -/
def recognises : Template → Bytes → Bool
  | .p2pk => isP2pk
  | .p2pkh => isP2pkh
  | .p2sh => isP2sh
  | .p2wpkh => isP2wpkh
  | .p2wsh => isP2wsh
  | .p2tr => isP2tr
  | .p2a => isP2a
  | .opReturn => isOpReturn
  | .multisig => fun s => isMultisig true s == some true

/-! ### Witness versions -/

set_option maxRecDepth 8000 in
theorem fromOp_spec : ∀ op : UInt8,
    (match witnessVersionFromOp op with | some v => decide (v.toNat ≤ 16) && verByte v == op | none => true) = true := by
  apply forall_u8; decide

set_option maxRecDepth 8000 in
theorem fromOp_verByte : ∀ v : UInt8, v.toNat ≤ 16 → witnessVersionFromOp (verByte v) = some v := by
  apply forall_u8; decide

set_option maxRecDepth 8000 in
theorem opOf_verByte : ∀ v : UInt8, v.toNat ≤ 16 → opOfWitnessVersion v = verByte v := by
  apply forall_u8; decide

/-- **C35 (witness version).** -/
theorem C35_witness_version (s : Bytes) (v : UInt8) :
    witnessVersion s = some v ↔ ∃ program, WitnessScript v program s := by
  constructor
  · intro h
    unfold witnessVersion at h
    by_cases hl : ¬ (4 ≤ s.length ∧ s.length ≤ 42)
    · rw [if_pos hl] at h; cases h
    · rw [if_neg hl] at h
      match s, h with
      | ver :: p :: t, h =>
        simp only [] at h
        by_cases h1 : p < 0x02 ∨ p > 0x28
        · rw [if_pos h1] at h; cases h
        · rw [if_neg h1] at h
          by_cases h2 : (ver :: p :: t).length - 2 ≠ p.toNat
          · rw [if_pos h2] at h; cases h
          · rw [if_neg h2] at h
            have h2' : t.length = p.toNat := by simp at h2; exact h2
            have hs := fromOp_spec ver
            rw [h] at hs
            simp only [Bool.and_eq_true, decide_eq_true_iff, beq_iff_eq] at hs
            simp only [List.length_cons, Decidable.not_not] at hl
            refine ⟨t, hs.1, by omega, by omega, ?_⟩
            rw [hs.2, h2', UInt8.ofNat_toNat]
  · rintro ⟨t, hv, h1, h2, rfl⟩
    unfold witnessVersion
    have hp : (UInt8.ofNat t.length).toNat = t.length := by rw [UInt8.toNat_ofNat']; omega
    rw [if_neg (by simp only [List.length_cons]; omega)]
    simp only []
    rw [if_neg, if_neg, fromOp_verByte v hv]
    · rw [hp]; simp
    · rintro (h | h)
      · rw [UInt8.lt_iff_toNat_lt, hp, show (2 : UInt8).toNat = 2 from rfl] at h; omega
      · rw [gt_iff_lt, UInt8.lt_iff_toNat_lt, hp, show (0x28 : UInt8).toNat = 40 from rfl] at h; omega

theorem wv_prefix {s : Bytes} {v : UInt8} (h : witnessVersion s = some v) :
    ∃ t : Bytes, s = verByte v :: UInt8.ofNat t.length :: t ∧ 2 ≤ t.length ∧ t.length ≤ 40 := by
  obtain ⟨t, _, h1, h2, h3⟩ := (C35_witness_version s v).1 h
  exact ⟨t, h3, h1, h2⟩

theorem wprog_iff (s : Bytes) (v b : UInt8) (n : Nat) (hv : v.toNat ≤ 16) (hb : b = UInt8.ofNat n) (hn : 2 ≤ n ∧ n ≤ 40) :
    (s.length == n + 2 && witnessVersion s == some v && at? s 1 == some b) = true ↔
      ∃ h : Bytes, h.length = n ∧ s = [verByte v, b] ++ h := by
  simp only [Bool.and_eq_true, beq_iff_eq]
  constructor
  · rintro ⟨⟨hl, hw⟩, _⟩
    obtain ⟨t, ht, _, _⟩ := wv_prefix hw
    have : t.length = n := by rw [ht] at hl; simp at hl; omega
    exact ⟨t, this, by rw [hb, ← this]; exact ht⟩
  · rintro ⟨h, hl, rfl⟩
    refine ⟨⟨by simp; omega, ?_⟩, rfl⟩
    exact (C35_witness_version _ v).2 ⟨h, hv, by omega, by omega, by rw [hl, ← hb]; rfl⟩

/-! ### The simple patterns -/

theorem p2sh_iff (s : Bytes) : isP2sh s = true ↔ Pattern .p2sh s := by
  unfold isP2sh Pattern at?
  simp only [Bool.and_eq_true, beq_iff_eq]
  constructor
  · rintro ⟨⟨⟨hl, h0⟩, h1⟩, h2⟩
    match s, hl, h0, h1, h2 with
    | a :: b :: t, hl, h0, h1, h2 =>
      rcases nil_or_snoc t with rfl | ⟨m, x, rfl⟩
      · simp at hl
      · have hm : m.length = 20 := by simp at hl; omega
        simp only [List.getElem?_cons_zero, List.getElem?_cons_succ, Option.some.injEq] at h0 h1 h2
        rw [List.getElem?_append_right (by omega), hm] at h2
        simp at h2
        refine ⟨m, hm, ?_⟩
        rw [h0, h1, h2]; rfl
  · rintro ⟨h, hl, rfl⟩
    refine ⟨⟨⟨by simp; omega, rfl⟩, rfl⟩, ?_⟩
    simp only [List.cons_append, List.nil_append, List.getElem?_cons_succ]
    rw [List.getElem?_append_right (by omega), hl]; rfl

theorem p2pkh_iff (s : Bytes) : isP2pkh s = true ↔ Pattern .p2pkh s := by
  unfold isP2pkh Pattern at?
  simp only [Bool.and_eq_true, beq_iff_eq]
  constructor
  · rintro ⟨⟨⟨⟨⟨hl, h0⟩, h1⟩, h2⟩, h3⟩, h4⟩
    match s, hl, h0, h1, h2, h3, h4 with
    | a :: b :: c :: t, hl, h0, h1, h2, h3, h4 =>
      rcases nil_or_snoc t with rfl | ⟨t', y, rfl⟩
      · simp at hl
      · rcases nil_or_snoc t' with rfl | ⟨m, x, rfl⟩
        · simp at hl
        · have hm : m.length = 20 := by simp at hl; omega
          simp only [List.getElem?_cons_zero, List.getElem?_cons_succ, Option.some.injEq, List.append_assoc] at h0 h1 h2 h3 h4
          rw [List.getElem?_append_right (by omega), hm] at h3 h4
          simp at h3 h4
          refine ⟨m, hm, ?_⟩
          rw [h0, h1, h2, h3, h4]; simp [OP_DUP, OP_HASH160, OP_EQUALVERIFY, OP_CHECKSIG]
  · rintro ⟨h, hl, rfl⟩
    refine ⟨⟨⟨⟨⟨by simp; omega, rfl⟩, rfl⟩, rfl⟩, ?_⟩, ?_⟩ <;>
    · simp only [List.cons_append, List.nil_append, List.getElem?_cons_succ]
      rw [List.getElem?_append_right (by omega), hl]; rfl

theorem p2pkBytes_iff (s k : Bytes) : p2pkPubkeyBytes s = some k ↔
    (k.length = 33 ∧ s = 0x21 :: k ++ [0xac]) ∨ (k.length = 65 ∧ s = 0x41 :: k ++ [0xac]) := by
  have aux : ∀ (b : UInt8) (n : Nat), s.length = n + 2 →
      ((match s with
        | first :: bytes => if first = b ∧ bytes.getLast? = some OP_CHECKSIG then some bytes.dropLast else none
        | [] => none) = some k ↔ k.length = n ∧ s = b :: k ++ [0xac]) := by
    intro b n hl
    match s, hl with
    | first :: bytes, hl =>
      simp only []
      rcases nil_or_snoc bytes with rfl | ⟨m, x, rfl⟩
      · simp at hl
      · rw [List.getLast?_concat, List.dropLast_concat]
        have hm : m.length = n := by simp at hl; omega
        constructor
        · intro h
          split at h
          · rename_i hc
            cases h
            refine ⟨hm, ?_⟩
            rw [hc.1, Option.some.inj hc.2]; rfl
          · cases h
        · rintro ⟨hk, he⟩
          simp only [List.cons_append, List.cons.injEq] at he
          have := List.append_inj' he.2 rfl
          have hx : x = 0xac := by simpa using this.2
          rw [if_pos ⟨he.1, by rw [hx]; rfl⟩, this.1]
  unfold p2pkPubkeyBytes
  by_cases h1 : s.length = 67
  · rw [if_pos h1]; refine Iff.trans (aux 0x41 65 (by omega)) ?_
    constructor
    · exact .inr
    · rintro (⟨a, b⟩ | h)
      · rw [b] at h1; simp at h1; omega
      · exact h
  · rw [if_neg h1]
    by_cases h2 : s.length = 35
    · rw [if_pos h2]; refine Iff.trans (aux 0x21 33 (by omega)) ?_
      constructor
      · exact .inl
      · rintro (h | ⟨a, b⟩)
        · exact h
        · rw [b] at h2; simp at h2; omega
    · rw [if_neg h2]
      constructor
      · intro h; cases h
      · rintro (⟨a, b⟩ | ⟨a, b⟩)
        · exact absurd (by rw [b]; simp; omega) h2
        · exact absurd (by rw [b]; simp; omega) h1

theorem p2pk_iff (s : Bytes) : isP2pk s = true ↔ Pattern .p2pk s := by
  unfold isP2pk Pattern
  rw [Option.isSome_iff_exists]
  constructor
  · rintro ⟨k, hk⟩
    rcases (p2pkBytes_iff s k).1 hk with h | h
    · exact .inl ⟨k, h⟩
    · exact .inr ⟨k, h⟩
  · rintro (⟨k, h⟩ | ⟨k, h⟩)
    · exact ⟨k, (p2pkBytes_iff s k).2 (.inl h)⟩
    · exact ⟨k, (p2pkBytes_iff s k).2 (.inr h)⟩

theorem p2a_iff (s : Bytes) : isP2a s = true ↔ Pattern .p2a s := by
  unfold isP2a Pattern
  constructor
  · intro h
    rw [Bool.and_eq_true] at h
    obtain ⟨h, hp⟩ := h
    obtain ⟨t, ht, e⟩ := (wprog_iff s 1 0x02 2 (by decide) rfl (by omega)).1 h
    rw [e] at hp ⊢
    have : t = P2A_PROGRAM := by simpa using hp
    rw [this]; rfl
  · rintro rfl
    decide

theorem opReturn_iff (s : Bytes) : isOpReturn s = true ↔ Pattern .opReturn s := by
  unfold isOpReturn Pattern
  cases s with
  | nil => simp
  | cons b t => simp [OP_RETURN]

/-! ### Bare multisig -/

set_option maxRecDepth 8000 in
theorem decodePushnum_spec : ∀ o : UInt8,
    (match decodePushnum o with
     | some m => decide (1 ≤ m.toNat) && decide (m.toNat ≤ 16) && (o == 0x50 + m)
     | none => !(decide (0x51 ≤ o.toNat) && decide (o.toNat ≤ 0x60))) = true := by
  apply forall_u8; decide

set_option maxRecDepth 8000 in
theorem decodePushnum_of : ∀ m : UInt8, 1 ≤ m.toNat ∧ m.toNat ≤ 16 → decodePushnum (0x50 + m) = some m := by
  apply forall_u8; decide

theorem decodePushnum_some {o m : UInt8} (h : decodePushnum o = some m) : 1 ≤ m.toNat ∧ m.toNat ≤ 16 ∧ o = 0x50 + m := by
  have := decodePushnum_spec o
  rw [h] at this
  simp only [Bool.and_eq_true, decide_eq_true_iff, beq_iff_eq] at this
  exact ⟨this.1.1, this.1.2, this.2⟩

theorem loop_pushes (c : Bool) (keys : List Bytes) (rest : List (Except ScrErr Instr)) : ∀ n, n + keys.length < 256 →
    multisigLoop c ((keys.map Instr.push).map .ok ++ rest) n = multisigLoop c rest (n + keys.length) := by
  induction keys with
  | nil => intro n _; simp
  | cons k ks ih =>
    intro n h
    simp only [List.map_cons, List.cons_append, List.length_cons] at h ⊢
    rw [multisigLoop, if_pos (by omega), ih (n + 1) (by omega), show n + 1 + ks.length = n + (ks.length + 1) by omega]

theorem loop_inv (l : List (Except ScrErr Instr)) : ∀ n, n < 256 →
    (multisigLoop true l n = none → ∃ (keys : List Bytes) (rest : List (Except ScrErr Instr)), l = (keys.map Instr.push).map .ok ++ rest ∧ n + keys.length = 256) ∧
    (∀ k r, multisigLoop true l n = some (some (k, r)) →
      ∃ keys : List Bytes, k = n + keys.length ∧
        ((∃ m, m.toNat = k ∧ 1 ≤ k ∧ k ≤ 16 ∧ l = (keys.map Instr.push).map .ok ++ .ok (.op (0x50 + m)) :: r) ∨
         (∃ e, l = (keys.map Instr.push).map .ok ++ .error e :: r) ∨
         (l = (keys.map Instr.push).map .ok ∧ r = []))) := by
  induction l with
  | nil =>
    intro n _
    refine ⟨fun h => by simp [multisigLoop] at h, fun k r h => ?_⟩
    simp only [multisigLoop, Option.some.injEq, Prod.mk.injEq] at h
    exact ⟨[], by rw [← h.1]; rfl, .inr (.inr ⟨rfl, h.2.symm⟩)⟩
  | cons x l ih =>
    intro n hn
    match x with
    | .error e =>
      refine ⟨fun h => by simp [multisigLoop] at h, fun k r h => ?_⟩
      simp only [multisigLoop, Option.some.injEq, Prod.mk.injEq] at h
      exact ⟨[], by rw [← h.1]; rfl, .inr (.inl ⟨e, by rw [h.2]; rfl⟩)⟩
    | .ok (.op o) =>
      rw [multisigLoop]
      cases hd : decodePushnum o with
      | none => exact ⟨fun h => by simp at h, fun k r h => by simp at h⟩
      | some m =>
        simp only []
        by_cases hm : m.toNat = n
        · rw [if_pos hm]
          refine ⟨fun h => by simp at h, fun k r h => ?_⟩
          simp only [Option.some.injEq, Prod.mk.injEq] at h
          obtain ⟨d1, d2, d3⟩ := decodePushnum_some hd
          exact ⟨[], by rw [← h.1]; rfl, .inl ⟨m, by omega, by omega, by omega, by rw [d3, h.2]; rfl⟩⟩
        · rw [if_neg hm]; exact ⟨fun h => by simp at h, fun k r h => by simp at h⟩
    | .ok (.push d) =>
      rw [multisigLoop]
      by_cases h1 : n + 1 < 256
      · rw [if_pos h1]
        obtain ⟨i1, i2⟩ := ih (n + 1) h1
        constructor
        · intro h
          obtain ⟨keys, rest, e, hl⟩ := i1 h
          exact ⟨d :: keys, rest, by rw [e]; rfl, by simp; omega⟩
        · intro k r h
          obtain ⟨keys, hk, hc⟩ := i2 k r h
          refine ⟨d :: keys, by simp; omega, ?_⟩
          rcases hc with ⟨m, a, b, c, e⟩ | ⟨e', e⟩ | ⟨e, hr⟩
          · exact .inl ⟨m, a, b, c, by rw [e]; rfl⟩
          · exact .inr (.inl ⟨e', by rw [e]; rfl⟩)
          · exact .inr (.inr ⟨by rw [e]; rfl, hr⟩)
      · rw [if_neg h1, if_pos rfl]
        exact ⟨fun _ => ⟨[d], l, rfl, by simp; omega⟩, fun k r h => by simp at h⟩

/-- No item follows an error. -/
theorem no_item_after_error (s : Bytes) (l r : List (Except ScrErr Instr)) (e : ScrErr)
    (h : instructions s = l ++ .error e :: r) : r = [] := by
  obtain ⟨ps, rest, _, _, hend⟩ := C33_tiles false s
  have hno : ∀ (qs : List (Bytes × Instr)), (Except.error e : Except ScrErr Instr) ∉ qs.map (fun x => (.ok x.2 : Except ScrErr Instr)) := by
    intro qs hm
    obtain ⟨y, _, hy⟩ := List.mem_map.1 hm
    cases hy
  have h' : walk false s.length s = l ++ .error e :: r := h
  rcases hend with ⟨_, hw⟩ | ⟨e', _, hw⟩
  · rw [hw] at h'
    exact absurd (show Except.error e ∈ _ by rw [h']; simp) (hno ps)
  · rw [hw] at h'
    rcases nil_or_snoc r with rfl | ⟨r', z, rfl⟩
    · rfl
    · exfalso
      have h2 : ps.map (fun x => (.ok x.2 : Except ScrErr Instr)) ++ [.error e'] = (l ++ .error e :: r') ++ [z] := by
        rw [h']; simp
      have := (List.append_inj' h2 rfl).1
      exact hno ps (by rw [this]; simp)

theorem multisig_iff (s : Bytes) : isMultisig true s = some true ↔ Pattern .multisig s := by
  constructor
  · intro h
    unfold isMultisig at h
    cases hi : instructions s with
    | nil => rw [hi] at h; simp at h
    | cons x l =>
      rw [hi] at h
      match x, hi, h with
      | .error e, _, h => simp at h
      | .ok (.push d), _, h => simp at h
      | .ok (.op o), hi, h =>
        simp only [] at h
        cases hd : decodePushnum o with
        | none => rw [hd] at h; simp at h
        | some m =>
          rw [hd] at h
          simp only [] at h
          obtain ⟨d1, d2, d3⟩ := decodePushnum_some hd
          cases hl : multisigLoop true l 0 with
          | none => rw [hl] at h; simp at h
          | some y =>
            cases y with
            | none => rw [hl] at h; simp at h
            | some y =>
              obtain ⟨k, r⟩ := y
              rw [hl] at h
              simp only [] at h
              by_cases hk : m.toNat > k
              · rw [if_pos hk] at h; simp at h
              · rw [if_neg hk] at h
                match r, h, hl with
                | [.ok (.op c)], h, hl =>
                  simp only [Option.some.injEq, beq_iff_eq] at h
                  obtain ⟨keys, hkl, hc⟩ := (loop_inv l 0 (by omega)).2 k _ hl
                  rcases hc with ⟨n, hn, hk1, hk2, e⟩ | ⟨e', e⟩ | ⟨_, hr⟩
                  · refine ⟨m, n, keys, d1, by omega, by omega, by omega, ?_⟩
                    rw [hi, e, d3, h]
                    simp [OP_CHECKMULTISIG]
                  · exfalso
                    have := no_item_after_error s (.ok (.op o) :: (keys.map Instr.push).map .ok) _ e' (by rw [hi, e]; rfl)
                    simp at this
                  · simp at hr
  · rintro ⟨m, n, keys, h1, h2, h3, h4, hi⟩
    unfold isMultisig
    rw [hi]
    simp only [List.map_append, List.map_cons, List.map_nil, List.cons_append, List.nil_append]
    rw [decodePushnum_of m ⟨h1, by omega⟩]
    simp only []
    rw [loop_pushes true keys _ 0 (by omega), multisigLoop, decodePushnum_of n ⟨by omega, h3⟩]
    simp only []
    rw [if_pos (by omega)]
    simp only []
    rw [if_neg (by omega)]
    rfl

/-- **C35 (exactness).** Each predicate is true exactly for the scripts with the byte pattern of its template. -/
theorem C35_exact (t : Template) (s : Bytes) : recognises t s = true ↔ Pattern t s := by
  cases t with
  | p2pk => exact p2pk_iff s
  | p2pkh => exact p2pkh_iff s
  | p2sh => exact p2sh_iff s
  | p2wpkh => exact wprog_iff s 0 0x14 20 (by decide) rfl (by omega)
  | p2wsh => exact wprog_iff s 0 0x20 32 (by decide) rfl (by omega)
  | p2tr => exact wprog_iff s 1 0x20 32 (by decide) rfl (by omega)
  | p2a => exact p2a_iff s
  | opReturn => exact opReturn_iff s
  | multisig =>
    rw [← multisig_iff]
    show (isMultisig true s == some true) = true ↔ _
    rw [beq_iff_eq]

/-- `p2pk_pubkey_bytes` returns the key between the push opcode and the `CHECKSIG`. -/
theorem C35_p2pk_key (s k : Bytes) : p2pkPubkeyBytes s = some k ↔
    (k.length = 33 ∧ s = 0x21 :: k ++ [0xac]) ∨ (k.length = 65 ∧ s = 0x41 :: k ++ [0xac]) := p2pkBytes_iff s k

/-! ### Mutual exclusion -/

/-- A number for the template, computed from a few bytes. -/
def tag (s : Bytes) : Nat :=
  match s with
  | [] => 9
  | b :: t =>
    if b = 0x21 ∨ b = 0x41 then 0 else if b = 0x76 then 1 else if b = 0xa9 then 2
    else if b = 0 then (if s.length = 22 then 3 else 4)
    else if b = 0x6a then 7
    else match instructions s with
      | [_, _] => if s.length = 34 then 5 else 6
      | _ => 8

theorem tag_multisig {b : UInt8} {t : Bytes} (h1 : 0x51 ≤ b.toNat) (h2 : b.toNat ≤ 0x60)
    {a : Except ScrErr Instr} {c d : Except ScrErr Instr} {e : List (Except ScrErr Instr)}
    (hi : instructions (b :: t) = a :: c :: d :: e) : tag (b :: t) = 8 := by
  have key : ∀ x : UInt8, x.toNat < 0x51 ∨ 0x60 < x.toNat → b ≠ x := by
    intro x hx e; rw [e] at h1 h2; omega
  unfold tag
  simp only []
  rw [if_neg (by rintro (h | h) <;> exact key _ (by decide) h), if_neg (key _ (by decide)), if_neg (key _ (by decide)),
    if_neg (key _ (by decide)), if_neg (key _ (by decide)), hi]

def Template.code : Template → Nat
  | .p2pk => 0 | .p2pkh => 1 | .p2sh => 2 | .p2wpkh => 3 | .p2wsh => 4 | .p2tr => 5 | .p2a => 6 | .opReturn => 7
  | .multisig => 8

theorem pattern_tag (t : Template) (s : Bytes) (h : Pattern t s) : tag s = t.code := by
  cases t with
  | p2pk => rcases h with ⟨k, _, rfl⟩ | ⟨k, _, rfl⟩ <;> rfl
  | p2pkh => obtain ⟨k, _, rfl⟩ := h; rfl
  | p2sh => obtain ⟨k, _, rfl⟩ := h; rfl
  | p2wpkh =>
    obtain ⟨k, hk, rfl⟩ := h
    show (if (0 :: 0x14 :: k : Bytes).length = 22 then 3 else 4) = 3
    rw [if_pos (by simp; omega)]
  | p2wsh =>
    obtain ⟨k, hk, rfl⟩ := h
    show (if (0 :: 0x20 :: k : Bytes).length = 22 then 3 else 4) = 4
    rw [if_neg (by simp; omega)]
  | p2tr =>
    obtain ⟨k, hk, rfl⟩ := h
    have he : Enc ([0x20] ++ k) (.push k) := by
      have := Enc.direct k (by omega)
      rw [hk] at this; exact this
    have hi : instructions (0x51 :: 0x20 :: k) = [.ok (.op 0x51), .ok (.push k)] :=
      instructions_append false [0x51] ([0x20] ++ k) [.op 0x51] (.push k) rfl he (by simp)
    show (match instructions (0x51 :: 0x20 :: k) with
      | [_, _] => if (0x51 :: 0x20 :: k : Bytes).length = 34 then 5 else 6
      | _ => 8) = 5
    rw [hi]
    simp only []
    rw [if_pos (by simp; omega)]
  | p2a => rw [show s = [0x51, 0x02, 0x4e, 0x73] from h]; rfl
  | opReturn => obtain ⟨k, rfl⟩ := h; rfl
  | multisig =>
    obtain ⟨m, n, keys, h1, h2, h3, h4, hi⟩ := h
    have h50 : (0x50 + m).toNat = 0x50 + m.toNat := by
      rw [UInt8.toNat_add, show (0x50 : UInt8).toNat = 80 from rfl]; omega
    match s, keys, h4, hi with
    | [], _, _, hi => simp [instructions, walk] at hi
    | _ :: _, [], h4, _ => simp at h4; omega
    | b :: t, k :: ks, _, hi =>
      simp only [List.map_append, List.map_cons, List.cons_append, List.nil_append] at hi
      -- the first byte is the first opcode
      have hb : b = 0x50 + m := by
        obtain ⟨ps, rest, es, hps, hend⟩ := C33_tiles false (b :: t)
        have hi' : walk false (b :: t).length (b :: t) = _ := hi
        cases ps with
        | nil =>
          rcases hend with ⟨_, hw⟩ | ⟨e, _, hw⟩
          · rw [hw] at hi'; simp at hi'
          · rw [hw] at hi'; simp at hi'
        | cons x ps =>
          have hx : x.2 = .op (0x50 + m) := by
            rcases hend with ⟨_, hw⟩ | ⟨e, _, hw⟩
            · rw [hw] at hi'; simp at hi'; exact hi'.1
            · rw [hw] at hi'; simp at hi'; exact hi'.1
          have hE := (hps x (by simp)).1
          rw [hx] at hE
          obtain ⟨p, i⟩ := x
          cases hE
          simp at es
          exact es.1
      have : ∃ c d e, instructions (b :: t) = .ok (.op (0x50 + m)) :: c :: d :: e := by
        rw [hi]
        cases ks with
        | nil => exact ⟨_, _, _, rfl⟩
        | cons k' ks => exact ⟨_, _, _, rfl⟩
      obtain ⟨c, d, e, hcd⟩ := this
      exact tag_multisig (by rw [hb, h50]; omega) (by rw [hb, h50]; omega) hcd

/-- **C35 (exclusion).** No script is recognised as two different templates. -/
theorem C35_exclusive (s : Bytes) (t u : Template) (ht : recognises t s = true) (hu : recognises u s = true) : t = u := by
  have h1 := pattern_tag t s ((C35_exact t s).1 ht)
  have h2 := pattern_tag u s ((C35_exact u s).1 hu)
  rw [h1] at h2
  cases t <;> cases u <;> first | rfl | (simp [Template.code] at h2)

/-- A witness program of any version is none of the templates that are not witness programs. -/
theorem C35_witness_exclusive (s : Bytes) (v : UInt8) (h : witnessVersion s = some v) (t : Template)
    (ht : recognises t s = true) : t = .p2wpkh ∨ t = .p2wsh ∨ t = .p2tr ∨ t = .p2a := by
  have hp := (C35_exact t s).1 ht
  have htag := pattern_tag t s hp
  obtain ⟨p, hv, h1, h2, e⟩ := (C35_witness_version s v).1 h
  have key : ∀ v : UInt8, v.toNat ≤ 16 → verByte v ≠ 0x21 ∧ verByte v ≠ 0x41 ∧ verByte v ≠ 0x76 ∧ verByte v ≠ 0xa9 ∧ verByte v ≠ 0x6a := by
    intro v hv
    have hn : (v = 0) ∨ (verByte v).toNat = 80 + v.toNat := by
      by_cases h0 : v = 0
      · exact .inl h0
      · right
        unfold verByte
        rw [if_neg h0, UInt8.toNat_add, show (0x50 : UInt8).toNat = 80 from rfl]; omega
    rcases hn with rfl | hn
    · decide
    · refine ⟨?_, ?_, ?_, ?_, ?_⟩ <;> intro hc <;> rw [hc] at hn <;> revert hn <;> simp <;> omega
  obtain ⟨k1, k2, k3, k4, k5⟩ := key v hv
  cases t with
  | p2wpkh => simp
  | p2wsh => simp
  | p2tr => simp
  | p2a => simp
  | p2pk =>
    exfalso
    rcases hp with ⟨k, _, e'⟩ | ⟨k, _, e'⟩ <;> rw [e] at e' <;> simp at e'
    · exact k1 e'.1
    · exact k2 e'.1
  | p2pkh => exfalso; obtain ⟨k, _, e'⟩ := hp; rw [e] at e'; simp at e'; exact k3 e'.1
  | p2sh => exfalso; obtain ⟨k, _, e'⟩ := hp; rw [e] at e'; simp at e'; exact k4 e'.1
  | opReturn => exfalso; obtain ⟨k, e'⟩ := hp; rw [e] at e'; simp at e'; exact k5 e'.1
  | multisig =>
    exfalso
    obtain ⟨m, n, keys, g1, g2, g3, g4, hi⟩ := hp
    have hlen := congrArg List.length hi
    -- a witness program has exactly two instructions
    have hE : Enc (UInt8.ofNat p.length :: p) (.push p) := .direct p (by omega)
    have h1' : instructions [verByte v] = [if v = 0 then Instr.push [] else .op (verByte v)].map .ok := by
      by_cases h0 : v = 0
      · rw [h0]; rfl
      · rw [if_neg h0]
        refine instructions_append false [] [verByte v] [] (.op (verByte v)) rfl (.op _ ?_) (by simp)
        unfold verByte
        rw [if_neg h0, UInt8.toNat_add, show (0x50 : UInt8).toNat = 80 from rfl]; omega
    have h2' := instructions_append false [verByte v] _ _ (.push p) h1' hE (by simp)
    rw [e] at hlen
    rw [show instructions (verByte v :: UInt8.ofNat p.length :: p) = _ from h2'] at hlen
    simp at hlen

/-! ### Constructors -/

theorem pushSlice_long (s d : Bytes) (h1 : 2 ≤ d.length) (h2 : d.length ≤ 75) :
    pushSlice s d = s ++ UInt8.ofNat d.length :: d := by
  match d, h1, h2 with
  | a :: b :: t, h1, h2 =>
    show s ++ pushHeader (a :: b :: t).length ++ (a :: b :: t) = _
    rw [pushHeader_eq, if_pos (by omega), List.append_assoc]; rfl

theorem newWitness_eq (v : UInt8) (p : Bytes) (hv : v.toNat ≤ 16) (h1 : 2 ≤ p.length) (h2 : p.length ≤ 40) :
    newWitnessProgramUnchecked v p = verByte v :: UInt8.ofNat p.length :: p := by
  unfold newWitnessProgramUnchecked pushOpcode
  rw [pushSlice_long _ _ h1 (by omega), opOf_verByte v hv]
  rfl

/-- **C35 (constructors).** Every constructor makes a script of its template, carrying the given key or hash. -/
theorem C35_constructors :
    (∀ k : Bytes, k.length = 33 ∨ k.length = 65 →
      recognises .p2pk (newP2pk k) = true ∧ p2pkPubkeyBytes (newP2pk k) = some k) ∧
    (∀ h : Arr 20, recognises .p2pkh (newP2pkh h) = true ∧ newP2pkh h = [0x76, 0xa9, 0x14] ++ h.val ++ [0x88, 0xac]) ∧
    (∀ h : Arr 20, recognises .p2sh (newP2sh h) = true ∧ newP2sh h = [0xa9, 0x14] ++ h.val ++ [0x87]) ∧
    (∀ h : Arr 20, recognises .p2wpkh (newP2wpkh h) = true ∧ newP2wpkh h = [0, 0x14] ++ h.val) ∧
    (∀ h : Arr 32, recognises .p2wsh (newP2wsh h) = true ∧ newP2wsh h = [0, 0x20] ++ h.val) ∧
    (∀ h : Arr 32, recognises .p2tr (newP2tr h) = true ∧ newP2tr h = [0x51, 0x20] ++ h.val) ∧
    recognises .p2a newP2a = true ∧
    (∀ d : Bytes, recognises .opReturn (newOpReturn d) = true) ∧
    (∀ (v : UInt8) (p : Bytes) w, v.toNat ≤ 16 → WitProgram.new v p = .ok w →
      witnessVersion w.script = some v ∧ WitnessScript v p w.script) := by
  refine ⟨?_, ?_, ?_, ?_, ?_, ?_, by decide, ?_, ?_⟩
  · intro k hk
    have he : newP2pk k = UInt8.ofNat k.length :: k ++ [0xac] := by
      unfold newP2pk pushOpcode
      rw [pushSlice_long _ _ (by omega) (by omega)]; rfl
    have : p2pkPubkeyBytes (newP2pk k) = some k := by
      rw [p2pkBytes_iff, he]
      rcases hk with h | h
      · exact .inl ⟨h, by rw [h]; rfl⟩
      · exact .inr ⟨h, by rw [h]; rfl⟩
    exact ⟨by show (p2pkPubkeyBytes _).isSome = true; rw [this]; rfl, this⟩
  · intro h
    have he : newP2pkh h = [0x76, 0xa9, 0x14] ++ h.val ++ [0x88, 0xac] := by
      unfold newP2pkh pushOpcode
      rw [pushSlice_long _ _ (by rw [h.property]; omega) (by rw [h.property]; omega), h.property]
      simp [OP_DUP, OP_HASH160, OP_EQUALVERIFY, OP_CHECKSIG]
    exact ⟨(C35_exact _ _).2 ⟨h.val, h.property, he⟩, he⟩
  · intro h
    have he : newP2sh h = [0xa9, 0x14] ++ h.val ++ [0x87] := by
      unfold newP2sh pushOpcode
      rw [pushSlice_long _ _ (by rw [h.property]; omega) (by rw [h.property]; omega), h.property]
      simp [OP_HASH160, OP_EQUAL]
    exact ⟨(C35_exact _ _).2 ⟨h.val, h.property, he⟩, he⟩
  · intro h
    have he : newP2wpkh h = [0, 0x14] ++ h.val := by
      unfold newP2wpkh
      rw [newWitness_eq _ _ (by decide) (by rw [h.property]; omega) (by rw [h.property]; omega), h.property]; rfl
    exact ⟨(C35_exact _ _).2 ⟨h.val, h.property, he⟩, he⟩
  · intro h
    have he : newP2wsh h = [0, 0x20] ++ h.val := by
      unfold newP2wsh
      rw [newWitness_eq _ _ (by decide) (by rw [h.property]; omega) (by rw [h.property]; omega), h.property]; rfl
    exact ⟨(C35_exact _ _).2 ⟨h.val, h.property, he⟩, he⟩
  · intro h
    have he : newP2tr h = [0x51, 0x20] ++ h.val := by
      unfold newP2tr
      rw [newWitness_eq _ _ (by decide) (by rw [h.property]; omega) (by rw [h.property]; omega), h.property]; rfl
    exact ⟨(C35_exact _ _).2 ⟨h.val, h.property, he⟩, he⟩
  · intro d
    refine (C35_exact _ _).2 ?_
    show ∃ t, newOpReturn d = 0x6a :: t
    unfold newOpReturn pushOpcode
    have : ∀ (s x : Bytes), ∃ t, pushSlice s x = s ++ t := by
      intro s x
      have h := pushInstr_eq s (.push x)
      exact ⟨_, h⟩
    obtain ⟨t, ht⟩ := this ([] ++ [OP_RETURN]) d
    exact ⟨t, ht⟩
  · intro v p w hv hw
    unfold WitProgram.new at hw
    by_cases h1 : p.length < 2 ∨ p.length > 40
    · rw [if_pos h1] at hw; cases hw
    · rw [if_neg h1] at hw
      by_cases h2 : v = 0 ∧ (p.length ≠ 20 ∧ p.length ≠ 32)
      · rw [if_pos h2] at hw; cases hw
      · rw [if_neg h2] at hw
        cases hw
        have hs : WitnessScript v p (WitProgram.script ⟨v, p⟩) :=
          ⟨hv, by omega, by omega, newWitness_eq v p hv (by omega) (by omega)⟩
        exact ⟨(C35_witness_version _ v).2 ⟨p, hs⟩, hs⟩

/-- `WitnessProgram::new` accepts exactly the programs BIP-141 allows, and its `is_*` methods agree with those of the
script it makes. -/
theorem C35_witness_program (v : UInt8) (p : Bytes) (hv : v.toNat ≤ 16) :
    (WitProgram.new v p = .ok ⟨v, p⟩ ↔ 2 ≤ p.length ∧ p.length ≤ 40 ∧ (v = 0 → p.length = 20 ∨ p.length = 32)) ∧
    (∀ w, WitProgram.new v p = .ok w →
      w.isP2wpkh = isP2wpkh w.script ∧ w.isP2wsh = isP2wsh w.script ∧ w.isP2tr = isP2tr w.script ∧
      w.isP2a = isP2a w.script) := by
  constructor
  · unfold WitProgram.new
    constructor
    · intro h
      by_cases h1 : p.length < 2 ∨ p.length > 40
      · rw [if_pos h1] at h; cases h
      · rw [if_neg h1] at h
        by_cases h2 : v = 0 ∧ (p.length ≠ 20 ∧ p.length ≠ 32)
        · rw [if_pos h2] at h; cases h
        · refine ⟨by omega, by omega, fun e => ?_⟩
          false_or_by_contra
          exact h2 ⟨e, by omega, by omega⟩
    · rintro ⟨h1, h2, h3⟩
      rw [if_neg (by omega), if_neg]
      rintro ⟨e, h4, h5⟩
      rcases h3 e with h | h <;> omega
  · intro w hw
    obtain ⟨hver, hws⟩ := C35_constructors.2.2.2.2.2.2.2.2 v p w hv hw
    have hwe : w = ⟨v, p⟩ := by
      unfold WitProgram.new at hw
      by_cases h1 : p.length < 2 ∨ p.length > 40
      · rw [if_pos h1] at hw; cases hw
      · rw [if_neg h1] at hw
        by_cases h2 : v = 0 ∧ (p.length ≠ 20 ∧ p.length ≠ 32)
        · rw [if_pos h2] at hw; cases hw
        · rw [if_neg h2] at hw; cases hw; rfl
    subst hwe
    obtain ⟨_, hl1, hl2, hs⟩ := hws
    have hbit : ∀ (n : Nat) (b : UInt8), 2 ≤ n → n ≤ 40 → b = UInt8.ofNat n →
        ∀ u : UInt8, (v == u && p.length == n) =
          ((WitProgram.script ⟨v, p⟩).length == n + 2 && witnessVersion (WitProgram.script ⟨v, p⟩) == some u &&
            at? (WitProgram.script ⟨v, p⟩) 1 == some b) := by
      intro n b hn1 hn2 hb u
      rw [hver, hs]
      simp only [List.length_cons, at?, List.getElem?_cons_succ, List.getElem?_cons_zero]
      rw [Bool.eq_iff_iff]
      simp only [Bool.and_eq_true, beq_iff_eq, Option.some.injEq]
      constructor
      · rintro ⟨h1, h2⟩
        exact ⟨⟨by omega, h1⟩, by rw [hb, h2]⟩
      · rintro ⟨⟨h1, h2⟩, _⟩
        exact ⟨h2, by omega⟩
    refine ⟨hbit 20 0x14 (by omega) (by omega) rfl 0, hbit 32 0x20 (by omega) (by omega) rfl 0,
      hbit 32 0x20 (by omega) (by omega) rfl 1, ?_⟩
    unfold WitProgram.isP2a isP2a
    have h2 := hbit 2 0x02 (by omega) (by omega) rfl 1
    rw [← h2, hs]
    simp only [List.drop_succ_cons, List.drop_zero]
    rw [Bool.eq_iff_iff]
    simp only [Bool.and_eq_true, beq_iff_eq]
    constructor
    · rintro ⟨h1, h3⟩; exact ⟨⟨h1, by rw [h3]; rfl⟩, h3⟩
    · rintro ⟨⟨h1, _⟩, h3⟩; exact ⟨h1, h3⟩

/-- `p2wpkh_script_code` never panics; it gives the P2PKH script of the program for P2WPKH scripts and nothing
otherwise. -/
theorem C35_script_code (s : Bytes) :
    (∀ h : Arr 20, s = [0, 0x14] ++ h.val → p2wpkhScriptCode s = some (some ([0x76, 0xa9, 0x14] ++ h.val ++ [0x88, 0xac]))) ∧
    ((¬ Pattern .p2wpkh s) → p2wpkhScriptCode s = some none) := by
  have hiff : isP2wpkh s = true ↔ Pattern .p2wpkh s := C35_exact .p2wpkh s
  unfold p2wpkhScriptCode
  constructor
  · intro h he
    rw [if_pos (hiff.2 ⟨h.val, h.property, he⟩)]
    have hd : s.drop 2 = h.val := by rw [he]; rfl
    have hl : (s.drop 2).length = 20 := by rw [hd]; exact h.property
    rw [dif_pos hl, (C35_constructors.2.1 _).2]
    simp only [hd]
  · intro hn
    rw [if_neg (fun h => hn (hiff.1 h))]

/-- Finding: the key counter of `is_multisig` is a `u8`: with overflow checks, a script `OP_1` followed by 256 pushes
panics; and that is the only way to panic. -/
theorem C35_multisig_panics (s : Bytes) : isMultisig true s = none ↔
    ∃ (m : UInt8) (keys : List Bytes) (rest : List (Except ScrErr Instr)), 1 ≤ m.toNat ∧ m.toNat ≤ 16 ∧ keys.length = 256 ∧
      instructions s = .ok (.op (0x50 + m)) :: ((keys.map Instr.push).map .ok ++ rest) := by
  constructor
  · intro h
    unfold isMultisig at h
    cases hi : instructions s with
    | nil => rw [hi] at h; simp at h
    | cons x l =>
      rw [hi] at h
      match x, h with
      | .error e, h => simp at h
      | .ok (.push d), h => simp at h
      | .ok (.op o), h =>
        simp only [] at h
        cases hd : decodePushnum o with
        | none => rw [hd] at h; simp at h
        | some m =>
          rw [hd] at h
          simp only [] at h
          obtain ⟨d1, d2, d3⟩ := decodePushnum_some hd
          cases hl : multisigLoop true l 0 with
          | none =>
            obtain ⟨keys, rest, e, hk⟩ := (loop_inv l 0 (by omega)).1 hl
            exact ⟨m, keys, rest, d1, d2, by omega, by rw [e, d3]⟩
          | some y =>
            exfalso
            cases y with
            | none => rw [hl] at h; simp at h
            | some y =>
              obtain ⟨k, r⟩ := y
              rw [hl] at h
              simp only [] at h
              split at h
              · cases h
              · split at h <;> cases h
  · rintro ⟨m, keys, rest, h1, h2, hk, hi⟩
    unfold isMultisig
    rw [hi]
    simp only []
    rw [decodePushnum_of m ⟨h1, h2⟩]
    simp only []
    have : multisigLoop true ((keys.map Instr.push).map .ok ++ rest) 0 = none := by
      rcases nil_or_snoc keys with rfl | ⟨ks, z, rfl⟩
      · simp at hk
      · have hks : ks.length = 255 := by simp at hk; omega
        rw [List.map_append, List.map_append, List.append_assoc, loop_pushes true ks _ 0 (by omega), hks]
        rfl
    rw [this]

/-- Finding: without overflow checks the counter wraps, and a script with 257 pushes is called a 1-of-1 multisig. -/
theorem C35_multisig_wraps (s : Bytes) (keys : List Bytes) (hk : keys.length = 257)
    (hi : instructions s = ([Instr.op 0x51] ++ keys.map Instr.push ++ [Instr.op 0x51, .op 0xae]).map .ok) :
    isMultisig false s = some true ∧ ¬ Pattern .multisig s := by
  have h2 : multisigLoop false ((keys.map Instr.push).map .ok ++ [.ok (.op 0x51), .ok (.op 0xae)]) 0 =
      some (some (1, [.ok (.op 0xae)])) := by
    rcases nil_or_snoc keys with rfl | ⟨ks, z, rfl⟩
    · simp at hk
    · rcases nil_or_snoc ks with rfl | ⟨ls, y, rfl⟩
      · simp at hk
      · have hls : ls.length = 255 := by simp at hk; omega
        simp only [List.map_append, List.append_assoc]
        rw [loop_pushes false ls _ 0 (by omega), hls]
        rfl
  constructor
  · unfold isMultisig
    rw [hi]
    simp only [List.map_append, List.map_cons, List.map_nil, List.cons_append, List.nil_append]
    rw [show decodePushnum 0x51 = some 1 from rfl]
    simp only []
    rw [h2]
    rfl
  · rintro ⟨m, n, ks, h1, h2, h3, h4, hi'⟩
    rw [hi] at hi'
    have := congrArg List.length hi'
    simp at this
    omega

/-! ### Push-only scripts, wrapped programs, unspendable scripts -/

/-- `is_push_only`: the script parses completely into pushes and opcodes up to `OP_16` (so `OP_RESERVED` counts). -/
theorem C35_push_only (s : Bytes) : isPushOnly s = true ↔
    ∃ is : List Instr, instructions s = is.map .ok ∧ ∀ i ∈ is, (∃ d, i = .push d) ∨ ∃ o : UInt8, i = .op o ∧ o.toNat ≤ 0x60 := by
  unfold isPushOnly
  rw [List.all_eq_true]
  constructor
  · intro h
    generalize instructions s = l at h
    induction l with
    | nil => exact ⟨[], rfl, by simp⟩
    | cons x l ih =>
      obtain ⟨is, e, hi⟩ := ih (fun y hy => h y (by simp [hy]))
      have hx := h x (by simp)
      match x, hx with
      | .error _, hx => simp at hx
      | .ok (.push d), _ =>
        refine ⟨.push d :: is, by rw [e]; rfl, ?_⟩
        intro i hm
        rcases List.mem_cons.1 hm with rfl | hm
        · exact .inl ⟨d, rfl⟩
        · exact hi i hm
      | .ok (.op o), hx =>
        refine ⟨.op o :: is, by rw [e]; rfl, ?_⟩
        intro i hm
        rcases List.mem_cons.1 hm with rfl | hm
        · refine .inr ⟨o, rfl, ?_⟩
          simp only [decide_eq_true_iff, UInt8.le_iff_toNat_le] at hx
          exact hx
        · exact hi i hm
  · rintro ⟨is, e, hi⟩ x hx
    rw [e] at hx
    obtain ⟨i, him, rfl⟩ := List.mem_map.1 hx
    rcases hi i him with ⟨d, rfl⟩ | ⟨o, rfl, ho⟩
    · rfl
    · simp only [decide_eq_true_iff, UInt8.le_iff_toNat_le]
      exact ho

/-- `redeem_script`: the last push of a script that consists of pushes only. -/
theorem C35_redeem_script (s r : Bytes) : redeemScript s = some r ↔
    ∃ ds : List Bytes, instructions s = ((ds ++ [r]).map Instr.push).map .ok := by
  unfold redeemScript
  constructor
  · intro h
    by_cases ha : (instructions s).any isNotPush = true
    · rw [if_pos ha] at h; cases h
    · rw [if_neg ha] at h
      have hall : ∃ ds : List Bytes, instructions s = (ds.map Instr.push).map .ok := by
        clear h
        generalize instructions s = l at ha
        induction l with
        | nil => exact ⟨[], rfl⟩
        | cons x l ih =>
          simp only [List.any_cons, Bool.or_eq_true, not_or] at ha
          obtain ⟨ds, e⟩ := ih ha.2
          match x, ha.1 with
          | .error _, hx => simp [isNotPush] at hx
          | .ok (.op o), hx => simp [isNotPush] at hx
          | .ok (.push d), _ => exact ⟨d :: ds, by rw [e]; rfl⟩
      obtain ⟨ds, e⟩ := hall
      rw [e] at h
      rcases nil_or_snoc ds with rfl | ⟨ds, d, rfl⟩
      · simp at h
      · simp only [List.map_append, List.map_cons, List.map_nil, List.getLast?_concat, Option.some.injEq] at h
        exact ⟨ds, by rw [← h]; exact e⟩
  · rintro ⟨ds, e⟩
    rw [e, if_neg]
    · simp
    · simp [isNotPush]

/-- The script signatures for wrapped witness programs push exactly the witness program, and `to_p2sh`, `to_p2wsh`
accept exactly the scripts that can be spent (520 and 10,000 bytes) and commit to their hash. -/
theorem C35_wrapped (H20 : Bytes → Arr 20) (H32 : Bytes → Arr 32) (s : Bytes) (h : Arr 20) :
    redeemScript (p2shP2wpkh h) = some ([0, 0x14] ++ h.val) ∧
    (p2shP2wsh H32 s = if s.length ≤ 10000 then some ([0x22, 0, 0x20] ++ (H32 s).val) else none) ∧
    redeemScript ([0x22, 0, 0x20] ++ (H32 s).val) = some ([0, 0x20] ++ (H32 s).val) ∧
    (toP2sh H20 s = if s.length ≤ 520 then some ([0xa9, 0x14] ++ (H20 s).val ++ [0x87]) else none) ∧
    (toP2wsh H32 s = if s.length ≤ 10000 then some ([0, 0x20] ++ (H32 s).val) else none) := by
  have key : ∀ p : Bytes, 2 ≤ p.length → p.length ≤ 75 → redeemScript (UInt8.ofNat p.length :: p) = some p := by
    intro p _ h2
    rw [C35_redeem_script]
    exact ⟨[], instructions_append false [] (UInt8.ofNat p.length :: p) [] (.push p) rfl (.direct p h2) (by simp)⟩
  have prog : ∀ d : Bytes, 2 ≤ d.length → d.length ≤ 40 →
      pushSlice [] (pushSlice (pushOpcode [] 0) d) = UInt8.ofNat (d.length + 2) :: (0 :: UInt8.ofNat d.length :: d) := by
    intro d h1 h2
    rw [pushSlice_long (pushOpcode [] 0) d h1 (by omega)]
    rw [pushSlice_long [] _ (by simp [pushOpcode]) (by simp [pushOpcode]; omega)]
    have hl : (pushOpcode [] 0 ++ UInt8.ofNat d.length :: d : Bytes).length = d.length + 2 := by simp [pushOpcode]
    rw [hl]; rfl
  have hl32 := (H32 s).property
  refine ⟨?_, ?_, ?_, ?_, ?_⟩
  · unfold p2shP2wpkh
    have hl := h.property
    rw [prog h.val (by omega) (by omega), hl]
    have := key ([0, 0x14] ++ h.val) (by simp) (by simp; omega)
    rw [show ([0, 0x14] ++ h.val : Bytes).length = 22 by simp; omega] at this
    exact this
  · unfold p2shP2wsh
    by_cases hc : s.length > 10000
    · rw [if_pos hc, if_neg (by omega)]
    · rw [if_neg hc, if_pos (by omega), prog _ (by omega) (by omega), hl32]; rfl
  · have := key ([0, 0x20] ++ (H32 s).val) (by simp) (by simp; omega)
    rw [show ([0, 0x20] ++ (H32 s).val : Bytes).length = 34 by simp; omega] at this
    exact this
  · unfold toP2sh
    by_cases hc : s.length > 520
    · rw [if_pos hc, if_neg (by omega)]
    · rw [if_neg hc, if_pos (by omega), (C35_constructors.2.2.1 _).2]
  · unfold toP2wsh
    by_cases hc : s.length > 10000
    · rw [if_pos hc, if_neg (by omega)]
    · rw [if_neg hc, if_pos (by omega), (C35_constructors.2.2.2.2.1 _).2]

/-- Opcodes that fail the script as soon as they are executed, or even if they are not: `OP_RETURN`, the reserved and
undefined ones, the disabled ones, `OP_VERIF` and `OP_VERNOTIF`. -/
def deadOpcodes : List UInt8 :=
  [0x6a, 0x50, 0x62, 0x89, 0x8a, 0x65, 0x66,
   0x7e, 0x7f, 0x80, 0x81, 0x83, 0x84, 0x85, 0x86, 0x8d, 0x8e, 0x95, 0x96, 0x97, 0x98, 0x99]

set_option maxRecDepth 8000 in
theorem dead_spec : ∀ b : UInt8, (classify b .legacy == .returnOp || classify b .legacy == .illegalOp) =
    (deadOpcodes.contains b || decide (0xba ≤ b.toNat)) := by
  apply forall_u8; decide

/-- `is_provably_unspendable`: the first opcode is a dead one; `is_standard_op_return`: an `OP_RETURN` of at most 83
bytes. -/
theorem C35_unspendable (s : Bytes) :
    (isProvablyUnspendable s = true ↔ ∃ b t, s = b :: t ∧ (b ∈ deadOpcodes ∨ 0xba ≤ b.toNat)) ∧
    (isStandardOpReturn s = true ↔ Pattern .opReturn s ∧ s.length ≤ 83) := by
  constructor
  · unfold isProvablyUnspendable
    cases s with
    | nil => simp
    | cons b t =>
      simp only [List.head?_cons]
      rw [dead_spec b]
      simp only [Bool.or_eq_true, decide_eq_true_iff, List.contains_iff_mem]
      constructor
      · intro h; exact ⟨b, t, rfl, h⟩
      · rintro ⟨b', t', e, h⟩; cases e; exact h
  · unfold isStandardOpReturn
    rw [Bool.and_eq_true, decide_eq_true_iff, opReturn_iff]

/-! ### Dust -/

open Classical in
/-- The size used for the dust rule: output plus the input spending it. -/
noncomputable def dustSize (s : Bytes) : Nat :=
  8 + csSize s.length + s.length + (if ∃ v p, WitnessScript v p s then 67 else 148)

open Classical in
/-- `minimal_non_dust_custom`: nothing for `OP_RETURN`, otherwise the rate times the size over 1000, rounded down;
`None` exactly if the product leaves 64 bits or the result is more than all money. -/
theorem C35_dust (s : Bytes) (rate : Nat) :
    minimalNonDustInternal s rate =
      if Pattern .opReturn s then some 0
      else if rate * dustSize s < 2 ^ 64 ∧ rate * dustSize s / 1000 ≤ 2100000000000000 then some (rate * dustSize s / 1000)
      else none := by
  have hw : isWitnessProgram s = true ↔ ∃ v p, WitnessScript v p s := by
    unfold isWitnessProgram
    rw [Option.isSome_iff_exists]
    constructor
    · rintro ⟨v, h⟩; exact ⟨v, (C35_witness_version s v).1 h⟩
    · rintro ⟨v, h⟩; exact ⟨v, (C35_witness_version s v).2 h⟩
  have aux : ∀ n, ((Amt.u64Mul rate n).bind fun x => Amt.okSat (x / 1000)) =
      if rate * n < 2 ^ 64 ∧ rate * n / 1000 ≤ 2100000000000000 then some (rate * n / 1000) else none := by
    intro n
    unfold Amt.u64Mul
    by_cases h : rate * n < 2 ^ 64
    · rw [if_pos h, Option.bind_some]
      unfold Amt.okSat Amt.fromSat
      by_cases h2 : rate * n / 1000 ≤ 2100000000000000
      · rw [if_neg (by show ¬ _ > 21000000 * 100000000; omega), if_pos ⟨h, h2⟩]
      · rw [if_pos (by show _ > 21000000 * 100000000; omega), if_neg (fun c => h2 c.2)]
    · rw [if_neg h, Option.bind_none, if_neg (fun c => h c.1)]
  unfold minimalNonDustInternal
  simp only []
  rw [aux]
  by_cases h1 : isOpReturn s = true
  · rw [if_pos h1, if_pos ((C35_exact .opReturn s).1 h1)]
    simp
  · rw [if_neg h1, if_neg (fun c => h1 ((C35_exact .opReturn s).2 c))]
    have hd : (if isWitnessProgram s = true then 32 + 4 + 1 + (107 / 4) + 4 + 8 + (csSize s.length + s.length)
        else 32 + 4 + 1 + 107 + 4 + 8 + (csSize s.length + s.length)) = dustSize s := by
      unfold dustSize
      by_cases h2 : isWitnessProgram s = true
      · rw [if_pos h2, if_pos (hw.1 h2)]; omega
      · rw [if_neg h2, if_neg (fun c => h2 (hw.2 c))]; omega
    rw [hd]

/-! ### Examples -/

example : recognises .p2pkh (newP2pkh ⟨List.replicate 20 7, rfl⟩) = true := by decide
example : recognises .multisig [0x51, 1, 9, 2, 8, 8, 0x52, 0xae] = true := by decide
example : Pattern .multisig [0x51, 1, 9, 2, 8, 8, 0x52, 0xae] := (C35_exact _ _).1 (by decide)
example : witnessVersion (0x52 :: 3 :: [1, 2, 3]) = some 2 := by decide
example : WitnessScript 2 [1, 2, 3] [0x52, 3, 1, 2, 3] := ⟨by decide, by decide, by decide, rfl⟩
example : redeemScript [1, 9, 2, 8, 8] = some [8, 8] := by decide
example : isPushOnly [1, 9, 0x60] = true := by decide
example : isProvablyUnspendable [0x6a, 1] = true := by decide
example : minimalNonDust (newP2wpkh ⟨List.replicate 20 7, rfl⟩) = some 294 := by decide
example : minimalNonDust (newP2pkh ⟨List.replicate 20 7, rfl⟩) = some 546 := by decide

end Scr
end Btc
