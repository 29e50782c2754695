import Verif.Props.C134
/-!
# C135: outputs without witness are spent by script signatures built with `push_slice` exactly if what is pushed meets their condition

Verification is `verify` of C129.
-/
namespace Btc
namespace Scr
namespace Core

/-- An opcode that pushes data is at most `OP_16`. -/
theorem pushes_le {M : Machine (List Bytes)} {d : Bytes} {o : UInt8 × Bytes} (h : Pushes .legacy M d o) (hd : d.length ≤ 520) : o.1.toNat ≤ 0x60 := by
  apply Classical.byContradiction
  intro hc
  have h1 := h ⟨[], [false], 201⟩ (fun _ => Nat.le_refl _)
  rw [if_neg (show ¬ St.on _ = true from by decide), if_neg (by omega)] at h1
  have hb : bump .legacy o.1 201 = 202 := if_pos ⟨rfl, by omega⟩
  unfold step at h1
  simp only [hb] at h1
  split at h1
  · cases h1
  · simp at h1

section
open SignTx Crypto
open Taproot (Hash)
open Classical

variable {S : Secp} {D : Der} {H : Bytes → Hash} {H160 : Bytes → Arr 20} {C : Curve S D} {tx : Tx} {spent : List TxOut} {i : Nat}

theorem run_pushes (one : Bool) (chk : Bytes → Bytes → Bool) (other : UInt8 → List Bytes → Option (List Bytes)) (lock : UInt8 → List Bytes → Bool) :
    ∀ (items : List Bytes) (s : Bytes) (x : List Bytes), (∀ d ∈ items, d.length ≤ 520) → x.length + items.length ≤ 1000 → (ops s).2 = true →
      (∀ o ∈ (ops s).1, o.1.toNat ≤ 0x60) → run .legacy (std false one H160 chk other lock) (ops s).1 ⟨[], [], 0⟩ = some ⟨x, [], 0⟩ →
      (ops (items.foldl pushSlice s)).2 = true ∧ (∀ o ∈ (ops (items.foldl pushSlice s)).1, o.1.toNat ≤ 0x60) ∧
        run .legacy (std false one H160 chk other lock) (ops (items.foldl pushSlice s)).1 ⟨[], [], 0⟩ = some ⟨items.reverse ++ x, [], 0⟩
  | [], s, x, _, _, h1, h2, h3 => ⟨h1, h2, h3⟩
  | d :: items, s, x, hd, hn, h1, h2, h3 => by
    have hd0 := hd d (List.mem_cons_self ..)
    simp only [List.length_cons] at hn
    obtain ⟨o, ho, hp⟩ := C130_push_slice .legacy (std false one H160 chk other lock) (numPush_std _ _ _ _ _ _) s h1 d (by omega)
    have ho' := ho []
    rw [List.append_nil, ops_nil] at ho'
    have hst := hp ⟨x, [], 0⟩ (fun _ => Nat.zero_le _)
    rw [if_pos (show St.on _ = true from rfl), if_neg (by omega)] at hst
    have hlim : (std false one H160 chk other lock).push d x = some (d :: x) := if_pos (by simp only [List.length_cons]; omega)
    rw [show (std false one H160 chk other lock).push d (St.mk x [] 0).s = some (d :: x) from hlim] at hst
    have := run_pushes one chk other lock items (pushSlice s d) (d :: x) (fun e he => hd e (List.mem_cons_of_mem _ he))
      (by simp only [List.length_cons]; omega) (by rw [ho']) (by
        rw [ho']
        intro p hp'
        rcases List.mem_append.1 hp' with hp' | hp'
        · exact h2 p hp'
        · rw [List.mem_singleton.1 hp']; exact pushes_le hp hd0) (by
        rw [ho']
        simp only []
        rw [run_append, h3]
        show run _ _ [o] ⟨x, [], 0⟩ = _
        simp only [run, hst, Option.map_some, Option.bind_some])
    simpa using this

/-- What a script signature built with `push_slice` leaves on the stack. -/
theorem C135_script_sig (other : UInt8 → List Bytes → Option (List Bytes)) (lock : UInt8 → List Bytes → Bool) (items : List Bytes)
    (hd : ∀ d ∈ items, d.length ≤ 520) (hn : items.length ≤ 1000) (hl : (items.foldl pushSlice []).length ≤ 10000) :
    isPushOnly (items.foldl pushSlice []) = true ∧ stackOf H H160 C other lock tx i (items.foldl pushSlice []) = some items.reverse := by
  obtain ⟨h1, h2, h3⟩ := run_pushes (H160 := H160) false (ecdsa C (legacyDigest H tx i (items.foldl pushSlice []))) other lock items [] [] hd (by simpa using hn) rfl
    (by intro o ho; cases ho) rfl
  refine ⟨(C131_push_only _).2 ⟨h1, h2⟩, ?_⟩
  unfold stackOf
  rw [if_neg (by omega)]
  unfold base
  rw [h3]
  simp only []
  rw [if_pos ⟨h1, trivial⟩, List.append_nil]

/-- Verification of an input that spends an output script that is evaluated on its own. -/
theorem bare_verify (other : UInt8 → List Bytes → Option (List Bytes)) (lock : UInt8 → List Bytes → Bool) (txin : TxIn) (own : TxOut)
    (hi : tx.inputs[i]? = some txin) (ho : spent[i]? = some own) (h1 : asProgram own.spk = none) (h2 : own.spk.head? ≠ some 0xa9) (h3 : own.spk.length ≤ 10000)
    (s : List Bytes) (hs : stackOf H H160 C other lock tx i txin.scriptSig = some s) :
    verify H H160 C other lock tx spent i = true ↔ txin.witness.toVec = some [] ∧
      eval .legacy (std false false H160 (ecdsa C (legacyDigest H tx i own.spk)) other lock) own.spk s = true := by
  unfold verify
  rw [hi, ho]
  simp only []
  rw [hs]
  cases hw : txin.witness.toVec with
  | none => simp
  | some stack =>
    simp only []
    rw [h1]
    simp only []
    rw [if_neg]
    · unfold base
      simp only [Bool.and_eq_true, decide_eq_true_eq, h3, true_and, List.isEmpty_iff, Option.some.injEq]
      exact and_comm
    · rintro ⟨h, e⟩
      rw [e] at h2
      exact h2 rfl

/-- An output of `new_p2pkh` is spent by the script signature that pushes `items` exactly if the last two are a signature and a key of the hash. -/
theorem C135_p2pkh (other : UInt8 → List Bytes → Option (List Bytes)) (lock : UInt8 → List Bytes → Bool) (txin : TxIn) (own : TxOut)
    (hi : tx.inputs[i]? = some txin) (ho : spent[i]? = some own) (items : List Bytes) (hd : ∀ d ∈ items, d.length ≤ 520) (hn : items.length ≤ 998)
    (hl : txin.scriptSig.length ≤ 10000) (hsig : txin.scriptSig = items.foldl pushSlice []) (h : Arr 20) (he : own.spk = newP2pkh h) :
    verify H H160 C other lock tx spent i = true ↔ txin.witness.toVec = some [] ∧ ∃ rest sig pk, items = rest ++ [sig, pk] ∧ H160 pk = h ∧
      EcdsaOk C (legacyDigest H tx i own.spk) pk sig := by
  rw [hsig] at hl
  have hs := (C135_script_sig (H := H) (H160 := H160) (C := C) (tx := tx) (i := i) other lock items hd (by omega) hl).2
  rw [← hsig] at hs
  have hb := he.trans (C35_constructors.2.1 h).2
  rw [bare_verify other lock txin own hi ho (by
      rw [hb]
      show asProgram (0x76 :: 0xa9 :: _) = none
      unfold asProgram
      simp only []
      rw [if_neg]
      rintro ⟨h, -⟩
      revert h
      decide) (by rw [hb]; show some (0x76 : UInt8) ≠ _; decide) (by rw [hb]; simp [h.2]) _ hs]
  refine and_congr_right fun _ => ?_
  rw [show eval .legacy (std false false H160 (ecdsa C (legacyDigest H tx i own.spk)) other lock) own.spk items.reverse =
    eval .legacy (std false false H160 (ecdsa C (legacyDigest H tx i own.spk)) other lock) (newP2pkh h) items.reverse by rw [← he], C129_p2pkh]
  constructor
  · rintro ⟨pk, sig, rest, e1, e2, e3, -⟩
    refine ⟨rest.reverse, sig, pk, ?_, e2, of_decide_eq_true e3⟩
    have := congrArg List.reverse e1
    simpa using this
  · rintro ⟨rest, sig, pk, e1, e2, e3⟩
    refine ⟨pk, sig, rest.reverse, by rw [e1]; simp, e2, decide_eq_true e3, ?_, by nofun⟩
    rw [e1] at hn
    simp only [List.length_append, List.length_cons, List.length_nil, List.length_reverse] at hn ⊢
    omega

/-- An output of `new_p2pk` is spent by the script signature that pushes `items` exactly if the last one is a signature for the key. -/
theorem C135_p2pk (other : UInt8 → List Bytes → Option (List Bytes)) (lock : UInt8 → List Bytes → Bool) (txin : TxIn) (own : TxOut)
    (hi : tx.inputs[i]? = some txin) (ho : spent[i]? = some own) (items : List Bytes) (hd : ∀ d ∈ items, d.length ≤ 520) (hn : items.length ≤ 999)
    (hl : txin.scriptSig.length ≤ 10000) (hsig : txin.scriptSig = items.foldl pushSlice []) (k : Bytes) (hk : k.length = 33 ∨ k.length = 65)
    (he : own.spk = newP2pk k) :
    verify H H160 C other lock tx spent i = true ↔ txin.witness.toVec = some [] ∧ ∃ rest sig, items = rest ++ [sig] ∧
      EcdsaOk C (legacyDigest H tx i own.spk) k sig := by
  rw [hsig] at hl
  have hs := (C135_script_sig (H := H) (H160 := H160) (C := C) (tx := tx) (i := i) other lock items hd (by omega) hl).2
  rw [← hsig] at hs
  have hb : own.spk = UInt8.ofNat k.length :: (k ++ [0xac]) := by
    rw [he]
    unfold newP2pk pushOpcode
    rw [pushSlice_long _ _ (by omega) (by omega)]; rfl
  rw [bare_verify other lock txin own hi ho (by
      rw [hb]
      match k, hk with
      | a :: k, hk =>
        show asProgram (UInt8.ofNat (a :: k).length :: a :: (k ++ [0xac])) = none
        unfold asProgram
        simp only []
        rw [if_neg]
        rintro ⟨h, -⟩
        rcases hk with hk | hk <;> rw [hk] at h <;> revert h <;> decide)
      (by rw [hb]; rcases hk with hk | hk <;> rw [hk] <;> (show some (_ : UInt8) ≠ _) <;> decide) (by rw [hb]; simp; omega) _ hs]
  refine and_congr_right fun _ => ?_
  rw [show eval .legacy (std false false H160 (ecdsa C (legacyDigest H tx i own.spk)) other lock) own.spk items.reverse =
    eval .legacy (std false false H160 (ecdsa C (legacyDigest H tx i own.spk)) other lock) (newP2pk k) items.reverse by rw [← he], C129_p2pk _ _ _ _ _ k hk]
  constructor
  · rintro ⟨sig, rest, e1, e3, -⟩
    refine ⟨rest.reverse, sig, ?_, of_decide_eq_true e3⟩
    have := congrArg List.reverse e1
    simpa using this
  · rintro ⟨rest, sig, e1, e3⟩
    refine ⟨sig, rest.reverse, by rw [e1]; simp, decide_eq_true e3, ?_, by nofun⟩
    rw [e1] at hn
    simp only [List.length_append, List.length_cons, List.length_nil, List.length_reverse] at hn ⊢
    omega

/-- The output script of `m` of `n` keys is spent by the script signature that pushes `items` exactly if these end with an empty element and `m` signatures,
each for a later key than the one before. -/
theorem C135_multisig (other : UInt8 → List Bytes → Option (List Bytes)) (lock : UInt8 → List Bytes → Bool) (txin : TxIn) (own : TxOut)
    (hi : tx.inputs[i]? = some txin) (ho : spent[i]? = some own) (items : List Bytes) (hd : ∀ d ∈ items, d.length ≤ 520) (hn : items.length ≤ 982)
    (hl : txin.scriptSig.length ≤ 10000) (hsig : txin.scriptSig = items.foldl pushSlice []) (m : Nat) (keys : List (FullPublicKey S)) (h1 : 1 ≤ m)
    (h2 : m ≤ keys.length) (h3 : keys.length ≤ 16) (he : multisigScript m keys = some own.spk) :
    verify H H160 C other lock tx spent i = true ↔ txin.witness.toVec = some [] ∧ ∃ rest sigs, items = rest ++ [] :: sigs ∧ sigs.length = m ∧
      Matches (EcdsaOk C (legacyDigest H tx i own.spk)) (keys.map (·.toBytes)) sigs := by
  rw [hsig] at hl
  have hs := (C135_script_sig (H := H) (H160 := H160) (C := C) (tx := tx) (i := i) other lock items hd (by omega) hl).2
  rw [← hsig] at hs
  rw [multisigScript_eq m keys h1 h2 h3] at he
  have hb := (Option.some.inj he).symm
  have hkl : ∀ k ∈ keys.map (·.toBytes), k.length = 33 := by
    intro k hk
    obtain ⟨x, -, rfl⟩ := List.mem_map.1 hk
    exact (S.ser x.inner).2
  have hlen : ∀ ks : List Bytes, (∀ k ∈ ks, k.length = 33) → (ks.flatMap SignTx.pushed).length = 34 * ks.length := by
    intro ks
    induction ks with
    | nil => intro _; rfl
    | cons k ks ih =>
      intro hk
      rw [List.flatMap_cons, List.length_append, ih (fun x hx => hk x (List.mem_cons_of_mem _ hx))]
      have := hk k (List.mem_cons_self ..)
      simp only [SignTx.pushed, List.length_cons, this]
      omega
  have hm : (UInt8.ofNat (0x50 + m)).toNat = 0x50 + m := UInt8.toNat_ofNat_of_lt' (by show 0x50 + m < 256; omega)
  have hne : ∃ k ks, keys.map (·.toBytes) = k :: ks := by
    cases hk : keys.map (·.toBytes) with
    | nil =>
      have := congrArg List.length hk
      rw [List.length_map, List.length_nil] at this
      omega
    | cons k ks => exact ⟨k, ks, rfl⟩
  have hprog : asProgram own.spk = none := by
    obtain ⟨k, ks, hk⟩ := hne
    have hk33 := hkl k (by rw [hk]; exact List.mem_cons_self ..)
    rw [hb, hk]
    show asProgram (UInt8.ofNat (0x50 + m) :: UInt8.ofNat k.length :: (k ++ ks.flatMap SignTx.pushed ++ _)) = none
    unfold asProgram
    simp only []
    rw [if_neg]
    rintro ⟨-, h, -⟩
    rw [hk33] at h
    simp only [List.length_append, hk33, List.length_cons, List.length_nil] at h
    have h33 : (UInt8.ofNat 33).toNat = 33 := rfl
    rw [h33] at h
    omega
  rw [bare_verify other lock txin own hi ho hprog (by
      rw [hb]
      show some (UInt8.ofNat (0x50 + m)) ≠ some 0xa9
      intro e
      have := congrArg UInt8.toNat (Option.some.inj e)
      rw [hm] at this
      have h9 : (0xa9 : UInt8).toNat = 0xa9 := rfl
      omega) (by
      rw [hb]
      simp only [List.length_append, hlen _ hkl, List.length_map, List.length_cons, List.length_nil]
      omega) _ hs]
  refine and_congr_right fun _ => ?_
  generalize hchk : ecdsa C (legacyDigest H tx i own.spk) = chk
  have hM : (fun k s => chk k s = true) = EcdsaOk C (legacyDigest H tx i own.spk) := by
    subst hchk
    funext k s
    simp [ecdsa]
  rw [← hM]
  clear hM hchk
  rw [hb, show keys.length = (keys.map (·.toBytes)).length by rw [List.length_map],
    C129_multisig false H160 chk other lock m _ h1 (by rw [List.length_map]; exact h2) (by rw [List.length_map]; exact h3)
      (fun k hk => by rw [hkl k hk]; decide) items.reverse (by rw [List.length_reverse]; exact hn)]
  constructor
  · rintro ⟨sigs, rest, e1, e2, e3, -⟩
    refine ⟨rest.reverse, sigs, ?_, e2, e3⟩
    have := congrArg List.reverse e1
    simpa using this
  · rintro ⟨rest, sigs, e1, e2, e3⟩
    exact ⟨sigs, rest.reverse, by rw [e1]; simp, e2, e3, by nofun⟩

/-- An output of `to_p2sh` is spent by the script signature that pushes `items` exactly if the last one is a script of the same hash which succeeds on the
others.  (Redeem scripts that are witness programs: C134.) -/
theorem C135_p2sh (other : UInt8 → List Bytes → Option (List Bytes)) (lock : UInt8 → List Bytes → Bool) (txin : TxIn) (own : TxOut)
    (hi : tx.inputs[i]? = some txin) (ho : spent[i]? = some own) (items : List Bytes) (hd : ∀ d ∈ items, d.length ≤ 520) (hn : items.length ≤ 999)
    (hl : txin.scriptSig.length ≤ 10000) (hsig : txin.scriptSig = items.foldl pushSlice []) (r : Bytes) (he : toP2sh H160 r = some own.spk)
    (hr : ∀ x, items.getLast? = some x → witnessVersion x = none) :
    verify H H160 C other lock tx spent i = true ↔ txin.witness.toVec = some [] ∧ ∃ rest redeem, items = rest ++ [redeem] ∧ H160 redeem = H160 r ∧
      eval .legacy (std false false H160 (fun pk sig => decide (EcdsaOk C (legacyDigest H tx i redeem) pk sig)) other lock) redeem rest.reverse = true := by
  rw [hsig] at hl
  obtain ⟨hpo, hs⟩ := C135_script_sig (H := H) (H160 := H160) (C := C) (tx := tx) (i := i) other lock items hd (by omega) hl
  rw [← hsig] at hs hpo
  have hspk : own.spk = newP2sh (H160 r) := by
    unfold toP2sh at he
    split at he
    · cases he
    · exact (Option.some.inj he).symm
  have he' := hspk.trans (C35_constructors.2.2.1 _).2
  have h3 : asProgram own.spk = none := by
    rw [he']
    show asProgram (0xa9 :: 0x14 :: _) = none
    unfold asProgram
    simp only []
    rw [if_neg]
    rintro ⟨h, -⟩
    revert h
    decide
  have h5 : (ops txin.scriptSig).1.all (fun o => decide (o.1.toNat ≤ 0x60)) = true := by
    rw [List.all_eq_true]
    intro o ho
    exact decide_eq_true (((C131_push_only _).1 hpo).2 o ho)
  have hlen : own.spk.length ≤ 10000 := by rw [he']; simp [(H160 r).2]
  have hev : ∀ s, eval .legacy (base H H160 C other lock tx i own.spk) own.spk s = true ↔ _ :=
    fun s => (show _ = eval .legacy (base H H160 C other lock tx i own.spk) (newP2sh (H160 r)) s by rw [← hspk]) ▸
      C129_p2sh false H160 (ecdsa C (legacyDigest H tx i own.spk)) other lock (H160 r) s
  unfold verify
  rw [hi, ho]
  simp only []
  rw [hs]
  cases hw : txin.witness.toVec with
  | none => simp
  | some stack =>
    simp only []
    rw [h3]
    simp only []
    rw [if_pos ⟨H160 r, he'⟩, h5]
    simp only [Bool.and_eq_true, decide_eq_true_eq, hlen, true_and, hev, Option.some.injEq]
    cases hir : items.reverse with
    | nil =>
      have : items = [] := by simpa using hir
      subst this
      simp
    | cons redeem q =>
      have hit : items = q.reverse ++ [redeem] := by
        have := congrArg List.reverse hir
        simpa using this
      have hnone : asProgram redeem = none := by
        have := hr redeem (by rw [hit]; simp)
        rw [C131_witness_version] at this
        simpa using this
      simp only [hnone, Bool.and_eq_true, List.isEmpty_iff]
      constructor
      · rintro ⟨⟨redeem', rest, e1, e2, -⟩, e3, e4⟩
        cases e1
        exact ⟨e4, q.reverse, redeem, hit, e2, by rw [List.reverse_reverse]; exact e3⟩
      · rintro ⟨e4, rest, redeem', e1, e2, e3⟩
        rw [e1, List.reverse_append] at hir
        simp only [List.reverse_cons, List.reverse_nil, List.nil_append, List.cons_append, List.cons.injEq] at hir
        obtain ⟨rfl, rfl⟩ := hir
        refine ⟨⟨redeem', _, rfl, e2, ?_, by nofun⟩, e3, e4⟩
        rw [e1] at hn
        simp only [List.length_append, List.length_cons, List.length_nil, List.length_reverse] at hn ⊢
        omega

/-- An output of `new_op_return` is spent by nothing. -/
theorem C135_op_return (other : UInt8 → List Bytes → Option (List Bytes)) (lock : UInt8 → List Bytes → Bool) (own : TxOut) (ho : spent[i]? = some own)
    (d : Bytes) (he : own.spk = newOpReturn d) : verify H H160 C other lock tx spent i = false := by
  have h : ∀ s, eval .legacy (base H H160 C other lock tx i own.spk) own.spk s = false := by
    intro s
    rw [show eval .legacy (base H H160 C other lock tx i own.spk) own.spk s = eval .legacy (base H H160 C other lock tx i own.spk) (newOpReturn d) s by rw [← he]]
    exact C129_op_return false H160 _ other lock d s
  unfold verify
  rw [ho]
  cases tx.inputs[i]? with
  | none => rfl
  | some txin =>
    simp only []
    split
    · rw [h]; simp
    · rfl

/-! ## Examples -/

/-- A number is pushed by its own opcode. -/
example : ([[7, 8], [3], []] : List Bytes).foldl pushSlice [] = [2, 7, 8, 0x53, 0] := by decide
/-- The redeem script `OP_3 OP_EQUAL` is spent by the number 3, pushed by its opcode, and not by 4. -/
example : toP2sh toyH160 [0x53, 0x87] = some (newP2sh (toyH160 [0x53, 0x87])) ∧
    verify wH toyH160 toyCurve (fun _ _ => none) (fun _ _ => false) (wTx (([[3], [0x53, 0x87]] : List Bytes).foldl pushSlice []) [])
      [wOut (newP2sh (toyH160 [0x53, 0x87]))] 0 = true ∧
    verify wH toyH160 toyCurve (fun _ _ => none) (fun _ _ => false) (wTx (([[4], [0x53, 0x87]] : List Bytes).foldl pushSlice []) [])
      [wOut (newP2sh (toyH160 [0x53, 0x87]))] 0 = false := by
  refine ⟨by decide +kernel, ?_, ?_⟩
  · rw [C135_p2sh _ _ _ _ rfl rfl [[3], [0x53, 0x87]] (by decide) (by decide) (by decide) rfl [0x53, 0x87] (by decide +kernel) (by
      intro x hx; cases hx; decide)]
    exact ⟨by decide +kernel, [[3]], [0x53, 0x87], rfl, rfl, rfl⟩
  · rw [Bool.eq_false_iff, ne_eq, C135_p2sh _ _ _ _ rfl rfl [[4], [0x53, 0x87]] (by decide) (by decide) (by decide) rfl [0x53, 0x87] (by decide +kernel) (by
      intro x hx; cases hx; decide)]
    rintro ⟨-, rest, redeem, e1, -, e2⟩
    have hr : [[4]] = rest ∧ [0x53, 0x87] = redeem := by
      match rest, e1 with
      | [], e1 => cases e1
      | [a], e1 => cases e1; exact ⟨rfl, rfl⟩
      | a :: b :: l, e1 => simp at e1
    obtain ⟨rfl, rfl⟩ := hr
    cases e2
/-- Outputs for keys: nothing is spent without a signature. -/
example : verify wH toyH160 toyCurve (fun _ _ => none) (fun _ _ => false) (wTx (([[3]] : List Bytes).foldl pushSlice []) []) [wOut (newP2pkh (toyH160 [3]))] 0 = false ∧
    verify wH toyH160 toyCurve (fun _ _ => none) (fun _ _ => false) (wTx (([] : List Bytes).foldl pushSlice []) []) [wOut (newP2pk (2 :: List.replicate 32 7))] 0 = false ∧
    verify wH toyH160 toyCurve (fun _ _ => none) (fun _ _ => false) (wTx [0x51] []) [wOut (newOpReturn [1, 2])] 0 = false := by
  refine ⟨?_, ?_, C135_op_return _ _ _ rfl [1, 2] rfl⟩
  · rw [Bool.eq_false_iff, ne_eq, C135_p2pkh _ _ _ _ rfl rfl [[3]] (by decide) (by decide) (by decide) rfl (toyH160 [3]) rfl]
    rintro ⟨-, rest, sig, pk, e, -⟩
    have := congrArg List.length e
    simp at this
  · rw [Bool.eq_false_iff, ne_eq, C135_p2pk _ _ _ _ rfl rfl [] (by decide) (by decide) (by decide) rfl _ (by decide) rfl]
    rintro ⟨-, rest, sig, e, -⟩
    simp at e
/-- One of two keys: no signature is accepted without the empty element. -/
example : ∃ spk, multisigScript 1 [toyKey.toPublicKey Secp.toy, toyKey'.toPublicKey Secp.toy] = some spk ∧
    verify wH toyH160 toyCurve (fun _ _ => none) (fun _ _ => false) (wTx (([[9, 9]] : List Bytes).foldl pushSlice []) []) [wOut spk] 0 = false := by
  refine ⟨_, multisigScript_eq 1 _ (by decide) (by decide) (by decide), ?_⟩
  rw [Bool.eq_false_iff, ne_eq, C135_multisig _ _ _ _ rfl rfl [[9, 9]] (by decide) (by decide) (by decide) rfl 1
    [toyKey.toPublicKey Secp.toy, toyKey'.toPublicKey Secp.toy] (by decide) (by decide) (by decide)
    (multisigScript_eq 1 _ (by decide) (by decide) (by decide))]
  rintro ⟨-, rest, sigs, e, -⟩
  have : ([] : Bytes) ∈ [[9, 9]] := by rw [e]; simp
  simp at this

end

end Core
end Scr
end Btc
