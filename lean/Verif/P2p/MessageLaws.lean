import Verif.P2p.Message
import Verif.P2p.PayloadDrains
import Verif.Codec.Accepts
/-!
# Laws of the network message codec
-/
namespace Btc
namespace P2p

/-! ### Command strings -/

theorem isAscii_append (a b : Bytes) : isAscii (a ++ b) = (isAscii a && isAscii b) := by simp [isAscii]

theorem isAscii_zeros (n : Nat) : isAscii (List.replicate n 0) = true := by simp [isAscii]

theorem interiorNull_iff (b : Bytes) : interiorNull b = false ↔ ∃ s n, b = s ++ List.replicate n 0 ∧ 0 ∉ s := by
  induction b with
  | nil => exact ⟨fun _ => ⟨[], 0, rfl, by simp⟩, fun _ => rfl⟩
  | cons x t ih =>
    by_cases hx : x = 0
    · subst hx
      have h1 : interiorNull (0 :: t) = t.any (· != 0) := by simp [interiorNull]
      rw [h1]
      constructor
      · intro h
        refine ⟨[], t.length + 1, ?_, by simp⟩
        rw [List.nil_append, List.replicate_succ]
        congr 1
        refine List.eq_replicate_iff.mpr ⟨rfl, fun y hy => ?_⟩
        have := List.any_eq_false.mp h y hy
        simpa using this
      · rintro ⟨s, n, h, hs⟩
        match s with
        | [] =>
          rw [List.nil_append] at h
          have hy : ∀ y ∈ (0 : UInt8) :: t, y = 0 := by
            rw [h]; intro y hy; exact (List.mem_replicate.mp hy).2
          refine List.any_eq_false.mpr fun y hy' => ?_
          have := hy y (List.mem_cons_of_mem _ hy')
          simp [this]
        | y :: s' =>
          cases h
          simp at hs
    · have h1 : interiorNull (x :: t) = interiorNull t := by simp [interiorNull, hx]
      rw [h1, ih]
      constructor
      · rintro ⟨s, n, h, hs⟩
        exact ⟨x :: s, n, by rw [h]; rfl, by simp [hs, Ne.symm hx]⟩
      · rintro ⟨s, n, h, hs⟩
        match s with
        | [] =>
          match n with
          | 0 => cases h
          | n + 1 => rw [List.nil_append, List.replicate_succ] at h; cases h; exact (hx rfl).elim
        | y :: s' =>
          cases h
          exact ⟨s', n, rfl, fun hm => hs (List.mem_cons_of_mem _ hm)⟩

theorem trim_append (s : Bytes) (n : Nat) (hs : 0 ∉ s) :
    ((s ++ List.replicate n 0).reverse.dropWhile (· == 0)).reverse = s := by
  rw [List.reverse_append, List.reverse_replicate]
  have h : ∀ (n : Nat) (l : Bytes), (List.replicate n 0 ++ l).dropWhile (· == 0) = l.dropWhile (· == 0) := by
    intro n l
    induction n with
    | zero => rfl
    | succ n ih => rw [List.replicate_succ]; simpa using ih
  rw [h]
  cases hr : s.reverse with
  | nil => simpa using hr.symm
  | cons x t =>
    have : x ≠ 0 := by
      intro h0
      apply hs
      have : x ∈ s.reverse := by rw [hr]; exact List.mem_cons_self
      rw [h0] at this
      simpa using this
    simp only [List.dropWhile, beq_iff_eq, this]
    have e : (x == (0 : UInt8)) = false := by simp [this]
    rw [e, ← hr, List.reverse_reverse]

/-- A command is its trimmed form padded with zero bytes. -/
theorem cmd_shape (c : Cmd) : c.1 = c.asRef ++ List.replicate (12 - c.asRef.length) 0 ∧ 0 ∉ c.asRef ∧
    c.asRef.length ≤ 12 ∧ isAscii c.asRef = true := by
  obtain ⟨b, h1, h2, h3⟩ := c
  obtain ⟨s, n, hb, hs⟩ := (interiorNull_iff b).mp h3
  have ht : Cmd.asRef ⟨b, h1, h2, h3⟩ = s := by
    show (b.reverse.dropWhile (· == 0)).reverse = s
    rw [hb]; exact trim_append s n hs
  rw [ht]
  rw [hb] at h1 h2
  rw [List.length_append, List.length_replicate] at h1
  rw [isAscii_append, Bool.and_eq_true] at h2
  refine ⟨?_, hs, by omega, h2.1⟩
  show b = _
  rw [hb, show 12 - s.length = n by omega]

theorem tryFrom_iff (s : Bytes) (hs : 0 ∉ s) (c : Cmd) : Cmd.tryFrom s = some c ↔ c.asRef = s := by
  constructor
  · intro h
    unfold Cmd.tryFrom at h
    split at h
    · cases h
    · simp only [] at h
      split at h
      · cases h
        exact trim_append s _ hs
      · cases h
  · intro h
    obtain ⟨h1, _, h3, h4⟩ := cmd_shape c
    rw [h] at h1 h3 h4
    unfold Cmd.tryFrom
    rw [if_neg (by simp [h4]; omega)]
    simp only []
    obtain ⟨b, hb⟩ := c
    change b = _ at h1
    subst h1
    rw [dif_pos hb]

theorem tryFrom_asRef (c : Cmd) : Cmd.tryFrom c.asRef = some c := (tryFrom_iff _ (cmd_shape c).2.1 c).mpr rfl

theorem asRef_inj {c d : Cmd} (h : c.asRef = d.asRef) : c = d := by
  have := tryFrom_asRef c
  rw [h, tryFrom_asRef] at this
  exact (Option.some.inj this).symm

theorem cmd_dw : Dw cmdDec (fun c => c.1) (fun _ => True) := by
  refine (Dw.array 12 (by omega)).mapE ?_ ?_
  · intro a x _ hx
    split at hx
    · cases hx; exact ⟨trivial, rfl⟩
    · cases hx
  · intro x _
    exact ⟨x.1, x.2.1, by rw [dif_pos x.2]⟩

/-! ### The v1 header -/

def v1HeaderBytes (h : V1Header) : Bytes := h.magic.1 ++ h.command.1 ++ (u32le h.length ++ h.checksum.1)

theorem v1Header_dw : Dw v1HeaderDec v1HeaderBytes (fun _ => True) :=
  ((arr_dw 4 (by omega)).seq4 cmd_dw u32_dw (arr_dw 4 (by omega))).map
    (fun x => (⟨x.1, x.2.1, x.2.2.1, x.2.2.2⟩ : V1Header))
    (fun y : V1Header => (y.magic, y.command, y.length, y.checksum)) (fun _ => rfl) (fun _ _ => rfl)
    (fun _ => ⟨fun _ => ⟨trivial, trivial, trivial, trivial⟩, fun _ => trivial⟩) (fun _ => rfl)

theorem v1Header_drains (h : V1Header) : Drains v1HeaderEnc h.encoder (v1HeaderBytes h) :=
  dtuple (dcons (C06_bytes _) (dcons (C06_bytes _) (dcons (C06_bytes _) (dcons (C06_bytes _) dnil)))) (by simp)
    (by simp [v1HeaderBytes])

/-! ### Payloads -/

/-- The payload values whose encoding is decoded back. -/
def Kind.Ok : (k : Kind) → k.Payload → Prop
  | .version, (p : VersionMsg) => p.userAgent.1.length ≤ MAX_VEC_SIZE
  | .addr, (p : List AddrV1) => p.length ≤ MAX_VEC_SIZE
  | .inv, (p : List Inventory) => p.length ≤ MAX_VEC_SIZE ∧ ∀ i ∈ p, InvOk i
  | .getData, (p : List Inventory) => p.length ≤ MAX_VEC_SIZE ∧ ∀ i ∈ p, InvOk i
  | .notFound, (p : List Inventory) => p.length ≤ MAX_VEC_SIZE ∧ ∀ i ∈ p, InvOk i
  | .getBlocks, (p : Locator) => p.hashes.length ≤ MAX_VEC_SIZE
  | .getHeaders, (p : Locator) => p.hashes.length ≤ MAX_VEC_SIZE
  | .tx, (p : Tx) => TxOk p
  | .block, (p : Block) => BlockOk p
  | .headers, (p : List NetHeader) => p.length ≤ MAX_VEC_SIZE
  | .ping, _ => True
  | .pong, _ => True
  | .merkleBlock, (p : Pmt.MerkleBlock) => Pmt.TreeOk p.txn
  | .filterLoad, (p : FilterLoad) => p.filter.length ≤ MAX_VEC_SIZE
  | .filterAdd, (p : Bytes) => p.length ≤ MAX_VEC_SIZE
  | .getCFilters, _ => True
  | .cFilter, (p : CFilter) => p.filter.length ≤ MAX_VEC_SIZE
  | .getCFHeaders, _ => True
  | .cfHeaders, (p : CFHeaders) => p.hashes.length ≤ MAX_VEC_SIZE
  | .getCFCheckpt, _ => True
  | .cfCheckpt, (p : CFCheckpt) => p.headers.length ≤ MAX_VEC_SIZE
  | .sendCmpct, _ => True
  | .cmpctBlock, (p : Bip152.Compact) => p.shortIds.length + p.prefilled.length ≤ 65535 ∧
      ∀ x ∈ p.prefilled, x.idx < 2 ^ 16 ∧ TxOk x.tx
  | .getBlockTxn, (p : Bip152.Request) => p.offsets.length ≤ MAX_VEC_SIZE ∧ ∀ o ∈ p.offsets, o ≤ MAX_COMPACT_SIZE
  | .blockTxn, (p : Bip152.BlockTxs) => p.txs.length ≤ MAX_VEC_SIZE ∧ ∀ tx ∈ p.txs, TxOk tx
  | .alert, (p : Bytes) => p.length ≤ MAX_VEC_SIZE
  | .reject, (p : Reject) => RejectOk p
  | .feeFilter, (p : UInt64) => FeeOk p
  | .addrV2, (p : List AddrV2Msg) => p.length ≤ MAX_VEC_SIZE ∧ ∀ a ∈ p, AddrV2Ok a.addr
  | .sendTxRcnCl, _ => True
  | .feature, _ => True

/-- The byte strings decoded to a payload: its encoding; for `version` the relay byte may be any byte with the right
truth value. -/
def Kind.Form : (k : Kind) → k.Payload → Bytes → Prop
  | .version, p, w => VersionForm p w
  | k, p, w => k.Ok p ∧ w = k.bytes p

theorem df_of {α : Type} {d : Dec α} {b : α → Bytes} {ok ok' : α → Prop} (h : Dw d b ok) (ho : ∀ a, ok a ↔ ok' a) :
    Df d (fun a w => ok' a ∧ w = b a) := (h.congr ho (fun _ _ => rfl)).df

theorem vec_true {α : Type} {d : Dec α} {b : α → Bytes} (h : Dw d b (fun _ => True)) :
    Df (vecDec d MAX_VEC_SIZE) (fun l w => l.length ≤ MAX_VEC_SIZE ∧ w = csEncode l.length ++ (l.map b).flatten) :=
  df_of h.vec (fun _ => ⟨fun h => h.1, fun h => ⟨h, fun _ _ => trivial⟩⟩)

/-- Every payload decoder accepts exactly the wire forms of its payloads. -/
theorem kind_df : ∀ k : Kind, Df k.dec k.Form
  | .version => version_df
  | .addr => vec_true addrV1_dw
  | .inv => inv_dw.vec.df
  | .getData => inv_dw.vec.df
  | .notFound => inv_dw.vec.df
  | .getBlocks => locator_dw.df
  | .getHeaders => locator_dw.df
  | .tx => Dw.df ⟨_, txDec_lawful, tx_wire⟩
  | .block => Dw.df ⟨_, blockDec_lawful, block_wire⟩
  | .headers => vec_true netHeader_dw
  | .ping => u64_dw.df
  | .pong => u64_dw.df
  | .merkleBlock => merkleBlock_dw.df
  | .filterLoad => filterLoad_dw.df
  | .filterAdd => bytes_dw.df
  | .getCFilters => getCF_dw.df
  | .cFilter => cFilter_dw.df
  | .getCFHeaders => getCF_dw.df
  | .cfHeaders => cfHeaders_dw.df
  | .getCFCheckpt => getCFCheckpt_dw.df
  | .cfCheckpt => cfCheckpt_dw.df
  | .sendCmpct => sendCmpct_dw.df
  | .cmpctBlock => Dw.df ⟨_, Bip152.compactDec_lawful, Bip152.compact_wire⟩
  | .getBlockTxn => Dw.df ⟨_, Bip152.requestDec_lawful, Bip152.request_wire⟩
  | .blockTxn => Dw.df ⟨_, Bip152.blockTxsDec_lawful, Bip152.blockTxs_wire⟩
  | .alert => bytes_dw.df
  | .reject => reject_dw.df
  | .feeFilter => feeFilter_dw.df
  | .addrV2 => addrV2Msg_dw.vec.df
  | .sendTxRcnCl => sendTxRcnCl_dw.df
  | .feature => feature_dw.df

/-- The model's one range condition that is a type in the code: `num_transactions` is a `u32`. -/
def Kind.Typed : (k : Kind) → k.Payload → Prop
  | .merkleBlock, (p : Pmt.MerkleBlock) => p.txn.num < 2 ^ 32
  | _, _ => True

/-- Every payload encoder yields `Kind.bytes`. -/
theorem kind_drains : ∀ (k : Kind) (p : k.Payload), k.Typed p → Drains k.enc (k.start p) (k.bytes p)
  | .version, p, _ => version_drains p
  | .addr, p, _ => slice_drains AddrV1.encoder addrV1Bytes p addrV1_drains addrV1_start
  | .inv, p, _ => slice_drains Inventory.encoder invBytes p inv_drains inv_start
  | .getData, p, _ => slice_drains Inventory.encoder invBytes p inv_drains inv_start
  | .notFound, p, _ => slice_drains Inventory.encoder invBytes p inv_drains inv_start
  | .getBlocks, p, _ => locator_drains p
  | .getHeaders, p, _ => locator_drains p
  | .tx, p, _ => txEnc_drains p
  | .block, p, _ => blockEnc_drains p
  | .headers, p, _ => slice_drains NetHeader.encoder netHeaderBytes p netHeader_drains netHeader_start
  | .ping, _, _ => C06_bytes _
  | .pong, _, _ => C06_bytes _
  | .merkleBlock, p, h => merkleBlock_drains p h
  | .filterLoad, p, _ => filterLoad_drains p
  | .filterAdd, p, _ => C06_prefixed_bytes p
  | .getCFilters, p, _ => getCF_drains p
  | .cFilter, p, _ => cFilter_drains p
  | .getCFHeaders, p, _ => getCF_drains p
  | .cfHeaders, p, _ => cfHeaders_drains p
  | .getCFCheckpt, p, _ => getCFCheckpt_drains p
  | .cfCheckpt, p, _ => cfCheckpt_drains p
  | .sendCmpct, p, _ => sendCmpct_drains p
  | .cmpctBlock, p, _ => Bip152.compactEnc_drains p
  | .getBlockTxn, p, _ => Bip152.requestEnc_drains p
  | .blockTxn, p, _ => Bip152.blockTxsEnc_drains p
  | .alert, p, _ => C06_prefixed_bytes p
  | .reject, p, _ => reject_drains p
  | .feeFilter, _, _ => C06_bytes _
  | .addrV2, p, _ => slice_drains AddrV2Msg.encoder addrV2MsgBytes p addrV2Msg_drains addrV2Msg_start
  | .sendTxRcnCl, p, _ => sendTxRcnCl_drains p
  | .feature, p, _ => feature_drains p

/-- An ok payload's encoding is one of its wire forms. -/
theorem form_bytes : ∀ (k : Kind) (p : k.Payload), k.Ok p → k.Form p (k.bytes p)
  | .version, (p : VersionMsg), h => ⟨h, if p.relay then 1 else 0, by cases p.relay <;> rfl, rfl⟩
  | .addr, _, h | .inv, _, h | .getData, _, h | .notFound, _, h | .getBlocks, _, h | .getHeaders, _, h | .tx, _, h
  | .block, _, h | .headers, _, h | .ping, _, h | .pong, _, h | .merkleBlock, _, h | .filterLoad, _, h
  | .filterAdd, _, h | .getCFilters, _, h | .cFilter, _, h | .getCFHeaders, _, h | .cfHeaders, _, h
  | .getCFCheckpt, _, h | .cfCheckpt, _, h | .sendCmpct, _, h | .cmpctBlock, _, h | .getBlockTxn, _, h
  | .blockTxn, _, h | .alert, _, h | .reject, _, h | .feeFilter, _, h | .addrV2, _, h | .sendTxRcnCl, _, h
  | .feature, _, h => ⟨h, rfl⟩

theorem form_ok : ∀ (k : Kind) (p : k.Payload) (w : Bytes), k.Form p w → k.Ok p
  | .version, (_ : VersionMsg), _, h => h.1
  | .addr, _, _, h | .inv, _, _, h | .getData, _, _, h | .notFound, _, _, h | .getBlocks, _, _, h
  | .getHeaders, _, _, h | .tx, _, _, h | .block, _, _, h | .headers, _, _, h | .ping, _, _, h | .pong, _, _, h
  | .merkleBlock, _, _, h | .filterLoad, _, _, h | .filterAdd, _, _, h | .getCFilters, _, _, h | .cFilter, _, _, h
  | .getCFHeaders, _, _, h | .cfHeaders, _, _, h | .getCFCheckpt, _, _, h | .cfCheckpt, _, _, h | .sendCmpct, _, _, h
  | .cmpctBlock, _, _, h | .getBlockTxn, _, _, h | .blockTxn, _, _, h | .alert, _, _, h | .reject, _, _, h
  | .feeFilter, _, _, h | .addrV2, _, _, h | .sendTxRcnCl, _, _, h | .feature, _, _, h => h.1

/-- Only `version` has wire forms other than the encoding. -/
theorem form_eq (k : Kind) (hk : k ≠ .version) (p : k.Payload) (w : Bytes) (h : k.Form p w) : w = k.bytes p := by
  cases k <;> first | exact (hk rfl).elim | exact h.2

theorem form_length (k : Kind) (p : k.Payload) (w : Bytes) (h : k.Form p w) : w.length = (k.bytes p).length := by
  by_cases hk : k = .version
  · subst hk
    obtain ⟨_, r, _, rfl⟩ := h
    show (versionForm p r).length = (versionBytes p).length
    simp [versionBytes, versionForm]
  · rw [form_eq k hk p w h]

theorem ok_typed : ∀ (k : Kind) (p : k.Payload), k.Ok p → k.Typed p
  | .merkleBlock, (_ : Pmt.MerkleBlock), h => h.num
  | .version, _, _ | .addr, _, _ | .inv, _, _ | .getData, _, _ | .notFound, _, _ | .getBlocks, _, _
  | .getHeaders, _, _ | .tx, _, _ | .block, _, _ | .headers, _, _ | .ping, _, _ | .pong, _, _
  | .filterLoad, _, _ | .filterAdd, _, _ | .getCFilters, _, _ | .cFilter, _, _
  | .getCFHeaders, _, _ | .cfHeaders, _, _ | .getCFCheckpt, _, _ | .cfCheckpt, _, _ | .sendCmpct, _, _
  | .cmpctBlock, _, _ | .getBlockTxn, _, _ | .blockTxn, _, _ | .alert, _, _ | .reject, _, _
  | .feeFilter, _, _ | .addrV2, _, _ | .sendTxRcnCl, _, _ | .feature, _, _ => trivial

/-! ### The message encoder -/

theorem drain_known (k : Kind) : ∀ (n : Nat) (s : k.enc.S), msgEnc.drain n (.known k s) = k.enc.drain n s
  | 0, _ => rfl
  | n + 1, s => by
    have ih := drain_known k n (k.enc.adv s).1
    have h1 : msgEnc.adv (.known k s) = (.known k (k.enc.adv s).1, (k.enc.adv s).2) := rfl
    have h2 : msgEnc.cur (.known k s) = k.enc.cur s := rfl
    simp only [Enc.drain]
    rw [h1, h2]
    revert ih
    generalize k.enc.adv s = r
    obtain ⟨s', b⟩ := r
    intro ih
    cases b
    · rfl
    · simp only [ih]

/-- `Msg` with a payload within the code's types. -/
def Msg.Typed : Msg → Prop
  | .known k p => k.Typed p
  | _ => True

/-- The message encoder yields `Msg.bytes`. -/
theorem msg_drains : ∀ (m : Msg), m.Typed → Drains msgEnc m.encoder m.bytes
  | .known k p, h => by
    obtain ⟨n, hn⟩ := kind_drains k p h
    exact ⟨n, (drain_known k n _).trans hn⟩
  | .empty _, _ => ⟨1, rfl⟩
  | .unknown _ _, _ => ⟨1, rfl⟩

/-! ### Selection of the payload decoder -/

theorem name_kind (k : Kind) : 0 ∉ ascii k.cmd := by cases k <;> decide
theorem name_empty (e : EKind) : 0 ∉ ascii e.cmd := by cases e <;> decide

/-- The strings of the arms are those of `cmd()`, each once. -/
theorem lookup_kind (k : Kind) : lookupArm v1Arms (ascii k.cmd) = some (some k) := by cases k <;> decide
theorem lookup_empty (e : EKind) : lookupArm v1Arms (ascii e.cmd) = some none := by cases e <;> decide
theorem emptyOf_name (e : EKind) : emptyOf (ascii e.cmd) = some e := by cases e <;> decide

theorem find_mem {arms : List (String × Option Kind)} {name : Bytes} {r : Option Kind}
    (h : lookupArm arms name = some r) : ∃ s, (s, r) ∈ arms ∧ ascii s = name := by
  unfold lookupArm at h
  cases hf : arms.find? fun a => ascii a.1 == name with
  | none => rw [hf] at h; cases h
  | some a =>
    rw [hf] at h
    have h1 := List.find?_some hf
    have h2 := List.mem_of_find?_eq_some hf
    simp only [Option.map_some, Option.some.injEq] at h
    refine ⟨a.1, ?_, by simpa using h1⟩
    rw [← h]; exact h2

theorem arms_kind : ∀ a ∈ v1Arms, ∀ k, a.2 = some k → a.1 = k.cmd := by decide +revert
theorem arms_empty : ∀ a ∈ v1Arms, a.2 = none → ∃ e : EKind, a.1 = e.cmd := by
  simp only [v1Arms, List.forall_mem_cons]
  refine ⟨?_, ?_, ?_, ?_, ?_, ?_, ?_, ?_, ?_⟩
  · intro h; cases h
  · exact fun _ => ⟨.verack, rfl⟩
  · exact fun _ => ⟨.sendHeaders, rfl⟩
  · exact fun _ => ⟨.memPool, rfl⟩
  · exact fun _ => ⟨.getAddr, rfl⟩
  · exact fun _ => ⟨.wtxidRelay, rfl⟩
  · exact fun _ => ⟨.filterClear, rfl⟩
  · exact fun _ => ⟨.sendAddrV2, rfl⟩
  · simp

theorem lookup_eq_kind {name : Bytes} {k : Kind} (h : lookupArm v1Arms name = some (some k)) : name = ascii k.cmd := by
  obtain ⟨s, h1, h2⟩ := find_mem h
  rw [← h2]; exact congrArg ascii (arms_kind _ h1 k rfl)

theorem lookup_eq_empty {name : Bytes} (h : lookupArm v1Arms name = some none) : ∃ e : EKind, name = ascii e.cmd := by
  obtain ⟨s, h1, h2⟩ := find_mem h
  obtain ⟨e, he⟩ := arms_empty _ h1 rfl
  exact ⟨e, by rw [← h2, ← he]⟩

/-- The command is none of the names in `cmd()`. -/
def Unlisted (c : Cmd) : Prop := (∀ k : Kind, c.asRef ≠ ascii k.cmd) ∧ ∀ e : EKind, c.asRef ≠ ascii e.cmd

theorem lookup_none {c : Cmd} : lookupArm v1Arms c.asRef = none ↔ Unlisted c := by
  constructor
  · intro h
    refine ⟨fun k hk => ?_, fun e he => ?_⟩
    · rw [hk, lookup_kind] at h; cases h
    · rw [he, lookup_empty] at h; cases h
  · rintro ⟨h1, h2⟩
    match h : lookupArm v1Arms c.asRef with
    | none => rfl
    | some (some k) => exact (h1 k (lookup_eq_kind h)).elim
    | some none =>
      obtain ⟨e, he⟩ := lookup_eq_empty h
      exact (h2 e he).elim

/-! ### The inner decoder -/

/-- The strings an inner decoder accepts. -/
def SelForm : Sel → Msg → Bytes → Prop
  | .kind k, m, w => ∃ p, m = .known k p ∧ k.Form p w
  | .empty c, m, w => ∃ e, emptyOf c.asRef = some e ∧ m = .empty e ∧ w = []
  | .unknown c n, m, w => m = .unknown c w ∧ w.length = n

def SelRel (sel : Sel) : Rel Msg := fun bs m rest => ∃ w, SelForm sel m w ∧ bs = w ++ rest

theorem inner_kind (k : Kind) : ∃ (inv : (innerDec (.kind k)).S → Prop) (den : (innerDec (.kind k)).S → Rel Msg),
    AcceptsWith (innerDec (.kind k)) inv den ∧
      ∀ bs, PushOkA (innerDec (.kind k)).fin inv den (SelRel (.kind k)) bs
        ((innerDec (.kind k)).push (innerDec (.kind k)).init bs) := by
  obtain ⟨P, hl, hP⟩ := kind_df k
  obtain ⟨inv, den, L, hd⟩ := mapE_lawful hl (fun p => .ok (Msg.known k p)) (fun _ => payloadErr)
  refine ⟨inv, _, L.accepts, fun bs => ?_⟩
  have hR : SelRel (.kind k) = fun bs a rest => den (innerDec (.kind k)).init bs = .done a rest := by
    funext bs m rest
    have hd' : den (innerDec (.kind k)).init = _ := hd
    rw [hd']
    apply propext
    simp only [Parser.mapE]
    constructor
    · rintro ⟨w, ⟨p, h1, h2⟩, h3⟩
      rw [(hP bs p rest).mpr ⟨w, h2, h3⟩, h1]
      rfl
    · intro h
      cases hb : P bs with
      | done p r =>
        rw [hb] at h
        cases h
        obtain ⟨w, h2, h3⟩ := (hP bs p rest).mp hb
        exact ⟨w, ⟨p, rfl, h2⟩, h3⟩
      | fail e => rw [hb] at h; cases h
      | more e => rw [hb] at h; cases h
  rw [hR]
  exact L.accepts.push _ bs L.init

theorem inner_unknown (c : Cmd) (n : Nat) : ∃ (inv : (unknownDec c n).S → Prop) (den : (unknownDec c n).S → Rel Msg),
    AcceptsWith (unknownDec c n) inv den ∧
      ∀ bs, PushOkA (unknownDec c n).fin inv den (SelRel (.unknown c n)) bs
        ((unknownDec c n).push (unknownDec c n).init bs) := by
  let D : (Nat × Bytes) → Rel Msg := fun s bs m rest => ∃ w, w.length = s.1 ∧ m = .unknown c (s.2 ++ w) ∧ bs = w ++ rest
  have key : ∀ (s : Nat × Bytes) (bs : Bytes),
      PushOkA (unknownDec c n).fin (fun s : Nat × Bytes => 0 < s.1) D (D s) bs ((unknownDec c n).push s bs) := by
    rintro ⟨r, b⟩ bs
    show PushOkA _ _ _ _ _ (Except.ok ((r - min bs.length r, b ++ bs.take (min bs.length r)), bs.drop (min bs.length r),
      if r - min bs.length r > 0 then Status.needsMore else Status.ready))
    by_cases h : bs.length < r
    · rw [Nat.min_eq_left (by omega), if_pos (by omega)]
      refine ⟨bs.take bs.length, by rw [List.take_append_drop], by simp only; omega, fun ext a q => ?_, ?_⟩
      · simp only [List.take_length]
        constructor
        · rintro ⟨w, h1, h2, h3⟩
          simp only at h1
          have h4 : w = bs ++ w.drop bs.length := by
            have h5 : w.take bs.length = bs := by
              have := congrArg (List.take bs.length) h3
              rw [List.take_left, List.take_append_of_le_length (by omega)] at this
              exact this.symm
            conv => lhs; rw [← List.take_append_drop bs.length w, h5]
          refine ⟨w.drop bs.length, by simp; omega, by rw [h2]; simp only [List.append_assoc]; rw [← h4], ?_⟩
          rw [h4, List.append_assoc] at h3
          exact List.append_cancel_left h3
        · rintro ⟨w, h1, h2, h3⟩
          simp only at h1
          exact ⟨bs ++ w, by simp; omega, by rw [h2]; simp, by rw [h3, List.append_assoc]⟩
      · simp
    · rw [Nat.min_eq_right (by omega), if_neg (by omega)]
      refine ⟨bs.take r, by rw [List.take_append_drop], fun ext a q => ?_⟩
      have hl : (bs.take r).length = r := by simp; omega
      have hfin : (unknownDec c n).fin (r - r, b ++ bs.take r) = .ok (.unknown c (b ++ bs.take r)) := by
        show (if r - r ≠ 0 then _ else _) = _
        rw [if_neg (by omega)]
      rw [hfin]
      constructor
      · rintro ⟨w, h1, h2, h3⟩
        simp only at h1
        obtain ⟨h4, h5⟩ := List.append_inj h3 (by omega)
        subst h4
        exact ⟨by rw [h2], h5.symm⟩
      · rintro ⟨h1, h2⟩
        cases h1
        exact ⟨bs.take r, hl, rfl, by rw [h2]⟩
  refine ⟨fun s : Nat × Bytes => 0 < s.1, D, ⟨?_, fun s bs _ => key s bs, ?_⟩, fun bs => ?_⟩
  · rintro ⟨r, b⟩ h
    refine ⟨payloadErr, ?_⟩
    show (if r ≠ 0 then _ else _) = _
    rw [if_pos (by simp only at h; omega)]
  · rintro ⟨r, b⟩ bs a rest h ⟨w, h1, h2, h3⟩
    simp only at h h1
    refine ⟨h, ?_⟩
    show r + _ ≤ _
    rw [h3]; simp; omega
  · have := key (n, []) bs
    have hR : SelRel (.unknown c n) = D (n, []) := by
      funext bs m rest
      apply propext
      constructor
      · rintro ⟨w, ⟨h1, h2⟩, h3⟩; exact ⟨w, h2, by simpa using h1, h3⟩
      · rintro ⟨w, h1, h2, h3⟩; exact ⟨w, ⟨by simpa using h2, h1⟩, h3⟩
    rw [hR]
    exact this

theorem inner_empty (c : Cmd) : ∃ (inv : (emptyDec c).S → Prop) (den : (emptyDec c).S → Rel Msg),
    AcceptsWith (emptyDec c) inv den ∧
      ∀ bs, PushOkA (emptyDec c).fin inv den (SelRel (.empty c)) bs ((emptyDec c).push (emptyDec c).init bs) := by
  refine ⟨fun _ => False, fun _ _ _ _ => False, ⟨fun _ h => h.elim, fun _ _ h => h.elim, fun _ _ _ _ h => h.elim⟩,
    fun bs => ⟨[], rfl, fun ext a r => ?_⟩⟩
  have hfin : (emptyDec c).fin () = match emptyOf c.asRef with
    | some e => .ok (.empty e)
    | none => .error payloadErr := rfl
  rw [hfin]
  constructor
  · rintro ⟨w, ⟨e, h1, h2, h3⟩, h4⟩
    rw [h1, h2]
    subst h3
    exact ⟨rfl, by simpa using h4.symm⟩
  · rintro ⟨h1, h2⟩
    cases he : emptyOf c.asRef with
    | none => rw [he] at h1; cases h1
    | some e =>
      rw [he] at h1
      cases h1
      exact ⟨[], ⟨e, he, rfl, rfl⟩, by rw [h2]⟩

theorem inner_accepts : ∀ sel : Sel, ∃ (x : ((innerDec sel).S → Prop) × ((innerDec sel).S → Rel Msg)),
    AcceptsWith (innerDec sel) x.1 x.2 ∧
      ∀ bs, PushOkA (innerDec sel).fin x.1 x.2 (SelRel sel) bs ((innerDec sel).push (innerDec sel).init bs)
  | .kind k => let ⟨i, d, h⟩ := inner_kind k; ⟨(i, d), h⟩
  | .empty c => let ⟨i, d, h⟩ := inner_empty c; ⟨(i, d), h⟩
  | .unknown c n => let ⟨i, d, h⟩ := inner_unknown c n; ⟨(i, d), h⟩

/-! ### Version 1 -/

/-- From the inner decoder's relation to the framed one: length, checksum, recomputed header. -/
def v1Lift (H : Bytes → Arr 32) (h : V1Header) (n : Nat) (hashed : Bytes) (D : Rel Msg) : Rel V1Msg :=
  fun bs m rest => ∃ w p c h', bs = w ++ rest ∧ D bs p rest ∧ n + w.length = h.length.toNat ∧
    first4 (H (hashed ++ w)) = h.checksum ∧ p.command = some c ∧ headerNew H h.magic p.bytes c = some h' ∧ m = ⟨h', p⟩

def v1After (H : Bytes → Arr 32) (h : V1Header) : Rel V1Msg := fun bs m rest =>
  h.length.toNat ≤ MAX_MSG_SIZE ∧ v1Lift H h 0 [] (SelRel (v1Sel h.command h.length.toNat)) bs m rest

theorem v1End_ok {H : Bytes → Arr 32} {h : V1Header} {sel : Sel} {s : (innerDec sel).S} {n : Nat} {hashed : Bytes}
    {m : V1Msg} : v1EndPayload H h sel s n hashed = .ok m ↔ n = h.length.toNat ∧ ∃ p c h',
      (innerDec sel).fin s = .ok p ∧ first4 (H hashed) = h.checksum ∧ p.command = some c ∧
      headerNew H h.magic p.bytes c = some h' ∧ m = ⟨h', p⟩ := by
  unfold v1EndPayload
  by_cases h1 : n = h.length.toNat
  · rw [if_neg (by simpa using h1)]
    cases hf : (innerDec sel).fin s with
    | error e => simp
    | ok p =>
      simp only
      by_cases h2 : first4 (H hashed) = h.checksum
      · rw [if_neg (by simpa using h2)]
        cases hc : p.command with
        | none => simp only; constructor
                  · intro h; cases h
                  · rintro ⟨_, p', c, h', hp, _, hc', _⟩
                    cases hp; rw [hc] at hc'; cases hc'
        | some c =>
          simp only
          cases hh : headerNew H h.magic p.bytes c with
          | none => simp only; constructor
                    · intro h; cases h
                    · rintro ⟨_, p', c', h', hp, _, hc', hh', _⟩
                      cases hp; rw [hc] at hc'; cases hc'; rw [hh] at hh'; cases hh'
          | some h' =>
            simp only
            constructor
            · intro h; cases h
              exact ⟨h1, p, c, h', rfl, h2, hc, hh, rfl⟩
            · rintro ⟨_, p', c', h'', hp, _, hc', hh', rfl⟩
              cases hp; rw [hc] at hc'; cases hc'; rw [hh] at hh'; cases hh'; rfl
      · rw [if_pos (by simpa using h2)]
        constructor
        · intro h; cases h
        · rintro ⟨_, _, _, _, _, h3, _⟩; exact (h2 h3).elim
  · rw [if_pos (by simpa using h1)]
    constructor
    · intro h; cases h
    · rintro ⟨h3, _⟩; exact (h1 h3).elim

theorem suffix_of {α : Type} {d : Dec α} {inv : d.S → Prop} {den : d.S → Rel α} (L : AcceptsWith d inv den) {s : d.S}
    (hs : inv s) {bs : Bytes} {a : α} {rest : Bytes} (h : den s bs a rest) : ∃ c, bs = c ++ rest := by
  have hf := L.feed_spec bs s hs
  match hfe : d.feed s bs with
  | .needsMore s' =>
    rw [hfe] at hf
    have := (hf.2 [] a rest).mp (by simpa using h)
    exact (L.not_nil hf.1 a rest this).elim
  | .ready s' r =>
    rw [hfe] at hf
    obtain ⟨c, hc, hd⟩ := hf
    rw [hc] at h
    exact ⟨c, by rw [hc, ((hd r a rest).mp h).2]⟩
  | .err e => rw [hfe] at hf; exact (hf [] a rest (by simpa using h)).elim
  | .stuck => rw [hfe] at hf; exact hf.elim

section V1
variable (H : Bytes → Arr 32)
  {inv : (sel : Sel) → (innerDec sel).S → Prop} {den : (sel : Sel) → (innerDec sel).S → Rel Msg}
  {hinv : v1HeaderDec.S → Prop} {hden : v1HeaderDec.S → Parser V1Header}

def v1Inv (inv : (sel : Sel) → (innerDec sel).S → Prop) (hinv : v1HeaderDec.S → Prop) : V1St → Prop
  | .header s => hinv s
  | .payload _ sel s _ _ => inv sel s

def v1Den (den : (sel : Sel) → (innerDec sel).S → Rel Msg) (hden : v1HeaderDec.S → Parser V1Header) : V1St → Rel V1Msg
  | .header s => fun bs m r => ∃ h rest, hden s bs = .done h rest ∧ v1After H h rest m r
  | .payload h sel s n hashed => v1Lift H h n hashed (den sel s)

theorem v1PushPayload_ok (L : ∀ sel, AcceptsWith (innerDec sel) (inv sel) (den sel)) (h : V1Header) (sel : Sel)
    (s : (innerDec sel).S) (n : Nat) (hashed bs : Bytes) (D : Rel Msg)
    (hp : PushOkA (innerDec sel).fin (inv sel) (den sel) D bs ((innerDec sel).push s bs)) :
    PushOkA (v1Dec H).fin (v1Inv inv hinv) (v1Den H den hden) (v1Lift H h n hashed D) bs
      (v1PushPayload h sel s n hashed bs) := by
  unfold v1PushPayload
  match hpush : (innerDec sel).push s bs with
  | .error e =>
    rw [hpush] at hp
    rintro ext m r ⟨w, p, c, h', _, h2, _⟩
    exact hp ext p r h2
  | .ok (s', rest, .ready) =>
    rw [hpush] at hp
    obtain ⟨c, hc, hd⟩ := hp
    have hn : bs.length - rest.length = c.length := by rw [hc]; simp
    have ht : bs.take c.length = c := by rw [hc]; simp
    simp only
    rw [hn, ht]
    refine ⟨c, hc, fun ext m r => ?_⟩
    have hfin : (v1Dec H).fin (.payload h sel s' (n + c.length) (hashed ++ c)) =
      v1EndPayload H h sel s' (n + c.length) (hashed ++ c) := rfl
    rw [hfin, v1End_ok]
    constructor
    · rintro ⟨w, p, cm, h', h1, h2, h3, h4, h5, h6, h7⟩
      obtain ⟨h8, h9⟩ := (hd ext p r).mp h2
      subst h9
      have hw : c = w := List.append_cancel_right h1
      subst hw
      exact ⟨⟨h3, p, cm, h', h8, h4, h5, h6, h7⟩, rfl⟩
    · rintro ⟨⟨h3, p, cm, h', h8, h4, h5, h6, h7⟩, h9⟩
      subst h9
      exact ⟨c, p, cm, h', rfl, (hd r p r).mpr ⟨h8, rfl⟩, h3, h4, h5, h6, h7⟩
  | .ok (s', rest, .needsMore) =>
    rw [hpush] at hp
    obtain ⟨c, hc, hi, hd, hprog⟩ := hp
    have hn : bs.length - rest.length = c.length := by rw [hc]; simp
    have ht : bs.take c.length = c := by rw [hc]; simp
    simp only
    rw [hn, ht]
    refine ⟨c, hc, hi, fun ext m r => ?_, hprog⟩
    show v1Lift H h n hashed D (c ++ ext) m r ↔ v1Lift H h (n + c.length) (hashed ++ c) (den sel s') ext m r
    constructor
    · rintro ⟨w, p, cm, h', h1, h2, h3, h4, h5, h6, h7⟩
      have h2' := (hd ext p r).mp h2
      obtain ⟨w', hw'⟩ := suffix_of (L sel) hi h2'
      have hw : c ++ w' = w := by
        rw [hw', ← List.append_assoc] at h1
        exact List.append_cancel_right h1
      subst hw
      refine ⟨w', p, cm, h', hw', h2', ?_, by rw [List.append_assoc]; exact h4, h5, h6, h7⟩
      rw [List.length_append] at h3; omega
    · rintro ⟨w', p, cm, h', h1, h2, h3, h4, h5, h6, h7⟩
      refine ⟨c ++ w', p, cm, h', by rw [h1, List.append_assoc], (hd ext p r).mpr h2, ?_,
        by rw [← List.append_assoc]; exact h4, h5, h6, h7⟩
      rw [List.length_append]; omega

theorem v1_accepts_with (L : ∀ sel, AcceptsWith (innerDec sel) (inv sel) (den sel))
    (I : ∀ sel bs, PushOkA (innerDec sel).fin (inv sel) (den sel) (SelRel sel) bs
      ((innerDec sel).push (innerDec sel).init bs))
    (LH : LawfulWith v1HeaderDec hinv hden) :
    AcceptsWith (v1Dec H) (v1Inv inv hinv) (v1Den H den hden) where
  fin
    | .header s, hs => by
      obtain ⟨_, e, _, h⟩ := LH.more s hs
      refine ⟨.tag 50 e, ?_⟩
      show (match v1HeaderDec.fin s with | Except.error e => _ | Except.ok _ => _) = _
      rw [h]
    | .payload h sel s n hashed, hs => by
      obtain ⟨e, he⟩ := (L sel).fin s hs
      show ∃ e, v1EndPayload H h sel s n hashed = .error e
      cases hx : v1EndPayload H h sel s n hashed with
      | error e => exact ⟨e, rfl⟩
      | ok m =>
        obtain ⟨_, p, _, _, h1, _⟩ := v1End_ok.mp hx
        rw [he] at h1; cases h1
  push
    | .header s, bs, hs => by
      show PushOkA _ _ _ _ _ (v1HeaderDec.pushThen s bs (DErr.tag 50) .header v1AfterHeader)
      refine pushThen_accepts LH (fin := (v1Dec H).fin) (inv := v1Inv inv hinv) (den := v1Den H den hden)
        (wrap := V1St.header) (K := v1After H) (fun s h => h) (fun s bs m r => Iff.rfl) (fun h bs => ?_) s hs bs
      unfold v1AfterHeader
      by_cases hl : h.length.toNat > MAX_MSG_SIZE
      · rw [if_pos hl]
        rintro ext m r ⟨h1, _⟩
        omega
      · rw [if_neg hl]
        have hx := v1PushPayload_ok H (hinv := hinv) (hden := hden) L h _ _ 0 [] bs _
          (I (v1Sel h.command h.length.toNat) bs)
        have hR : v1After H h = v1Lift H h 0 [] (SelRel (v1Sel h.command h.length.toNat)) := by
          funext bs m r
          exact propext ⟨fun h => h.2, fun h => ⟨by omega, h⟩⟩
        rw [hR]
        exact hx
    | .payload h sel s n hashed, bs, hs => v1PushPayload_ok H L h sel s n hashed bs _ ((L sel).push s bs hs)
  limit
    | .header s, bs, m, r, hs, hd => by
      obtain ⟨h, rest, h1, h2, w, p, c, h', h3, _⟩ := hd
      have hl := LH.limit s bs h rest hs h1
      have h0 := (LH.more s hs).1
      refine ⟨h0, ?_⟩
      show v1HeaderDec.limit s + _ ≤ _
      rw [h3, List.length_append] at hl
      omega
    | .payload h sel s n hashed, bs, m, r, hs, hd => by
      obtain ⟨w, p, c, h', h3, h4, h5, _⟩ := hd
      obtain ⟨h0, hl⟩ := (L sel).limit s bs p r hs h4
      show 0 < min ((innerDec sel).limit s) (h.length.toNat - n) ∧ min ((innerDec sel).limit s) (h.length.toNat - n) + _ ≤ _
      rw [h3, List.length_append] at hl ⊢
      omega

end V1

/-- What the v1 decoder accepts. -/
def V1Rel (H : Bytes → Arr 32) : Rel V1Msg := fun bs m r =>
  ∃ h rest, bs = v1HeaderBytes h ++ rest ∧ v1After H h rest m r

theorem v1_accepts (H : Bytes → Arr 32) : ∃ inv den, AcceptsWith (v1Dec H) inv den ∧ inv (v1Dec H).init ∧
    den (v1Dec H).init = V1Rel H := by
  obtain ⟨P, ⟨hinv, hden, LH, hP⟩, hw⟩ := v1Header_dw
  obtain ⟨f, hf⟩ := Classical.axiomOfChoice inner_accepts
  refine ⟨_, _, v1_accepts_with H (fun sel => (hf sel).1) (fun sel => (hf sel).2) LH, LH.init, ?_⟩
  funext bs m r
  apply propext
  show (∃ h rest, hden v1HeaderDec.init bs = .done h rest ∧ v1After H h rest m r) ↔ _
  rw [hP]
  constructor
  · rintro ⟨h, rest, h1, h2⟩
    exact ⟨h, rest, ((hw bs h rest).mp h1).2, h2⟩
  · rintro ⟨h, rest, h1, h2⟩
    exact ⟨h, rest, (hw bs h rest).mpr ⟨trivial, h1⟩, h2⟩

/-! ### Version 2 -/

/-- After the short id 0. -/
def v2CmdRel : Rel Msg := fun bs m r => ∃ c rest, bs = c.1 ++ rest ∧ SelRel (v2CmdSel c) rest m r
def v2AfterShort (b : Bytes) : Rel Msg := fun bs m r =>
  if b.headD 0 = 0 then v2CmdRel bs m r else ∃ sel, v2ShortSel (b.headD 0) = .ok sel ∧ SelRel sel bs m r
/-- What the v2 decoder accepts. -/
def V2Rel : Rel Msg := fun bs m r => ∃ id rest, bs = id :: rest ∧ v2AfterShort [id] rest m r

section V2
variable {inv : (sel : Sel) → (innerDec sel).S → Prop} {den : (sel : Sel) → (innerDec sel).S → Rel Msg}
  {cinv : cmdDec.S → Prop} {cden : cmdDec.S → Parser Cmd} {ainv : (arrayDec 1).S → Prop}
  {aden : (arrayDec 1).S → Parser Bytes}

def v2Inv (inv : (sel : Sel) → (innerDec sel).S → Prop) (cinv : cmdDec.S → Prop) (ainv : (arrayDec 1).S → Prop) :
    V2St → Prop
  | .short s => ainv s
  | .command s => cinv s
  | .payload sel s => inv sel s

def v2Den (den : (sel : Sel) → (innerDec sel).S → Rel Msg) (cden : cmdDec.S → Parser Cmd)
    (aden : (arrayDec 1).S → Parser Bytes) : V2St → Rel Msg
  | .short s => fun bs m r => ∃ b rest, aden s bs = .done b rest ∧ v2AfterShort b rest m r
  | .command s => fun bs m r => ∃ c rest, cden s bs = .done c rest ∧ SelRel (v2CmdSel c) rest m r
  | .payload sel s => den sel s

theorem v2PushPayload_ok (sel : Sel)
    (s : (innerDec sel).S) (bs : Bytes) (D : Rel Msg)
    (hp : PushOkA (innerDec sel).fin (inv sel) (den sel) D bs ((innerDec sel).push s bs)) :
    PushOkA v2Dec.fin (v2Inv inv cinv ainv) (v2Den den cden aden) D bs (v2PushPayload sel s bs) := by
  unfold v2PushPayload
  match hpush : (innerDec sel).push s bs with
  | .error e => rw [hpush] at hp; exact hp
  | .ok (s', rest, .ready) => rw [hpush] at hp; exact hp
  | .ok (s', rest, .needsMore) => rw [hpush] at hp; exact hp

theorem v2PushCommand_ok
    (I : ∀ sel bs, PushOkA (innerDec sel).fin (inv sel) (den sel) (SelRel sel) bs
      ((innerDec sel).push (innerDec sel).init bs))
    (LC : LawfulWith cmdDec cinv cden) (s : cmdDec.S) (hs : cinv s) (bs : Bytes) :
    PushOkA v2Dec.fin (v2Inv inv cinv ainv) (v2Den den cden aden) (v2Den den cden aden (.command s)) bs
      (v2PushCommand s bs) :=
  pushThen_accepts LC (fin := v2Dec.fin) (inv := v2Inv inv cinv ainv) (den := v2Den den cden aden)
    (wrap := V2St.command) (K := fun c => SelRel (v2CmdSel c)) (fun s h => h) (fun s bs m r => Iff.rfl)
    (fun c bs => v2PushPayload_ok (v2CmdSel c) _ bs _ (I _ bs)) s hs bs

theorem v2_accepts_with (L : ∀ sel, AcceptsWith (innerDec sel) (inv sel) (den sel))
    (I : ∀ sel bs, PushOkA (innerDec sel).fin (inv sel) (den sel) (SelRel sel) bs
      ((innerDec sel).push (innerDec sel).init bs))
    (LC : LawfulWith cmdDec cinv cden) (hC : ∀ bs c rest, cden cmdDec.init bs = .done c rest ↔ bs = c.1 ++ rest)
    (LA : LawfulWith (arrayDec 1) ainv aden) :
    AcceptsWith v2Dec (v2Inv inv cinv ainv) (v2Den den cden aden) where
  fin
    | .short s, hs => by
      obtain ⟨_, e, _, h⟩ := LA.more s hs
      refine ⟨.tag 51 e, ?_⟩
      show (match (arrayDec 1).fin s with | Except.error e => _ | Except.ok _ => _) = _
      rw [h]
    | .command s, hs => by
      obtain ⟨_, e, _, h⟩ := LC.more s hs
      refine ⟨.tag 52 e, ?_⟩
      show (match cmdDec.fin s with | Except.error e => _ | Except.ok _ => _) = _
      rw [h]
    | .payload sel s, hs => (L sel).fin s hs
  push
    | .short s, bs, hs => by
      show PushOkA _ _ _ _ _ (v2PushShort s bs)
      refine pushThen_accepts LA (fin := v2Dec.fin) (inv := v2Inv inv cinv ainv) (den := v2Den den cden aden)
        (wrap := V2St.short) (K := v2AfterShort) (fun s h => h) (fun s bs m r => Iff.rfl) (fun b bs => ?_) s hs bs
      simp only
      by_cases hb : b.headD 0 = 0
      · rw [if_pos hb]
        have hR : v2AfterShort b = v2Den den cden aden (.command cmdDec.init) := by
          funext bs m r
          unfold v2AfterShort
          rw [if_pos hb]
          apply propext
          show _ ↔ ∃ c rest, cden cmdDec.init bs = .done c rest ∧ _
          simp only [hC]
          exact Iff.rfl
        rw [hR]
        exact v2PushCommand_ok I LC _ LC.init bs
      · rw [if_neg hb]
        cases hsel : v2ShortSel (b.headD 0) with
        | error e =>
          intro ext m r h
          unfold v2AfterShort at h
          rw [if_neg hb, hsel] at h
          obtain ⟨sel, h1, _⟩ := h
          cases h1
        | ok sel =>
          have hR : v2AfterShort b = SelRel sel := by
            funext bs m r
            unfold v2AfterShort
            rw [if_neg hb, hsel]
            apply propext
            constructor
            · rintro ⟨sel', h1, h2⟩; cases h1; exact h2
            · exact fun h => ⟨sel, rfl, h⟩
          rw [hR]
          exact v2PushPayload_ok sel _ bs _ (I _ bs)
    | .command s, bs, hs => v2PushCommand_ok I LC s hs bs
    | .payload sel s, bs, hs => v2PushPayload_ok sel s bs _ ((L sel).push s bs hs)
  limit
    | .short s, bs, m, r, hs, hd => by
      obtain ⟨b, rest, h1, h2⟩ := hd
      have hl := LA.limit s bs b rest hs h1
      refine ⟨(LA.more s hs).1, ?_⟩
      show (arrayDec 1).limit s + _ ≤ _
      have : r.length ≤ rest.length := by
        unfold v2AfterShort at h2
        split at h2
        · obtain ⟨c, rest', h3, w, _, h4⟩ := h2
          rw [h3, h4]; simp; omega
        · obtain ⟨sel, _, w, _, h4⟩ := h2
          rw [h4]; simp
      omega
    | .command s, bs, m, r, hs, hd => by
      obtain ⟨c, rest, h1, w, _, h2⟩ := hd
      have hl := LC.limit s bs c rest hs h1
      refine ⟨(LC.more s hs).1, ?_⟩
      show cmdDec.limit s + _ ≤ _
      rw [h2, List.length_append] at hl
      omega
    | .payload sel s, bs, m, r, hs, hd => (L sel).limit s bs m r hs hd

end V2

theorem v2_accepts : ∃ inv den, AcceptsWith v2Dec inv den ∧ inv v2Dec.init ∧ den v2Dec.init = V2Rel := by
  obtain ⟨P, ⟨cinv, cden, LC, hP⟩, hw⟩ := cmd_dw
  obtain ⟨Q, ⟨ainv, aden, LA, hQ⟩, hv⟩ := Dw.array 1 (by omega)
  obtain ⟨f, hf⟩ := Classical.axiomOfChoice inner_accepts
  refine ⟨_, _, v2_accepts_with (fun sel => (hf sel).1) (fun sel => (hf sel).2) LC ?_ LA, LA.init, ?_⟩
  · intro bs c rest
    rw [hP, hw]
    exact ⟨fun h => h.2, fun h => ⟨trivial, h⟩⟩
  · funext bs m r
    apply propext
    show (∃ b rest, aden (arrayDec 1).init bs = .done b rest ∧ v2AfterShort b rest m r) ↔ _
    rw [hQ]
    constructor
    · rintro ⟨b, rest, h1, h2⟩
      obtain ⟨h3, h4⟩ := (hv bs b rest).mp h1
      match b, h3 with
      | [id], _ => exact ⟨id, rest, h4, h2⟩
    · rintro ⟨id, rest, h1, h2⟩
      exact ⟨[id], rest, (hv bs _ rest).mpr ⟨rfl, h1⟩, h2⟩

end P2p
end Btc
