import Verif.Codec.Roundtrip
import Verif.Props.C53
import Verif.Props.C37_C38
/-!
# C110  The round-trip assertions of the fuzz targets hold for every input
-/
namespace Btc

theorem feed_nil {α : Type} (d : Dec α) (s : d.S) : d.feed s [] = .needsMore s := by rw [Dec.feed, if_pos rfl]

/-- Empty chunks do not disturb a decoder. -/
theorem stream_idle {α : Type} (d : Dec α) {e : Enc} {t : e.S} {cs : List Bytes} (h : Yields e t cs) (hc : cs.flatten = []) (s : d.S) :
    streamEncodeDecode d e cs.length s t = (d.fin s).toOption := by
  induction h with
  | last t t' ha =>
    have h0 : e.cur t = [] := by simpa using hc
    simp only [List.length_cons, List.length_nil, streamEncodeDecode, h0, feed_nil, ha]
  | more t t' cs ha _ ih =>
    simp only [List.flatten_cons, List.append_eq_nil_iff] at hc
    simp only [List.length_cons, streamEncodeDecode, hc.1, feed_nil, ha]
    exact ih hc.2

/-- Chunks that make up an accepted input are decoded to the value. -/
theorem stream_spec {α : Type} {d : Dec α} {inv : d.S → Prop} {den : d.S → Rel α} (L : AcceptsWith d inv den) {e : Enc} {t : e.S}
    {cs : List Bytes} (h : Yields e t cs) (a : α) : ∀ s, inv s → den s cs.flatten a [] → streamEncodeDecode d e cs.length s t = some a := by
  induction h with
  | last t t' ha =>
    intro s hs hd
    have hf := L.feed_spec (e.cur t) s hs
    simp only [List.flatten_cons, List.flatten_nil] at hd
    cases hfe : d.feed s (e.cur t) with
    | needsMore s' =>
      rw [hfe] at hf
      exact (L.not_nil hf.1 a [] ((hf.2 [] a []).mp hd)).elim
    | ready s' rest =>
      rw [hfe] at hf
      obtain ⟨c, hc, hf⟩ := hf
      rw [hc, List.append_assoc] at hd
      obtain ⟨h1, h2⟩ := (hf _ a []).mp hd
      have h3 : rest = [] := by simpa using h2.symm
      subst h3
      simp only [List.length_cons, List.length_nil, streamEncodeDecode, hfe, ha, h1, Except.toOption]
    | err _ => rw [hfe] at hf; exact (hf _ _ _ hd).elim
    | stuck => rw [hfe] at hf; exact hf.elim
  | more t t' cs ha hy ih =>
    intro s hs hd
    have hf := L.feed_spec (e.cur t) s hs
    simp only [List.flatten_cons] at hd
    cases hfe : d.feed s (e.cur t) with
    | needsMore s' =>
      rw [hfe] at hf
      simp only [List.length_cons, streamEncodeDecode, hfe, ha]
      exact ih s' hf.1 ((hf.2 _ a []).mp hd)
    | ready s' rest =>
      rw [hfe] at hf
      obtain ⟨c, hc, hf⟩ := hf
      rw [hc, List.append_assoc] at hd
      obtain ⟨h1, h2⟩ := (hf _ a []).mp hd
      obtain ⟨h3, h4⟩ := List.append_eq_nil_iff.mp h2.symm
      subst h3
      simp only [List.length_cons, streamEncodeDecode, hfe, ha]
      rw [stream_idle d hy h4, h1]; rfl
    | err _ => rw [hfe] at hf; exact (hf _ _ _ hd).elim
    | stuck => rw [hfe] at hf; exact hf.elim

/-- The round trip from the law of the decoder and the bytes of the encoder. -/
theorem roundtrip_of {α : Type} {d : Dec α} {F : α → Bytes → Prop} (hd : P2p.Df d F) {e : Enc} {st : α → e.S} {b : α → Bytes}
    (hb : ∀ a w, F a w → F a (b a)) (he : ∀ a w, F a w → Drains e (st a) (b a)) (data : Bytes) : CheckRoundtrip d e st data := by
  obtain ⟨P, ⟨inv, den, L, hP⟩, h⟩ := hd
  unfold CheckRoundtrip
  cases hr : d.decodeSlice data with
  | error _ => trivial
  | ok v =>
    rw [L.decodeSlice_ok_iff, hP, h] at hr
    obtain ⟨w, hw, -⟩ := hr
    obtain ⟨cs, hy, hc⟩ := drains_iff.mp (he v w hw)
    refine ⟨cs.length, stream_spec L.accepts hy v d.init L.init ?_⟩
    show den d.init cs.flatten = .done v []
    rw [hP, h, hc]
    exact ⟨b v, hb v w hw, by simp⟩

theorem roundtrip_dw {α : Type} {d : Dec α} {b : α → Bytes} {ok : α → Prop} (hd : P2p.Dw d b ok) {e : Enc} {st : α → e.S}
    (he : ∀ a, ok a → Drains e (st a) (b a)) (data : Bytes) : CheckRoundtrip d e st data :=
  roundtrip_of hd.df (fun _ _ h => ⟨h.1, rfl⟩) (fun a _ h => he a h.1) data

theorem canonical_dw {α : Type} {d : Dec α} {b : α → Bytes} {ok : α → Prop} (hd : P2p.Dw d b ok) {e : Enc} {st : α → e.S}
    (he : ∀ a, ok a → Drains e (st a) (b a)) (data : Bytes) : CheckCanonical d e st data := by
  obtain ⟨P, hl, hw⟩ := hd
  unfold CheckCanonical
  cases hr : d.decodeSlice data with
  | error _ => trivial
  | ok v =>
    obtain ⟨h1, h2⟩ := ((Wire.dec hl hw).1 data v).mp hr
    rw [h2]
    exact he v h1

theorem onePush_dw {α : Type} {d : Dec α} {b : α → Bytes} {ok : α → Prop} (hd : P2p.Dw d b ok) {check : α → Bytes → Prop} (data : Bytes)
    (hc : ∀ v rest, ok v → data = b v ++ rest → check v rest) : CheckOnePush d check data := by
  obtain ⟨P, ⟨inv, den, L, hP⟩, hw⟩ := hd
  unfold CheckOnePush
  have hp := L.accepts.push d.init data L.init
  match hpush : d.push d.init data with
  | .error e => trivial
  | .ok (s', rest, .needsMore) =>
    rw [hpush] at hp
    obtain ⟨c, h1, h2, -, -⟩ := hp
    obtain ⟨e, he⟩ := L.accepts.fin s' h2
    simp only [he]; rfl
  | .ok (s', rest, .ready) =>
    rw [hpush] at hp
    obtain ⟨c, h1, h2⟩ := hp
    show match d.fin s' with | .error _ => True | .ok v => check v rest
    cases hf : d.fin s' with
    | error e => trivial
    | ok v =>
      have h3 := (h2 rest v rest).mpr ⟨hf, rfl⟩
      rw [← h1] at h3
      have h4 : P data = .done v rest := by rw [← hP]; exact h3
      obtain ⟨h5, h6⟩ := (hw data v rest).mp h4
      exact hc v rest h5 h6

/-! ### The targets -/

open P2p in
/-- **Round trip of every message payload** (the `p2p_message_*`, `p2p_merkle_tree_merkle_block`, `p2p_bip152_*` targets of types that are a
payload): whatever bytes decode, the chunks of the value's encoder decode to that value. -/
theorem C110_message_payloads (k : P2p.Kind) (data : Bytes) : CheckRoundtrip k.dec k.enc k.start data :=
  roundtrip_of (kind_df k) (fun p w h => form_bytes k p (form_ok k p w h))
    (fun p w h => kind_drains k p (ok_typed k p (form_ok k p w h))) data

open P2p in
/-- **Round trip of a framed v1 message** (`p2p_message_v1_network_message`): the decoder keeps the magic, works out command, length and
checksum anew, and what the encoder then yields is decoded to the same message, also where the input was another form of it. -/
theorem C110_v1_network_message (H : Bytes → Arr 32) (data : Bytes) : CheckRoundtrip (v1Dec H) v1Enc V1Msg.encoder data := by
  obtain ⟨inv, den, L, hi, hd⟩ := v1_accepts H
  unfold CheckRoundtrip
  cases hr : (v1Dec H).decodeSlice data with
  | error _ => trivial
  | ok m =>
    rw [L.decodeSlice_ok hi, hd, v1Rel_iff] at hr
    obtain ⟨magic, c, w, -, hc, hf, hl, hm⟩ := hr
    have hok : MsgOk m.payload := by
      match hp : m.payload with
      | .known k p => rw [hp] at hf; exact form_ok k p w hf
      | .empty _ => trivial
      | .unknown c b => rw [hp] at hf; exact hf.2
    obtain ⟨cs, hy, hcs⟩ := drains_iff.mp (v1_drains m (ok_msg_typed hok))
    refine ⟨cs.length, stream_spec L hy m _ hi ?_⟩
    rw [hd, v1Rel_iff, hcs]
    refine ⟨magic, c, m.payload.bytes, ?_, hc, ok_form hok, by rw [← form_len hf]; exact hl, hm⟩
    rw [hm]
    simp [frame, v1HeaderBytes, first4]

/-- `LockTimeDecoder` (units/src/locktime/absolute/mod.rs 430-443).  A panic of `from_consensus` is an error here; there is none (C37). -/
def lockTimeDec : Dec Lock.LockTime :=
  u32Dec.mapE (fun n => match Lock.LockTime.fromConsensus n with | some l => .ok l | none => .error (.custom 110 n.toNat)) id

open P2p in
/-- **Round trip of the primitives**: lock time, amount, the hashes, header, the `u32` types, out point, scripts, transaction, input, output,
witness, block. -/
theorem C110_primitives (data : Bytes) :
    CheckRoundtrip lockTimeDec bytesEnc (fun l => u32le l.toConsensus) data ∧
    CheckRoundtrip amountDec bytesEnc (fun a => leBytes 8 a.1) data ∧
    CheckRoundtrip hash32Dec bytesEnc (fun h => h.1) data ∧
    CheckRoundtrip headerDec headerEnc Header.encoder data ∧
    CheckRoundtrip u32Dec bytesEnc u32le data ∧
    CheckRoundtrip outPointDec outPointEnc OutPoint.encoder data ∧
    CheckRoundtrip (byteVecDec MAX_VEC_SIZE) prefixedBytesEnc prefixedBytes data ∧
    CheckRoundtrip txDec txEnc Tx.encoder data ∧
    CheckRoundtrip txInDec txInEnc TxIn.encoder data ∧
    CheckRoundtrip txOutDec txOutEnc TxOut.encoder data ∧
    CheckRoundtrip witDec Wit.enc Wit.encoder data ∧
    CheckRoundtrip blockDec blockEnc Block.encoder data := by
  refine ⟨?_, roundtrip_dw ⟨_, amountDec_lawful, amount_wire⟩ (fun _ _ => C06_bytes _) data,
    roundtrip_dw hash32_dw (fun _ _ => C06_bytes _) data, roundtrip_dw header_dw (fun h _ => headerEnc_drains h) data,
    roundtrip_dw u32_dw (fun _ _ => C06_bytes _) data,
    roundtrip_dw ⟨_, outPointDec_lawful, outPoint_wire⟩ (fun o _ => outPointEnc_drains o) data,
    roundtrip_dw bytes_dw (fun b _ => C06_prefixed_bytes b) data,
    roundtrip_dw ⟨_, txDec_lawful, tx_wire⟩ (fun t _ => txEnc_drains t) data,
    roundtrip_dw ⟨_, txInDec_lawful, txIn_wire⟩ (fun t _ => txInEnc_drains t) data,
    roundtrip_dw ⟨_, txOutDec_lawful, txOut_wire⟩ (fun t _ => txOutEnc_drains t) data,
    roundtrip_dw ⟨_, witDec_lawful, wit_wire⟩ (fun w _ => witEnc_drains w) data,
    roundtrip_dw ⟨_, blockDec_lawful, block_wire⟩ (fun b _ => blockEnc_drains b) data⟩
  have hw : Dw lockTimeDec (fun l => u32le l.toConsensus) (fun l => l.WF) := by
    refine u32_dw.mapE ?_ ?_
    · intro n l _ h
      obtain ⟨l', h1, h2, h3, -⟩ := Lock.C37_from_consensus n
      rw [h1] at h
      cases h
      exact ⟨h3, by rw [h2]⟩
    · intro l hl
      exact ⟨l.toConsensus, trivial, by rw [Lock.C37_to_consensus l hl]⟩
  exact roundtrip_dw hw (fun _ _ => C06_bytes _) data

open P2p in
/-- **Round trip of the parts of messages**. -/
theorem C110_p2p_parts (data : Bytes) :
    CheckRoundtrip netAddrDec netAddrEnc NetAddr.encoder data ∧
    CheckRoundtrip addrV1Dec addrV1Enc AddrV1.encoder data ∧
    CheckRoundtrip addrV2Dec addrV2Enc AddrV2.encoder data ∧
    CheckRoundtrip addrV2MsgDec addrV2MsgEnc AddrV2Msg.encoder data ∧
    CheckRoundtrip Bip152.prefilledDec Bip152.prefilledEnc Bip152.Prefilled.encoder data ∧
    CheckRoundtrip Bip152.shortIdDec bytesEnc (fun a => a.1) data ∧
    CheckRoundtrip featureIdDec prefixedBytesEnc (fun b => prefixedBytes b.1) data ∧
    CheckRoundtrip featureDataDec prefixedBytesEnc (fun b => prefixedBytes b.1) data ∧
    CheckRoundtrip (arrDec 4) bytesEnc (fun a => a.1) data ∧
    CheckRoundtrip Pmt.dec Pmt.enc Pmt.Tree.encoder data ∧
    CheckRoundtrip invDec invEnc Inventory.encoder data ∧
    CheckRoundtrip bloomDec bytesEnc (fun f => [f.byte]) data ∧
    CheckRoundtrip cmdDec bytesEnc (fun c => c.1) data ∧
    CheckRoundtrip netHeaderDec netHeaderEnc NetHeader.encoder data ∧
    CheckRoundtrip rejectReasonDec bytesEnc (fun r => [r.byte]) data ∧
    CheckRoundtrip userAgentDec prefixedBytesEnc (fun u => prefixedBytes u.1) data ∧
    CheckRoundtrip v1HeaderDec v1HeaderEnc V1Header.encoder data ∧
    CheckRoundtrip u64Dec bytesEnc u64le data ∧
    CheckRoundtrip (vecDec hash32Dec MAX_VEC_SIZE) (prefixedSliceEnc bytesEnc) (fun l => prefixedSlice bytesEnc (l.map (·.1))) data :=
  ⟨roundtrip_dw netAddr_dw (fun a _ => netAddr_drains a) data,
   roundtrip_dw addrV1_dw (fun a _ => addrV1_drains a) data,
   roundtrip_dw addrV2_dw (fun a _ => addrV2_drains a) data,
   roundtrip_dw addrV2Msg_dw (fun a _ => addrV2Msg_drains a) data,
   roundtrip_dw ⟨_, Bip152.prefilledDec_lawful, Bip152.prefilled_wire⟩ (fun p _ => Bip152.prefilledEnc_drains p) data,
   roundtrip_dw ⟨_, Bip152.shortIdDec_lawful, Bip152.shortId_wire⟩ (fun _ _ => C06_bytes _) data,
   roundtrip_dw featureId_dw (fun _ _ => C06_prefixed_bytes _) data,
   roundtrip_dw featureData_dw (fun _ _ => C06_prefixed_bytes _) data,
   roundtrip_dw (arr_dw 4 (by omega)) (fun _ _ => C06_bytes _) data,
   roundtrip_dw ⟨_, Pmt.dec_lawful, Pmt.wire⟩ (fun t h => Pmt.enc_drains t h.num) data,
   roundtrip_dw inv_dw (fun i _ => inv_drains i) data,
   roundtrip_dw bloom_dw (fun _ _ => C06_bytes _) data,
   roundtrip_dw cmd_dw (fun _ _ => C06_bytes _) data,
   roundtrip_dw netHeader_dw (fun h _ => netHeader_drains h) data,
   roundtrip_dw rejectReason_dw (fun _ _ => C06_bytes _) data,
   roundtrip_dw userAgent_dw (fun _ _ => C06_prefixed_bytes _) data,
   roundtrip_dw v1Header_dw (fun h _ => v1Header_drains h) data,
   roundtrip_dw u64_dw (fun _ _ => C06_bytes _) data,
   roundtrip_dw hashes_dw (fun l _ => hashes_drains l) data⟩

open P2p in
/-- **What decodes is encoded to the very input** (the `deserialize_*` targets). -/
theorem C110_canonical (data : Bytes) :
    CheckCanonical blockDec blockEnc Block.encoder data ∧
    CheckCanonical txDec txEnc Tx.encoder data ∧
    CheckCanonical witDec Wit.enc Wit.encoder data ∧
    CheckCanonical (byteVecDec MAX_VEC_SIZE) prefixedBytesEnc prefixedBytes data ∧
    CheckCanonical Bip152.prefilledDec Bip152.prefilledEnc Bip152.Prefilled.encoder data ∧
    CheckCanonical addrV2Dec addrV2Enc AddrV2.encoder data :=
  ⟨canonical_dw ⟨_, blockDec_lawful, block_wire⟩ (fun b _ => blockEnc_drains b) data,
   canonical_dw ⟨_, txDec_lawful, tx_wire⟩ (fun b _ => txEnc_drains b) data,
   canonical_dw ⟨_, witDec_lawful, wit_wire⟩ (fun b _ => witEnc_drains b) data,
   canonical_dw bytes_dw (fun b _ => C06_prefixed_bytes b) data,
   canonical_dw ⟨_, Bip152.prefilledDec_lawful, Bip152.prefilled_wire⟩ (fun p _ => Bip152.prefilledEnc_drains p) data,
   canonical_dw addrV2_dw (fun a _ => addrV2_drains a) data⟩

open P2p in
/-- **The basic decoders on one push**: an array decoder returns the first `N` bytes and leaves the rest; a byte vector is no longer than the
input and than 32 MiB; a compact size took 1, 3, 5 or 9 bytes and its value needs that many; a pair of arrays splits the first five bytes. -/
theorem C110_one_push (data : Bytes) :
    (∀ N, 0 < N → CheckOnePush (arrayDec N)
      (fun a rest => a.length = N ∧ (data.length ≥ N → a = data.take N ∧ data.drop N = rest)) data) ∧
    CheckOnePush (byteVecDec MAX_VEC_SIZE) (fun v _ => v.length ≤ data.length ∧ (v ≠ [] → v.length ≤ 0x02000000)) data ∧
    CheckOnePush (csDec MAX_COMPACT_SIZE) (fun v rest =>
      (data.length - rest.length = 1 ∧ v < 0xFD ∨ data.length - rest.length = 3 ∧ 0xFD ≤ v ∧ v ≤ 0xFFFF ∨
       data.length - rest.length = 5 ∧ 0x10000 ≤ v ∧ v ≤ 0xFFFFFFFF ∨ data.length - rest.length = 9 ∧ 0x100000000 ≤ v) ∧
      data.drop (data.length - rest.length) = rest) data ∧
    CheckOnePush (dec2 (arrayDec 2) (arrayDec 3)) (fun p rest => p.1.length = 2 ∧ p.2.length = 3 ∧
      (data.length ≥ 5 → data.drop 5 = rest ∧ p.1 = data.take 2 ∧ p.2 = (data.drop 2).take 3)) data := by
  refine ⟨fun N hN => onePush_dw (Dw.array N hN) data ?_, onePush_dw bytes_dw data ?_,
    onePush_dw ⟨_, csDec_lawful _, cs_wire _⟩ data ?_,
    onePush_dw ((Dw.array 2 (by omega)).seq2 (Dw.array 3 (by omega))) data ?_⟩
  · rintro v rest h rfl
    subst h
    simp
  · rintro v rest h rfl
    refine ⟨by simp; omega, fun _ => by unfold MAX_VEC_SIZE at h; omega⟩
  · rintro v rest h rfl
    have hl : (csEncode v ++ rest).length - rest.length = csSize v := by rw [List.length_append, csEncode_length]; omega
    rw [hl]
    refine ⟨?_, by rw [← csEncode_length, List.drop_left]⟩
    unfold csSize
    repeat' split
    all_goals omega
  · rintro ⟨a, b⟩ rest ⟨h1, h2⟩ h
    simp only at h1 h2 h
    subst h
    refine ⟨h1, h2, fun _ => ⟨?_, ?_, ?_⟩⟩
    · rw [List.append_assoc, ← List.append_assoc, List.drop_left' (by simp; omega)]
    · rw [List.append_assoc, List.take_left' h1]
    · rw [List.append_assoc, List.drop_left' h1, List.take_left' h2]

/-! ### Inputs that do decode, and one that does not -/

example : (byteVecDec MAX_VEC_SIZE).decodeSlice [2, 7, 8] = .ok [7, 8] ∧
    CheckRoundtrip (byteVecDec MAX_VEC_SIZE) prefixedBytesEnc prefixedBytes [2, 7, 8] ∧
    streamEncodeDecode (byteVecDec MAX_VEC_SIZE) prefixedBytesEnc 2 (byteVecDec MAX_VEC_SIZE).init (prefixedBytes [7, 8]) = some [7, 8] :=
  ⟨by with_unfolding_all rfl, (C110_primitives _).2.2.2.2.2.2.1, by with_unfolding_all rfl⟩
example : (P2p.Kind.sendCmpct.dec).decodeSlice [1, 2, 0, 0, 0, 0, 0, 0, 0] = .ok (⟨true, 2⟩ : P2p.SendCmpct) ∧
    CheckRoundtrip P2p.Kind.sendCmpct.dec P2p.Kind.sendCmpct.enc P2p.Kind.sendCmpct.start [1, 2, 0, 0, 0, 0, 0, 0, 0] :=
  ⟨by with_unfolding_all rfl, C110_message_payloads .sendCmpct _⟩
example : P2p.bloomDec.decodeSlice [2] = .ok .pubkeyOnly ∧ CheckRoundtrip P2p.bloomDec bytesEnc (fun f => [f.byte]) [2] :=
  ⟨by with_unfolding_all rfl, (C110_p2p_parts _).2.2.2.2.2.2.2.2.2.2.2.1⟩
/-- The check is not empty: an encoder that drops the prefix fails it. -/
example : ¬ CheckRoundtrip (byteVecDec MAX_VEC_SIZE) bytesEnc (fun b => b) [1, 7] := by
  intro hc
  have hd : (byteVecDec MAX_VEC_SIZE).decodeSlice [1, 7] = .ok [7] := by with_unfolding_all rfl
  unfold CheckRoundtrip at hc
  rw [hd] at hc
  obtain ⟨n, h⟩ := hc
  match n with
  | 0 => cases h
  | n + 1 =>
    have : streamEncodeDecode (byteVecDec MAX_VEC_SIZE) bytesEnc (n + 1) (byteVecDec MAX_VEC_SIZE).init [7] = none := by
      with_unfolding_all rfl
    rw [this] at h
    cases h
example : CheckOnePush (csDec MAX_COMPACT_SIZE) (fun v rest => v = 253 ∧ rest = [9]) [0xFD, 253, 0, 9] ∧
    ¬ CheckOnePush (csDec MAX_COMPACT_SIZE) (fun v _ => v < 0xFD) [0xFD, 253, 0, 9] := by
  constructor
  · exact ⟨by with_unfolding_all rfl, by with_unfolding_all rfl⟩
  · intro h
    have : (253 : Nat) < 0xFD := h
    omega

end Btc
