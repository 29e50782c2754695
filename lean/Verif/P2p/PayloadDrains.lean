import Verif.P2p.PayloadLaws
/-!
# The payload encoders yield the wire forms
-/
namespace Btc
namespace P2p

theorem dcons {e : Enc} {es : List Enc} {s : e.S} {t : HSt es} {b : Bytes} {bss : List Bytes} (h : Drains e s b)
    (h' : DrainsAll t bss) : DrainsAll (es := e :: es) (s, t) (b :: bss) := ⟨h, h'⟩
theorem dnil : DrainsAll (es := []) () [] := rfl

theorem dtuple {es : List Enc} {t : HSt es} {bss : List Bytes} {w : Bytes} (h : DrainsAll t bss) (hne : es ≠ [])
    (hw : bss.flatten = w) : Drains (encN es) (0, t) w := hw ▸ C06_tuple hne t bss h

theorem slice_drains {α : Type} {e : Enc} (st : α → e.S) (b : α → Bytes) (l : List α)
    (hd : ∀ a, Drains e (st a) (b a)) (hs : ∀ a, e.cur (st a) ≠ []) :
    Drains (prefixedSliceEnc e) (prefixedSlice e (l.map st)) (csEncode l.length ++ (l.map b).flatten) := by
  have h1 := C06_prefixed_slice_partial _ _ (drainsEach_map st b hd l)
    (by
      intro s hm bs _ hc
      obtain ⟨a, _, rfl⟩ := List.mem_map.mp hm
      exact absurd hc (hs a))
  rwa [List.length_map] at h1

theorem hashes_drains (l : List (Arr 32)) :
    Drains (prefixedSliceEnc bytesEnc) (prefixedSlice bytesEnc (l.map (·.1))) (hashesBytes l) :=
  Bip152.bytesSlice_drains (fun a : Arr 32 => a.1) l (fun a _ h => by have := a.2; rw [h] at this; simp at this)

theorem netAddr_drains (a : NetAddr) : Drains netAddrEnc a.encoder (netAddrBytes a) :=
  dtuple (dcons (C06_bytes _) (dcons (C06_bytes _) (dcons (C06_bytes _) dnil))) (by simp) (by simp [netAddrBytes])

theorem addrV1_drains (a : AddrV1) : Drains addrV1Enc a.encoder (addrV1Bytes a) :=
  dtuple (dcons (C06_bytes _) (dcons (netAddr_drains _) dnil)) (by simp) (by simp [addrV1Bytes])

theorem arr_len {n : Nat} (a : Arr n) : a.1.length = n := a.2

theorem addrV2_drains (a : AddrV2) : Drains addrV2Enc a.encoder (addrV2Bytes a) := by
  refine ⟨3, ?_⟩
  cases a <;> simp [Enc.drain, addrV2Enc, AddrV2.encoder, addrV2Bytes, AddrV2.net, AddrV2.data, segs_len, arr_len]

theorem addrV2Msg_drains (a : AddrV2Msg) : Drains addrV2MsgEnc a.encoder (addrV2MsgBytes a) :=
  dtuple (dcons (C06_bytes _) (dcons (C06_bytes _) (dcons (addrV2_drains _) (dcons (C06_bytes _) dnil)))) (by simp)
    (by simp [addrV2MsgBytes])

theorem inv_drains (i : Inventory) : Drains invEnc i.encoder (invBytes i) :=
  dtuple (dcons (C06_bytes _) (dcons (C06_bytes _) dnil)) (by simp) (by simp [invBytes])

theorem locator_drains (l : Locator) : Drains locatorEnc l.encoder (locatorBytes l) :=
  dtuple (dcons (C06_bytes _) (dcons (hashes_drains _) (dcons (C06_bytes _) dnil))) (by simp) (by simp [locatorBytes])

theorem filterLoad_drains (f : FilterLoad) : Drains filterLoadEnc f.encoder (filterLoadBytes f) :=
  dtuple (dcons (C06_prefixed_bytes _) (dcons (dtuple (dcons (C06_bytes _) (dcons (C06_bytes _) (dcons (C06_bytes _) dnil)))
    (by simp) rfl) dnil)) (by simp) (by simp [filterLoadBytes])

theorem getCF_drains (g : GetCF) : Drains getCFEnc g.encoder (getCFBytes g) :=
  dtuple (dcons (C06_bytes _) (dcons (C06_bytes _) (dcons (C06_bytes _) dnil))) (by simp) (by simp [getCFBytes])

theorem cFilter_drains (c : CFilter) : Drains cFilterEnc c.encoder (cFilterBytes c) :=
  dtuple (dcons (C06_bytes _) (dcons (C06_bytes _) (dcons (C06_prefixed_bytes _) dnil))) (by simp) (by simp [cFilterBytes])

theorem cfHeaders_drains (c : CFHeaders) : Drains cfHeadersEnc c.encoder (cfHeadersBytes c) :=
  dtuple (dcons (C06_bytes _) (dcons (C06_bytes _) (dcons (C06_bytes _) (dcons (hashes_drains _) dnil)))) (by simp)
    (by simp [cfHeadersBytes])

theorem getCFCheckpt_drains (c : GetCFCheckpt) : Drains getCFCheckptEnc c.encoder (getCFCheckptBytes c) :=
  dtuple (dcons (C06_bytes _) (dcons (C06_bytes _) dnil)) (by simp) (by simp [getCFCheckptBytes])

theorem cfCheckpt_drains (c : CFCheckpt) : Drains cfCheckptEnc c.encoder (cfCheckptBytes c) :=
  dtuple (dcons (C06_bytes _) (dcons (C06_bytes _) (dcons (hashes_drains _) dnil))) (by simp) (by simp [cfCheckptBytes])

theorem sendCmpct_drains (s : SendCmpct) : Drains sendCmpctEnc s.encoder (sendCmpctBytes s) :=
  dtuple (dcons (C06_bytes _) (dcons (C06_bytes _) dnil)) (by simp) (by simp [sendCmpctBytes])

theorem sendTxRcnCl_drains (s : SendTxRcnCl) : Drains sendTxRcnClEnc s.encoder (sendTxRcnClBytes s) :=
  dtuple (dcons (C06_bytes _) (dcons (C06_bytes _) dnil)) (by simp) (by simp [sendTxRcnClBytes])

theorem netHeader_drains (h : NetHeader) : Drains netHeaderEnc h.encoder (netHeaderBytes h) :=
  dtuple (dcons (headerEnc_drains _) (dcons (C06_bytes _) dnil)) (by simp) (by simp [netHeaderBytes])

theorem reject_drains (r : Reject) : Drains rejectEnc r.encoder (rejectBytes r) :=
  dtuple (dcons (C06_prefixed_bytes _) (dcons (C06_bytes _) (dcons (C06_prefixed_bytes _) (dcons (C06_bytes _) dnil))))
    (by simp) (by simp [rejectBytes])

theorem feature_drains (f : Feature) : Drains featureEnc f.encoder (featureBytes f) :=
  dtuple (dcons (C06_prefixed_bytes _) (dcons (C06_prefixed_bytes _) dnil)) (by simp) (by simp [featureBytes])

theorem version_drains (v : VersionMsg) : Drains versionEnc v.encoder (versionBytes v) :=
  dtuple (dcons (dtuple (dcons (C06_bytes _) (dcons (C06_bytes _) (dcons (C06_bytes _) dnil))) (by simp) rfl)
    (dcons (dtuple (es := versionTail) (dcons (netAddr_drains _) (dcons (netAddr_drains _) (dcons (C06_bytes _)
      (dcons (C06_prefixed_bytes _) (dcons (C06_bytes _) (dcons (C06_bytes _) dnil)))))) (by simp [versionTail]) rfl) dnil))
    (by simp) (by simp [versionBytes, versionForm])

theorem merkleBlock_drains (b : Pmt.MerkleBlock) (h : b.txn.num < 2 ^ 32) :
    Drains Pmt.mbEnc b.encoder (merkleBlockBytes b) :=
  dtuple (dcons (headerEnc_drains _) (dcons (Pmt.enc_drains _ h) dnil)) (by simp) (by simp [merkleBlockBytes])

/-! First chunks of vector items are never empty. -/

theorem u32le_ne_nil (x : UInt32) : u32le x ≠ [] := by
  intro h
  have : (u32le x).length = 4 := by simp [u32le]
  rw [h] at this
  simp at this

theorem addrV1_start (a : AddrV1) : addrV1Enc.cur a.encoder ≠ [] := u32le_ne_nil a.time
theorem addrV2Msg_start (a : AddrV2Msg) : addrV2MsgEnc.cur a.encoder ≠ [] := u32le_ne_nil a.time
theorem inv_start (i : Inventory) : invEnc.cur i.encoder ≠ [] := u32le_ne_nil i.parts.1
theorem netHeader_start (h : NetHeader) : netHeaderEnc.cur h.encoder ≠ [] := u32le_ne_nil h.header.version

end P2p
end Btc
