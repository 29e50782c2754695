import Verif.P2p.Chains
import Verif.Props.C13_C17
/-!
# C90 — Chains of headers

A connected `headers` message is a chain: its tip commits to every header in it.  The same holds of a chain of filter
headers and the filters in it.  The final alert is the one alert message with the fields all nodes agree on.
-/
namespace Btc
namespace P2p

/-- Connected means that every header but the first names the hash of the header before it. -/
theorem C90_connected_iff (H : Bytes → Arr 32) (l : List NetHeader) :
    isConnected H l = true ↔ ∀ i (h : i + 1 < l.length), l[i + 1].header.prev = (l[i]'(by omega)).header.blockHash H := by
  unfold isConnected
  rw [List.all_eq_true]
  constructor
  · intro h i hi
    have hz : i < (l.zip (l.drop 1)).length := by simp; omega
    have := h _ (List.getElem_mem hz)
    simp only [List.getElem_zip, List.getElem_drop, decide_eq_true_eq] at this
    rw [this]
    congr 3
    omega
  · intro h p hp
    obtain ⟨i, hi, rfl⟩ := List.getElem_of_mem hp
    simp only [List.length_zip, List.length_drop] at hi
    simp only [List.getElem_zip, List.getElem_drop, decide_eq_true_eq]
    rw [← h i (by omega)]
    congr 3
    omega

theorem connected_concat (H : Bytes → Arr 32) (l : List NetHeader) (x : NetHeader) (h : isConnected H (l ++ [x]) = true) :
    isConnected H l = true ∧ ∀ y, l.getLast? = some y → x.header.prev = y.header.blockHash H := by
  rw [C90_connected_iff] at h
  constructor
  · rw [C90_connected_iff]
    intro i hi
    have := h i (by rw [List.length_append]; omega)
    rw [List.getElem_append_left hi, List.getElem_append_left (by omega)] at this
    exact this
  · intro y hy
    obtain ⟨ys, rfl⟩ := List.getLast?_eq_some_iff.1 hy
    have := h ys.length (by simp)
    simpa using this

/-- Two connected messages of the same number of headers and with the same tip hash carry the same headers, or two
of these headers are different and have one hash. -/
theorem C90_tip_determines (H : Bytes → Arr 32) : ∀ (l m : List NetHeader), l.length = m.length →
    isConnected H l = true → isConnected H m = true →
    (∀ x y, l.getLast? = some x → m.getLast? = some y → x.header.blockHash H = y.header.blockHash H) →
    intoHeaders l = intoHeaders m ∨ Collision H ((intoHeaders l ++ intoHeaders m).map headerBytes) := by
  intro l
  generalize hn : l.length = n
  induction n generalizing l with
  | zero =>
    intro m hm _ _ _
    rw [List.length_eq_zero_iff.1 hn, List.length_eq_zero_iff.1 hm.symm]
    exact .inl rfl
  | succ n ih =>
    intro m hm hl hm' ht
    rcases List.eq_nil_or_concat l with rfl | ⟨l, x, rfl⟩
    · simp at hn
    rcases List.eq_nil_or_concat m with rfl | ⟨m, y, rfl⟩
    · simp at hm
    rw [List.concat_eq_append] at *
    obtain ⟨hl1, hl2⟩ := connected_concat H l x hl
    obtain ⟨hm1, hm2⟩ := connected_concat H m y hm'
    have htip := ht x y (by simp) (by simp)
    rcases (C16_block_hash H x.header y.header).2 htip with hxy | hc
    · have := ih l (by simpa using hn) m (by simp at hm; omega) hl1 hm1 (fun a b ha hb => by
        rw [← hl2 a ha, ← hm2 b hb, hxy])
      rcases this with h | h
      · left
        unfold intoHeaders at *
        rw [List.concat_eq_append, List.map_append, List.map_append, h, List.map_singleton, List.map_singleton, hxy]
      · refine .inr (h.mono fun z hz => ?_)
        simp only [intoHeaders, List.concat_eq_append, List.map_append, List.mem_append] at hz ⊢
        exact hz.imp .inl .inl
    · refine .inr (hc.mono fun z hz => ?_)
      simp only [intoHeaders, List.concat_eq_append, List.map_append, List.mem_append, List.map_cons, List.map_nil, List.mem_cons, List.not_mem_nil, or_false] at hz ⊢
      exact hz.imp .inr .inr

/-- A hash for the examples: it keeps the first 32 bytes, so it is far from injective. -/
def toyH (b : Bytes) : Arr 32 := ⟨(b ++ List.replicate 32 0).take 32, by simp⟩
def chain2 : List NetHeader :=
  [⟨sampleHeader, 0⟩, ⟨{ sampleHeader with prev := sampleHeader.blockHash toyH }, 0⟩]
example : isConnected toyH chain2 = true := by decide
example : isConnected toyH chain2.reverse = false := by decide

/-- What is hashed for a chain of filter headers: each filter, and its hash with the header before. -/
def filterInputs (H : Bytes → Arr 32) : Arr 32 → List Bytes → List Bytes
  | _, [] => []
  | g, f :: fs => f :: ((H f).1 ++ g.1) :: filterInputs H (H ((H f).1 ++ g.1)) fs

/-- A filter header commits to the start of the chain and to every filter in it. -/
theorem C90_filter_chain (H : Bytes → Arr 32) (g g' : Arr 32) (fs fs' : List Bytes) (hn : fs.length = fs'.length)
    (h : filterChain H g fs = filterChain H g' fs') : (g = g' ∧ fs = fs') ∨
      Collision H (filterInputs H g fs ++ filterInputs H g' fs') := by
  induction fs generalizing g g' fs' with
  | nil =>
    cases fs' with
    | nil => exact .inl ⟨h, rfl⟩
    | cons a b => simp at hn
  | cons f fs ih =>
    cases fs' with
    | nil => simp at hn
    | cons f' fs' =>
      rcases ih (filterHeader H (filterHash H f) g) (filterHeader H (filterHash H f') g') fs' (by simpa using hn) h with ⟨h1, h2⟩ | hc
      · by_cases he : (filterHash H f).1 ++ g.1 = (filterHash H f').1 ++ g'.1
        · obtain ⟨e1, e2⟩ := List.append_inj he (by rw [(filterHash H f).2, (filterHash H f').2])
          by_cases hf : f = f'
          · exact .inl ⟨Subtype.ext e2, by rw [hf, h2]⟩
          · exact .inr ⟨f, by simp [filterInputs], f', by simp [filterInputs], hf, Subtype.ext e1⟩
        · exact .inr ⟨_, by simp [filterInputs, filterHash], _, by simp [filterInputs, filterHash], he, h1⟩
      · refine .inr (hc.mono fun z hz => ?_)
        simp only [filterInputs, List.cons_append, List.mem_append, List.mem_cons] at hz ⊢
        exact hz.elim (fun hz => .inr (.inr (.inl hz))) fun hz => .inr (.inr (.inr (.inr (.inr hz))))

/-- One filter header: `sha256d(filter_hash || previous)`, as BIP157 says. -/
theorem C90_filter_header (H : Bytes → Arr 32) (g : Arr 32) (fs : List Bytes) (f : Bytes) :
    filterChain H g (fs ++ [f]) = H ((H f).1 ++ (filterChain H g fs).1) := by
  unfold filterChain
  rw [List.foldl_append]
  rfl

/-- The fields of an alert (the old Bitcoin protocol). -/
structure AlertFields where
  version : UInt32
  relayUntil : UInt64
  expiration : UInt64
  id : UInt32
  cancel : UInt32
  setCancel : List UInt32
  minVer : UInt32
  maxVer : UInt32
  setSubVer : List Bytes
  priority : UInt32
  comment : Bytes
  statusBar : Bytes
  reserved : Bytes

def alertBytes (a : AlertFields) : Bytes :=
  u32le a.version ++ u64le a.relayUntil ++ u64le a.expiration ++ u32le a.id ++ u32le a.cancel
  ++ (csEncode a.setCancel.length ++ a.setCancel.flatMap u32le) ++ u32le a.minVer ++ u32le a.maxVer
  ++ (csEncode a.setSubVer.length ++ a.setSubVer.flatMap (fun s => csEncode s.length ++ s)) ++ u32le a.priority
  ++ (csEncode a.comment.length ++ a.comment) ++ (csEncode a.statusBar.length ++ a.statusBar)
  ++ (csEncode a.reserved.length ++ a.reserved)

/-- `is_final_alert` holds of exactly one alert: the one with every limit at `i32::MAX` that cancels all others and
asks to upgrade. -/
theorem C90_final_alert (a : Bytes) :
    (isFinalAlert a = true ↔ a = alertBytes ⟨1, 0, 0x7FFFFFFF, 0x7FFFFFFF, 0x7FFFFFFE, [0x7FFFFFFF], 0, 0x7FFFFFFF, [],
      0x7FFFFFFF, [], "URGENT: Alert key compromised, upgrade required".toUTF8.toList, []⟩)
    ∧ isFinalAlert finalAlert = true := by
  have h : FINAL_ALERT = alertBytes ⟨1, 0, 0x7FFFFFFF, 0x7FFFFFFF, 0x7FFFFFFE, [0x7FFFFFFF], 0, 0x7FFFFFFF, [],
      0x7FFFFFFF, [], "URGENT: Alert key compromised, upgrade required".toUTF8.toList, []⟩ := by decide +kernel
  refine ⟨?_, by simp [isFinalAlert, finalAlert]⟩
  rw [isFinalAlert, decide_eq_true_eq, h]

end P2p
end Btc
