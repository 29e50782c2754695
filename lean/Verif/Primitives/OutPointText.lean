import Verif.Text
import Verif.Primitives.Transaction
/-!
# `OutPoint` as text (primitives/src/transaction.rs 948-993)
-/
namespace Btc

/-- `Display for OutPoint` (948-953); a txid prints its bytes in reverse order
(hash_types/generic.rs 41-44, `DISPLAY_BACKWARD` of sha256d). -/
def OutPoint.display (o : OutPoint) : Bytes := hexBytes o.txid.1.reverse ++ [58] ++ decBytes o.vout.toNat

/-- `ParseOutPointError`. -/
inductive OutPointErr where
  | txid
  | vout (e : IntErr)
  | format
  | tooLong
  | voutNotCanonical
deriving DecidableEq, Repr

/-- `FromStr for Txid` (hash_types/generic.rs 46-58). -/
def parseTxid (s : Bytes) : Option (Arr 32) :=
  match unhex s with
  | none => none
  | some b => if h : b.length = 32 then some ⟨b.reverse, by simp [h]⟩ else none

/-- The check of `parse_vout` (986-991). -/
def voutBad (s : Bytes) : Bool :=
  if s.length > 1 then
    match s with
    | c :: _ => c == 48 || c == 43
    | [] => false
  else false

/-- `parse_vout` (985-993). -/
def parseVout (s : Bytes) : Except OutPointErr UInt32 :=
  if voutBad s then .error .voutNotCanonical
  else match parseUInt (2 ^ 32 - 1) 10 s with
    | .error e => .error (.vout e)
    | .ok n => .ok (UInt32.ofNat n)

/-- `str::find(':')` and `str::rfind(':')`: byte positions. -/
def findColon (s : Bytes) : Option Nat := s.findIdx? (· == 58)
def rfindColon (s : Bytes) : Option Nat := (s.reverse.findIdx? (· == 58)).map (s.length - 1 - ·)

/-- `FromStr for OutPoint` (957-978). -/
def parseOutPoint (s : Bytes) : Except OutPointErr OutPoint :=
  if s.length > 75 then .error .tooLong
  else
    match findColon s with
    | none => .error .format
    | some colon =>
      if rfindColon s ≠ some colon then .error .format
      else if colon = 0 ∨ colon = s.length - 1 then .error .format
      else
        match parseTxid (s.take colon) with
        | none => .error .txid
        | some t =>
          match parseVout (s.drop (colon + 1)) with
          | .error e => .error e
          | .ok v => .ok ⟨t, v⟩

theorem findColon_split {s : Bytes} {c : Nat} (h : findColon s = some c) :
    s = s.take c ++ 58 :: s.drop (c + 1) := by
  unfold findColon at h
  obtain ⟨h1, h2, _⟩ := List.findIdx?_eq_some_iff_getElem.mp h
  have e : s[c] = 58 := by simpa using h2
  rw [← e, List.getElem_cons_drop, List.take_append_drop]

theorem findColon_mid (a b : Bytes) (ha : ∀ x ∈ a, x ≠ 58) : findColon (a ++ 58 :: b) = some a.length := by
  unfold findColon
  rw [List.findIdx?_append]
  have h1 : a.findIdx? (· == 58) = none := by
    rw [List.findIdx?_eq_none_iff]
    intro x hx
    simp [ha x hx]
  simp [h1, List.findIdx?_cons]

theorem rfindColon_mid (a b : Bytes) (hb : ∀ x ∈ b, x ≠ 58) :
    rfindColon (a ++ 58 :: b) = some a.length := by
  unfold rfindColon
  have h1 := findColon_mid b.reverse a.reverse (by simpa using hb)
  unfold findColon at h1
  rw [show (a ++ 58 :: b).reverse = b.reverse ++ 58 :: a.reverse by simp, h1]
  simp

/-- Parsing the printed form gives the out point back. -/
theorem C15_roundtrip (o : OutPoint) : parseOutPoint o.display = .ok o := by
  have hd := decBytes_digit o.vout.toNat
  have hh := hexBytes_digit o.txid.1.reverse
  have hl : (hexBytes o.txid.1.reverse).length = 64 := by
    rw [hexBytes_length, List.length_reverse, o.txid.2]
  have hv : o.vout.toNat < 2 ^ 32 := o.vout.toNat_lt
  have hdl := decBytes_length 10 o.vout.toNat (by omega) (by omega)
  have hdn := decBytes_ne_nil o.vout.toNat
  have hdp : 0 < (decBytes o.vout.toNat).length := List.length_pos_iff.mpr hdn
  have e : o.display = hexBytes o.txid.1.reverse ++ 58 :: decBytes o.vout.toNat := by
    simp [OutPoint.display]
  have hlen : o.display.length = 65 + (decBytes o.vout.toNat).length := by
    rw [e]; simp [hl]; omega
  unfold parseOutPoint
  rw [if_neg (by omega)]
  have hf : findColon o.display = some 64 := by
    rw [e, findColon_mid, hl]
    rintro x hx rfl
    have h58 : (58 : UInt8).toNat = 58 := rfl
    rcases (hh 58 hx).2 with h | h <;> omega
  have hr : rfindColon o.display = some 64 := by
    rw [e, rfindColon_mid, hl]
    rintro x hx rfl
    have h58 : (58 : UInt8).toNat = 58 := rfl
    have := hd 58 hx
    omega
  rw [hf]
  simp only
  rw [if_neg (by simp [hr]), if_neg (by omega)]
  have ht : o.display.take 64 = hexBytes o.txid.1.reverse := by
    rw [e, ← hl]; simp
  have hdr : o.display.drop 65 = decBytes o.vout.toNat := by
    rw [e, show 65 = (hexBytes o.txid.1.reverse).length + 1 by omega]; simp
  rw [ht, hdr]
  have hp : parseTxid (hexBytes o.txid.1.reverse) = some o.txid := by
    unfold parseTxid
    rw [unhex_hexBytes]
    simp only
    rw [dif_pos (by rw [List.length_reverse, o.txid.2])]
    simp
  rw [hp]
  have hpv : parseVout (decBytes o.vout.toNat) = .ok o.vout := by
    unfold parseVout
    have hbad : ∀ c t, decBytes o.vout.toNat = c :: t → c ≠ 43 := by
      rintro c t hct rfl
      have := hd 43 (by rw [hct]; simp)
      have h43 : (43 : UInt8).toNat = 43 := rfl
      omega
    rw [parse_decBytes _ _ (by omega)]
    simp only
    rw [if_neg, UInt32.ofNat_toNat]
    intro hc
    unfold voutBad at hc
    split at hc
    · rename_i hlen
      split at hc
      · rename_i c t hct
        have h43 := hbad _ _ hct
        by_cases h0 : o.vout.toNat = 0
        · rw [h0] at hlen
          unfold decBytes at hlen
          simp at hlen
        · obtain ⟨b, t', h1, h2⟩ := decBytes_head _ h0
          rw [hct] at h1
          cases h1
          simp [h2, h43] at hc
      · cases hc
    · cases hc
  rw [hpv]

/-- Accepted strings without upper case hex digits are printed forms. -/
theorem C15_canonical (s : Bytes) (o : OutPoint) (h : parseOutPoint s = .ok o)
    (hu : ∀ c ∈ s, isUpperHex c = false) : s = o.display := by
  unfold parseOutPoint at h
  split at h
  · cases h
  split at h
  · cases h
  rename_i colon hf
  split at h
  · cases h
  split at h
  · cases h
  rename_i hcol
  split at h
  · cases h
  rename_i t ht
  split at h
  · cases h
  rename_i v hv
  cases h
  have hs := findColon_split hf
  unfold parseTxid at ht
  split at ht
  · cases ht
  rename_i b hb
  split at ht
  · rename_i hbl
    cases ht
    have h1 := hexBytes_unhex _ _ hb (fun c hc => hu c (List.mem_of_mem_take hc))
    unfold parseVout at hv
    split at hv
    · cases hv
    rename_i hbad
    split at hv
    · cases hv
    rename_i n hn
    cases hv
    obtain ⟨ds, hds, hne, hval, hmax⟩ := (parseUInt_ok_iff (by omega) _ _).mp hn
    have hds' : s.drop (colon + 1) = ds := by
      rcases hds with hds | hds
      · exact hds
      · exfalso
        apply hbad
        rw [hds]
        unfold voutBad
        have : ds.length ≠ 0 := by simpa using hne
        simp [List.length_cons]
        omega
    rw [hds'] at hbad
    have h2 : decBytes n = ds := by
      refine decBytes_canonical ds n hval hne ?_
      rintro t rfl
      apply Classical.byContradiction
      intro hc
      apply hbad
      unfold voutBad
      have : t.length ≠ 0 := by simpa using hc
      simp [List.length_cons]
      omega
    have h3 : (UInt32.ofNat n).toNat = n := by
      rw [UInt32.toNat_ofNat']
      omega
    rw [hs, hds', ← h1]
    simp only [OutPoint.display, h3, h2, List.reverse_reverse]
    simp
  · cases ht

/-- In particular printing is injective. -/
theorem C15_display_injective (o o' : OutPoint) (h : o.display = o'.display) : o = o' := by
  have h1 := C15_roundtrip o
  rw [h, C15_roundtrip] at h1
  cases h1; rfl

example : ∃ s o, parseOutPoint s = .ok o ∧ (∀ c ∈ s, isUpperHex c = false) ∧ o.vout = 42 := by
  refine ⟨OutPoint.display ⟨⟨List.replicate 32 0xAB, by simp⟩, 42⟩, _, C15_roundtrip _, ?_, rfl⟩
  intro c hc
  simp only [OutPoint.display, List.mem_append, List.mem_singleton] at hc
  rcases hc with (hc | rfl) | hc
  · exact (hexBytes_digit _ c hc).1
  · decide
  · have := decBytes_digit _ c hc
    simp [isUpperHex]; omega
/-- Upper case txids are accepted, which is why the lower case hypothesis is needed. -/
example : parseOutPoint (List.replicate 64 65 ++ [58, 49]) =
    .ok ⟨⟨List.replicate 32 0xAA, by simp⟩, 1⟩ := by rfl
example : parseOutPoint (List.replicate 64 97 ++ [58, 48, 49]) = .error .voutNotCanonical := by rfl

end Btc
