import Verif.Props.C49
/-!
# C63: HKDF (RFC 5869)
-/
namespace Btc
namespace Hashes

/-- RFC 5869 §2.3: `T(0)` is empty, `T(i) = HMAC(PRK, T(i-1) | info | i)`. -/
def hkdfT (H : Bytes → Bytes) (B : Nat) (prk info : Bytes) : Nat → Bytes
  | 0 => []
  | i + 1 => hmac H B prk (hkdfT H B prk info i ++ info ++ [UInt8.ofNat (i + 1)])

/-- `T(1) | T(2) | .. | T(n)`. -/
def hkdfTs (H : Bytes → Bytes) (B : Nat) (prk info : Bytes) (n : Nat) : Bytes :=
  ((List.range n).map fun i => hkdfT H B prk info (i + 1)).flatten

theorem hkdfTs_succ (H : Bytes → Bytes) (B : Nat) (prk info : Bytes) (n : Nat) :
    hkdfTs H B prk info (n + 1) = hkdfTs H B prk info n ++ hkdfT H B prk info (n + 1) := by
  unfold hkdfTs
  rw [List.range_succ, List.map_append, List.flatten_append]
  simp

theorem hkdfT_length (H : Bytes → Bytes) (B LEN : Nat) (hH : ∀ m, (H m).length = LEN) (prk info : Bytes) (i : Nat) :
    (hkdfT H B prk info (i + 1)).length = LEN := by rw [hkdfT]; exact hH _
theorem hkdfTs_length (H : Bytes → Bytes) (B LEN : Nat) (hH : ∀ m, (H m).length = LEN) (prk info : Bytes) (n : Nat) :
    (hkdfTs H B prk info n).length = n * LEN := by
  induction n with
  | zero => simp [hkdfTs]
  | succ n ih => rw [hkdfTs_succ, List.length_append, ih, hkdfT_length H B LEN hH, Nat.succ_mul]

/-- What the buffer holds when counter value `c + 1` is next. -/
def OkmInv (H : Bytes → Bytes) (B LEN : Nat) (prk info : Bytes) (L : Nat) (c : Nat) (okm : Bytes) : Prop :=
  okm.length = L ∧ okm.take (c * LEN) = (hkdfTs H B prk info c).take L

theorem round_ok (A : Alg) (H : Bytes → Bytes) (N LEN : Nat) (hA : A.Computes H N) (hB : A.block ≤ 128) (hlen : ∀ m, (H m).length = LEN)
    (hLB : LEN ≤ A.block) (prk info : Bytes) (hp : prk.length < N) (hN : 2 * A.block < N)
    (hi : A.block + (LEN + info.length + 1) < N) (L total c : Nat) (h0 : 0 < LEN)
    (ht : total = (L + LEN - 1) / LEN) (hc : c + 1 ≤ total) (htot : total < 256) (okm : Bytes)
    (hinv : OkmInv H A.block LEN prk info L c okm) :
    ∃ okm', expandRound A LEN prk info total (c + 1) okm = some okm' ∧ OkmInv H A.block LEN prk info L (c + 1) okm' := by
  obtain ⟨hL, hpre⟩ := hinv
  -- index facts
  have hdm := Nat.div_add_mod (L + LEN - 1) LEN
  rw [← ht] at hdm
  have hmod := Nat.mod_lt (L + LEN - 1) h0
  have hcL : (c + 1) * LEN ≤ total * LEN := Nat.mul_le_mul_right _ hc
  rw [Nat.succ_mul] at hcL
  have htL : LEN * total = total * LEN := Nat.mul_comm _ _
  have hcl : c * LEN < L := by omega
  have hpre' : okm.take (c * LEN) = hkdfTs H A.block prk info c := by
    rw [hpre, List.take_of_length_le (by rw [hkdfTs_length H _ LEN hlen]; omega)]
  -- the MAC of this round
  obtain ⟨e, he, hmac1⟩ := C49_hmac A H N hA hB (fun m => by rw [hlen]; exact hLB) prk hp
    (if c + 1 ≠ 1 then [(okm.drop ((c - 1) * LEN)).take LEN, info, [UInt8.ofNat (c + 1)]] else [info, [UInt8.ofNat (c + 1)]]) (by
      split
      · simp only [List.flatten_cons, List.flatten_nil, List.append_nil, List.length_append, List.length_take, List.length_singleton]
        omega
      · simp only [List.flatten_cons, List.flatten_nil, List.append_nil, List.length_append, List.length_singleton]
        omega) hN
  have hT : (if c + 1 ≠ 1 then [(okm.drop ((c - 1) * LEN)).take LEN, info, [UInt8.ofNat (c + 1)]] else [info, [UInt8.ofNat (c + 1)]]).flatten =
      hkdfT H A.block prk info c ++ info ++ [UInt8.ofNat (c + 1)] := by
    cases c with
    | zero => simp [hkdfT]
    | succ c =>
      have hprev : (okm.drop ((c + 1 - 1) * LEN)).take LEN = hkdfT H A.block prk info (c + 1) := by
        rw [Nat.add_sub_cancel]
        have h1 : okm.take ((c + 1) * LEN) = hkdfTs H A.block prk info c ++ hkdfT H A.block prk info (c + 1) := by
          rw [hpre', hkdfTs_succ]
        have h2 : (okm.take ((c + 1) * LEN)).drop (c * LEN) = hkdfT H A.block prk info (c + 1) := by
          rw [h1, List.drop_left' (by rw [hkdfTs_length H _ LEN hlen])]
        rw [List.drop_take, show (c + 1) * LEN - c * LEN = LEN by rw [Nat.succ_mul]; omega] at h2
        exact h2
      rw [if_pos (by omega), hprev]
      simp
  rw [hT] at hmac1
  have hfin : (HmacEng.input (HmacEng.input (if c + 1 ≠ 1 then e.input ((okm.drop ((c + 1 - 2) * LEN)).take LEN) else e) info)
      [UInt8.ofNat (c + 1)]).finish = hkdfT H A.block prk info (c + 1) := by
    rw [hkdfT, ← hmac1]
    split
    · rfl
    · rfl
  have hTl := hkdfT_length H A.block LEN hlen prk info c
  unfold expandRound
  rw [he]
  simp only [if_neg (show ¬ c + 1 = 0 by omega), hfin, Nat.add_sub_cancel, hL, hTl, Nat.mod_eq_of_lt htot]
  -- where the round ends
  generalize hstop : (if c + 1 = total then L else (c + 1) * LEN) = stop
  have hs : c * LEN ≤ stop ∧ stop ≤ L ∧ stop - c * LEN ≤ LEN ∧ stop = min ((c + 1) * LEN) L := by
    rw [← hstop]
    split
    · rename_i h
      have : (c + 1) * LEN = total * LEN := by rw [h]
      rw [Nat.succ_mul] at this ⊢
      omega
    · rename_i h
      have : (c + 2) * LEN ≤ total * LEN := Nat.mul_le_mul_right _ (by omega)
      rw [Nat.succ_mul] at this
      rw [Nat.succ_mul] at this ⊢
      omega
  rw [if_pos ⟨hs.1, hs.2.1, hs.2.2.1⟩]
  refine ⟨_, rfl, ?_, ?_⟩
  · rw [splice_length _ _ _ (by rw [List.length_take, hTl, hL]; omega), hL]
  · have hkl : (List.take (stop - c * LEN) (hkdfT H A.block prk info (c + 1))).length = stop - c * LEN := by
      rw [List.length_take, hTl]; omega
    have := splice_take okm (c * LEN) (List.take (stop - c * LEN) (hkdfT H A.block prk info (c + 1))) (by rw [hkl, hL]; omega)
    rw [hkl, hpre', show c * LEN + (stop - c * LEN) = stop by omega] at this
    have hsl : (splice okm (c * LEN) (List.take (stop - c * LEN) (hkdfT H A.block prk info (c + 1)))).length = L := by
      rw [splice_length _ _ _ (by rw [hkl, hL]; omega), hL]
    rw [hkdfTs_succ, List.take_append, List.take_of_length_le (l := hkdfTs H A.block prk info c)
      (by rw [hkdfTs_length H _ LEN hlen]; omega), hkdfTs_length H _ LEN hlen]
    by_cases hm : (c + 1) * LEN ≤ L
    · rw [show (c + 1) * LEN = stop by omega, this]
      rw [Nat.succ_mul] at hm hs
      rw [List.take_of_length_le (by rw [hTl]; omega), List.take_of_length_le (by rw [hTl]; omega)]
    · have hst : stop = L := by omega
      rw [hst] at this hsl ⊢
      rw [List.take_of_length_le (by rw [hsl]; omega)] at this ⊢
      exact this

theorem loop_ok (A : Alg) (H : Bytes → Bytes) (N LEN : Nat) (hA : A.Computes H N) (hB : A.block ≤ 128) (hlen : ∀ m, (H m).length = LEN)
    (hLB : LEN ≤ A.block) (prk info : Bytes) (hp : prk.length < N) (hN : 2 * A.block < N)
    (hi : A.block + (LEN + info.length + 1) < N) (L total : Nat) (h0 : 0 < LEN)
    (ht : total = (L + LEN - 1) / LEN) (htot : total < 255) (k c fuel : Nat) (hk : c + k = total) (hf : k < fuel) (okm : Bytes)
    (hinv : OkmInv H A.block LEN prk info L c okm) :
    ∃ okm', expandLoop A LEN prk info total fuel (c + 1) okm = some okm' ∧ OkmInv H A.block LEN prk info L total okm' := by
  induction k generalizing c fuel okm with
  | zero =>
    cases fuel with
    | zero => omega
    | succ fuel =>
      rw [expandLoop, if_neg (by rw [Nat.mod_eq_of_lt (by omega)]; omega)]
      have : c = total := by omega
      subst this
      exact ⟨_, rfl, hinv⟩
  | succ k ih =>
    cases fuel with
    | zero => omega
    | succ fuel =>
      obtain ⟨okm', h1, h2⟩ := round_ok A H N LEN hA hB hlen hLB prk info hp hN hi L total c h0 ht (by omega) (by omega) okm hinv
      rw [expandLoop, if_pos (by rw [Nat.mod_eq_of_lt (show total < 256 by omega)]; omega), h1]
      simp only [Nat.mod_eq_of_lt (show c + 1 + 1 < 256 by omega)]
      exact ih (c + 1) fuel (by omega) (by omega) okm' h2

/-- Extraction is HMAC with the salt as key. -/
theorem C63_extract (A : Alg) (H : Bytes → Bytes) (N : Nat) (hA : A.Computes H N) (hB : A.block ≤ 128) (hlen : ∀ m, (H m).length ≤ A.block)
    (salt ikm : Bytes) (hs : salt.length < N) (hikm : A.block + ikm.length < N) (hN : 2 * A.block < N) :
    hkdfNew A salt ikm = some (hmac H A.block salt ikm) := by
  obtain ⟨e, h1, h2⟩ := C49_hmac A H N hA hB hlen salt hs [ikm] (by simpa using hikm) hN
  unfold hkdfNew
  rw [h1]
  simpa using h2

/-- Full statement: for up to 255 blocks `expand` writes the first bytes of `T(1) | T(2) | ..`.  It holds up to 254 blocks; what is
missing is the 255th, for which `C63_last_block_panics` shows that it fails. -/
theorem C63_expand_partial (A : Alg) (H : Bytes → Bytes) (N LEN : Nat) (hA : A.Computes H N) (hB : A.block ≤ 128)
    (hlen : ∀ m, (H m).length = LEN) (h0 : 0 < LEN) (hLB : LEN ≤ A.block) (prk info : Bytes) (hp : prk.length < N)
    (hN : 2 * A.block < N) (hi : A.block + (LEN + info.length + 1) < N) (okm : Bytes) (hL : okm.length ≤ 254 * LEN) :
    hkdfExpand A LEN prk info okm = .ok ((hkdfTs H A.block prk info ((okm.length + LEN - 1) / LEN)).take okm.length) ∧
    okm.length ≤ (hkdfTs H A.block prk info ((okm.length + LEN - 1) / LEN)).length := by
  have hdm := Nat.div_add_mod (okm.length + LEN - 1) LEN
  have hmod := Nat.mod_lt (okm.length + LEN - 1) h0
  generalize ht : (okm.length + LEN - 1) / LEN = total at hdm
  have htot : total < 255 := by
    apply Classical.byContradiction
    intro hc
    have : 255 * LEN ≤ LEN * total := by rw [Nat.mul_comm LEN]; exact Nat.mul_le_mul_right _ (by omega)
    omega
  have htL : LEN * total = total * LEN := Nat.mul_comm _ _
  obtain ⟨r, h1, h2, h3⟩ := loop_ok A H N LEN hA hB hlen hLB prk info hp hN hi okm.length total h0 ht.symm htot total 0 300 (by omega)
    (by omega) okm ⟨rfl, by simp [hkdfTs]⟩
  unfold hkdfExpand
  rw [if_neg (by omega), ht, h1]
  refine ⟨?_, by rw [hkdfTs_length H _ LEN hlen]; omega⟩
  rw [← h3, List.take_of_length_le (by omega)]

/-- More than 255 blocks are refused with the documented error. -/
theorem C63_too_long (A : Alg) (LEN : Nat) (prk info okm : Bytes) (h : 255 * LEN < okm.length) :
    hkdfExpand A LEN prk info okm = .error (.maxLength (255 * LEN)) := by
  unfold hkdfExpand; rw [if_pos h]

/-- An output that needs the 255th block, which the documentation and the error above allow, panics: the counter is a `u8` and is
incremented past 255. -/
theorem C63_last_block_panics (A : Alg) (LEN : Nat) (h0 : 0 < LEN) (prk info okm : Bytes) (h1 : 254 * LEN < okm.length)
    (h2 : okm.length ≤ 255 * LEN) : hkdfExpand A LEN prk info okm = .error .panic := by
  have ht : (okm.length + LEN - 1) / LEN = 255 := by
    have hdm := Nat.div_add_mod (okm.length + LEN - 1) LEN
    have hmod := Nat.mod_lt (okm.length + LEN - 1) h0
    generalize (okm.length + LEN - 1) / LEN = t at hdm
    have a : ¬ 256 ≤ t := by
      intro hc
      have : 256 * LEN ≤ LEN * t := by rw [Nat.mul_comm LEN]; exact Nat.mul_le_mul_right _ hc
      omega
    have b : ¬ t ≤ 254 := by
      intro hc
      have : LEN * t ≤ 254 * LEN := by rw [Nat.mul_comm LEN]; exact Nat.mul_le_mul_right _ hc
      omega
    omega
  have hz : ∀ okm, expandRound A LEN prk info 255 0 okm = none := by
    intro okm
    unfold expandRound
    cases HmacEng.new A prk with
    | none => rfl
    | some e => rfl
  have hloop : ∀ fuel c okm, c ≤ 255 → expandLoop A LEN prk info 255 fuel c okm = none := by
    intro fuel
    induction fuel with
    | zero => intros; rfl
    | succ fuel ih =>
      intro c okm hc
      rw [expandLoop, if_pos (by omega)]
      cases expandRound A LEN prk info 255 c okm with
      | none => rfl
      | some okm => exact ih _ _ (by omega)
  unfold hkdfExpand
  rw [if_neg (by omega), ht, hloop 300 1 okm (by omega)]

/-- RFC 5869 test case 1, first bytes; and a request for 255 blocks that the panic theorem covers. -/
example : ((hkdfNew sha256Alg [0, 1, 2, 3, 4, 5, 6, 7, 8, 9, 10, 11, 12] (List.replicate 22 0x0b)).map (·.take 4)) =
    some [0x07, 0x77, 0x09, 0x36] := by decide +kernel
example : sha256Alg.Computes Fips.sha256 (2 ^ 61) ∧ sha256Alg.block ≤ 128 := ⟨sha256_computes, by decide⟩
example : 254 * 32 < (List.replicate 8160 (0 : UInt8)).length ∧ (List.replicate 8160 (0 : UInt8)).length ≤ 255 * 32 := by
  rw [List.length_replicate]; omega

end Hashes
end Btc
