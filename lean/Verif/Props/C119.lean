import Verif.Props.C75
import Verif.Addresses.Errors
/-!
# C119: the errors of reading base58 texts and addresses tell the truth
-/
namespace Btc
namespace B58

/-! ### Which error for which text -/

/-- What is wrong with a base58 text read into an array of `N` bytes (with a buffer of 128). -/
inductive ArrBad (H : Bytes → Arr 32) (N : Nat) (t : Bytes) : ArrErr → Prop
  /-- `c` is the first character outside the alphabet. -/
  | char (pre : Bytes) (c : UInt8) (post b : Bytes) : t = pre ++ c :: post → Text58 b pre → c ∉ alphabet → beVal 256 b < 256 ^ 128 →
      ArrBad H N t (.decode (.invalidChar c))
  /-- The number before that character does not fit the buffer. -/
  | longStart (pre : Bytes) (c : UInt8) (post b : Bytes) : t = pre ++ c :: post → Text58 b pre → c ∉ alphabet → 256 ^ 128 ≤ beVal 256 b →
      ArrBad H N t (.unexpectedLength N (t.length * 11 / 15))
  | long (b : Bytes) : Text58 b t → 128 < b.length → ArrBad H N t (.unexpectedLength N (t.length * 11 / 15))
  | tooShort (b : Bytes) : Text58 b t → b.length < 4 → ArrBad H N t (.decode (.tooShort b.length))
  | length (p c : Bytes) : Text58 (p ++ c) t → c.length = 4 → p.length ≤ 124 → p.length ≠ N → ArrBad H N t (.unexpectedLength N p.length)
  | checksum (p c : Bytes) : Text58 (p ++ c) t → c.length = 4 → p.length = N → N ≤ 124 → c ≠ (H p).val.take 4 →
      ArrBad H N t (.decode (.incorrectChecksum (leNat c) (leNat ((H p).val.take 4))))

theorem conv_short {ds b : Bytes} (h : beVal 58 ds = beVal 256 b) : (conv 256 58 [] ds).length ≤ 128 ↔ beVal 256 b < 256 ^ 128 := by
  obtain ⟨n1, v1⟩ := conv_value ds
  rw [← h, ← v1]
  constructor
  · intro hl
    exact Nat.lt_of_lt_of_le (leVal_lt n1.1) (Nat.pow_le_pow_right (by omega) hl)
  · intro hv
    refine Nat.le_of_not_lt fun hc => ?_
    have hne : conv 256 58 [] ds ≠ [] := by intro e; rw [e] at hc; simp at hc
    have := n1.ge hne
    have h2 : 256 ^ 128 ≤ 256 ^ ((conv 256 58 [] ds).length - 1) := Nat.pow_le_pow_right (by omega) (by omega)
    omega

/-- The array decoder on a base58 text. -/
theorem arr_text (H : Bytes → Arr 32) (N : Nat) {b t : Bytes} (h : Text58 b t) :
    decodeCheckToArray H N t =
      if 128 < b.length then .error (.unexpectedLength N (t.length * 11 / 15))
      else if b.length < 4 then .error (.decode (.tooShort b.length))
      else if b.length - 4 ≠ N then .error (.unexpectedLength N (b.length - 4))
      else if leNat (b.drop (b.length - 4)) ≠ check32 H (b.take (b.length - 4)) then
        .error (.decode (.incorrectChecksum (leNat (b.drop (b.length - 4))) (check32 H (b.take (b.length - 4)))))
      else .ok (b.take (b.length - 4)) := by
  have hraw := (C29_decode _ _).2 h
  obtain ⟨z, body, ds, -, hb, rfl, hd, hh, hv⟩ := h
  have hraw' := decodeRaw_chars z ds hd hh
  rw [show decodeRaw (List.replicate z 49 ++ chars ds) = .ok b from hraw] at hraw'
  cases hraw'
  have hall : ∀ d ∈ List.replicate z (0 : UInt8) ++ ds, d.toNat < 58 := by
    intro d h
    rcases List.mem_append.1 h with h | h
    · rw [List.eq_of_mem_replicate h]; decide
    · exact hd d h
  have hc : conv 256 58 [] (List.replicate z 0 ++ ds) = conv 256 58 [] ds := by
    obtain ⟨n1, v1⟩ := conv_value (List.replicate z 0 ++ ds)
    obtain ⟨n2, v2⟩ := conv_value ds
    exact n1.unique (by omega) n2 (by rw [v1, v2, beVal_zeros])
  have e : List.replicate z 49 ++ chars ds = chars (List.replicate z 0 ++ ds) := by rw [chars_append, chars_zeros]
  have hbuild : buildBase256 (some BUF_LEN) (List.replicate z 49 ++ chars ds) [] =
      if (conv 256 58 [] ds).length ≤ 128 then .ok (conv 256 58 [] ds) else .error .buffer := by
    rw [e, build_all _ _ hall, hc]
    by_cases h : (conv 256 58 [] ds).length ≤ 128
    · rw [if_pos h, if_pos (show fits (some BUF_LEN) (conv 256 58 [] ds).length = true from decide_eq_true h)]
    · rw [if_neg h, if_neg (show ¬ fits (some BUF_LEN) (conv 256 58 [] ds).length = true from fun c => h (of_decide_eq_true c))]
  show decodeCheckToArray H N (List.replicate z 49 ++ chars ds) = _
  unfold decodeCheckToArray
  rw [hbuild, takeWhile_ones z ds hd hh]
  have hlen : (List.replicate z 0 ++ (conv 256 58 [] ds).reverse : Bytes).length = z + (conv 256 58 [] ds).length := by simp
  by_cases hs : (conv 256 58 [] ds).length ≤ 128
  · rw [if_pos hs]
    simp only [List.length_replicate, hlen]
    by_cases h1 : 128 < z + (conv 256 58 [] ds).length
    · rw [if_pos (show z + (conv 256 58 [] ds).length > BUF_LEN from h1), if_pos h1]; rfl
    · rw [if_neg (show ¬ z + (conv 256 58 [] ds).length > BUF_LEN from h1), if_neg h1]
      by_cases h2 : z + (conv 256 58 [] ds).length < 4
      · rw [if_pos h2, if_pos h2]
      · rw [if_neg h2, if_neg h2]
        have : (List.take (z + (conv 256 58 [] ds).length - 4) (List.replicate z 0 ++ (conv 256 58 [] ds).reverse : Bytes)).length =
            z + (conv 256 58 [] ds).length - 4 := by rw [List.length_take, hlen]; omega
        rw [this]
  · rw [if_neg hs, if_pos (by rw [hlen]; omega)]; rfl

/-- The array decoder on a text with another character. -/
theorem arr_bad (H : Bytes → Arr 32) (N : Nat) {b pre : Bytes} (c : UInt8) (post : Bytes) (h : Text58 b pre) (hc : c ∉ alphabet) :
    decodeCheckToArray H N (pre ++ c :: post) = if beVal 256 b < 256 ^ 128 then .error (.decode (.invalidChar c))
      else .error (.unexpectedLength N ((pre ++ c :: post).length * 11 / 15)) := by
  obtain ⟨z, body, ds, rfl, hb, rfl, hd, hh, hv⟩ := h
  have hall : ∀ d ∈ List.replicate z (0 : UInt8) ++ ds, d.toNat < 58 := by
    intro d h
    rcases List.mem_append.1 h with h | h
    · rw [List.eq_of_mem_replicate h]; decide
    · exact hd d h
  have e : List.replicate z 49 ++ chars ds = chars (List.replicate z 0 ++ ds) := by rw [chars_append, chars_zeros]
  have hs := conv_short (ds := List.replicate z 0 ++ ds) (b := List.replicate z 0 ++ body) (by rw [beVal_zeros, beVal_zeros, hv])
  unfold decodeCheckToArray
  rw [show buildBase256 (some BUF_LEN) (List.replicate z 49 ++ ds.filterMap (fun d => alphabet[d.toNat]?) ++ c :: post) [] =
      buildBase256 (some BUF_LEN) (chars (List.replicate z 0 ++ ds) ++ c :: post) [] from by rw [← e]; rfl,
    build_chars (some BUF_LEN) _ (c :: post) hall [] (norm_nil _) (by simp [fits]), build_bad _ c post _ hc]
  by_cases h : beVal 256 (List.replicate z 0 ++ body) < 256 ^ 128
  · rw [if_pos h, if_pos (show fits (some BUF_LEN) _ = true from decide_eq_true (hs.2 h))]
  · rw [if_neg h, if_neg (show ¬ fits (some BUF_LEN) _ = true from fun c => h (hs.1 (of_decide_eq_true c)))]

theorem split_check {b : Bytes} (h : 4 ≤ b.length) : ∃ p c : Bytes, b = p ++ c ∧ c.length = 4 ∧ b.take (b.length - 4) = p ∧ b.drop (b.length - 4) = c ∧
    b.length - 4 = p.length :=
  ⟨b.take (b.length - 4), b.drop (b.length - 4), (List.take_append_drop _ _).symm, by rw [List.length_drop]; omega, rfl, rfl,
   by rw [List.length_take]; omega⟩

theorem text_or (t : Bytes) : (∃ b, Text58 b t) ∨ ∃ pre c post b, t = pre ++ c :: post ∧ Text58 b pre ∧ c ∉ alphabet := by
  have hall : ∀ ds : Bytes, (∀ d ∈ ds, d.toNat < 58) → ∃ b, Text58 b (chars ds) := by
    intro ds hd
    obtain ⟨z, rest, rfl, hh⟩ := split_zeros ds
    have := decodeRaw_chars z rest (fun d h => hd d (by simp [h])) hh
    rw [← chars_zeros, ← chars_append] at this
    exact ⟨_, (C29_decode _ _).1 this⟩
  rcases text_cases t with ⟨ds, hd, rfl⟩ | ⟨ds, c, post, hd, hc, rfl⟩
  · exact .inl (hall ds hd)
  · obtain ⟨b, hb⟩ := hall ds hd
    exact .inr ⟨_, c, post, b, rfl, hb, hc⟩

/-- **C119.** Every error of reading a text into an array, with every number in it. -/
theorem C119_array_errors (H : Bytes → Arr 32) (N : Nat) (t : Bytes) (e : ArrErr) : decodeCheckToArray H N t = .error e ↔ ArrBad H N t e := by
  constructor
  · intro h
    rcases text_or t with ⟨b, hb⟩ | ⟨pre, c, post, b, rfl, hb, hc⟩
    · rw [arr_text H N hb] at h
      by_cases h1 : 128 < b.length
      · rw [if_pos h1] at h; cases h; exact .long b hb h1
      rw [if_neg h1] at h
      by_cases h2 : b.length < 4
      · rw [if_pos h2] at h; cases h; exact .tooShort b hb h2
      rw [if_neg h2] at h
      obtain ⟨p, c, rfl, hc, e1, e2, e3⟩ := split_check (b := b) (by omega)
      rw [e1, e2, e3] at h
      rw [List.length_append] at h1
      by_cases h3 : p.length ≠ N
      · rw [if_pos h3] at h; cases h; exact .length p c hb hc (by omega) h3
      rw [if_neg h3] at h
      by_cases h4 : leNat c ≠ check32 H p
      · rw [if_pos h4] at h; cases h
        exact .checksum p c hb hc (Decidable.not_not.mp h3) (by omega) (fun e => h4 (by rw [e]; rfl))
      · rw [if_neg h4] at h; cases h
    · rw [arr_bad H N c post hb hc] at h
      by_cases h1 : beVal 256 b < 256 ^ 128
      · rw [if_pos h1] at h; cases h; exact .char pre c post b rfl hb hc h1
      · rw [if_neg h1] at h; cases h; exact .longStart pre c post b rfl hb hc (by omega)
  · intro h
    cases h with
    | char pre c post b h1 h2 h3 h4 => subst h1; rw [arr_bad H N c post h2 h3, if_pos h4]
    | longStart pre c post b h1 h2 h3 h4 => subst h1; rw [arr_bad H N c post h2 h3, if_neg (by omega)]
    | long b h1 h2 => rw [arr_text H N h1, if_pos h2]
    | tooShort b h1 h2 => rw [arr_text H N h1, if_neg (by omega), if_pos h2]
    | length p c h1 h2 h3 h4 =>
      have hl : (p ++ c).length - 4 = p.length := by rw [List.length_append]; omega
      rw [arr_text H N h1, if_neg (by rw [List.length_append]; omega), if_neg (by rw [List.length_append]; omega), hl, if_pos h4]
    | checksum p c h1 h2 h3 h4 h5 =>
      have hl : (p ++ c).length - 4 = p.length := by rw [List.length_append]; omega
      rw [arr_text H N h1, if_neg (by rw [List.length_append]; omega), if_neg (by rw [List.length_append]; omega), hl, if_neg (by omega),
        List.take_left, List.drop_left, if_pos (show leNat c ≠ check32 H p from fun e => h5 ((leNat4 h2 (H4 H p)).1 e))]
      rfl

/-! ### The messages -/

/-- What the messages say of a text and a hash function. -/
inductive Says (H : Bytes → Arr 32) (N : Nat) (t : Bytes) : String → Prop
  | char (pre : Bytes) (c : UInt8) (post : Bytes) : t = pre ++ c :: post → (∀ x ∈ pre, x ∈ alphabet) → c ∉ alphabet →
      Says H N t ("invalid base58 character 0x" ++ String.ofList (Nat.toDigits 16 c.toNat))
  | tooShort (b : Bytes) (n : Nat) : Text58 b t → b.length = n → n < 4 →
      Says H N t ("base58 decoded data was not long enough, must be at least 4 bytes: " ++ toString n)
  | checksum (p c : Bytes) : Text58 (p ++ c) t → c.length = 4 → c ≠ (H p).val.take 4 →
      Says H N t ("base58 checksum " ++ Msg.hex (leNat c) ++ " does not match expected " ++ Msg.hex (leNat ((H p).val.take 4)))
  | length (p c : Bytes) (n : Nat) : Text58 (p ++ c) t → c.length = 4 → p.length = n → n ≠ N →
      Says H N t ("decoded base58check payload was " ++ toString n ++ " bytes, expected " ++ toString N)

theorem text_alphabet {b t : Bytes} (h : Text58 b t) : ∀ x ∈ t, x ∈ alphabet := by
  obtain ⟨z, body, ds, -, -, rfl, -, -, -⟩ := h
  intro x hx
  rcases List.mem_append.1 hx with hx | hx
  · rw [List.eq_of_mem_replicate hx]; decide
  · obtain ⟨d, _, h⟩ := List.mem_filterMap.1 hx
    exact List.mem_of_getElem? h

/-- A text has at least as many characters as the bytes it stands for. -/
theorem text_length {b t : Bytes} (h : Text58 b t) : b.length ≤ t.length := by
  obtain ⟨z, body, ds, rfl, hb, rfl, hd, hh, hv⟩ := h
  show (List.replicate z 0 ++ body).length ≤ (List.replicate z 49 ++ chars ds).length
  rw [List.length_append, List.length_append, chars_length hd, List.length_replicate, List.length_replicate]
  by_cases hbe : body = []
  · rw [hbe]; simp
  · have hge := (norm_reverse (B := 256) (fun d _ => d.toNat_lt) hb).ge (by simpa using hbe)
    rw [leVal_reverse, List.length_reverse, ← hv, ← leVal_reverse] at hge
    have hlt := leVal_lt (B := 58) (ds := ds.reverse) (fun d h => hd d (by simpa using h))
    rw [List.length_reverse] at hlt
    have h58 : 58 ^ ds.length ≤ 256 ^ ds.length := Nat.pow_le_pow_left (by omega) _
    have : 256 ^ (body.length - 1) < 256 ^ ds.length := by omega
    have := (Nat.pow_lt_pow_iff_right (by omega)).1 this
    omega

/-- Full claim: the message of every error is true of the text.  Proved: for texts of at most 128 characters, which covers addresses.  Missing: for
longer texts the length in the message is an estimate (`C119_length_fails`, `C119_estimate_fails`). -/
theorem C119_messages_partial (H : Bytes → Arr 32) (N : Nat) (t : Bytes) (e : ArrErr) (ht : t.length ≤ 128)
    (h : decodeCheckToArray H N t = .error e) : Says H N t (Msg.arr e) := by
  cases (C119_array_errors H N t e).mp h with
  | char pre c post b h1 h2 h3 h4 => exact .char pre c post h1 (text_alphabet h2) h3
  | longStart pre c post b h1 h2 h3 h4 =>
    exfalso
    have hl := text_length h2
    have hlt : beVal 256 b < 256 ^ b.length := Addr.beVal_lt (fun d _ => d.toNat_lt)
    have : 256 ^ b.length ≤ 256 ^ 128 := Nat.pow_le_pow_right (by omega) (by
      rw [h1, List.length_append] at ht; omega)
    omega
  | long b h1 h2 => have := text_length h1; omega
  | tooShort b h1 h2 => exact .tooShort b _ h1 rfl h2
  | length p c h1 h2 h3 h4 => exact .length p c _ h1 h2 rfl h4
  | checksum p c h1 h2 h3 h4 h5 => exact .checksum p c h1 h2 h5

/-- The messages of `decode_check` are true without a limit. -/
theorem C119_decode_messages (H : Bytes → Arr 32) (t : Bytes) (e : DecErr) (h : decodeCheck H t = .error e) : Says H 0 t (Msg.dec e) := by
  rcases (C30_decode_check_errors H t e).mp h with ⟨pre, c, post, h1, h2, h3, rfl⟩ | ⟨b, h1, h2, rfl⟩ | ⟨p, c, h1, h2, h3, rfl⟩
  · exact .char pre c post h1 h2 h3
  · exact .tooShort b _ h1 rfl h2
  · exact .checksum p c h1 h2 h3

/-- Without `alloc`, encoding fails exactly if the text is longer than the 128 characters of the message. -/
theorem C119_too_long (H : Bytes → Arr 32) (p : Bytes) : encodeNoAlloc H p = some none ↔ ∃ t, Text58 (p ++ (H p).val.take 4) t ∧ 128 < t.length := by
  obtain ⟨t, h1, _, _, h4⟩ := C30_encode H p
  rw [h4]
  constructor
  · intro h
    by_cases hl : t.length ≤ 128
    · rw [if_pos hl] at h; cases h
    · exact ⟨t, h1, by omega⟩
  · rintro ⟨t', h2, h3⟩
    have := (C29_unique _ _ _ _ h1 h2).1 rfl
    subst this
    rw [if_neg (by omega)]

/-- A correct text of 125 bytes read into an array of 125: "decoded base58check payload was 125 bytes, expected 125". -/
theorem C119_length_fails (H : Bytes → Arr 32) : ∃ p t : Bytes, p.length = 125 ∧ decodeCheck H t = .ok p ∧ ∃ e,
    decodeCheckToArray H 125 t = .error e ∧ Msg.arr e = "decoded base58check payload was 125 bytes, expected 125" := by
  let p : Bytes := List.replicate 14 0 ++ 0x80 :: List.replicate 110 0
  obtain ⟨t, h1, h2, _⟩ := C30_encode H p
  refine ⟨p, t, by simp [p], h2, .unexpectedLength 125 (t.length * 11 / 15), ?_, ?_⟩
  · refine (C119_array_errors _ _ _ _).mpr (.long _ h1 ?_)
    rw [List.length_append, H4]; simp [p]
  · have hl : t.length = 171 := by
      obtain ⟨z, body, ds, e, hb, rfl, hd, hh, hv⟩ := h1
      have hz : z = 14 ∧ body = 0x80 :: (List.replicate 110 0 ++ (H p).val.take 4) := by
        have e1 : List.replicate 14 0 ++ (0x80 :: (List.replicate 110 0 ++ (H p).val.take 4)) = List.replicate z 0 ++ body := by
          rw [← e]; simp [p]
        have t1 := takeWhile_zeros z body hb
        have t2 := takeWhile_zeros 14 (0x80 :: (List.replicate 110 0 ++ (H p).val.take 4)) (by simp)
        rw [e1, t1] at t2
        subst t2
        exact ⟨rfl, (List.append_cancel_left e1).symm⟩
      obtain ⟨rfl, rfl⟩ := hz
      show (List.replicate 14 49 ++ chars ds).length = 171
      rw [List.length_append, List.length_replicate, chars_length hd]
      have hlen : (List.replicate 110 0 ++ (H p).val.take 4).length = 114 := by rw [List.length_append, H4]; rfl
      have hcons := Addr.beVal_cons 256 0x80 (List.replicate 110 0 ++ (H p).val.take 4)
      have hsm : beVal 256 (List.replicate 110 0 ++ (H p).val.take 4) < 256 ^ 4 := by
        rw [beVal_zeros]
        have := Addr.beVal_lt (B := 256) (ds := (H p).val.take 4) (fun d _ => d.toNat_lt)
        rwa [H4] at this
      rw [hlen, ← hv] at hcons
      have hlt := Addr.beVal_lt hd
      have hne : ds ≠ [] := by
        intro e; subst e
        have : (0x80 : UInt8).toNat * 256 ^ 114 ≤ beVal 58 [] := by omega
        exact absurd this (by decide +kernel)
      have hge := (norm_reverse hd hh).ge (by simpa using hne)
      rw [leVal_reverse, List.length_reverse] at hge
      have hp1 : 58 ^ 156 ≤ (0x80 : UInt8).toNat * 256 ^ 114 := by decide +kernel
      have hp2 : (0x80 : UInt8).toNat * 256 ^ 114 + 256 ^ 4 ≤ 58 ^ 157 := by decide +kernel
      have l1 : 58 ^ 156 < 58 ^ ds.length := by omega
      have l2 : 58 ^ (ds.length - 1) < 58 ^ 157 := by omega
      have l1 := (Nat.pow_lt_pow_iff_right (by omega)).1 l1
      have l2 := (Nat.pow_lt_pow_iff_right (by omega)).1 l2
      have hpos : 0 < ds.length := List.length_pos_iff.2 hne
      omega
    rw [hl]; rfl

/-- No text is read into an array of more than 124 bytes. -/
theorem C119_never (H : Bytes → Arr 32) (N : Nat) (hN : 124 < N) (t p : Bytes) : decodeCheckToArray H N t ≠ .ok p := by
  intro h
  have := ((C30_decode_check_to_array H N t p).1 h).2.2
  omega

/-- Two hundred `1`s stand for 200 zero bytes, a payload of 196; the message says 146. -/
theorem C119_estimate_fails (H : Bytes → Arr 32) (N : Nat) : Text58 (List.replicate 200 0) (List.replicate 200 49) ∧
    ∃ e, decodeCheckToArray H N (List.replicate 200 49) = .error e ∧ Msg.arr e = "decoded base58check payload was 146 bytes, expected " ++ toString N := by
  have h : Text58 (List.replicate 200 0) (List.replicate 200 49) := 
    ⟨200, [], [], (List.append_nil _).symm, by decide, (List.append_nil _).symm, by decide, by decide, rfl⟩
  refine ⟨h, _, (C119_array_errors _ _ _ _).mpr (.long _ h (by rw [List.length_replicate]; decide)), ?_⟩
  rw [List.length_replicate]; rfl

end B58

namespace Addr
open Net (str)
open B58 (Text58)

/-! ### Addresses -/

/-- The human-readable parts of addresses, in any case. -/
def IsKnown (h : Bytes) : Prop := h.map Bech32.lower ∈ [str "bc", str "tb", str "bcrt"]

/-- What the messages say of the text (its bytes and the number of its characters). -/
inductive AddrSays (D : Bytes → Arr 32) (s : Bytes) (chars : Nat) : Bytes → Prop
  | tooLong (n : Nat) : n = chars → 50 < n → AddrSays D s chars (str ("legacy address is too long: " ++ toString n ++ " (max 50 characters)"))
  | pre (b : UInt8) (h : Bytes) : Text58 (b :: h ++ (D (b :: h)).1.take 4) s → b ∉ ([0, 5, 111, 196] : Bytes) →
      AddrSays D s chars (str ("invalid legacy address prefix in decoded base58 data " ++ toString b.toNat))
  | base58 (m : String) : B58.Says D 21 s m → AddrSays D s chars (str m)
  | hrp (h : Bytes) : (∃ r, s.map Bech32.lower = h.map Bech32.lower ++ r) → ¬ IsKnown h → AddrSays D s chars (str "'" ++ h ++ str "' is not a known hrp")

theorem lower_lower (c : UInt8) : Bech32.lower (Bech32.lower c) = Bech32.lower c := by
  have key : ∀ n : Fin 256, Bech32.lower (Bech32.lower (UInt8.ofNat n.val)) = Bech32.lower (UInt8.ofNat n.val) := by decide +kernel
  have := key ⟨c.toNat, c.toNat_lt⟩
  simpa using this

theorem map_lower_lower (s : Bytes) : (s.map Bech32.lower).map Bech32.lower = s.map Bech32.lower := by
  rw [List.map_map]
  exact List.map_congr_left fun c _ => lower_lower c

theorem decode_hrp (s hrp : Bytes) (v : Bech32.Fe) (p : Bytes) (h : Bech32.decode s = some (hrp, v, p)) :
    hrp.map Bech32.lower = hrp ∧ ∃ r, s.map Bech32.lower = hrp ++ r := by
  unfold Bech32.decode at h
  split at h
  · cases h
  split at h
  · cases h
  cases hs : Bech32.splitSep s with
  | none => rw [hs] at h; cases h
  | some x =>
    obtain ⟨h0, d⟩ := x
    rw [hs] at h
    simp only [] at h
    split at h
    · cases h
    split at h
    · cases h
    · cases h
    repeat (split at h; · cases h)
    split at h
    case' isTrue => cases h
    case' isFalse => cases h
    exact ⟨map_lower_lower h0, _, by rw [Bech32.splitSep_some _ _ _ hs, List.map_append]⟩

/-- Full claim: the message of every error of reading an address is true of the text.  Proved: with the length counted in bytes, and except for
a text that is only a known human-readable part.  Missing: `C119_characters_fails`, `C119_hrp_fails`. -/
theorem C119_address_partial (D : Bytes → Arr 32) (s : Bytes) (e : Address.ParseErr) (m : Bytes) (h : Address.parse D s = .error e)
    (hm : Msg.parse e = some m) (hk : ¬ IsKnown s) : AddrSays D s s.length m := by
  unfold Address.parse at h
  by_cases h1 : ([str "bc1", str "bcrt1", str "tb1"].any (fun p => p.isPrefixOf (s.map Bech32.lower))) = true
  · rw [if_pos h1] at h
    unfold Address.fromBech32Str at h
    cases hd : Bech32.decode s with
    | none => rw [hd] at h; cases h; cases hm
    | some x =>
      obtain ⟨hrp, v, p⟩ := x
      rw [hd] at h
      obtain ⟨h2, h3, h4, h5⟩ := Bech32.decode_some _ _ _ _ hd
      simp only [] at h
      rw [if_pos h3] at h
      split at h
      · cases h; cases hm
      · cases hf : KnownHrp.fromHrp hrp with
        | some k => rw [hf] at h; cases h
        | none =>
          rw [hf] at h; cases h; cases hm
          obtain ⟨hl, r, hr⟩ := decode_hrp _ _ _ _ hd
          refine .hrp hrp ⟨r, by rw [hl, hr]⟩ fun hkn => ?_
          unfold IsKnown at hkn
          rw [hl] at hkn
          simp only [List.mem_cons, List.not_mem_nil, or_false] at hkn
          rcases hkn with rfl | rfl | rfl <;> exact absurd hf (by decide)
  · rw [if_neg h1] at h
    by_cases h2 : ([str "1", str "2", str "3", str "m", str "n"].any (fun p => p.isPrefixOf s)) = true
    · rw [if_pos h2] at h
      unfold Address.fromBase58Str at h
      by_cases h3 : s.length > 50
      · rw [if_pos h3] at h; cases h; cases hm
        exact .tooLong _ rfl h3
      · rw [if_neg h3] at h
        cases hd : B58.decodeCheckToArray D 21 s with
        | error e' =>
          rw [hd] at h; cases h; cases hm
          exact .base58 _ (B58.C119_messages_partial D 21 s e' (by omega) hd)
        | ok data =>
          rw [hd] at h
          obtain ⟨g1, g2, _⟩ := (B58.C30_decode_check_to_array D 21 s data).1 hd
          match data, g2 with
          | b :: r, g2 =>
            simp only [] at h
            rw [dif_pos (by simpa using g2)] at h
            unfold Address.ofPrefix at h
            have ht := (B58.C30_decode_check D s _).1 g1
            repeat (split at h; · cases h)
            cases h; cases hm
            exact .pre b r ht (by simp; grind)
    · rw [if_neg h2] at h
      cases h; cases hm
      unfold Address.beforeLastOne
      cases hsp : Bech32.splitSep s with
      | none => exact .hrp s ⟨[], by simp⟩ hk
      | some x =>
        obtain ⟨hh, d⟩ := x
        have hs := Bech32.splitSep_some _ _ _ hsp
        refine .hrp hh ⟨_, by rw [hs, List.map_append]⟩ fun hkn => h1 ?_
        unfold IsKnown at hkn
        simp only [List.mem_cons, List.not_mem_nil, or_false] at hkn
        have hpre : ∀ p : Bytes, hh.map Bech32.lower = p → (p ++ [49]).isPrefixOf (s.map Bech32.lower) = true := by
          rintro p rfl
          rw [List.isPrefixOf_iff_prefix, hs]
          exact ⟨d.map Bech32.lower, by simp [Bech32.lower, Bech32.isUpper]⟩
        rw [List.any_eq_true]
        rcases hkn with e | e | e
        · exact ⟨str "bc1", by simp, hpre _ e⟩
        · exact ⟨str "tb1", by simp, hpre _ e⟩
        · exact ⟨str "bcrt1", by simp, hpre _ e⟩

/-- A text of 26 characters that takes 51 bytes: "legacy address is too long: 51 (max 50 characters)". -/
theorem C119_characters_fails (D : Bytes → Arr 32) : ∃ cs : List Char, cs.length = 26 ∧ ∃ e,
    Address.parse D (cs.flatMap String.utf8EncodeChar) = .error e ∧
    Msg.parse e = some (str "legacy address is too long: 51 (max 50 characters)") := by
  refine ⟨'1' :: List.replicate 25 'é', by simp, .tooLong 51, ?_, rfl⟩
  rfl

/-- The text `bc`: "'bc' is not a known hrp". -/
theorem C119_hrp_fails (D : Bytes → Arr 32) (k : KnownHrp) : ∃ e, Address.parse D (str (hrpText k)) = .error e ∧
    Msg.parse e = some (str ("'" ++ hrpText k ++ "' is not a known hrp")) := by
  cases k
  · exact ⟨.unknownHrp (str "bc"), by rfl, by decide⟩
  · exact ⟨.unknownHrp (str "tb"), by rfl, by decide⟩
  · exact ⟨.unknownHrp (str "bcrt"), by rfl, by decide⟩

/-- What the messages about a witness program say. -/
inductive ProgSays (version : UInt8) (program : Bytes) : String → Prop
  | length (n : Nat) : n = program.length → ¬ (2 ≤ n ∧ n ≤ 40) →
      ProgSays version program ("witness program must be between 2 and 40 bytes: length=" ++ toString n)
  | v0 (n : Nat) : version = 0 → n = program.length → n ≠ 20 → n ≠ 32 →
      ProgSays version program ("a v0 witness program must be either 20 or 32 bytes: length=" ++ toString n)

/-- The messages about witness programs are true; a program is refused exactly if one of them is. -/
theorem C119_program (v : UInt8) (p : Bytes) : (∀ e, Scr.WitProgram.new v p = .error e → ProgSays v p (Msg.witnessProgram e)) ∧
    ((∃ m, ProgSays v p m) ↔ ∃ e, Scr.WitProgram.new v p = .error e) := by
  have key : ∀ e, Scr.WitProgram.new v p = .error e → ProgSays v p (Msg.witnessProgram e) := by
    intro e h
    unfold Scr.WitProgram.new at h
    by_cases h1 : p.length < 2 ∨ p.length > 40
    · rw [if_pos h1] at h; cases h; exact .length _ rfl (by omega)
    · rw [if_neg h1] at h
      by_cases h2 : v = 0 ∧ (p.length ≠ 20 ∧ p.length ≠ 32)
      · rw [if_pos h2] at h; cases h; exact .v0 _ h2.1 rfl h2.2.1 h2.2.2
      · rw [if_neg h2] at h; cases h
  refine ⟨key, ?_, fun ⟨e, h⟩ => ⟨_, key e h⟩⟩
  rintro ⟨m, hm⟩
  unfold Scr.WitProgram.new
  by_cases h1 : p.length < 2 ∨ p.length > 40
  · rw [if_pos h1]; exact ⟨_, rfl⟩
  · rw [if_neg h1]
    cases hm with
    | length n h2 h3 => omega
    | v0 n h2 h3 h4 h5 => rw [if_pos ⟨h2, by omega, by omega⟩]; exact ⟨_, rfl⟩

/-! ### Examples -/

/-- The character `0` (0x30) after two good ones. -/
example (D : Bytes → Arr 32) : B58.decodeCheckToArray D 21 [50, 49, 48, 50] = .error (.decode (.invalidChar 48)) ∧
    B58.Msg.arr (.decode (.invalidChar 48)) = "invalid base58 character 0x30" :=
  ⟨(B58.C119_array_errors D 21 _ _).mpr (.char [50, 49] 48 [50] [58] rfl ⟨0, [58], [1, 0], rfl, by decide, by decide, by decide, by decide, by decide⟩
    (by decide) (by decide +kernel)), by decide⟩
example (D : Bytes → Arr 32) : B58.Says D 21 [49, 49, 81, 118, 119] "decoded base58check payload was 1 bytes, expected 21" :=
  B58.C119_messages_partial D 21 _ (.unexpectedLength 21 1) (by decide) ((B58.C119_array_errors D 21 _ _).mpr
    (.length [0] [0, 1, 58, 116] ⟨2, [1, 58, 116], [23, 53, 54], by decide, by decide, by decide, by decide, by decide, by decide⟩ rfl (by decide) (by decide)))
example (D : Bytes → Arr 32) : AddrSays D (str "lnbc1xyz") 8 (str "'lnbc' is not a known hrp") :=
  C119_address_partial D (str "lnbc1xyz") (.unknownHrp (str "lnbc")) _ (by rfl) (by decide) (by unfold IsKnown; decide)
example : Msg.witnessProgram (.invalidSegwitV0Length 21) = "a v0 witness program must be either 20 or 32 bytes: length=21" := by decide

end Addr
end Btc
