import Verif.Bytes
/-!
# The external `base64` crate (`BASE64_STANDARD`)

External code, modelled by RFC 4648 section 4: the standard alphabet, padding required, unused bits zero (the engine's defaults
`RequireCanonical` and no trailing bits).  Text is bytes; errors are not told apart.
-/
namespace Btc.B64

/-- The alphabet: A-Z, a-z, 0-9, `+`, `/`. -/
def ALPHABET : Bytes :=
  (List.range 26).map (fun i => UInt8.ofNat (65 + i)) ++ (List.range 26).map (fun i => UInt8.ofNat (97 + i)) ++
  (List.range 10).map (fun i => UInt8.ofNat (48 + i)) ++ [43, 47]

def chr (v : Nat) : UInt8 := ALPHABET.getD v 0
def val (c : UInt8) : Option Nat := ALPHABET.idxOf? c

/-- `Engine::encode`. -/
def encode : Bytes → Bytes
  | a :: b :: c :: r =>
    let n := a.toNat * 65536 + b.toNat * 256 + c.toNat
    chr (n / 262144) :: chr (n / 4096 % 64) :: chr (n / 64 % 64) :: chr (n % 64) :: encode r
  | [a, b] =>
    let n := a.toNat * 1024 + b.toNat * 4
    [chr (n / 4096), chr (n / 64 % 64), chr (n % 64), 61]
  | [a] => [chr (a.toNat / 4), chr (a.toNat % 4 * 16), 61, 61]
  | [] => []

/-- The last four characters: none, one or two of them padding. -/
def decodeLast (p q r s : UInt8) : Option Bytes :=
  match val p, val q, val r, val s with
  | some p, some q, some r, some s =>
    let n := p * 262144 + q * 4096 + r * 64 + s
    some [UInt8.ofNat (n / 65536), UInt8.ofNat (n / 256 % 256), UInt8.ofNat (n % 256)]
  | some p, some q, some r, none =>
    if s = 61 ∧ r % 4 = 0 then
      let n := p * 4096 + q * 64 + r
      some [UInt8.ofNat (n / 1024), UInt8.ofNat (n / 4 % 256)]
    else none
  | some p, some q, none, none =>
    if r = 61 ∧ s = 61 ∧ q % 16 = 0 then some [UInt8.ofNat (p * 4 + q / 16)] else none
  | _, _, _, _ => none

/-- `Engine::decode_slice_unchecked`: groups of four characters, padding only in the last one. -/
def decode : Bytes → Option Bytes
  | [] => some []
  | [p, q, r, s] => decodeLast p q r s
  | p :: q :: r :: s :: t :: rest =>
    match val p, val q, val r, val s, decode (t :: rest) with
    | some p, some q, some r, some s, some bs =>
      let n := p * 262144 + q * 4096 + r * 64 + s
      some (UInt8.ofNat (n / 65536) :: UInt8.ofNat (n / 256 % 256) :: UInt8.ofNat (n % 256) :: bs)
    | _, _, _, _, _ => none
  | _ => none

/-! ## Decoding inverts encoding, and accepts nothing else -/

set_option maxRecDepth 20000 in
theorem val_chr : ∀ v, v < 64 → val (chr v) = some v := by decide +kernel

theorem val_some (c : UInt8) (v : Nat) (h : val c = some v) : v < 64 ∧ chr v = c := by
  have key : ∀ i : Fin 256, (match val (UInt8.ofNat i.val) with | some v => decide (v < 64 ∧ chr v = UInt8.ofNat i.val) | none => true) = true := by
    decide +kernel
  have := key ⟨c.toNat, c.toNat_lt⟩
  simp only [UInt8.ofNat_toNat] at this
  rw [h] at this
  exact of_decide_eq_true this

theorem val_pad : val 61 = none := by decide +kernel

theorem u8 (n : Nat) (h : n < 256) : (UInt8.ofNat n).toNat = n := by
  rw [UInt8.toNat_ofNat']; exact Nat.mod_eq_of_lt h

theorem eq_u8 (a : UInt8) (n : Nat) (h : a.toNat = n) : UInt8.ofNat n = a := by rw [← h, UInt8.ofNat_toNat]

theorem decode_cons (p q r s : UInt8) (t : UInt8) (rest : Bytes) : decode (p :: q :: r :: s :: t :: rest) =
    match val p, val q, val r, val s, decode (t :: rest) with
    | some p, some q, some r, some s, some bs =>
      some (UInt8.ofNat ((p * 262144 + q * 4096 + r * 64 + s) / 65536) :: UInt8.ofNat ((p * 262144 + q * 4096 + r * 64 + s) / 256 % 256) ::
        UInt8.ofNat ((p * 262144 + q * 4096 + r * 64 + s) % 256) :: bs)
    | _, _, _, _, _ => none := by
  conv => lhs; unfold decode

theorem decode_encode : ∀ b : Bytes, decode (encode b) = some b
  | [] => rfl
  | [a] => by
    have ha := a.toNat_lt
    simp only [encode, decode, decodeLast, val_chr (a.toNat / 4) (by omega), val_chr (a.toNat % 4 * 16) (by omega), val_pad]
    rw [if_pos ⟨trivial, trivial, by omega⟩, eq_u8 a _ (by omega)]
  | [a, b] => by
    have ha := a.toNat_lt
    have hb := b.toNat_lt
    simp only [encode, decode, decodeLast]
    rw [val_chr _ (by omega), val_chr _ (by omega), val_chr _ (by omega), val_pad]
    simp only []
    rw [if_pos ⟨trivial, by omega⟩, eq_u8 a _ (by omega), eq_u8 b _ (by omega)]
  | a :: b :: c :: r => by
    have ha := a.toNat_lt
    have hb := b.toNat_lt
    have hc := c.toNat_lt
    have ih := decode_encode r
    simp only [encode]
    cases he : encode r with
    | nil =>
      rw [he] at ih
      simp only [decode, Option.some.injEq] at ih
      subst ih
      simp only [decode, decodeLast]
      rw [val_chr _ (by omega), val_chr _ (by omega), val_chr _ (by omega), val_chr _ (by omega)]
      simp only []
      rw [eq_u8 a _ (by omega), eq_u8 b _ (by omega), eq_u8 c _ (by omega)]
    | cons t rest =>
      rw [he] at ih
      rw [decode_cons, ih, val_chr _ (by omega), val_chr _ (by omega), val_chr _ (by omega), val_chr _ (by omega)]
      simp only []
      rw [eq_u8 a _ (by omega), eq_u8 b _ (by omega), eq_u8 c _ (by omega)]

theorem chr_val {c : UInt8} {v w : Nat} (h : val c = some v) (e : w = v) : chr w = c := by rw [e]; exact (val_some c v h).2

theorem encode_decodeLast (p q r s : UInt8) (bs : Bytes) (h : decodeLast p q r s = some bs) : encode bs = [p, q, r, s] := by
  unfold decodeLast at h
  split at h
  · rename_i p' q' r' s' hp hq hr hs
    have lp := (val_some _ _ hp).1
    have lq := (val_some _ _ hq).1
    have lr := (val_some _ _ hr).1
    have ls := (val_some _ _ hs).1
    injection h with h
    subst h
    simp only [encode]
    rw [u8 _ (by omega), u8 _ (by omega), u8 _ (by omega)]
    rw [chr_val hp (by omega), chr_val hq (by omega), chr_val hr (by omega), chr_val hs (by omega)]
  · rename_i p' q' r' hp hq hr hs
    have lp := (val_some _ _ hp).1
    have lq := (val_some _ _ hq).1
    have lr := (val_some _ _ hr).1
    split at h
    · rename_i hc
      injection h with h
      subst h
      simp only [encode]
      rw [u8 _ (by omega), u8 _ (by omega)]
      rw [chr_val hp (by omega), chr_val hq (by omega), chr_val hr (by omega), hc.1]
    · cases h
  · rename_i p' q' hp hq hr hs
    have lp := (val_some _ _ hp).1
    have lq := (val_some _ _ hq).1
    split at h
    · rename_i hc
      injection h with h
      subst h
      simp only [encode]
      rw [u8 _ (by omega)]
      rw [chr_val hp (by omega), chr_val hq (by omega), hc.1, hc.2.1]
    · cases h
  · cases h

theorem encode_decode : ∀ (s b : Bytes), decode s = some b → encode b = s
  | [], b, h => by simp only [decode, Option.some.injEq] at h; subst h; rfl
  | [_], b, h => by simp [decode] at h
  | [_, _], b, h => by simp [decode] at h
  | [_, _, _], b, h => by simp [decode] at h
  | [p, q, r, s], b, h => encode_decodeLast p q r s b h
  | p :: q :: r :: s :: t :: rest, b, h => by
    rw [decode_cons] at h
    split at h
    · rename_i p' q' r' s' bs hp hq hr hs hd
      have lp := (val_some _ _ hp).1
      have lq := (val_some _ _ hq).1
      have lr := (val_some _ _ hr).1
      have ls := (val_some _ _ hs).1
      have ih := encode_decode (t :: rest) bs hd
      injection h with h
      subst h
      simp only [encode, ih]
      rw [u8 _ (by omega), u8 _ (by omega), u8 _ (by omega)]
      rw [chr_val hp (by omega), chr_val hq (by omega), chr_val hr (by omega), chr_val hs (by omega)]
    · cases h

theorem encode_length : ∀ b : Bytes, (encode b).length = (b.length + 2) / 3 * 4
  | [] => rfl
  | [_] => by simp [encode]
  | [_, _] => by simp [encode]
  | _ :: _ :: _ :: r => by
    simp only [encode, List.length_cons, encode_length r]
    omega

end Btc.B64
