/-!
# Byte strings and little-endian integers

`Bytes` models `&[u8]` / `Vec<u8>`.  `leBytes k n` models `to_le_bytes` of a `k`-byte unsigned
integer and `leNat` models `from_le_bytes` (Rust core library; used e.g. in
`consensus_encoding/src/compact_size.rs` 96-109, 292-316).
-/
namespace Btc

abbrev Bytes := List UInt8

/-- `[u8; n]`. -/
abbrev Arr (n : Nat) := { b : Bytes // b.length = n }

/-- `n.to_le_bytes()` for a `k`-byte integer type (Rust core). -/
def leBytes : Nat → Nat → Bytes
  | 0, _ => []
  | k + 1, n => UInt8.ofNat (n % 256) :: leBytes k (n / 256)

/-- `from_le_bytes` (Rust core), any width. -/
def leNat : Bytes → Nat
  | [] => 0
  | b :: bs => b.toNat + 256 * leNat bs

/-- `n.to_be_bytes()` for a `k`-byte integer type (Rust core). -/
def beBytes (k n : Nat) : Bytes := (leBytes k n).reverse

/-- `from_be_bytes` (Rust core), any width. -/
def beNat (bs : Bytes) : Nat := leNat bs.reverse

@[simp] theorem leBytes_length (k n : Nat) : (leBytes k n).length = k := by
  induction k generalizing n with
  | zero => rfl
  | succ k ih => simp [leBytes, ih]

theorem leNat_lt (bs : Bytes) : leNat bs < 256 ^ bs.length := by
  induction bs with
  | nil => simp [leNat]
  | cons b bs ih =>
    have hb : b.toNat < 256 := b.toNat_lt
    simp only [leNat, List.length_cons, Nat.pow_succ]
    omega

theorem leNat_leBytes (k n : Nat) (h : n < 256 ^ k) : leNat (leBytes k n) = n := by
  induction k generalizing n with
  | zero => simp at h; simp [leBytes, leNat, h]
  | succ k ih =>
    have h2 : n / 256 < 256 ^ k := by
      rw [Nat.pow_succ] at h; omega
    simp only [leBytes, leNat, ih _ h2]
    have : (UInt8.ofNat (n % 256)).toNat = n % 256 := by
      simp
    rw [this]; omega

theorem leBytes_leNat (bs : Bytes) : leBytes bs.length (leNat bs) = bs := by
  induction bs with
  | nil => rfl
  | cons b bs ih =>
    have hb : b.toNat < 256 := b.toNat_lt
    simp only [List.length_cons, leBytes, leNat]
    have h1 : (b.toNat + 256 * leNat bs) % 256 = b.toNat := by omega
    have h2 : (b.toNat + 256 * leNat bs) / 256 = leNat bs := by omega
    rw [h1, h2, ih]; simp

theorem leBytes_leNat' (k : Nat) (bs : Bytes) (h : bs.length = k) : leBytes k (leNat bs) = bs := by
  subst h; exact leBytes_leNat bs

theorem leBytes_inj (k m n : Nat) (hm : m < 256 ^ k) (hn : n < 256 ^ k)
    (h : leBytes k m = leBytes k n) : m = n := by
  have := congrArg leNat h
  rwa [leNat_leBytes k m hm, leNat_leBytes k n hn] at this

theorem leNat_append (a b : Bytes) : leNat (a ++ b) = leNat a + 256 ^ a.length * leNat b := by
  induction a with
  | nil => simp [leNat]
  | cons x a ih =>
    simp only [List.cons_append, leNat, ih, List.length_cons, Nat.pow_succ]
    rw [Nat.mul_add, Nat.add_assoc, Nat.mul_assoc, Nat.mul_left_comm]

@[simp] theorem beBytes_length (k n : Nat) : (beBytes k n).length = k := by simp [beBytes]

theorem beNat_beBytes (k n : Nat) (h : n < 256 ^ k) : beNat (beBytes k n) = n := by
  simp [beNat, beBytes, leNat_leBytes k n h]

theorem beBytes_beNat (k : Nat) (bs : Bytes) (h : bs.length = k) : beBytes k (beNat bs) = bs := by
  unfold beBytes beNat
  rw [leBytes_leNat' k bs.reverse (by simp [h])]
  simp

theorem beNat_lt (bs : Bytes) : beNat bs < 256 ^ bs.length := by
  have := leNat_lt bs.reverse
  simpa [beNat] using this

/-- Wire form of a `u32` (`u32::to_le_bytes`). -/
def u32le (x : UInt32) : Bytes := leBytes 4 x.toNat
/-- Wire form of a `u16` (`u16::to_le_bytes`). -/
def u16le (x : UInt16) : Bytes := leBytes 2 x.toNat
/-- Wire form of a `u64` (`u64::to_le_bytes`). -/
def u64le (x : UInt64) : Bytes := leBytes 8 x.toNat

@[simp] theorem u32le_length (x : UInt32) : (u32le x).length = 4 := by simp [u32le]
@[simp] theorem u16le_length (x : UInt16) : (u16le x).length = 2 := by simp [u16le]
@[simp] theorem u64le_length (x : UInt64) : (u64le x).length = 8 := by simp [u64le]

theorem ofNat_leNat_u32le (x : UInt32) : UInt32.ofNat (leNat (u32le x)) = x := by
  rw [u32le, leNat_leBytes 4 _ (by have := x.toNat_lt; omega)]; simp

theorem ofNat_leNat_u16le (x : UInt16) : UInt16.ofNat (leNat (u16le x)) = x := by
  rw [u16le, leNat_leBytes 2 _ (by have := x.toNat_lt; omega)]; simp

theorem ofNat_leNat_u64le (x : UInt64) : UInt64.ofNat (leNat (u64le x)) = x := by
  rw [u64le, leNat_leBytes 8 _ (by have := x.toNat_lt; omega)]; simp

theorem u32le_ofNat_leNat (bs : Bytes) (h : bs.length = 4) :
    u32le (UInt32.ofNat (leNat bs)) = bs := by
  have := leNat_lt bs
  rw [h] at this
  rw [u32le, UInt32.toNat_ofNat_of_lt' (by simpa [UInt32.size] using this)]
  exact leBytes_leNat' 4 bs h

theorem u16le_ofNat_leNat (bs : Bytes) (h : bs.length = 2) :
    u16le (UInt16.ofNat (leNat bs)) = bs := by
  have := leNat_lt bs
  rw [h] at this
  rw [u16le, UInt16.toNat_ofNat_of_lt' (by simpa [UInt16.size] using this)]
  exact leBytes_leNat' 2 bs h

theorem u64le_ofNat_leNat (bs : Bytes) (h : bs.length = 8) :
    u64le (UInt64.ofNat (leNat bs)) = bs := by
  have := leNat_lt bs
  rw [h] at this
  rw [u64le, UInt64.toNat_ofNat_of_lt' (by simpa [UInt64.size] using this)]
  exact leBytes_leNat' 8 bs h

end Btc
