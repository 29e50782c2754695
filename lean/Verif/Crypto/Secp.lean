import Verif.Bytes
/-!
# The `secp256k1` crate

External code.  Secret keys are modelled (numbers between 1 and the order of the group, as 32 big-endian bytes), curve points are not:
`Secp` is any type of points with the crate's functions on them and the laws of those functions this project relies on.
`Secp.toy` shows that the laws can be met.
-/
namespace Btc
namespace Crypto

/-- The order of the group. -/
def ORDER : Nat := 0xFFFFFFFFFFFFFFFFFFFFFFFFFFFFFFFEBAAEDCE6AF48A03BBFD25E8CD0364141

/-- `secp256k1::SecretKey`. -/
structure SecretKey where
  bytes : Arr 32
  pos : 0 < beNat bytes.1
  lt : beNat bytes.1 < ORDER

namespace SecretKey

/-- The number. -/
def val (k : SecretKey) : Nat := beNat k.bytes.1

theorem ext {a b : SecretKey} (h : a.bytes = b.bytes) : a = b := by cases a; cases b; simp only at h; subst h; rfl

theorem ext_val {a b : SecretKey} (h : a.val = b.val) : a = b := by
  apply ext
  apply Subtype.ext
  have h1 := beBytes_beNat 32 a.bytes.1 a.bytes.2
  have h2 := beBytes_beNat 32 b.bytes.1 b.bytes.2
  unfold val at h
  rw [← h1, ← h2, h]

instance : DecidableEq SecretKey := fun a b =>
  if h : a.bytes = b.bytes then .isTrue (ext h) else .isFalse fun e => h (e ▸ rfl)

/-- `SecretKey::from_secret_bytes`. -/
def fromSecretBytes (b : Arr 32) : Option SecretKey :=
  if h : 0 < beNat b.1 ∧ beNat b.1 < ORDER then some ⟨b, h.1, h.2⟩ else none

/-- The key with a given number. -/
def ofVal (n : Nat) : Option SecretKey := fromSecretBytes ⟨beBytes 32 n, beBytes_length 32 n⟩

theorem ofVal_eq (n : Nat) (h : n < 2 ^ 256) (k : SecretKey) : ofVal n = some k ↔ 0 < n ∧ n < ORDER ∧ k.val = n := by
  unfold ofVal fromSecretBytes
  have e : beNat (beBytes 32 n) = n := beNat_beBytes 32 n h
  simp only [e]
  by_cases hn : 0 < n ∧ n < ORDER
  · rw [dif_pos hn]
    simp only [Option.some.injEq, hn, true_and]
    constructor
    · rintro rfl; exact e
    · intro h1; apply ext_val; rw [h1]; exact e
  · rw [dif_neg hn]
    simp only [reduceCtorEq, false_iff]
    exact fun h1 => hn ⟨h1.1, h1.2.1⟩

/-- `SecretKey::add_tweak`: the sum modulo the order, unless that is zero.  The tweak is a scalar below the order. -/
def addTweak (k : SecretKey) (t : Nat) : Option SecretKey := ofVal ((k.val + t) % ORDER)

/-- `SecretKey::negate`. -/
def negate (k : SecretKey) : SecretKey :=
  ⟨⟨beBytes 32 (ORDER - k.val), beBytes_length 32 _⟩, by
    rw [beNat_beBytes 32 _ (by have : ORDER < 256 ^ 32 := by decide
                               omega)]
    have := k.lt; unfold val; omega, by
    rw [beNat_beBytes 32 _ (by have : ORDER < 256 ^ 32 := by decide
                               omega)]
    have := k.pos; unfold val; have : 0 < ORDER := by decide
    omega⟩

end SecretKey

/-- The crate's functions on public keys, with the laws used here. -/
structure Secp where
  Point : Type
  dec : DecidableEq Point
  /-- `PublicKey::from_secret_key`. -/
  pub : SecretKey → Point
  /-- `PublicKey::serialize`. -/
  ser : Point → Arr 33
  /-- `PublicKey::serialize_uncompressed`. -/
  serU : Point → Arr 65
  /-- `PublicKey::from_slice`. -/
  fromSlice : Bytes → Option Point
  /-- `PublicKey::add_exp_tweak`. -/
  addExp : Point → Nat → Option Point
  from_ser : ∀ p, fromSlice (ser p).1 = some p
  from_serU : ∀ p, fromSlice (serU p).1 = some p
  ser_head : ∀ p, (ser p).1.head? = some 2 ∨ (ser p).1.head? = some 3
  serU_head : ∀ p, (serU p).1.head? = some 4
  /-- A compressed encoding is the only one of its length. -/
  ser_unique : ∀ b p, b.length = 33 → fromSlice b = some p → b = (ser p).1
  /-- An uncompressed encoding is the only one of its length and prefix (there are hybrid encodings with prefix 6 and 7). -/
  serU_unique : ∀ b p, b.length = 65 → b.head? = some 4 → fromSlice b = some p → b = (serU p).1
  /-- Adding a multiple of the generator to the public key is adding to the secret key. -/
  pub_add : ∀ k t, t < ORDER → addExp (pub k) t = (k.addTweak t).map pub

namespace Secp

/-- A model of the laws: the points are the secret keys themselves. -/
def toy : Secp where
  Point := SecretKey
  dec := inferInstance
  pub := id
  ser k := ⟨2 :: k.bytes.1, by rw [List.length_cons, k.bytes.2]⟩
  serU k := ⟨4 :: k.bytes.1 ++ List.replicate 32 0, by rw [List.length_append, List.length_cons, k.bytes.2, List.length_replicate]⟩
  fromSlice b :=
    match b with
    | 2 :: r => if h : r.length = 32 then SecretKey.fromSecretBytes ⟨r, h⟩ else none
    | 4 :: r => if h : (r.take 32).length = 32 ∧ r.drop 32 = List.replicate 32 0 then SecretKey.fromSecretBytes ⟨r.take 32, h.1⟩ else none
    | _ => none
  addExp k t := k.addTweak t
  from_ser k := by
    simp only
    rw [dif_pos k.bytes.2]
    unfold SecretKey.fromSecretBytes
    rw [dif_pos ⟨k.pos, k.lt⟩]
  from_serU k := by
    have h1 : (k.bytes.1 ++ List.replicate 32 0).take 32 = k.bytes.1 := by
      rw [List.take_append_of_le_length (by rw [k.bytes.2]; omega), List.take_of_length_le (by rw [k.bytes.2]; omega)]
    have h2 : (k.bytes.1 ++ List.replicate 32 (0 : UInt8)).drop 32 = List.replicate 32 0 := by
      rw [List.drop_append_of_le_length (by rw [k.bytes.2]; omega), List.drop_of_length_le (by rw [k.bytes.2]; omega), List.nil_append]
    simp only [List.cons_append, h1, h2]
    rw [dif_pos ⟨k.bytes.2, trivial⟩]
    unfold SecretKey.fromSecretBytes
    rw [dif_pos ⟨k.pos, k.lt⟩]
  ser_head k := .inl rfl
  serU_head k := rfl
  ser_unique b p hl h := by
    split at h
    · split at h
      · unfold SecretKey.fromSecretBytes at h
        split at h
        · cases h; rfl
        · cases h
      · cases h
    · rename_i r
      split at h
      · rename_i h2
        have : (r.drop 32).length = 32 := by rw [h2.2]; simp
        simp only [List.length_drop, List.length_cons] at this hl
        omega
      · cases h
    · cases h
  serU_unique b p hl hh h := by
    split at h
    · simp at hh
    · rename_i r
      split at h
      · rename_i h2
        unfold SecretKey.fromSecretBytes at h
        split at h
        · cases h
          simp only [List.cons_append, List.cons.injEq, true_and]
          rw [← h2.2, List.take_append_drop]
        · cases h
      · cases h
    · cases h
  pub_add k t _ := by simp

end Secp

end Crypto
end Btc
