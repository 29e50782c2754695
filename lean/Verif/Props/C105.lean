import Verif.Hashes.HashText
import Verif.Props.C103
import Verif.Props.C45
import Verif.Props.C73
/-!
# C105: hash types as text
-/
namespace Btc
namespace HashText
open HexText

/-- Whether the users of a type read its digits from the last byte to the first: identifiers of blocks, transactions, merkle
nodes and filters. -/
def ShownBackward (t : Named) : Prop :=
  t ∈ [Named.blockHash, .ntxid, .txid, .wtxid, .txMerkleNode, .witnessMerkleNode, .witnessCommitment, .filterHash, .filterHeader]

instance (t : Named) : Decidable (ShownBackward t) := by unfold ShownBackward; infer_instance

/-- Every declaration compiles, and exactly the identifiers are shown backwards. -/
theorem C105_direction (t : Named) : t.backward = some (decide (ShownBackward t)) := by
  cases t <;> decide

/-- The text in either case is the digits of the bytes, in the order of the type; it is read back, and the texts read as a hash
are exactly its digits up to the case of letters. -/
theorem C105_text (t : Named) (rev : Bool) (hr : t.backward = some rev) (b : Bytes) (hb : b.length = t.inner.len) :
    (∀ c, format rev c b = Digits c (if ShownBackward t then b.reverse else b)) ∧ display rev b = format rev .lower b ∧
    (∀ c, parse rev t.inner.len (format rev c b) = some b) ∧
    (∀ s, parse rev t.inner.len s = some b ↔ s.map Char.toLower = display rev b) := by
  rw [C105_direction, Option.some.injEq] at hr
  have key : ∀ c, format rev c b = Digits c (if ShownBackward t then b.reverse else b) := by
    intro c
    unfold format
    rw [flatMap_digits, flatMap_digits]
    by_cases h : ShownBackward t <;> simp [h, ← hr]
  have iff : ∀ s, parse rev t.inner.len s = some b ↔ s.map Char.toLower = Digits .lower (if ShownBackward t then b.reverse else b) := by
    intro s
    rw [← hexDecode_iff]
    unfold parse
    cases hd : hexDecode s with
    | none => simp
    | some x =>
      simp only [Option.some.injEq]
      by_cases h : ShownBackward t
      · simp only [h, decide_true] at hr
        subst hr
        simp only [h, if_true]
        constructor
        · intro h2
          split at h2
          · cases h2; rw [List.reverse_reverse]
          · cases h2
        · rintro rfl
          simp [hb]
      · simp only [h, decide_false] at hr
        subst hr
        simp only [h, if_false, Bool.false_eq_true]
        constructor
        · intro h2
          split at h2
          · cases h2; rfl
          · cases h2
        · rintro rfl
          simp [hb]
  refine ⟨key, rfl, fun c => ?_, fun s => ?_⟩
  · rw [iff, key, Digits_toLower]
  · rw [iff, display, key]

/-- Nothing but digits of the right number is read. -/
theorem C105_length (rev : Bool) (n : Nat) (s : List Char) (b : Bytes) (h : parse rev n s = some b) : b.length = n ∧ s.length = 2 * n := by
  unfold parse at h
  cases hd : hexDecode s with
  | none => rw [hd] at h; cases h
  | some x =>
    rw [hd] at h
    simp only at h
    split at h
    · next hx =>
      have hl := congrArg List.length ((hexDecode_iff s x).1 hd)
      rw [List.length_map, Digits_length, hx] at hl
      cases h
      exact ⟨by cases rev <;> simp [hx], hl⟩
    · cases h

/-- The number written by lower-case hexadecimal digits. -/
def numeral (s : List Char) : Nat := s.foldl (fun n c => 16 * n + hexDigits.idxOf c) 0

theorem numeral_digits : ∀ (l : Bytes) (a : Nat), (Digits .lower l).foldl (fun n c => 16 * n + hexDigits.idxOf c) a = a * 256 ^ l.length + leNat l.reverse
  | [], a => by simp [Digits, leNat]
  | b :: l, a => by
    have hd : ∀ n, n < 16 → hexDigits.idxOf (digit .lower n) = n := by decide
    have hb := b.toNat_lt
    rw [Digits_cons, List.foldl_cons, List.foldl_cons, numeral_digits l]
    simp only [pair]
    rw [hd _ (by omega), hd _ (by omega), List.reverse_cons, leNat_append, List.length_reverse, List.length_cons, Nat.pow_succ]
    have : 16 * (16 * a + b.toNat / 16) + b.toNat % 16 = 256 * a + b.toNat := by omega
    rw [this]
    simp only [leNat]
    grind

/-- The text of an identifier is a number: of a block hash the number that is compared with the target. -/
theorem C105_number (t : Named) (rev : Bool) (hr : t.backward = some rev) (ht : ShownBackward t) (b : Bytes) :
    numeral (display rev b) = leNat b := by
  rw [C105_direction, Option.some.injEq] at hr
  simp only [ht, decide_true] at hr
  subst hr
  unfold numeral display format
  rw [if_pos rfl, flatMap_digits, numeral_digits]
  simp

theorem C105_proof_of_work (rev : Bool) (hr : Named.blockHash.backward = some rev) (hash : Arr 32) (target : U256) :
    Pow.isMetBy target hash = true ↔ numeral (display rev hash.1) ≤ target.val := by
  rw [Pow.C45_is_met_by, C105_number .blockHash rev hr (by decide)]

/-- The declared lengths are those of the standards (the specifications of C62, C64 and C65). -/
theorem C105_lengths (b : Bytes) (iv : Sha2.St 64) (k : BitVec 64) : (Hashes.Sha1Spec.sha1 b).length = Inner.sha1.len ∧ (Hashes.RipemdSpec.ripemd160 b).length = Inner.ripemd160.len ∧
    (Hashes.RipemdSpec.ripemd160 (Fips.sha256 b)).length = Inner.hash160.len ∧ (Fips.sha256 b).length = Inner.sha256.len ∧
    (Fips.sha256 (Fips.sha256 b)).length = Inner.sha256d.len ∧ (Fips.sha256 b).length = Inner.sha256t.len ∧
    (Fips.sha384 b).length = Inner.sha384.len ∧ (Fips.sha512 b).length = Inner.sha512.len ∧
    ((Fips.sha512With iv b).take 32).length = Inner.sha512_256.len ∧ (Hashes.KeccakSpec.sha3_256 b).length = Inner.sha3_256.len ∧
    (leBytes 8 k.toNat).length = Inner.siphash24.len ∧ 8 * Inner.muhash.len = 3072 := by
  have h512 : ∀ iv, (Fips.sha512With iv b).length = 64 := by
    intro iv; unfold Fips.sha512With Fips.hash Sha2.St.toList; simp
  have h1 : (Hashes.Sha1Spec.sha1 b).length = 20 := by unfold Hashes.Sha1Spec.sha1 Hashes.Sha1.S5.toList; simp
  have h3 : (Hashes.KeccakSpec.sha3_256 b).length = 32 := by unfold Hashes.KeccakSpec.sha3_256; simp
  refine ⟨h1, Bip32.ripemd160_length _, Bip32.ripemd160_length _, Hashes.fips_sha256_length _, Hashes.fips_sha256_length _, Hashes.fips_sha256_length _, ?_, h512 _, ?_,
    h3, by simp [Inner.len], rfl⟩
  · unfold Fips.sha384; rw [List.length_take, h512]; rfl
  · rw [List.length_take, h512]; rfl

/-! ### The declarations -/

/-- A declaration that compiles gets the first direction attribute it has, or the direction of what it wraps. -/
theorem C105_declaration (inner : Inner) (attrs : List Attr) (d : Bool) (h : newtypeDirection inner attrs = some d) :
    d = match attrs.find? (fun a => a == .forward || a == .backward) with
      | some .forward => false
      | some .backward => true
      | _ => inner.backward := by
  have key : ∀ attrs, getDirection inner attrs = some d → d = match attrs.find? (fun a => a == .forward || a == .backward) with
      | some .forward => false
      | some .backward => true
      | _ => inner.backward := by
    intro attrs
    induction attrs with
    | nil => intro h; simpa [getDirection] using h.symm
    | cons a l ih =>
      intro h
      cases a with
      | forward =>
        simp only [getDirection, Option.map_eq_some_iff] at h
        obtain ⟨_, _, rfl⟩ := h
        simp
      | backward =>
        simp only [getDirection, Option.map_eq_some_iff] at h
        obtain ⟨_, _, rfl⟩ := h
        simp
      | unknown =>
        simp only [getDirection] at h
        simpa [List.find?_cons] using ih h
      | other n =>
        simp only [getDirection] at h
        simpa [List.find?_cons] using ih h
  unfold newtypeDirection at h
  split at h
  · cases h
  · exact key attrs h

/-- Unknown attributes of the macro are refused. -/
theorem C105_unknown (inner : Inner) (attrs : List Attr) (h : Attr.unknown ∈ attrs) : newtypeDirection inner attrs = none := by
  unfold newtypeDirection
  rw [if_pos]
  rw [List.any_eq_true]
  exact ⟨_, h, by decide⟩

theorem forbid_last (d : Attr) (hd : d = .forward ∨ d = .backward) : ∀ l : List Attr, forbidDirection (l ++ [d]) = none
  | [] => by rcases hd with rfl | rfl <;> rfl
  | a :: l => by
    have hr : ((l ++ [d]).all fun a => a.tokens == 1) = false := by
      rw [List.all_append]
      rcases hd with rfl | rfl <;> simp [Attr.tokens]
    rw [List.cons_append]
    unfold forbidDirection
    split
    · rename_i h; cases h
    · rfl
    · rfl
    · rename_i h; cases h; rw [hr]; rfl

/-- Two directions at the end do not compile, whatever comes before. -/
theorem C105_conflict (inner : Inner) (pre : List Attr) (d d' : Attr) (hd : d = .forward ∨ d = .backward) (hd' : d' = .forward ∨ d' = .backward) :
    newtypeDirection inner (pre ++ [d, d']) = none := by
  have key : ∀ pre : List Attr, getDirection inner (pre ++ [d, d']) = none := by
    intro pre
    induction pre with
    | nil =>
      have := forbid_last d' hd' []
      rw [List.nil_append] at this
      rcases hd with rfl | rfl <;> simp [getDirection, this]
    | cons a pre ih =>
      have := forbid_last d' hd' (pre ++ [d])
      rw [List.append_assoc, List.singleton_append] at this
      rw [List.cons_append]
      cases a <;> simp [getDirection, this, ih]
  unfold newtypeDirection
  rw [key]
  split <;> rfl

/-- The macro documents that a second direction is reported: it is when it comes last, and not when it is followed by an
attribute of one token such as `#[must_use]`. -/
theorem C105_conflict_refuted (inner : Inner) :
    newtypeDirection inner [.forward, .backward] = none ∧ newtypeDirection inner [.forward, .backward, .other 1] = some false := by
  cases inner <;> decide

/-- A direction followed by two ordinary attributes, such as documentation, does not compile although nothing conflicts. -/
theorem C105_attribute_order (inner : Inner) : newtypeDirection inner [.forward, .other 3, .other 3] = none ∧
    newtypeDirection inner [.other 3, .other 3, .forward] = some false := by
  cases inner <;> decide

/-! ### Examples -/

/-- The hash of the genesis block. -/
def genesisText : List Char := "000000000019d6689c085ae165831e934ff763ae46a2a6c172b3f1b60a8ce26f".toList
def genesisBytes : Bytes := [0x6f, 0xe2, 0x8c, 0x0a, 0xb6, 0xf1, 0xb3, 0x72, 0xc1, 0xa6, 0xa2, 0x46, 0xae, 0x63, 0xf7, 0x4f, 0x93, 0x1e, 0x83, 0x65,
  0xe1, 0x5a, 0x08, 0x9c, 0x68, 0xd6, 0x19, 0, 0, 0, 0, 0]
example : Named.blockHash.backward = some true ∧ display true genesisBytes = genesisText := by decide +kernel
example : parse true 32 genesisText = some genesisBytes :=
  ((C105_text .blockHash true (by decide) genesisBytes rfl).2.2.2 _).2 (by decide +kernel)
example : numeral genesisText = leNat genesisBytes := by
  rw [← C105_number .blockHash true (by decide) (by decide) genesisBytes]; decide +kernel
example (t : U256) : Pow.isMetBy t ⟨genesisBytes, rfl⟩ = true ↔ numeral (display true genesisBytes) ≤ t.val :=
  C105_proof_of_work true (by decide) ⟨genesisBytes, rfl⟩ t
example : parse false 20 ("AB".toList ++ List.replicate 38 '0') = some (0xab :: List.replicate 19 0) :=
  ((C105_text .scriptHash false (by decide) (0xab :: List.replicate 19 0) rfl).2.2.2 _).2 (by decide +kernel)
example : (0xab :: List.replicate 19 0 : Bytes).length = 20 := (C105_length false 20 ("ab".toList ++ List.replicate 38 '0') _ (by decide +kernel)).1
example : newtypeDirection .sha256d [.other 3, .forward] = some false := by decide
example := C105_declaration .sha256d [.other 3, .forward] false (by decide)
example := C105_unknown .sha256 [.other 3, .unknown] (by decide)

end HashText
end Btc
