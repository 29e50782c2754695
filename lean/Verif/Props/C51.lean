import Verif.Props.C50
import Verif.Script.Laws
/-!
# C51: control blocks and merkle branches have one serialization
-/
namespace Btc.Taproot

theorem chunks32_flatten : ∀ (cs : List Hash) (n : Nat), cs.length ≤ n → chunks32 n (cs.map (·.1)).flatten = (cs, [])
  | [], n, _ => by
    cases n with
    | zero => rfl
    | succ n => simp [chunks32]
  | c :: cs, 0, h => by simp at h
  | c :: cs, n + 1, h => by
    have hc := c.2
    simp only [List.map_cons, List.flatten_cons]
    unfold chunks32
    have h1 : (c.1 ++ (cs.map (·.1)).flatten).take 32 = c.1 := by
      have := List.take_left (l₁ := c.1) (l₂ := (cs.map (·.1)).flatten)
      rwa [hc] at this
    have h2 : (c.1 ++ (cs.map (·.1)).flatten).drop 32 = (cs.map (·.1)).flatten := by
      have := List.drop_left (l₁ := c.1) (l₂ := (cs.map (·.1)).flatten)
      rwa [hc] at this
    rw [dif_pos (by rw [List.length_append, hc]; omega)]
    simp only [h1, h2, chunks32_flatten cs n (by simpa using h)]

theorem chunks32_spec : ∀ (n : Nat) (bs : Bytes), bs.length ≤ n →
    bs = ((chunks32 n bs).1.map (·.1)).flatten ++ (chunks32 n bs).2 ∧ (chunks32 n bs).2.length < 32
  | 0, bs, h => by
    have : bs = [] := List.length_eq_zero_iff.mp (by omega)
    subst this; simp [chunks32]
  | n + 1, bs, h => by
    unfold chunks32
    by_cases hc : 32 ≤ bs.length
    · rw [dif_pos hc]
      obtain ⟨h1, h2⟩ := chunks32_spec n (bs.drop 32) (by rw [List.length_drop]; omega)
      simp only [List.map_cons, List.flatten_cons]
      refine ⟨?_, h2⟩
      rw [List.append_assoc, ← h1, List.take_append_drop]
    · rw [dif_neg hc]
      simp; omega

theorem flatten_length (cs : List Hash) : (cs.map (·.1)).flatten.length = 32 * cs.length := by
  induction cs with
  | nil => rfl
  | cons c cs ih => simp only [List.map_cons, List.flatten_cons, List.length_append, ih, c.2, List.length_cons]; omega

/-- Merkle branches: decoding accepts exactly the concatenations of at most 128 hashes. -/
theorem C51_branch (bs : Bytes) (br : List Hash) : decodeBranch bs = .ok br ↔ br.length ≤ 128 ∧ bs = (br.map (·.1)).flatten := by
  unfold decodeBranch maxNodes
  simp only []
  constructor
  · intro h
    obtain ⟨h1, h2⟩ := chunks32_spec bs.length bs (Nat.le_refl _)
    split at h
    · cases h
    · rename_i hr
      split at h
      · cases h
      · rename_i hl
        injection h with h
        have hr' : (chunks32 bs.length bs).2 = [] := Decidable.not_not.mp hr
        rw [hr', List.append_nil, h] at h1
        exact ⟨by rw [h] at hl; omega, h1⟩
  · rintro ⟨hl, rfl⟩
    rw [chunks32_flatten br _ (by rw [flatten_length]; omega)]
    rw [if_neg (by simp), if_neg (by simp; omega)]

theorem fromConsensus_ok (v : UInt8) (l : LeafVersion) : LeafVersion.fromConsensus v = .ok l ↔ l.toConsensus = v := by
  unfold LeafVersion.fromConsensus
  constructor
  · intro h
    by_cases h1 : v = 0xc0
    · rw [dif_pos h1] at h; injection h with h; subst h; exact h1.symm
    · rw [dif_neg h1] at h
      by_cases h2 : v = 0x50
      · rw [dif_pos h2] at h; cases h
      · rw [dif_neg h2] at h
        by_cases h3 : v &&& 0xfe = v
        · rw [dif_pos h3] at h; injection h with h; subst h; rfl
        · rw [dif_neg h3] at h; cases h
  · rintro rfl
    cases l with
    | tapScript => rfl
    | future u =>
      obtain ⟨u, h3, h2, h1⟩ := u
      show (if h1 : u = 0xc0 then Except.ok LeafVersion.tapScript else if h2 : u = 0x50 then .error 0x50
        else if h3 : u &&& 0xfe = u then .ok (.future ⟨u, h3, h2, h1⟩) else .error u) = _
      rw [dif_neg h1, dif_neg h2, dif_pos h3]

set_option maxRecDepth 8000 in
theorem evenByte : ∀ v : UInt8, (v &&& 0xfe = v ↔ v.toNat % 2 = 0) := by
  apply Scr.forall_u8; decide

/-- Leaf versions are the even bytes other than the annex prefix; conversion is a bijection onto them. -/
theorem C51_leaf_version (v : UInt8) : ((∃ l, LeafVersion.fromConsensus v = .ok l) ↔ v.toNat % 2 = 0 ∧ v ≠ 0x50) ∧
    (∀ l, LeafVersion.fromConsensus v = .ok l ↔ l.toConsensus = v) := by
  refine ⟨?_, fromConsensus_ok v⟩
  have key := evenByte v
  constructor
  · rintro ⟨l, h⟩
    rw [fromConsensus_ok] at h
    subst h
    cases l with
    | tapScript => decide
    | future u => exact ⟨key.mp u.2.1, u.2.2.1⟩
  · rintro ⟨h1, h2⟩
    by_cases h3 : v = 0xc0
    · exact ⟨.tapScript, by rw [fromConsensus_ok, h3]; rfl⟩
    · exact ⟨.future ⟨v, key.mpr h1, h2, h3⟩, by rw [fromConsensus_ok]; rfl⟩

theorem version_even (l : LeafVersion) : l.toConsensus &&& 0xfe = l.toConsensus := by
  cases l with
  | tapScript => decide
  | future u => exact u.2.1

set_option maxRecDepth 8000 in
theorem firstByte (v : UInt8) : v &&& 0xfe = v → ((1 ||| v) &&& 0xfe = v ∧ (0 ||| v) &&& 0xfe = v ∧ (1 ||| v) &&& 1 = 1 ∧ (0 ||| v) &&& 1 = 0) := by
  revert v; apply Scr.forall_u8; decide

set_option maxRecDepth 8000 in
theorem firstByte' (b : UInt8) : ((if b &&& 1 ≠ 0 then 1 else 0 : UInt8) ||| (b &&& 0xfe)) = b := by
  revert b; apply Scr.forall_u8; decide

/-- `size` is the serialized length. -/
theorem C51_size {S : Secp} (cb : ControlBlock S) : cb.serialize.length = cb.size := by
  unfold ControlBlock.serialize ControlBlock.size
  rw [List.length_append, List.length_append, flatten_length, (S.ser _).2]
  rfl

/-- Decoding a serialized control block gives it back, except for the parity flag of the internal key, which is not
serialized: the decoded key has even parity. -/
theorem C51_decode_serialize {S : Secp} (cb : ControlBlock S) (h : cb.branch.length ≤ 128) :
    ControlBlock.decode cb.serialize = .ok { cb with internalKey := { cb.internalKey with parity := false } } := by
  obtain ⟨ver, par, key, br⟩ := cb
  unfold ControlBlock.serialize
  simp only [List.cons_append, List.nil_append]
  have hk := (S.ser key.inner).2
  unfold ControlBlock.decode
  simp only []
  have hdrop : ((S.ser key.inner).1 ++ (br.map (·.1)).flatten).drop 32 = (br.map (·.1)).flatten := by
    have := List.drop_left (l₁ := (S.ser key.inner).1) (l₂ := (br.map (·.1)).flatten)
    rwa [hk] at this
  have htake : ((S.ser key.inner).1 ++ (br.map (·.1)).flatten).take 32 = (S.ser key.inner).1 := by
    have := List.take_left (l₁ := (S.ser key.inner).1) (l₂ := (br.map (·.1)).flatten)
    rwa [hk] at this
  rw [dif_neg (by rw [List.length_append, hk]; omega)]
  have hv := firstByte _ (version_even ver)
  have h1 : ((if par = true then 1 else 0 : UInt8) ||| ver.toConsensus) &&& 0xfe = ver.toConsensus := by
    cases par
    · exact hv.2.1
    · exact hv.1
  have h2 : decide (((if par = true then 1 else 0 : UInt8) ||| ver.toConsensus) &&& 1 ≠ 0) = par := by
    cases par
    · simp only [Bool.false_eq_true, if_false, hv.2.2.2]; decide
    · simp only [if_true, hv.2.2.1]; decide
  rw [h1, (fromConsensus_ok _ ver).mpr rfl]
  simp only [hdrop, (C51_branch _ br).mpr ⟨h, rfl⟩]
  have h3 : S.parse ⟨((S.ser key.inner).1 ++ (br.map (·.1)).flatten).take 32, by rw [htake, hk]⟩ = some key.inner := by
    have : (⟨((S.ser key.inner).1 ++ (br.map (·.1)).flatten).take 32, by rw [htake, hk]⟩ : Hash) = S.ser key.inner := Subtype.ext htake
    rw [this, S.parse_ser]
  rw [h3]
  simp only [h2]

/-- `decode(serialize(cb)) = cb` for an internal key with even parity, as the claim says.  Missing: internal keys with odd parity, for which it is
false (`C51_odd_parity_lost`). -/
theorem C51_decode_serialize_partial {S : Secp} (cb : ControlBlock S) (h : cb.branch.length ≤ 128) (hp : cb.internalKey.parity = false) :
    ControlBlock.decode cb.serialize = .ok cb := by
  rw [C51_decode_serialize cb h]
  obtain ⟨ver, par, ⟨k, p⟩, br⟩ := cb
  simp only at hp
  subst hp
  rfl

/-- A control block whose internal key carries odd parity never decodes to itself. -/
theorem C51_odd_parity_lost {S : Secp} (cb : ControlBlock S) (h : cb.branch.length ≤ 128) (hp : cb.internalKey.parity = true) :
    ControlBlock.decode cb.serialize ≠ .ok cb := by
  rw [C51_decode_serialize cb h]
  intro he
  injection he with he
  rw [← he] at hp
  cases hp

/-- Whatever decodes, serializes back to the same bytes; and the decoded block has at most 128 hashes and an even internal key. -/
theorem C51_serialize_decode {S : Secp} (bs : Bytes) (cb : ControlBlock S) (h : ControlBlock.decode bs = .ok cb) :
    cb.serialize = bs ∧ cb.branch.length ≤ 128 ∧ cb.internalKey.parity = false := by
  unfold ControlBlock.decode at h
  cases bs with
  | nil => cases h
  | cons first rest =>
    simp only [] at h
    by_cases hl : rest.length < 32
    · rw [dif_pos hl] at h; cases h
    · rw [dif_neg hl] at h
      cases hv : LeafVersion.fromConsensus (first &&& 0xfe) with
      | error e => rw [hv] at h; cases h
      | ok ver =>
        rw [hv] at h
        simp only [] at h
        cases hb : decodeBranch (rest.drop 32) with
        | error e => rw [hb] at h; cases h
        | ok br =>
          rw [hb] at h
          simp only [] at h
          cases hk : S.parse ⟨rest.take 32, by simp; omega⟩ with
          | none => rw [hk] at h; cases h
          | some k =>
            rw [hk] at h
            injection h with h
            subst h
            obtain ⟨b1, b2⟩ := (C51_branch _ _).mp hb
            refine ⟨?_, b1, rfl⟩
            unfold ControlBlock.serialize
            rw [(fromConsensus_ok _ ver).mp hv, S.ser_parse _ _ hk]
            simp only [decide_eq_true_eq]
            rw [firstByte' first, List.append_assoc, ← b2]
            simp [List.take_append_drop]

/-- Only lengths `33 + 32m` with `m ≤ 128` decode. -/
theorem C51_lengths {S : Secp} (bs : Bytes) (cb : ControlBlock S) (h : ControlBlock.decode bs = .ok cb) :
    ∃ m, m ≤ 128 ∧ bs.length = 33 + 32 * m := by
  obtain ⟨h1, h2, _⟩ := C51_serialize_decode bs cb h
  exact ⟨cb.branch.length, h2, by rw [← h1, C51_size]; rfl⟩

/-- Exactly which bytes decode: such a length, a leaf version that is not the annex prefix, and a valid key. -/
theorem C51_decodable {S : Secp} (bs : Bytes) : (∃ cb : ControlBlock S, ControlBlock.decode bs = .ok cb) ↔
    ∃ (first : UInt8) (key : Hash) (br : List Hash), bs = first :: (key.1 ++ (br.map (·.1)).flatten) ∧ br.length ≤ 128 ∧
      first ≠ 0x50 ∧ first ≠ 0x51 ∧ (S.parse key).isSome = true := by
  have hfirst : ∀ b : UInt8, (∃ l, LeafVersion.fromConsensus (b &&& 0xfe) = .ok l) ↔ b ≠ 0x50 ∧ b ≠ 0x51 := by
    intro b
    rw [(C51_leaf_version (b &&& 0xfe)).1]
    have : ∀ b : UInt8, ((b &&& 0xfe).toNat % 2 = 0 ∧ b &&& 0xfe ≠ 0x50) ↔ b ≠ 0x50 ∧ b ≠ 0x51 := by
      set_option maxRecDepth 8000 in
      apply Scr.forall_u8; decide
    exact this b
  constructor
  · rintro ⟨cb, h⟩
    obtain ⟨h1, h2, h3⟩ := C51_serialize_decode bs cb h
    refine ⟨(if cb.parity then 1 else 0) ||| cb.leafVersion.toConsensus, S.ser cb.internalKey.inner, cb.branch, ?_, h2, ?_⟩
    · rw [← h1]; unfold ControlBlock.serialize; simp
    · have hv := firstByte _ (version_even cb.leafVersion)
      have hx : ((if cb.parity = true then 1 else 0 : UInt8) ||| cb.leafVersion.toConsensus) &&& 0xfe = cb.leafVersion.toConsensus := by
        cases cb.parity
        · exact hv.2.1
        · exact hv.1
      obtain ⟨a, b⟩ := (hfirst _).mp ⟨cb.leafVersion, by rw [fromConsensus_ok, hx]⟩
      exact ⟨a, b, by rw [S.parse_ser]; rfl⟩
  · rintro ⟨first, key, br, rfl, h2, h3, h4, h5⟩
    obtain ⟨ver, hver⟩ := (hfirst first).mpr ⟨h3, h4⟩
    obtain ⟨k, hk⟩ := Option.isSome_iff_exists.mp h5
    have hs : ControlBlock.serialize (S := S) ⟨ver, decide (first &&& 1 ≠ 0), ⟨k, false⟩, br⟩ = first :: (key.1 ++ (br.map (·.1)).flatten) := by
      unfold ControlBlock.serialize
      rw [(fromConsensus_ok _ ver).mp hver, S.ser_parse _ _ hk]
      simp only [decide_eq_true_eq]
      rw [firstByte' first]
      simp
    rw [← hs]
    exact ⟨_, C51_decode_serialize _ h2⟩

example : ∃ cb : ControlBlock toySecp, cb.branch.length = 2 ∧ cb.internalKey.parity = true ∧ cb.serialize.length = 97 :=
  ⟨⟨.tapScript, true, ⟨⟨List.replicate 32 7, by simp⟩, true⟩, [⟨List.replicate 32 1, by simp⟩, ⟨List.replicate 32 2, by simp⟩]⟩, rfl, rfl, by decide⟩
example : ∃ cb : ControlBlock toySecp, ControlBlock.decode ([0xc1] ++ List.replicate 32 7 ++ List.replicate 32 1) = .ok cb ∧ cb.parity = true := ⟨_, rfl, rfl⟩

end Btc.Taproot
