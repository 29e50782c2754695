import Verif.Props.C50
import Verif.Props.C51
/-!
# C50 against the text of BIP-341

`Bip341` is a transcription of the "Script validation rules" of BIP-341 on raw bytes: tags are written as strings, the
control block is a byte string, hashes are compared as big-endian numbers, the length prefix is spelled out.
-/
namespace Btc.Taproot

namespace Bip341

def ascii (s : String) : Bytes := s.toList.map fun c => UInt8.ofNat c.toNat

/-- hash_tag(x) = SHA256(SHA256(tag) || SHA256(tag) || x). -/
def hashTag (H : Bytes → Hash) (tag : String) (x : Bytes) : Bytes := (H ((H (ascii tag)).1 ++ (H (ascii tag)).1 ++ x)).1

/-- compact_size(n). -/
def compactSize (n : Nat) : Bytes :=
  if n < 253 then [UInt8.ofNat n]
  else if n < 65536 then 0xfd :: leBytes 2 n
  else if n < 4294967296 then 0xfe :: leBytes 4 n
  else 0xff :: leBytes 8 n

/-- k₀ = hash_TapLeaf(v || compact_size(size of s) || s). -/
def leaf (H : Bytes → Hash) (v : UInt8) (s : Bytes) : Bytes := hashTag H "TapLeaf" (v :: (compactSize s.length ++ s))

/-- hash_TapBranch(kⱼ || eⱼ) if kⱼ < eⱼ, hash_TapBranch(eⱼ || kⱼ) otherwise. -/
def branch (H : Bytes → Hash) (k e : Bytes) : Bytes := hashTag H "TapBranch" (if beNat k < beNat e then k ++ e else e ++ k)

/-- The loop over eⱼ = c[33+32j : 65+32j]. -/
def climb (H : Bytes → Hash) : Nat → Bytes → Bytes → Bytes
  | 0, _, k => k
  | m + 1, path, k => climb H m (path.drop 32) (branch H k (path.take 32))

/-- Q = P + int(t)G with t = hash_TapTweak(p || k); fails if t is not below the group order or the sum is infinity. -/
def tweak (H : Bytes → Hash) (S : Secp) (P : S.Key) (k : Bytes) : Option (S.Key × Bool) :=
  let t := H ((H (ascii "TapTweak")).1 ++ (H (ascii "TapTweak")).1 ++ ((S.ser P).1 ++ k))
  if S.isScalar t then S.addTweak P t else none

/-- Script path spending: `q` is the output key, `c` the control block, `s` the script. -/
def valid (H : Bytes → Hash) (S : Secp) (q : S.Key) (c s : Bytes) : Bool :=
  -- length 33 + 32m, for a value of m that is an integer between 0 and 128
  if c.length < 33 ∨ (c.length - 33) % 32 ≠ 0 ∨ (c.length - 33) / 32 > 128 then false
  else
    match c with
    | [] => false
    | c0 :: rest =>
      -- p = c[1:33], P = lift_x(p)
      if h : (rest.take 32).length = 32 then
        match S.parse ⟨rest.take 32, h⟩ with
        | none => false
        | some P =>
          match tweak H S P (climb H ((c.length - 33) / 32) (rest.drop 32) (leaf H (c0 &&& 0xfe) s)) with
          | none => false
          | some (x, odd) => decide (S.ser q = S.ser x ∧ (if odd then 1 else 0) = c0 &&& 1)
      else false

/-- The root of a script tree (BIP-341, "Constructing and spending Taproot outputs"). -/
def root (H : Bytes → Hash) : Tree → Bytes
  | .leaf (.script s v) => leaf H (match v with | .tapScript => 0xc0 | .future b => b.1) s
  | .leaf (.hidden h) => h.1
  | .node l r => branch H (root H l) (root H r)

end Bip341

theorem csEncode_eq_bip (n : Nat) : csEncode n = Bip341.compactSize n := by
  unfold csEncode Bip341.compactSize
  grind

theorem beNat_cons (b : UInt8) (bs : Bytes) : beNat (b :: bs) = b.toNat * 256 ^ bs.length + beNat bs := by
  unfold beNat
  rw [List.reverse_cons, leNat_append, List.length_reverse]
  simp [leNat, Nat.mul_comm, Nat.add_comm]

theorem lexLt_beNat : ∀ a b : Bytes, a.length = b.length → (lexLt a b = true ↔ beNat a < beNat b)
  | [], [], _ => by simp [lexLt]
  | [], _ :: _, h => by simp at h
  | _ :: _, [], h => by simp at h
  | a :: as, b :: bs, h => by
    simp only [List.length_cons, Nat.add_right_cancel_iff] at h
    rw [beNat_cons, beNat_cons, h]
    have h1 := beNat_lt as
    have h2 := beNat_lt bs
    rw [h] at h1
    simp only [lexLt, UInt8.lt_iff_toNat_lt]
    generalize hp : 256 ^ bs.length = p at *
    by_cases hab : a.toNat < b.toNat
    · rw [if_pos hab]
      have : (a.toNat + 1) * p ≤ b.toNat * p := Nat.mul_le_mul_right _ hab
      rw [Nat.add_mul] at this
      simp only [true_iff]; omega
    · rw [if_neg hab]
      by_cases hba : b.toNat < a.toNat
      · rw [if_pos hba]
        have : (b.toNat + 1) * p ≤ a.toNat * p := Nat.mul_le_mul_right _ hba
        rw [Nat.add_mul] at this
        simp only [Bool.false_eq_true, false_iff]; omega
      · rw [if_neg hba, lexLt_beNat as bs h]
        have : a.toNat = b.toNat := by omega
        rw [this]; omega

theorem fromNodeHashes_eq_bip (H : Bytes → Hash) (a b : Hash) : (fromNodeHashes H a b).1 = Bip341.branch H a.1 b.1 := by
  unfold fromNodeHashes combineHashes Bip341.branch Bip341.hashTag tagged
  have hl := lexLt_beNat a.1 b.1 (by rw [a.2, b.2])
  have ht : branchTag = Bip341.ascii "TapBranch" := by decide
  rw [← ht]
  by_cases h : lexLt a.1 b.1 = true
  · rw [if_pos h, if_pos (hl.mp h)]
  · rw [if_neg h, if_neg (fun hh => h (hl.mpr hh))]

theorem leafHash_eq_bip (H : Bytes → Hash) (s : Bytes) (v : LeafVersion) : (leafHash H s v).1 = Bip341.leaf H v.toConsensus s := by
  unfold leafHash tagged Bip341.leaf Bip341.hashTag
  have ht : leafTag = Bip341.ascii "TapLeaf" := by decide
  rw [← ht, csEncode_eq_bip]
  rfl

theorem tapTweak_eq_bip (H : Bytes → Hash) {S : Secp} (k : XOnly S) (r : Option Hash) :
    tapTweak H k r = (Bip341.tweak H S k.inner (match r with | some h => h.1 | none => [])).map fun x => ⟨x.1, x.2⟩ := by
  unfold tapTweak tweakHash toScalar Bip341.tweak tagged
  have ht : tweakTag = Bip341.ascii "TapTweak" := by decide
  rw [← ht]
  simp only []
  generalize H ((H tweakTag).1 ++ (H tweakTag).1 ++ ((S.ser k.inner).1 ++ (match r with | some h => h.1 | none => []))) = t
  by_cases h : S.isScalar t = true
  · simp only [if_pos h]
    generalize S.addTweak k.inner t = o
    cases o <;> rfl
  · simp only [if_neg h]
    rfl

theorem climb_eq (H : Bytes → Hash) : ∀ (br : List Hash) (k : Hash),
    Bip341.climb H br.length (br.map (·.1)).flatten k.1 = (br.foldl (fromNodeHashes H) k).1
  | [], _ => rfl
  | e :: br, k => by
    have h1 : ((e :: br).map (·.1)).flatten.take 32 = e.1 := by
      have := List.take_left (l₁ := e.1) (l₂ := (br.map (·.1)).flatten)
      rwa [e.2] at this
    have h2 : ((e :: br).map (·.1)).flatten.drop 32 = (br.map (·.1)).flatten := by
      have := List.drop_left (l₁ := e.1) (l₂ := (br.map (·.1)).flatten)
      rwa [e.2] at this
    show Bip341.climb H br.length (((e :: br).map (·.1)).flatten.drop 32) (Bip341.branch H k.1 (((e :: br).map (·.1)).flatten.take 32)) = _
    rw [h1, h2, ← fromNodeHashes_eq_bip, climb_eq H br]
    rfl

theorem root_eq_bip (H : Bytes → Hash) : ∀ t : Tree, (t.root H).1 = Bip341.root H t
  | .leaf (.script s v) => by
    show (leafHash H s v).1 = _
    rw [leafHash_eq_bip]
    cases v <;> rfl
  | .leaf (.hidden _) => rfl
  | .node l r => by
    rw [← fromNodeHashes_root, fromNodeHashes_eq_bip, root_eq_bip H l, root_eq_bip H r]
    rfl

theorem ser_inj {S : Secp} (a b : S.Key) (h : S.ser a = S.ser b) : a = b := by
  have := congrArg S.parse h
  rw [S.parse_ser, S.parse_ser] at this
  exact Option.some.inj this

theorem firstByte_cb (par : Bool) (v : LeafVersion) : ((if par = true then 1 else 0 : UInt8) ||| v.toConsensus) &&& 0xfe = v.toConsensus ∧
    ((if par = true then 1 else 0 : UInt8) ||| v.toConsensus) &&& 1 = (if par then 1 else 0) := by
  have hv := firstByte _ (version_even v)
  cases par
  · exact ⟨hv.2.1, hv.2.2.2⟩
  · exact ⟨hv.1, hv.2.2.1⟩

/-- The rule of BIP-341 on the bytes of a control block. -/
theorem valid_serialize (H : Bytes → Hash) {S : Secp} (cb : ControlBlock S) (hb : cb.branch.length ≤ 128) (q : XOnly S) (s : Bytes) :
    Bip341.valid H S q.inner cb.serialize s = true ↔ cb.verify H q s = some true := by
  obtain ⟨ver, par, key, br⟩ := cb
  simp only [] at hb
  have hk := (S.ser key.inner).2
  have hlen : (ControlBlock.serialize (S := S) ⟨ver, par, key, br⟩).length = 33 + 32 * br.length := C51_size _
  have hm : (33 + 32 * br.length - 33) / 32 = br.length := by omega
  have hdrop : ((S.ser key.inner).1 ++ (br.map (·.1)).flatten).drop 32 = (br.map (·.1)).flatten := by
    have := List.drop_left (l₁ := (S.ser key.inner).1) (l₂ := (br.map (·.1)).flatten)
    rwa [hk] at this
  have htake : ((S.ser key.inner).1 ++ (br.map (·.1)).flatten).take 32 = (S.ser key.inner).1 := by
    have := List.take_left (l₁ := (S.ser key.inner).1) (l₂ := (br.map (·.1)).flatten)
    rwa [hk] at this
  obtain ⟨f1, f2⟩ := firstByte_cb par ver
  unfold Bip341.valid
  rw [hlen, if_neg (by omega), hm]
  have hser : ControlBlock.serialize (S := S) ⟨ver, par, key, br⟩ = ((if par = true then 1 else 0 : UInt8) ||| ver.toConsensus) ::
      ((S.ser key.inner).1 ++ (br.map (·.1)).flatten) := by
    unfold ControlBlock.serialize; simp
  rw [hser]
  simp only [f1, f2]
  rw [dif_pos (by rw [htake, hk])]
  have h3 : S.parse ⟨((S.ser key.inner).1 ++ (br.map (·.1)).flatten).take 32, by rw [htake, hk]⟩ = some key.inner := by
    have : (⟨((S.ser key.inner).1 ++ (br.map (·.1)).flatten).take 32, by rw [htake, hk]⟩ : Hash) = S.ser key.inner := Subtype.ext htake
    rw [this, S.parse_ser]
  rw [h3, hdrop, ← leafHash_eq_bip, climb_eq]
  unfold ControlBlock.verify
  simp only []
  generalize br.foldl (fromNodeHashes H) (leafHash H s ver) = cur
  unfold Bip341.tweak toScalar tweakHash tagged
  have ht : tweakTag = Bip341.ascii "TapTweak" := by decide
  rw [← ht]
  simp only []
  generalize htt : H ((H tweakTag).1 ++ (H tweakTag).1 ++ ((S.ser key.inner).1 ++ cur.1)) = t
  by_cases hs : S.isScalar t = true
  · rw [if_pos hs, if_pos hs]
    simp only [Option.some.injEq]
    rw [S.check_iff _ _ _ _ hs]
    cases ha : S.addTweak key.inner t with
    | none => simp
    | some x =>
      obtain ⟨x, odd⟩ := x
      simp only [decide_eq_true_eq, Option.some.injEq, Prod.mk.injEq]
      constructor
      · rintro ⟨h1, h2⟩
        refine ⟨(ser_inj _ _ h1).symm, ?_⟩
        revert h2
        cases odd <;> cases par <;> simp
      · rintro ⟨rfl, rfl⟩
        exact ⟨rfl, rfl⟩
  · rw [if_neg hs, if_neg hs]
    simp

/-- Accepting a control block (decode, then verify against the output key and script, without a panic) is exactly the script
path rule of BIP-341 on its bytes.  The one exception is the leaf version 0x50, which the library refuses. -/
theorem C50_bip341_verify (H : Bytes → Hash) (S : Secp) (q : XOnly S) (c s : Bytes) :
    (∃ cb, ControlBlock.decode (S := S) c = .ok cb ∧ cb.verify H q s = some true) ↔
      Bip341.valid H S q.inner c s = true ∧ c.head? ≠ some 0x50 ∧ c.head? ≠ some 0x51 := by
  constructor
  · rintro ⟨cb, hd, hv⟩
    obtain ⟨h1, h2, _⟩ := C51_serialize_decode c cb hd
    refine ⟨by rw [← h1]; exact (valid_serialize H cb h2 q s).mpr hv, ?_⟩
    obtain ⟨f, key, br, rfl, _, h3, h4, _⟩ := (C51_decodable c).mp ⟨cb, hd⟩
    simp only [List.head?_cons, ne_eq, Option.some.injEq]
    exact ⟨h3, h4⟩
  · rintro ⟨hv, h3, h4⟩
    have hdec : ∃ cb : ControlBlock S, ControlBlock.decode c = .ok cb := by
      rw [C51_decodable]
      have hv' := hv
      unfold Bip341.valid at hv'
      split at hv'
      · cases hv'
      · rename_i hl
        match c, hv', hl, h3, h4 with
        | c0 :: rest, hv', hl, h3, h4 =>
          simp only [] at hv'
          split at hv'
          · rename_i h32
            split at hv'
            · cases hv'
            · rename_i P hP
              simp only [List.length_cons] at hl
              obtain ⟨b1, b2⟩ := chunks32_spec (rest.drop 32).length (rest.drop 32) (Nat.le_refl _)
              have hrl : (rest.drop 32).length = rest.length - 32 := List.length_drop
              have hll : rest.length - 32 = _ := hrl.symm.trans (congrArg List.length b1)
              rw [List.length_append, flatten_length] at hll
              have hr0 : (chunks32 (rest.drop 32).length (rest.drop 32)).2 = [] := by
                apply List.length_eq_zero_iff.mp
                omega
              rw [hr0, List.append_nil] at b1
              rw [hr0, List.length_nil] at hll
              refine ⟨c0, ⟨rest.take 32, h32⟩, (chunks32 (rest.drop 32).length (rest.drop 32)).1, ?_, ?_, ?_, ?_, ?_⟩
              · rw [← b1]
                show c0 :: rest = c0 :: (rest.take 32 ++ rest.drop 32)
                rw [List.take_append_drop]
              · omega
              · intro he; subst he; exact h3 rfl
              · intro he; subst he; exact h4 rfl
              · rw [hP]; rfl
          · cases hv'
    obtain ⟨cb, hd⟩ := hdec
    obtain ⟨h1, h2, _⟩ := C51_serialize_decode c cb hd
    refine ⟨cb, hd, (valid_serialize H cb h2 q s).mp ?_⟩
    rw [h1]; exact hv

/-- Building and finalizing a script tree as BIP-341 prescribes: the merkle root and output key are those of the BIP (with a panic
exactly when the BIP's tweak fails), and the serialized control block of every script leaf satisfies the script path rule. -/
theorem C50_bip341 (H : Bytes → Hash) (S : Secp) (k : XOnly S) (t : Tree) (ht : t.height ≤ 128) :
    ∃ st, runCalls H [] (t.dfs 0) = .ok st ∧
      (Bip341.tweak H S k.inner (Bip341.root H t) = none → finalize H st k = none) ∧
      ∀ Q odd, Bip341.tweak H S k.inner (Bip341.root H t) = some (Q, odd) →
        ∃ info, finalize H st k = some (.ok info) ∧ info.merkleRoot.map (·.1) = some (Bip341.root H t) ∧
          info.outputKey = ⟨Q, odd⟩ ∧
          ∀ s v, (s, v) ∈ t.scripts → ∃ cb, controlBlock info (s, v) = some (some cb) ∧
            Bip341.valid H S Q cb.serialize s = true := by
  obtain ⟨st, hst, hm⟩ := C50_control_block H S k t ht
  refine ⟨st, hst, ?_⟩
  rw [tapTweak_eq_bip] at hm
  simp only [root_eq_bip] at hm
  constructor
  · intro h
    rw [h] at hm
    exact hm
  · intro Q odd h
    rw [h] at hm
    obtain ⟨info, h1, h2, h3, h4, _⟩ := hm
    refine ⟨info, h1, ?_, h3, ?_⟩
    · rw [h2, ← root_eq_bip]; rfl
    · intro s v hsv
      obtain ⟨cb, c1, c2, _, _, _, _, _, c3⟩ := h4 s v hsv
      exact ⟨cb, c1, (valid_serialize H cb c3 ⟨Q, odd⟩ s).mpr c2⟩

/-- Without scripts the output key is the internal key tweaked with the hash of the key alone. -/
theorem C50_bip341_key_spend (H : Bytes → Hash) (S : Secp) (k : XOnly S) :
    (Bip341.tweak H S k.inner [] = none → finalize H [] k = none) ∧
    ∀ Q odd, Bip341.tweak H S k.inner [] = some (Q, odd) →
      ∃ info, finalize H [] k = some (.ok info) ∧ info.merkleRoot = none ∧ info.outputKey = ⟨Q, odd⟩ ∧ info.parity = odd ∧
        ∀ s, controlBlock info s = none := by
  have he := tapTweak_eq_bip H k none
  constructor
  · intro h
    rw [h] at he
    show (newKeySpend H k none).map _ = none
    unfold newKeySpend
    rw [he]; rfl
  · intro Q odd h
    rw [h] at he
    refine ⟨⟨k, none, odd, ⟨Q, odd⟩, []⟩, ?_, rfl, rfl, rfl, fun _ => rfl⟩
    show (newKeySpend H k none).map _ = _
    unfold newKeySpend
    rw [he]; rfl

/-- The BIP-341 vector of `exTree`, by the specification. -/
example : Bip341.root sha exTree = [0x6c, 0x2d, 0xc1, 0x06, 0xab, 0x81, 0x6b, 0x73, 0xf9, 0xd0, 0x7e, 0x3c, 0xd1, 0xef, 0x2c, 0x8c, 0x12, 0x56, 0xf5, 0x19,
  0x74, 0x8e, 0x08, 0x13, 0xe4, 0xed, 0xd2, 0x40, 0x5d, 0x27, 0x7b, 0xef] := by decide +kernel
example : ∃ Q odd, Bip341.tweak sha toySecp (sha []) (Bip341.root sha exTree) = some (Q, odd) := ⟨_, _, rfl⟩
example : (match runCalls sha [] (exTree.dfs 0) with
    | .ok st => match finalize sha (S := toySecp) st ⟨sha [], true⟩ with
      | some (.ok info) => match controlBlock info (exScript2, exV2) with
        | some (some cb) => (Bip341.valid sha toySecp info.outputKey.inner cb.serialize exScript2, Bip341.valid sha toySecp info.outputKey.inner cb.serialize exScript1)
        | _ => (false, true)
      | _ => (false, true)
    | _ => (false, true)) = (true, false) := by decide +kernel

end Btc.Taproot
