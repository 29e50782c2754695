import Verif.Bitcoin.P2trWitness
import Verif.Primitives.WitnessLaws
import Verif.Props.C51
import Verif.Props.C60
/-!
# C81: segwit witnesses are built as the BIPs say and a taproot witness is read by the BIP-341 rule

The specification works on the list of witness elements; the functions work on the packed `Witness`.
-/
namespace Btc
namespace P2tr
open Wit

/-- BIP-341: "If there are at least two witness elements, and the first byte of the last element is 0x50, this last element is
called annex and is removed from the witness stack."  `stack` is what remains of `l`. -/
def IsStack (l stack : List Bytes) : Option Bytes → Prop
  | some a => stack ≠ [] ∧ l = stack ++ [a] ∧ a.head? = some 0x50
  | none => l = stack ∧ ∀ pre a, pre ≠ [] → l = pre ++ [a] → a.head? ≠ some 0x50

/-- The bytes of a control block: version and parity, key, path. -/
def bytesOf (cb : BorrowedControlBlock) : Bytes :=
  [(if cb.parity then 1 else 0) ||| cb.leafVersion.toConsensus] ++ cb.internalKey.1 ++ (cb.branch.map (·.1)).flatten

/-- The sizes for which the packed representation is faithful: offsets below 4 GiB, elements of at most 4,000,000 bytes. -/
def Fits (l : List Bytes) : Prop := OffsetsFit l ∧ ∀ x ∈ l, x.length ≤ 4000000

/-! ## Control blocks -/

theorem decodeBorrowed_iff (c : Bytes) (cb : BorrowedControlBlock) :
    decodeBorrowed c = .ok cb ↔ c = bytesOf cb ∧ cb.branch.length ≤ 128 := by
  constructor
  · intro h
    unfold decodeBorrowed at h
    split at h
    · cases h
    · rename_i first rest
      split at h
      · cases h
      · rename_i hlen
        split at h
        · cases h
        · rename_i ver hv
          split at h
          · cases h
          · rename_i br hb
            obtain rfl := Except.ok.inj h
            rw [Taproot.C51_branch] at hb
            rw [Taproot.fromConsensus_ok] at hv
            refine ⟨?_, hb.1⟩
            unfold bytesOf
            simp only [hv, ← hb.2, decide_eq_true_eq]
            rw [Taproot.firstByte']
            simp [List.take_append_drop]
  · rintro ⟨rfl, hb⟩
    obtain ⟨ver, par, key, br⟩ := cb
    unfold bytesOf decodeBorrowed
    simp only [List.cons_append, List.nil_append]
    have hk := key.2
    have hdrop : (key.1 ++ (br.map (·.1)).flatten).drop 32 = (br.map (·.1)).flatten := by
      have := List.drop_left (l₁ := key.1) (l₂ := (br.map (·.1)).flatten)
      rwa [hk] at this
    have htake : (key.1 ++ (br.map (·.1)).flatten).take 32 = key.1 := by
      have := List.take_left (l₁ := key.1) (l₂ := (br.map (·.1)).flatten)
      rwa [hk] at this
    rw [dif_neg (by rw [List.length_append, hk]; omega)]
    have hv := Taproot.firstByte _ (Taproot.version_even ver)
    have h1 : ((if par = true then 1 else 0 : UInt8) ||| ver.toConsensus) &&& 0xfe = ver.toConsensus := by
      cases par
      · exact hv.2.1
      · exact hv.1
    have h2 : decide (((if par = true then 1 else 0 : UInt8) ||| ver.toConsensus) &&& 1 ≠ 0) = par := by
      cases par
      · simp only [Bool.false_eq_true, if_false, hv.2.2.2]; decide
      · simp only [if_true, hv.2.2.1]; decide
    rw [h1, (Taproot.fromConsensus_ok _ ver).mpr rfl]
    simp only [hdrop, (Taproot.C51_branch _ br).mpr ⟨hb, rfl⟩, h2]
    have : (⟨(key.1 ++ (br.map (·.1)).flatten).take 32, by rw [htake, hk]⟩ : Taproot.Hash) = key := Subtype.ext htake
    rw [this]

set_option maxRecDepth 8000 in
theorem head_ne_annex (v : UInt8) : v &&& 0xfe = v → v ≠ 0x50 → ((1 : UInt8) ||| v ≠ 0x50 ∧ (0 : UInt8) ||| v ≠ 0x50) := by
  revert v; apply Scr.forall_u8; decide

theorem version_ne (l : Taproot.LeafVersion) : l.toConsensus ≠ 0x50 := by
  cases l with
  | tapScript => decide
  | future u => exact u.2.2.1

theorem bytesOf_head (cb : BorrowedControlBlock) : (bytesOf cb).head? ≠ some 0x50 := by
  have h := head_ne_annex _ (Taproot.version_even cb.leafVersion) (version_ne cb.leafVersion)
  unfold bytesOf
  simp only [List.cons_append, List.head?_cons, ne_eq, Option.some.injEq]
  cases cb.parity
  · exact h.2
  · exact h.1

/-! ## Elements from the end -/

theorem fits_of (l : List Bytes) (h : Fits l) (w : Wit) (hw : Wit.fromSlice l = some w) : w = ofList l := by
  rw [fromSlice_eq l h.1] at hw
  exact (Option.some.inj hw).symm

theorem expectBack_eq (l : List Bytes) (h : Fits l) (i : Nat) : expectBack (ofList l) i = l.reverse[i]? := by
  unfold expectBack
  rw [getBack_ofList l h.1 h.2]
  cases l.reverse[i]? <;> rfl

theorem startsWithAnnex_iff (b : Bytes) : startsWithAnnex b = true ↔ b.head? = some 0x50 := by
  unfold startsWithAnnex
  exact beq_iff_eq

/-- What a script arm computes on the element list. -/
def armOf (s c : Bytes) (annex : Option Bytes) : Option Spend :=
  match decodeBorrowed c with
  | .error _ => none
  | .ok cb => some (.script s cb annex)

theorem scriptArm_eq (l : List Bytes) (h : Fits l) (i : Nat) (c s : Bytes) (hc : l.reverse[i]? = some c) (hs : l.reverse[i + 1]? = some s)
    (a : Option Bytes) : scriptArm (ofList l) i a = some (armOf s c a) := by
  unfold scriptArm armOf
  rw [expectBack_eq l h, expectBack_eq l h, hc, hs]
  simp only
  cases decodeBorrowed c <;> rfl

/-- The four shapes of a witness. -/
theorem cases_back (l : List Bytes) : l = [] ∨ (∃ x, l = [x]) ∨ (∃ y x, l = [y, x]) ∨ ∃ p z y x, l = p ++ [z, y, x] := by
  have hr : l.reverse.reverse = l := List.reverse_reverse l
  generalize l.reverse = r at hr
  match r, hr with
  | [], h => left; exact h.symm
  | [x], h => right; left; exact ⟨x, h.symm⟩
  | [x, y], h => right; right; left; exact ⟨y, x, h.symm⟩
  | x :: y :: z :: t, h =>
    right; right; right
    refine ⟨t.reverse, z, y, x, ?_⟩
    rw [← h]; simp

theorem fromWitness_nil : Spend.fromWitness (ofList []) = some none := rfl

theorem fromWitness_one (x : Bytes) : Spend.fromWitness (ofList [x]) = some (some (.key none)) := rfl

theorem fromWitness_two (y x : Bytes) (h : Fits [y, x]) : Spend.fromWitness (ofList [y, x]) =
    some (if x.head? = some 0x50 then some (.key (some x)) else armOf y x none) := by
  unfold Spend.fromWitness
  have he : (ofList [y, x]).elems = 2 := rfl
  rw [he, if_neg (by decide), if_neg (by decide), expectBack_eq _ h]
  simp only [List.reverse_cons, List.reverse_nil, List.nil_append, List.cons_append, List.getElem?_cons_zero, startsWithAnnex_iff]
  rw [if_neg (show ¬ (3 ≤ 2 ∧ _) from fun hh => absurd hh.1 (by decide)), scriptArm_eq [y, x] h 0 x y rfl rfl]
  by_cases hx : x.head? = some 0x50
  · rw [if_pos ⟨trivial, hx⟩, if_pos hx]
  · rw [if_neg (fun hh => hx hh.2), if_neg hx]

theorem fromWitness_more (p : List Bytes) (z y x : Bytes) (h : Fits (p ++ [z, y, x])) : Spend.fromWitness (ofList (p ++ [z, y, x])) =
    some (if x.head? = some 0x50 then armOf z y (some x) else armOf y x none) := by
  unfold Spend.fromWitness
  have he : (ofList (p ++ [z, y, x])).elems = p.length + 3 := by simp [ofList]
  have hr : (p ++ [z, y, x]).reverse = x :: y :: z :: p.reverse := by simp
  rw [he, if_neg (by omega), if_neg (by omega), expectBack_eq _ h]
  rw [scriptArm_eq _ h 0 x y (by rw [hr]; rfl) (by rw [hr]; rfl)]
  have h1 := fun a => scriptArm_eq _ h 1 y z (by rw [hr]; rfl) (by rw [hr]; rfl) a
  simp only [h1]
  rw [hr]
  simp only [List.getElem?_cons_zero, startsWithAnnex_iff]
  rw [if_neg (show ¬ (p.length + 3 = 2 ∧ _) from fun hh => by omega)]
  by_cases hx : x.head? = some 0x50
  · rw [if_pos ⟨by omega, hx⟩, if_pos hx]
  · rw [if_neg (fun hh => hx hh.2), if_neg hx]

/-! ## The BIP-341 reading -/

theorem isStack_none {l : List Bytes} {x : Bytes} (p : List Bytes) (hl : l = p ++ [x]) (hx : x.head? ≠ some 0x50) : IsStack l l none := by
  refine ⟨rfl, ?_⟩
  intro pre a _ ha
  have h : p ++ [x] = pre ++ [a] := by rw [← hl, ha]
  obtain ⟨_, h2⟩ := List.append_inj' h rfl
  obtain rfl : x = a := by simpa using h2
  exact hx

theorem isStack_unique {l s s' : List Bytes} {a a' : Option Bytes} (h : IsStack l s a) (h' : IsStack l s' a') : s = s' ∧ a = a' := by
  cases a with
  | none =>
    cases a' with
    | none => exact ⟨h.1.symm.trans h'.1, rfl⟩
    | some b' => exact absurd h'.2.2 (h.2 s' b' h'.1 h'.2.1)
  | some b =>
    cases a' with
    | none => exact absurd h.2.2 (h'.2 s b h.1 h.2.1)
    | some b' =>
      have hh : s ++ [b] = s' ++ [b'] := by rw [← h.2.1, h'.2.1]
      obtain ⟨h1, h2⟩ := List.append_inj' hh rfl
      exact ⟨h1, by simpa using h2⟩

/-- What the functions return, by stack: nothing, key path, script path. -/
inductive Reads (l : List Bytes) : Option Spend → Prop
  | empty : l = [] → Reads l none
  | key (sig : Bytes) (a : Option Bytes) : IsStack l [sig] a → Reads l (some (.key a))
  | script (pre : List Bytes) (s c : Bytes) (a : Option Bytes) : IsStack l (pre ++ [s, c]) a → Reads l (armOf s c a)

theorem reads (l : List Bytes) (h : Fits l) : ∃ r, Spend.fromWitness (ofList l) = some r ∧ Reads l r := by
  rcases cases_back l with rfl | ⟨x, rfl⟩ | ⟨y, x, rfl⟩ | ⟨p, z, y, x, rfl⟩
  · exact ⟨_, fromWitness_nil, .empty rfl⟩
  · refine ⟨_, fromWitness_one x, .key x none ⟨rfl, ?_⟩⟩
    intro pre a hp hl
    have := congrArg List.length hl
    simp at this
    exact absurd this (by simpa using hp)
  · refine ⟨_, fromWitness_two y x h, ?_⟩
    by_cases hx : x.head? = some 0x50
    · rw [if_pos hx]
      exact .key y (some x) ⟨by simp, rfl, hx⟩
    · rw [if_neg hx]
      exact .script [] y x none (isStack_none [y] rfl hx)
  · refine ⟨_, fromWitness_more p z y x h, ?_⟩
    by_cases hx : x.head? = some 0x50
    · rw [if_pos hx]
      exact .script p z y (some x) ⟨by simp, by simp, hx⟩
    · rw [if_neg hx]
      exact .script (p ++ [z]) y x none (by
        have := isStack_none (l := p ++ [z, y, x]) (p ++ [z, y]) (by simp) hx
        simpa using this)

theorem pair_inj {pre pre' : List Bytes} {s c s' c' : Bytes} (h : pre ++ [s, c] = pre' ++ [s', c']) : pre = pre' ∧ s = s' ∧ c = c' := by
  obtain ⟨h1, h2⟩ := List.append_inj' h rfl
  simp at h2
  exact ⟨h1, h2.1, h2.2⟩

theorem single_ne_pair {sig : Bytes} {pre : List Bytes} {s c : Bytes} : [sig] ≠ pre ++ [s, c] := by
  intro h
  have := congrArg List.length h
  simp at this

theorem not_stack_nil {s : List Bytes} {a : Option Bytes} (hs : s ≠ []) : ¬ IsStack [] s a := by
  intro h
  cases a with
  | none => exact hs h.1.symm
  | some b =>
    have := congrArg List.length h.2.1
    simp at this

/-- The reading is never a panic, and it is the BIP-341 one: a key path spend exactly when one element remains after removing the
annex; a script path spend exactly when at least two remain, the last of them being a well-formed control block and the last but one the script;
the annex is the BIP's annex. -/
theorem C81_spend (l : List Bytes) (h : Fits l) (w : Wit) (hw : Wit.fromSlice l = some w) :
    (∃ r, Spend.fromWitness w = some r) ∧
    (∀ a, Spend.fromWitness w = some (some (.key a)) ↔ ∃ sig, IsStack l [sig] a) ∧
    (∀ s cb a, Spend.fromWitness w = some (some (.script s cb a)) ↔
      ∃ pre, IsStack l (pre ++ [s, bytesOf cb]) a ∧ cb.branch.length ≤ 128) ∧
    (Spend.fromWitness w = some none ↔
      l = [] ∨ ∃ pre s c a, IsStack l (pre ++ [s, c]) a ∧ ∀ cb, c = bytesOf cb → ¬ cb.branch.length ≤ 128) := by
  obtain rfl := fits_of l h w hw
  obtain ⟨r, hr, hR⟩ := reads l h
  rw [hr]
  refine ⟨⟨r, rfl⟩, ?_, ?_, ?_⟩
  · intro a
    rw [Option.some.injEq]
    cases hR with
    | empty he =>
      subst he
      exact ⟨fun hh => (by cases hh), fun ⟨sig, hs⟩ => absurd hs (not_stack_nil (by simp))⟩
    | key sig b hs =>
      constructor
      · intro hh; cases hh; exact ⟨sig, hs⟩
      · rintro ⟨sig', hs'⟩
        rw [(isStack_unique hs hs').2]
    | script pre s c b hs =>
      constructor
      · intro hh
        unfold armOf at hh
        split at hh <;> cases hh
      · rintro ⟨sig', hs'⟩
        exact absurd (isStack_unique hs' hs).1 single_ne_pair
  · intro s cb a
    rw [Option.some.injEq]
    cases hR with
    | empty he =>
      subst he
      exact ⟨fun hh => (by cases hh), fun ⟨pre, hs, _⟩ => absurd hs (not_stack_nil (by simp))⟩
    | key sig b hs =>
      exact ⟨fun hh => (by cases hh), fun ⟨pre, hs', _⟩ => absurd (isStack_unique hs hs').1 single_ne_pair⟩
    | script pre s' c b hs =>
      constructor
      · intro hh
        unfold armOf at hh
        split at hh
        · cases hh
        · rename_i cb' hd
          cases hh
          obtain ⟨rfl, hb⟩ := (decodeBorrowed_iff _ _).mp hd
          exact ⟨pre, hs, hb⟩
      · rintro ⟨pre', hs', hb⟩
        obtain ⟨h1, rfl⟩ := isStack_unique hs hs'
        obtain ⟨rfl, rfl, rfl⟩ := pair_inj h1
        unfold armOf
        rw [(decodeBorrowed_iff _ cb).mpr ⟨rfl, hb⟩]
  · rw [Option.some.injEq]
    cases hR with
    | empty he => exact ⟨fun _ => .inl he, fun _ => rfl⟩
    | key sig b hs =>
      refine ⟨fun hh => (by cases hh), ?_⟩
      rintro (rfl | ⟨pre, s, c, a, hs', _⟩)
      · exact absurd hs (not_stack_nil (by simp))
      · exact absurd (isStack_unique hs hs').1 single_ne_pair
    | script pre s' c b hs =>
      constructor
      · intro hh
        refine .inr ⟨pre, s', c, b, hs, ?_⟩
        intro cb hc hb
        unfold armOf at hh
        rw [(decodeBorrowed_iff c cb).mpr ⟨hc, hb⟩] at hh
        cases hh
      · rintro (rfl | ⟨pre', s, c', a, hs', hn⟩)
        · exact absurd hs (not_stack_nil (by simp))
        · obtain ⟨h1, rfl⟩ := isStack_unique hs hs'
          obtain ⟨rfl, rfl, rfl⟩ := pair_inj h1
          unfold armOf
          split
          · rfl
          · rename_i cb hd
            obtain ⟨hc, hb⟩ := (decodeBorrowed_iff _ _).mp hd
            exact absurd hb (hn cb hc)

/-- The four accessors are the parts of that reading. -/
theorem C81_accessors (l : List Bytes) (h : Fits l) (w : Wit) (hw : Wit.fromSlice l = some w) :
    (∀ s cb a, Spend.fromWitness w = some (some (.script s cb a)) →
      tapscript w = some (some s) ∧ leafScript w = some (some (cb.leafVersion, s)) ∧ controlBlock w = some (some cb) ∧ annex w = some a) ∧
    (∀ a, Spend.fromWitness w = some (some (.key a)) →
      tapscript w = some none ∧ leafScript w = some none ∧ controlBlock w = some none ∧ annex w = some a) ∧
    (Spend.fromWitness w = some none →
      tapscript w = some none ∧ leafScript w = some none ∧ controlBlock w = some none ∧ annex w = some none) ∧
    witnessScript w = some l.getLast? := by
  refine ⟨?_, ?_, ?_, ?_⟩
  · intro s cb a hh
    unfold tapscript leafScript controlBlock annex
    rw [hh]; exact ⟨rfl, rfl, rfl, rfl⟩
  · intro a hh
    unfold tapscript leafScript controlBlock annex
    rw [hh]; exact ⟨rfl, rfl, rfl, rfl⟩
  · intro hh
    unfold tapscript leafScript controlBlock annex
    rw [hh]; exact ⟨rfl, rfl, rfl, rfl⟩
  · obtain rfl := fits_of l h w hw
    unfold witnessScript
    rw [getBack_ofList l h.1 h.2, List.getLast?_eq_head?_reverse, List.head?_eq_getElem?]

theorem chunk_exists : ∀ (m : Nat) (bs : Bytes), bs.length = 32 * m → ∃ br : List Taproot.Hash, br.length = m ∧ bs = (br.map (·.1)).flatten
  | 0, bs, h => ⟨[], rfl, by simpa using h⟩
  | m + 1, bs, h => by
    obtain ⟨br, h1, h2⟩ := chunk_exists m (bs.drop 32) (by rw [List.length_drop]; omega)
    refine ⟨⟨bs.take 32, by rw [List.length_take]; omega⟩ :: br, by simp [h1], ?_⟩
    simp only [List.map_cons, List.flatten_cons, ← h2, List.take_append_drop]

/-- Which byte strings are well-formed control blocks: 33 bytes plus up to 128 times 32, and a first byte other than 0x50 and 0x51. -/
theorem C81_control_block (c : Bytes) : (∃ cb : BorrowedControlBlock, c = bytesOf cb ∧ cb.branch.length ≤ 128) ↔
    (∃ m, m ≤ 128 ∧ c.length = 33 + 32 * m) ∧ c.head? ≠ some 0x50 ∧ c.head? ≠ some 0x51 := by
  constructor
  · rintro ⟨cb, rfl, hb⟩
    refine ⟨⟨cb.branch.length, hb, ?_⟩, bytesOf_head cb, ?_⟩
    · unfold bytesOf
      rw [List.length_append, List.length_append, Taproot.flatten_length, cb.internalKey.2]
      rfl
    · have he := Taproot.version_even cb.leafVersion
      have hn := version_ne cb.leafVersion
      have key : ∀ v : UInt8, v &&& 0xfe = v → v ≠ 0x50 → ((1 : UInt8) ||| v ≠ 0x51 ∧ (0 : UInt8) ||| v ≠ 0x51) := by
        intro v h1 h2
        have hv := Taproot.firstByte v h1
        refine ⟨fun h3 => ?_, fun h3 => ?_⟩
        · rw [h3] at hv; exact h2 (hv.1.symm.trans (by decide))
        · rw [h3] at hv; exact h2 (hv.2.1.symm.trans (by decide))
      have := key _ he hn
      unfold bytesOf
      simp only [List.cons_append, List.head?_cons, ne_eq, Option.some.injEq]
      cases cb.parity
      · exact this.2
      · exact this.1
  · rintro ⟨⟨m, hm, hl⟩, h50, h51⟩
    have : ∃ cb, decodeBorrowed c = .ok cb := by
      match c, hl, h50, h51 with
      | [], hl, _, _ => exact absurd hl (by simp only [List.length_nil]; omega)
      | first :: rest, hl, h50, h51 =>
        simp only [List.length_cons] at hl
        simp only [List.head?_cons, ne_eq, Option.some.injEq] at h50 h51
        have hf := Taproot.firstByte' first
        have hev : ∀ b : UInt8, (b &&& 0xfe).toNat % 2 = 0 := by
          intro b
          rw [UInt8.toNat_and]
          have : (0xfe : UInt8).toNat = 254 := rfl
          rw [this]
          have h2 : (b.toNat &&& 254) % 2 = (b.toNat % 2) &&& (254 % 2) := by
            exact Nat.and_mod_two_pow (n := 1)
          rw [h2]; simp
        have hne : first &&& 0xfe ≠ 0x50 := by
          intro hh
          rw [hh] at hf
          by_cases h1 : first &&& 1 ≠ 0
          · rw [if_pos h1] at hf; exact h51 (hf.symm.trans (by decide))
          · rw [if_neg h1] at hf; exact h50 (hf.symm.trans (by decide))
        obtain ⟨ver, hv⟩ := ((Taproot.C51_leaf_version (first &&& 0xfe)).1).mpr ⟨hev first, hne⟩
        obtain ⟨br, hb⟩ := chunk_exists m (rest.drop 32) (by rw [List.length_drop]; omega)
        have hb := (Taproot.C51_branch (rest.drop 32) br).mpr ⟨by omega, hb.2⟩
        refine ⟨⟨ver, first &&& 1 ≠ 0, ⟨rest.take 32, by rw [List.length_take]; omega⟩, br⟩, ?_⟩
        unfold decodeBorrowed
        simp only []
        rw [dif_neg (by omega), hv]
        simp only [hb]
    obtain ⟨cb, h⟩ := this
    exact ⟨cb, (decodeBorrowed_iff _ _).mp h⟩

/-! ## Building -/

theorem fits_left {a b : List Bytes} (h : Fits (a ++ b)) : Fits a := ⟨h.1.left, fun x hx => h.2 x (by simp [hx])⟩

/-- Finishing a script path spend on a witness `l`, when the annex given is a BIP-341 one: the elements are `l`, the script, the control block, the
annex, and every accessor gives back what was put in. -/
theorem C81_round_trip {S : Taproot.Secp} (l : List Bytes) (script : Bytes) (cb : Taproot.ControlBlock S) (a : Option Bytes)
    (h : Fits (l ++ [script, cb.serialize] ++ a.toList)) (hb : cb.branch.length ≤ 128) (ha : ∀ x, a = some x → x.head? = some 0x50)
    (w : Wit) (hw : Wit.fromSlice l = some w) :
    ∃ w', pushP2trScriptSpend w script cb a = some w' ∧ w'.toVec = some (l ++ [script, cb.serialize] ++ a.toList) ∧
      Spend.fromWitness w' = some (some (.script script ⟨cb.leafVersion, cb.parity, S.ser cb.internalKey.inner, cb.branch⟩ a)) ∧
      tapscript w' = some (some script) ∧ leafScript w' = some (some (cb.leafVersion, script)) ∧
      controlBlock w' = some (some ⟨cb.leafVersion, cb.parity, S.ser cb.internalKey.inner, cb.branch⟩) ∧ annex w' = some a := by
  obtain rfl := fits_of l (fits_left (fits_left h)) w hw
  have hser : cb.serialize = bytesOf ⟨cb.leafVersion, cb.parity, S.ser cb.internalKey.inner, cb.branch⟩ := rfl
  have e : pushP2trScriptSpend (ofList l) script cb a = some (ofList (l ++ [script, cb.serialize] ++ a.toList)) := by
    unfold pushP2trScriptSpend
    have h2 : Fits (l ++ [script] ++ [cb.serialize]) := by
      have := fits_left h
      simpa using this
    rw [pushSlice_eq l script (fits_left h2).1]
    simp only [Option.bind_some]
    rw [pushSlice_eq (l ++ [script]) _ h2.1]
    simp only [Option.bind_some]
    cases a with
    | none => simp
    | some x =>
      simp only
      rw [pushSlice_eq _ x (by simpa using h.1)]
      simp
  refine ⟨_, e, toVec_ofList _ h.1 h.2, ?_⟩
  have hfs := fromSlice_eq _ h.1
  have hsp := ((C81_spend _ h _ hfs).2.2.1 script ⟨cb.leafVersion, cb.parity, S.ser cb.internalKey.inner, cb.branch⟩ a).mpr ⟨l, by
    rw [← hser]
    cases a with
    | some x => exact ⟨by simp, rfl, ha x rfl⟩
    | none =>
      have := isStack_none (l := l ++ [script, cb.serialize] ++ (none : Option Bytes).toList) (l ++ [script]) (x := cb.serialize) (by simp) (hser ▸ bytesOf_head _)
      simpa using this, hb⟩
  exact ⟨hsp, (C81_accessors _ h _ hfs).1 _ _ _ hsp⟩

/-- Nothing checks the annex given to `push_p2tr_script_spend`: one that does not start with 0x50 is not read back as an annex,
and the script is not found either. -/
theorem C81_bad_annex {S : Taproot.Secp} (l : List Bytes) (script : Bytes) (cb : Taproot.ControlBlock S) (a : Bytes)
    (h : Fits (l ++ [script, cb.serialize, a])) (ha : a.head? ≠ some 0x50) (hsc : script ≠ cb.serialize) (w : Wit)
    (hw : Wit.fromSlice l = some w) :
    ∃ w', pushP2trScriptSpend w script cb (some a) = some w' ∧ annex w' = some none ∧ tapscript w' ≠ some (some script) := by
  obtain rfl := fits_of l (fits_left h) w hw
  have e : pushP2trScriptSpend (ofList l) script cb (some a) = some (ofList (l ++ [script, cb.serialize, a])) := by
    unfold pushP2trScriptSpend
    have h3 : Fits (l ++ [script] ++ [cb.serialize] ++ [a]) := by simpa using h
    rw [pushSlice_eq l script (fits_left (fits_left h3)).1]
    simp only [Option.bind_some]
    rw [pushSlice_eq (l ++ [script]) _ (fits_left h3).1]
    simp only [Option.bind_some]
    rw [pushSlice_eq _ a h3.1]
    simp
  refine ⟨_, e, ?_⟩
  unfold annex tapscript
  rw [fromWitness_more l script cb.serialize a h, if_neg ha]
  unfold armOf
  cases decodeBorrowed a with
  | error _ => exact ⟨rfl, by intro hh; cases hh⟩
  | ok cb' =>
    refine ⟨rfl, ?_⟩
    intro hh
    simp only [Option.some.injEq] at hh
    exact hsc hh.symm

/-- A P2WSH witness: the satisfaction, then the script, which `witness_script` returns. -/
theorem C81_p2wsh (sat : List Bytes) (script : Bytes) (h : Fits (sat ++ [script])) :
    ∃ w, p2wsh sat script = some w ∧ w.toVec = some (sat ++ [script]) ∧ witnessScript w = some (some script) := by
  refine ⟨ofList (sat ++ [script]), ?_, toVec_ofList _ h.1 h.2, ?_⟩
  · unfold p2wsh
    rw [fromSlice_eq sat h.1.left]
    simp only [Option.bind_some]
    exact pushSlice_eq sat script h.1
  · rw [(C81_accessors _ h _ (fromSlice_eq _ h.1)).2.2.2]
    simp

theorem fits_small (l : List Bytes) (hl : l.length ≤ 2) (h : ∀ x ∈ l, x.length ≤ 4000000) : Fits l := by
  refine ⟨?_, h⟩
  intro a x b hab
  have hlen := congrArg List.length hab
  simp at hlen
  match a, hab with
  | [], _ => simp
  | [y], hab =>
    have := h y (by rw [hab]; simp)
    have hcs : csSize y.length ≤ 9 := by unfold csSize; split <;> (try split) <;> (try split) <;> omega
    simp only [elemsEnc_cons, elemsEnc_nil, List.append_nil, elemEnc_length]
    omega
  | y :: z :: t, _ => simp at hlen; omega

/-- A P2TR key path witness: one element, the signature, read as a key path spend without annex. -/
theorem C81_key_spend (sig : Crypto.TapSig) :
    ∃ w, p2trKeySpend sig = some w ∧ w.toVec = some [sig.toVec] ∧ Spend.fromWitness w = some (some (.key none)) := by
  obtain ⟨r, h1, h2, h3, h4⟩ := Crypto.tap_serialize sig
  have hf : Fits [sig.toVec] := fits_small _ (by simp) (by intro x hx; simp at hx; subst hx; omega)
  refine ⟨ofList [sig.toVec], ?_, toVec_ofList _ hf.1 hf.2, fromWitness_one _⟩
  unfold p2trKeySpend
  rw [h1]
  simp only [h2]
  exact pushSlice_eq [] _ hf.1

/-- `push_ecdsa_signature` appends the DER signature with its sighash byte. -/
theorem C81_push_ecdsa {D : Crypto.Der} (l : List Bytes) (sig : Crypto.EcdsaSig D) (h : Fits (l ++ [sig.toVec])) (w : Wit)
    (hw : Wit.fromSlice l = some w) : ∃ w', pushEcdsaSignature w sig = some w' ∧ w'.toVec = some (l ++ [sig.toVec]) := by
  obtain rfl := fits_of l (fits_left h) w hw
  obtain ⟨r, h1, h2⟩ := Crypto.ecdsa_serialize sig
  refine ⟨ofList (l ++ [sig.toVec]), ?_, toVec_ofList _ h.1 h.2⟩
  unfold pushEcdsaSignature
  rw [h1]
  simp only [Option.bind_some, h2]
  exact pushSlice_eq l _ h.1

/-- A P2WPKH witness is the DER signature with its sighash byte, then the compressed key.  The documentation of `taproot_leaf_script`
promises that a valid transaction's witness is read as a script path spend only if it is one.  That is false: EVERY P2WPKH
witness is, its key (33 bytes, starting with 2 or 3) being taken for a control block of leaf version 2 with an empty path. -/
theorem C81_p2wpkh_confused {D : Crypto.Der} {S : Crypto.Secp} (sig : Crypto.EcdsaSig D) (pk : Crypto.FullPublicKey S) :
    ∃ w v, p2wpkh sig pk = some w ∧ w.toVec = some [sig.toVec, pk.toBytes] ∧
      leafScript w = some (some (v, sig.toVec)) ∧ v.toConsensus = 2 := by
  obtain ⟨r, h1, h2⟩ := Crypto.ecdsa_serialize sig
  have hk : pk.toBytes.length = 33 := (S.ser pk.inner).2
  have hs : sig.toVec.length ≤ 73 := by
    unfold Crypto.EcdsaSig.toVec
    have := D.serialize_length sig.sig
    rw [List.length_append, List.length_singleton]; omega
  have hf : Fits [sig.toVec, pk.toBytes] := fits_small _ (by simp) (by
    intro x hx
    simp only [List.mem_cons, List.not_mem_nil, or_false] at hx
    rcases hx with rfl | rfl <;> omega)
  have hhead : pk.toBytes.head? = some 2 ∨ pk.toBytes.head? = some 3 := S.ser_head pk.inner
  refine ⟨ofList [sig.toVec, pk.toBytes], .future ⟨2, by decide, by decide, by decide⟩, ?_, toVec_ofList _ hf.1 hf.2, ?_, rfl⟩
  · unfold p2wpkh
    rw [h1]
    simp only [Option.bind_some, h2]
    rw [show Wit.empty = ofList [] from rfl, pushSlice_eq [] _ (by exact OffsetsFit.left (b := [pk.toBytes]) hf.1)]
    simp only [Option.bind_some]
    exact pushSlice_eq [sig.toVec] _ hf.1
  · unfold leafScript
    have hne : ¬ pk.toBytes.head? = some 0x50 := by
      rcases hhead with hh | hh <;> rw [hh] <;> decide
    rw [fromWitness_two _ _ hf, if_neg hne]
    have hd : ∃ par, decodeBorrowed pk.toBytes = .ok ⟨.future ⟨2, by decide, by decide, by decide⟩, par, ⟨pk.toBytes.drop 1, by rw [List.length_drop, hk]⟩, []⟩ := by
      have hcons : ∀ b, pk.toBytes.head? = some b → pk.toBytes = b :: pk.toBytes.drop 1 := by
        intro b hb
        match hpk : pk.toBytes, hb with
        | x :: t, hb => simp at hb; subst hb; rfl
      rcases hhead with hh | hh
      · refine ⟨false, (decodeBorrowed_iff _ _).mpr ⟨?_, by simp⟩⟩
        unfold bytesOf
        simp only [List.map_nil, List.flatten_nil, List.append_nil]
        exact (hcons 2 hh).trans (by rw [show ((if false = true then 1 else 0) ||| (Taproot.LeafVersion.future ⟨2, by decide, by decide, by decide⟩).toConsensus : UInt8) = 2 from by decide]; rfl)
      · refine ⟨true, (decodeBorrowed_iff _ _).mpr ⟨?_, by simp⟩⟩
        unfold bytesOf
        simp only [List.map_nil, List.flatten_nil, List.append_nil]
        exact (hcons 3 hh).trans (by rw [show ((if True then 1 else 0) ||| (Taproot.LeafVersion.future ⟨2, by decide, by decide, by decide⟩).toConsensus : UInt8) = 3 from by decide]; rfl)
    obtain ⟨par, hd⟩ := hd
    unfold armOf
    rw [hd]

/-- An element of more than 4,000,000 bytes, which `push` accepts, makes the reading of a witness that ends with it panic. -/
theorem C81_large_panics (l : List Bytes) (x : Bytes) (hl : l ≠ []) (ho : OffsetsFit (l ++ [x])) (h64 : ∀ y ∈ l ++ [x], y.length < 2 ^ 64)
    (hx : 4000000 < x.length) (w : Wit) (hw : Wit.fromSlice (l ++ [x]) = some w) :
    Spend.fromWitness w = none ∧ leafScript w = none ∧ annex w = none := by
  rw [fromSlice_eq _ ho] at hw
  obtain rfl := Option.some.inj hw
  have hpos : 0 < l.length := List.length_pos_iff.mpr hl
  have h : Spend.fromWitness (ofList (l ++ [x])) = none := by
    unfold Spend.fromWitness
    have he : (ofList (l ++ [x])).elems = l.length + 1 := by simp [ofList]
    rw [he, if_neg (by omega), if_neg (by omega)]
    have : expectBack (ofList (l ++ [x])) 0 = none := by
      unfold expectBack getBack
      rw [he, if_neg (by omega), get_ofList _ ho h64]
      have : (l ++ [x])[l.length + 1 - 1 - 0]? = some x := by simp
      rw [this]
      simp only
      rw [if_neg (by omega)]
    rw [this]
  refine ⟨h, ?_, ?_⟩
  · unfold leafScript; rw [h]
  · unfold annex; rw [h]

/-! ## Examples -/

/-- A script path spend with an annex, of a control block with a path of one hash. -/
example : ∃ w, Wit.fromSlice [[1], [0x51], 0xc1 :: List.replicate 64 7, [0x50, 9]] = some w ∧
    Spend.fromWitness w = some (some (.script [0x51] ⟨.tapScript, true, ⟨List.replicate 32 7, by decide⟩, [⟨List.replicate 32 7, by decide⟩]⟩ (some [0x50, 9]))) := by
  refine ⟨_, rfl, ?_⟩
  decide +kernel

example : Fits [[1], [0x51], 0xc1 :: List.replicate 64 7, [0x50, 9]] := by
  refine ⟨?_, by decide⟩
  intro a x b h
  have h1 : (elemsEnc a).length ≤ (elemsEnc (a ++ x :: b)).length := by rw [elemsEnc_append, List.length_append]; omega
  rw [← h] at h1
  have h2 : (elemsEnc [[1], [0x51], 0xc1 :: List.replicate 64 7, [0x50, 9]]).length = 73 := by decide
  omega

end P2tr
end Btc
