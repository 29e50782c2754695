import Verif.Bitcoin.BlockErrors
import Verif.Props.C22
import Verif.Props.C23_C24
import Verif.Props.C27_C28
import Verif.Props.C77
import Verif.Props.C78
/-!
# C122: the errors about blocks, proofs of inclusion and proofs of work
-/
namespace Btc

/-! ## Proofs of inclusion -/
namespace Pmt
variable {α : Type} [DecidableEq α] (c : α → α → α)

/-- Where reading the flags and hashes of a subtree in depth-first order comes to a stop: all flags are used, a hash is needed and none
is left, or both children of a node are read and equal.  The pruned trees read completely before are `PT`. -/
inductive Stuck (n : Nat) : Nat → Nat → List Bool → List α → Err → Prop
  | bits (h pos : Nat) (hs : List α) : Stuck n h pos [] hs .bitsArrayOverflow
  | leaf (pos : Nat) (b : Bool) (bs : List Bool) : Stuck n 0 pos (b :: bs) [] .hashesArrayOverflow
  | node (h pos : Nat) (bs : List Bool) : Stuck n (h + 1) pos (false :: bs) [] .hashesArrayOverflow
  | left (h pos : Nat) (bs : List Bool) (hs : List α) (e : Err) : Stuck n h (pos * 2) bs hs e → Stuck n (h + 1) pos (true :: bs) hs e
  | right (h pos : Nat) (L : PT α) (bs : List Bool) (hs : List α) (e : Err) : pos * 2 + 1 < width n h → L.Fits n h (pos * 2) → L.NoTwins c →
      Stuck n h (pos * 2 + 1) bs hs e → Stuck n (h + 1) pos (true :: (L.flags ++ bs)) (L.given ++ hs) e
  | twins (h pos : Nat) (L R : PT α) (bs : List Bool) (hs : List α) : pos * 2 + 1 < width n h → L.Fits n h (pos * 2) → L.NoTwins c →
      R.Fits n h (pos * 2 + 1) → R.NoTwins c → L.top c = R.top c →
      Stuck n (h + 1) pos (true :: (L.flags ++ (R.flags ++ bs))) (L.given ++ (R.given ++ hs)) .identicalHashesFound

theorem extract_error (n : Nat) : ∀ (h pos : Nat) (bits : List Bool) (hashes : List α) (e : Err),
    extract c n h pos bits hashes = .error e ↔ Stuck c n h pos bits hashes e := by
  intro h
  induction h with
  | zero =>
    intro pos bits hashes e
    constructor
    · intro he
      cases bits with
      | nil => simp only [extract] at he; cases he; exact .bits _ _ _
      | cons b bs =>
        cases hashes with
        | nil => simp only [extract] at he; cases he; exact .leaf _ _ _
        | cons x hs => simp only [extract] at he; cases he
    · intro hs
      cases hs with
      | bits => simp [extract]
      | leaf => simp [extract]
  | succ h ih =>
    intro pos bits hashes e
    constructor
    · intro he
      cases bits with
      | nil => simp only [extract] at he; cases he; exact .bits _ _ _
      | cons b bs =>
        cases b with
        | false =>
          cases hashes with
          | nil => simp only [extract] at he; cases he; exact .node _ _ _
          | cons x hs => simp only [extract] at he; cases he
        | true =>
          simp only [extract] at he
          split at he
          · next e' h1 => cases he; exact .left _ _ _ _ _ ((ih _ _ _ _).1 h1)
          · next left m1 bits1 hashes1 h1 =>
            obtain ⟨L, f1, n1, rfl, rfl, rfl, rfl⟩ := (extract_iff c n _ _ _ _ _ _ _ _).1 h1
            split at he
            · next hw =>
              split at he
              · next e' h2 => cases he; exact .right _ _ L _ _ _ hw f1 n1 ((ih _ _ _ _).1 h2)
              · next right m2 bits2 hashes2 h2 =>
                obtain ⟨R, f2, n2, rfl, rfl, rfl, rfl⟩ := (extract_iff c n _ _ _ _ _ _ _ _).1 h2
                split at he
                · next heq => cases he; exact .twins _ _ L R _ _ hw f1 n1 f2 n2 heq.symm
                · cases he
            · cases he
    · intro hs
      cases hs with
      | bits => simp [extract]
      | node => simp [extract]
      | left _ _ bs _ _ hs =>
        have h1 := (ih _ _ _ _).2 hs
        simp only [extract, h1]
      | right _ _ L bs hs' _ hw f1 n1 hs =>
        have h1 := (extract_iff c n h (pos * 2) (L.flags ++ bs) (L.given ++ hs') _ _ _ _).2 ⟨L, f1, n1, rfl, rfl, rfl, rfl⟩
        have h2 := (ih _ _ _ _).2 hs
        simp only [extract, h1, h2, if_pos hw]
      | twins _ _ L R bs hs' hw f1 n1 f2 n2 heq =>
        have h1 := (extract_iff c n h (pos * 2) (L.flags ++ (R.flags ++ bs)) (L.given ++ (R.given ++ hs')) _ _ _ _).2
          ⟨L, f1, n1, rfl, rfl, rfl, rfl⟩
        have h2 := (extract_iff c n h (pos * 2 + 1) (R.flags ++ bs) (R.given ++ hs') _ _ _ _).2 ⟨R, f2, n2, rfl, rfl, rfl, rfl⟩
        simp only [extract, h1, h2, if_pos hw, if_pos heq.symm]

/-- The faults of a proof. -/
inductive Bad (t : Tree α) : Err → Prop
  | none : t.num = 0 → Bad t .noTransactions
  | many : 16666 < t.num → Bad t .tooManyTransactions
  | hashes : 0 < t.num → t.num ≤ 16666 → t.num < t.hashes.length → Bad t .tooManyHashes
  | bits : 0 < t.num → t.num ≤ 16666 → t.hashes.length ≤ t.num → t.bits.length < t.hashes.length → Bad t .notEnoughBits
  | stuck (e : Err) : 0 < t.num → t.num ≤ 16666 → t.hashes.length ≤ t.num → t.hashes.length ≤ t.bits.length →
      Stuck c t.num (height t.num) 0 t.bits t.hashes e → Bad t e
  | bitsLeft (T : PT α) (bs : List Bool) (hs : List α) : 0 < t.num → t.num ≤ 16666 → t.hashes.length ≤ t.num →
      T.Fits t.num (height t.num) 0 → T.NoTwins c → t.bits = T.flags ++ bs → t.hashes = T.given ++ hs → t.hashes.length ≤ t.bits.length →
      (T.flags.length + 7) / 8 < (t.bits.length + 7) / 8 → Bad t .notAllBitsConsumed
  | hashesLeft (T : PT α) (bs : List Bool) (hs : List α) : 0 < t.num → t.num ≤ 16666 → t.hashes.length ≤ t.num →
      T.Fits t.num (height t.num) 0 → T.NoTwins c → t.bits = T.flags ++ bs → t.hashes = T.given ++ hs → t.hashes.length ≤ t.bits.length →
      (T.flags.length + 7) / 8 = (t.bits.length + 7) / 8 → hs ≠ [] → Bad t .notAllHashesConsumed

/-- A proof is refused with an error exactly when it has the fault. -/
theorem C122_proof (t : Tree α) (hb : t.bits.length < 2 ^ 32) (hh : t.hashes.length < 2 ^ 32) (e : Err) :
    t.extractMatches c = .error e ↔ Bad c t e := by
  have hb' : divCeil8 t.bits.length % 2 ^ 32 = divCeil8 t.bits.length := Nat.mod_eq_of_lt (by unfold divCeil8; omega)
  unfold Tree.extractMatches
  rw [Nat.mod_eq_of_lt hh, hb']
  by_cases h1 : t.num = 0
  · rw [if_pos h1]
    constructor
    · intro h; cases h; exact .none h1
    · intro h
      cases h with
      | none => rfl
      | _ => omega
  rw [if_neg h1]
  by_cases h2 : t.num > 4000000 / 240
  · rw [if_pos h2]
    have h2' : 16666 < t.num := h2
    constructor
    · intro h; cases h; exact .many h2'
    · intro h
      cases h with
      | many => rfl
      | _ => omega
  rw [if_neg h2]
  have h2' : t.num ≤ 16666 := Nat.not_lt.mp h2
  by_cases h3 : t.hashes.length > t.num
  · rw [if_pos h3]
    constructor
    · intro h; cases h; exact .hashes (by omega) h2' h3
    · intro h
      cases h with
      | hashes => rfl
      | _ => omega
  rw [if_neg h3]
  by_cases h4 : t.bits.length < t.hashes.length
  · rw [if_pos h4]
    constructor
    · intro h; cases h; exact .bits (by omega) h2' (by omega) h4
    · intro h
      cases h with
      | bits => rfl
      | _ => omega
  rw [if_neg h4]
  cases he : extract c t.num (height t.num) 0 t.bits t.hashes with
  | error e' =>
    simp only []
    constructor
    · intro h; cases h
      exact .stuck _ (by omega) h2' (by omega) (by omega) ((extract_error c _ _ _ _ _ _).1 he)
    · intro h
      have hno : ∀ (T : PT α) (bs : List Bool) (hs : List α), T.Fits t.num (height t.num) 0 → T.NoTwins c → t.bits = T.flags ++ bs →
          t.hashes = T.given ++ hs → False := by
        intro T bs hs f nt e1 e2
        have := (extract_iff c t.num (height t.num) 0 t.bits t.hashes _ _ _ _).2 ⟨T, f, nt, e1, e2, rfl, rfl⟩
        rw [he] at this; cases this
      cases h with
      | stuck _ _ _ _ _ hs =>
        have := (extract_error c _ _ _ _ _ _).2 hs
        rw [he] at this; cases this; rfl
      | bitsLeft T bs hs _ _ _ f nt e1 e2 => exact (hno T bs hs f nt e1 e2).elim
      | hashesLeft T bs hs _ _ _ f nt e1 e2 => exact (hno T bs hs f nt e1 e2).elim
      | _ => omega
  | ok x =>
    obtain ⟨root, ms, bits, hashes⟩ := x
    simp only []
    have hnostuck : ∀ e, ¬ Stuck c t.num (height t.num) 0 t.bits t.hashes e := by
      intro e hs
      have := (extract_error c _ _ _ _ _ _).2 hs
      rw [he] at this; cases this
    obtain ⟨T, f, nt, e1, e2, _, _⟩ := (extract_iff c _ _ _ _ _ _ _ _ _).1 he
    have huniq : ∀ (T' : PT α) (bs : List Bool) (hs : List α), T'.Fits t.num (height t.num) 0 → T'.NoTwins c → t.bits = T'.flags ++ bs →
        t.hashes = T'.given ++ hs → bs = bits ∧ hs = hashes := by
      intro T' bs hs f' nt' e1' e2'
      have := (extract_iff c t.num (height t.num) 0 t.bits t.hashes _ _ _ _).2 ⟨T', f', nt', e1', e2', rfl, rfl⟩
      rw [he] at this; cases this; exact ⟨rfl, rfl⟩
    have hl1 : T.flags.length + bits.length = t.bits.length := by rw [e1, List.length_append]
    have hl2 : T.given.length + hashes.length = t.hashes.length := by rw [e2, List.length_append]
    have hd : divCeil8 (t.bits.length - bits.length) = (T.flags.length + 7) / 8 := by
      unfold divCeil8; rw [show t.bits.length - bits.length = T.flags.length by omega]
    have hd2 : divCeil8 t.bits.length = (t.bits.length + 7) / 8 := rfl
    rw [hd, hd2]
    by_cases h5 : (T.flags.length + 7) / 8 ≠ (t.bits.length + 7) / 8
    · rw [if_pos h5]
      constructor
      · intro h; cases h
        exact .bitsLeft T bits hashes (by omega) h2' (by omega) f nt e1 e2 (by omega) (by omega)
      · intro h
        cases h with
        | stuck _ _ _ _ _ hs => exact absurd hs (hnostuck _)
        | bitsLeft => rfl
        | hashesLeft T' bs hs _ _ _ f' nt' e1' e2' _ h6 =>
          obtain ⟨rfl, rfl⟩ := huniq T' bs hs f' nt' e1' e2'
          have : T'.flags.length + bs.length = t.bits.length := by rw [e1', List.length_append]
          exact absurd (by rw [← h6]; congr 2; omega) h5
        | _ => omega
    · rw [if_neg h5]
      have h5' := Classical.not_not.mp h5
      have hbl : ¬ Bad c t .notAllBitsConsumed := by
        intro h
        cases h with
        | stuck _ _ _ _ _ hs => exact absurd hs (hnostuck _)
        | bitsLeft T' bs hs _ _ _ f' nt' e1' e2' _ h6 =>
          obtain ⟨rfl, rfl⟩ := huniq T' bs hs f' nt' e1' e2'
          have : T'.flags.length + bs.length = t.bits.length := by rw [e1', List.length_append]
          have : T'.flags.length = T.flags.length := by omega
          rw [this] at h6
          omega
      by_cases h6 : t.hashes.length - hashes.length ≠ t.hashes.length
      · rw [if_pos h6]
        constructor
        · intro h; cases h
          exact .hashesLeft T bits hashes (by omega) h2' (by omega) f nt e1 e2 (by omega) h5' (by rintro rfl; simp at h6)
        · intro h
          cases h with
          | stuck _ _ _ _ _ hs => exact absurd hs (hnostuck _)
          | bitsLeft T' bs hs g1 g2 g3 f' nt' e1' e2' g4 g5 => exact absurd (.bitsLeft T' bs hs g1 g2 g3 f' nt' e1' e2' g4 g5) hbl
          | hashesLeft => rfl
          | _ => omega
      · rw [if_neg h6]
        constructor
        · intro h; cases h
        · intro h
          cases h with
          | stuck _ _ _ _ _ hs => exact absurd hs (hnostuck _)
          | bitsLeft T' bs hs g1 g2 g3 f' nt' e1' e2' g4 g5 => exact absurd (.bitsLeft T' bs hs g1 g2 g3 f' nt' e1' e2' g4 g5) hbl
          | hashesLeft T' bs hs _ _ _ f' nt' e1' e2' _ _ h7 =>
            obtain ⟨rfl, rfl⟩ := huniq T' bs hs f' nt' e1' e2'
            have : hs.length ≠ 0 := fun h => h7 (List.length_eq_zero_iff.mp h)
            omega
          | _ => omega

omit [DecidableEq α] in
/-- The flags determine the shape. -/
theorem shape_det {β : Type} (n : Nat) : ∀ (h pos : Nat) (T : PT α) (U : PT β) (a b : List Bool), T.Fits n h pos → U.Fits n h pos →
    T.flags ++ a = U.flags ++ b → T.flags = U.flags ∧ T.given.length = U.given.length ∧ a = b := by
  intro h
  induction h with
  | zero =>
    intro pos T U a b hT hU he
    cases T with
    | hash x y =>
      cases U with
      | hash u v => simp only [PT.flags, List.cons_append, List.nil_append, List.cons.injEq] at he; rw [he.1]; exact ⟨rfl, rfl, he.2⟩
      | one l => exact hU.elim
      | two l r => exact hU.elim
    | one l => exact hT.elim
    | two l r => exact hT.elim
  | succ h ih =>
    intro pos T U a b hT hU he
    cases T with
    | hash x y =>
      cases (show x = false from hT)
      cases U with
      | hash u v => simp only [PT.flags, List.cons_append, List.nil_append, List.cons.injEq] at he; rw [he.1]; exact ⟨rfl, rfl, he.2⟩
      | one l => simp [PT.flags] at he
      | two l r => simp [PT.flags] at he
    | one l =>
      cases U with
      | hash u v => cases (show u = false from hU); simp [PT.flags] at he
      | one l' =>
        simp only [PT.flags, List.cons_append, List.cons.injEq, true_and] at he
        obtain ⟨h1, h2, h3⟩ := ih _ l l' a b hT.2 hU.2 he
        exact ⟨by simp [PT.flags, h1], h2, h3⟩
      | two l' r' => exact absurd hU.1 hT.1
    | two l r =>
      cases U with
      | hash u v => cases (show u = false from hU); simp [PT.flags] at he
      | one l' => exact absurd hT.1 hU.1
      | two l' r' =>
        simp only [PT.flags, List.cons_append, List.cons.injEq, true_and, List.append_assoc] at he
        obtain ⟨h1, h2, h3⟩ := ih _ l l' _ _ hT.2.1 hU.2.1 he
        obtain ⟨h4, h5, h6⟩ := ih _ r r' a b hT.2.2 hU.2.2 h3
        exact ⟨by simp [PT.flags, h1, h4], by simp [PT.given, h2, h5], h6⟩

omit [DecidableEq α] in
theorem stuck_bits (n h pos : Nat) (bits : List Bool) (hashes : List α) (e : Err) (hs : Stuck c n h pos bits hashes e) :
    (e = .bitsArrayOverflow → ∀ U : PT Unit, U.Fits n h pos → ¬ U.flags <+: bits) ∧
    (e = .hashesArrayOverflow → ∀ U : PT Unit, U.Fits n h pos → U.flags <+: bits → hashes.length < U.given.length) := by
  have hpos : ∀ U : PT Unit, U.flags ≠ [] ∧ 0 < U.given.length := by
    intro U
    induction U with
    | hash b x => simp [PT.flags, PT.given]
    | one l ih => exact ⟨by simp [PT.flags], ih.2⟩
    | two l r ih1 _ => exact ⟨by simp [PT.flags], by simp only [PT.given, List.length_append]; omega⟩
  induction hs with
  | bits h pos hs => exact ⟨fun _ U _ hp => (hpos U).1 (List.prefix_nil.mp hp), fun h => by cases h⟩
  | leaf pos b bs => exact ⟨(fun h => by cases h), fun _ U _ _ => (hpos U).2⟩
  | node h pos bs => exact ⟨(fun h => by cases h), fun _ U _ _ => (hpos U).2⟩
  | left h pos bs hs e _ ih =>
    refine ⟨fun he U f hp => ?_, fun he U f hp => ?_⟩
    · cases U with
      | hash b x => cases (show b = false from f); simp [PT.flags] at hp
      | one l =>
        simp only [PT.flags, List.cons_prefix_cons, true_and] at hp
        exact ih.1 he l f.2 hp
      | two l r =>
        simp only [PT.flags, List.cons_prefix_cons, true_and] at hp
        exact ih.1 he l f.2.1 ((List.prefix_append _ _).trans hp)
    · cases U with
      | hash b x => cases (show b = false from f); simp [PT.flags] at hp
      | one l =>
        simp only [PT.flags, List.cons_prefix_cons, true_and] at hp
        exact ih.2 he l f.2 hp
      | two l r =>
        simp only [PT.flags, List.cons_prefix_cons, true_and] at hp
        have := ih.2 he l f.2.1 ((List.prefix_append _ _).trans hp)
        simp only [PT.given, List.length_append]
        omega
  | right h pos L bs hs e hw f1 n1 _ ih =>
    refine ⟨fun he U f hp => ?_, fun he U f hp => ?_⟩
    · cases U with
      | hash b x => cases (show b = false from f); simp [PT.flags] at hp
      | one l => exact absurd hw f.1
      | two l r =>
        obtain ⟨z, hz⟩ := hp
        simp only [PT.flags, List.cons_append, List.cons.injEq, true_and, List.append_assoc] at hz
        obtain ⟨_, _, h3⟩ := shape_det n h (pos * 2) L l _ _ f1 f.2.1 hz.symm
        exact ih.1 he r f.2.2 ⟨z, h3.symm⟩
    · cases U with
      | hash b x => cases (show b = false from f); simp [PT.flags] at hp
      | one l => exact absurd hw f.1
      | two l r =>
        obtain ⟨z, hz⟩ := hp
        simp only [PT.flags, List.cons_append, List.cons.injEq, true_and, List.append_assoc] at hz
        obtain ⟨_, h2, h3⟩ := shape_det n h (pos * 2) L l _ _ f1 f.2.1 hz.symm
        have := ih.2 he r f.2.2 ⟨z, h3.symm⟩
        simp only [PT.given, List.length_append]
        omega
  | twins => exact ⟨(fun h => by cases h), fun h => by cases h⟩

omit [DecidableEq α] in
theorem stuck_twins (n h pos : Nat) (bits : List Bool) (hashes : List α) (e : Err) (hs : Stuck c n h pos bits hashes e)
    (he : e = .identicalHashesFound) : ∃ (k p : Nat) (L R : PT α) (u v : List Bool) (x y : List α), p * 2 + 1 < width n k ∧ L.Fits n k (p * 2) ∧
      R.Fits n k (p * 2 + 1) ∧ L.top c = R.top c ∧ bits = u ++ (L.flags ++ (R.flags ++ v)) ∧ hashes = x ++ (L.given ++ (R.given ++ y)) := by
  induction hs with
  | bits => cases he
  | leaf => cases he
  | node => cases he
  | left h pos bs hs e _ ih =>
    obtain ⟨k, p, L, R, u, v, x, y, a, b, d, e1, e2, e3⟩ := ih he
    exact ⟨k, p, L, R, true :: u, v, x, y, a, b, d, e1, by rw [e2]; rfl, e3⟩
  | right h pos T bs hs e hw f1 n1 _ ih =>
    obtain ⟨k, p, L, R, u, v, x, y, a, b, d, e1, e2, e3⟩ := ih he
    exact ⟨k, p, L, R, true :: (T.flags ++ u), v, T.given ++ x, y, a, b, d, e1, by rw [e2]; simp, by rw [e3]; simp⟩
  | twins h pos L R bs hs hw f1 n1 f2 n2 heq => exact ⟨h, pos, L, R, [true], bs, [], hs, hw, f1, f2, heq, rfl, rfl⟩

/-- What the messages say of a proof.  The last one is weaker than the text: the equal nodes need not be transactions. -/
inductive Says (t : Tree α) : String → Prop
  | none : t.num = 0 → Says t "partial Merkle tree contains no transactions"
  | many : 4000000 < t.num * 240 → Says t "too many transactions"
  | hashes : t.num < t.hashes.length → Says t "proof contains more hashes than transactions"
  | bits : t.bits.length < t.hashes.length → Says t "proof contains fewer bits than hashes"
  | bitsLeft (T : PT α) (bs : List Bool) : T.Fits t.num (height t.num) 0 → t.bits = T.flags ++ bs → bs ≠ [] → Says t "not all bits were consumed"
  | hashesLeft (T : PT α) (bs : List Bool) (hs : List α) : T.Fits t.num (height t.num) 0 → t.bits = T.flags ++ bs → t.hashes = T.given ++ hs →
      hs ≠ [] → Says t "not all hashes were consumed"
  | bitsEnd : (∀ U : PT Unit, U.Fits t.num (height t.num) 0 → ¬ U.flags <+: t.bits) → Says t "overflowed the bits array"
  | hashesEnd : (∀ U : PT Unit, U.Fits t.num (height t.num) 0 → U.flags <+: t.bits → t.hashes.length < U.given.length) →
      Says t "overflowed the hashes array"
  | twins (k p : Nat) (L R : PT α) (u v : List Bool) (x y : List α) : p * 2 + 1 < width t.num k → L.Fits t.num k (p * 2) →
      R.Fits t.num k (p * 2 + 1) → L.top c = R.top c → t.bits = u ++ (L.flags ++ (R.flags ++ v)) → t.hashes = x ++ (L.given ++ (R.given ++ y)) →
      Says t "found identical transaction hashes"

theorem C122_proof_messages_partial (t : Tree α) (hb : t.bits.length < 2 ^ 32) (hh : t.hashes.length < 2 ^ 32) (e : Err)
    (h : t.extractMatches c = .error e) : Says c t (msg e) := by
  cases (C122_proof c t hb hh e).1 h with
  | none h1 => exact .none h1
  | many h1 => exact .many (by omega)
  | hashes _ _ h1 => exact .hashes h1
  | bits _ _ _ h1 => exact .bits h1
  | bitsLeft T bs hs _ _ _ f _ e1 _ _ h1 => exact .bitsLeft T bs f e1 (by rintro rfl; rw [e1, List.append_nil] at h1; omega)
  | hashesLeft T bs hs _ _ _ f _ e1 e2 _ _ h1 => exact .hashesLeft T bs hs f e1 e2 h1
  | stuck _ _ _ _ _ hs =>
    have h1 := stuck_bits c _ _ _ _ _ _ hs
    have h2 := stuck_twins c _ _ _ _ _ _ hs
    have h3 : e = .bitsArrayOverflow ∨ e = .hashesArrayOverflow ∨ e = .identicalHashesFound := by
      clear h1 h2 h hb hh
      generalize height t.num = g, t.bits = b, t.hashes = k, 0 = p at hs
      induction hs <;> simp_all
    rcases h3 with rfl | rfl | rfl
    · exact .bitsEnd (h1.1 rfl)
    · exact .hashesEnd (h1.2 rfl)
    · obtain ⟨k, p, L, R, u, v, x, y, a, b, d, e1, e2, e3⟩ := h2 rfl
      exact .twins k p L R u v x y a b d e1 e2 e3

/-- The message about identical transaction hashes is also given when no transaction hash is in the proof: four transactions, of which the
proof only has the two inner nodes. -/
theorem C122_identical_fails (x : α) : (⟨4, [true, false, false], [x, x]⟩ : Tree α).extractMatches c = .error .identicalHashesFound ∧
    ∀ T : PT α, T.Fits 4 (height 4) 0 → T.flags = [true, false, false] → ∃ a b, T = .two (.hash false a) (.hash false b) := by
  have hh : height 4 = 2 := by decide
  constructor
  · have hw : (0 * 2 + 1) < width 4 1 := by decide
    refine (C122_proof c _ (by show 3 < _; omega) (by show 2 < _; omega) _).2 (.stuck _ (by show 0 < 4; omega) (by show 4 ≤ _; omega)
      (by show 2 ≤ 4; omega) (by show 2 ≤ 3; omega) ?_)
    show Stuck c 4 (height 4) 0 _ _ _
    rw [hh]
    exact .twins 1 0 (.hash false x) (.hash false x) [] [] hw rfl trivial rfl trivial rfl
  · intro T f he
    rw [hh] at f
    cases T with
    | hash b y => cases (show b = false from f); simp [PT.flags] at he
    | one l => exact absurd (show 0 * 2 + 1 < width 4 1 by decide) f.1
    | two l r =>
      simp only [PT.flags, List.cons.injEq, true_and] at he
      have hl : ∀ z : PT α, z.flags ≠ [] := by intro z; cases z <;> simp [PT.flags]
      cases l with
      | hash b y =>
        cases (show b = false from f.2.1)
        simp only [PT.flags, List.cons_append, List.nil_append, List.cons.injEq, true_and] at he
        cases r with
        | hash b' y' => simp only [PT.flags, List.cons.injEq, and_true] at he; subst he; exact ⟨y, y', rfl⟩
        | one l => simp [PT.flags] at he
        | two l r => simp [PT.flags] at he
      | one l => simp [PT.flags] at he
      | two l r => simp [PT.flags] at he

/-- A Merkle block is refused for its root exactly when the proof is good for another root, and otherwise with the error of the proof. -/
theorem C122_merkle_block (c : Arr 32 → Arr 32 → Arr 32) (b : MerkleBlock) (e : Err) : b.extractMatches c = .error e ↔
    b.txn.extractMatches c = .error e ∨ (e = .merkleRootMismatch ∧ ∃ r found, b.txn.extractMatches c = .ok (r, found) ∧ r ≠ b.header.merkleRoot) := by
  unfold MerkleBlock.extractMatches
  cases h : b.txn.extractMatches c with
  | error e' => simp
  | ok x =>
    obtain ⟨r, found⟩ := x
    simp only []
    by_cases hr : r = b.header.merkleRoot
    · rw [if_pos hr]; simp [hr]
    · rw [if_neg hr]
      simp [hr, eq_comm]

/-- What the message says of a Merkle block. -/
inductive BlockSays (c : Arr 32 → Arr 32 → Arr 32) (b : MerkleBlock) : String → Prop
  | proof (s : String) : Says c b.txn s → BlockSays c b s
  | root (r : Arr 32) (found : List (Arr 32 × Nat)) : b.txn.extractMatches c = .ok (r, found) → r ≠ b.header.merkleRoot →
      BlockSays c b "Merkle header root doesn't match to the root calculated from the partial Merkle tree"

theorem C122_merkle_block_messages_partial (c : Arr 32 → Arr 32 → Arr 32) (b : MerkleBlock) (hb : b.txn.bits.length < 2 ^ 32)
    (hh : b.txn.hashes.length < 2 ^ 32) (e : Err) (h : b.extractMatches c = .error e) : BlockSays c b (msg e) := by
  rcases (C122_merkle_block c b e).1 h with h | ⟨rfl, r, found, h, hn⟩
  · exact .proof _ (C122_proof_messages_partial c b.txn hb hh e h)
  · exact .root r found h hn

example : (⟨3, [true], [1, 2]⟩ : Tree Nat).extractMatches (· + ·) = .error .notEnoughBits ∧
    (⟨3, [true, true, true, false], [1, 2]⟩ : Tree Nat).extractMatches (· + ·) = .error .bitsArrayOverflow ∧
    (⟨3, [true, true, true, false, false], [1, 2]⟩ : Tree Nat).extractMatches (· + ·) = .error .hashesArrayOverflow ∧
    (⟨3, [true, true, true, false, false], [1, 1, 2]⟩ : Tree Nat).extractMatches (· + ·) = .error .identicalHashesFound ∧
    (⟨3, [true, false, false, true], [1, 2, 3]⟩ : Tree Nat).extractMatches (· + ·) = .error .notAllHashesConsumed ∧
    (⟨3, [true, false, false, true, true, true, true, true, true], [1, 2]⟩ : Tree Nat).extractMatches (· + ·) = .error .notAllBitsConsumed :=
  ⟨rfl, rfl, rfl, rfl, rfl, rfl⟩

end Pmt

/-! ## Block validation (primitives/src/block.rs 830-841) -/

/-- The witness commitment is refused exactly when everything before it holds and the rule about it does not. -/
theorem C122_validate (H : Bytes → Arr 32) (b : Block) (hw : ∀ tx ∈ b.txs, WitnessesFit tx) :
    b.validate H = some (.error .invalidWitnessCommitment) ↔
      ∃ cb i rest ids, b.txs = cb :: rest ∧ CoinbaseInput cb i ∧ b.txs.mapM (Tx.txid H) = some ids ∧ IsMerkleRoot H ids b.header.merkleRoot ∧
        ∀ root, ¬ WitnessRule H cb i rest root := by
  obtain ⟨⟨res, hres⟩, hok⟩ := C22_validate H b hw
  obtain ⟨h1, h2, h3⟩ := C22_errors H b hw
  have hids : ∃ ids, b.txs.mapM (Tx.txid H) = some ids := mapM_isSome b.txs (Tx.txid H) (fun tx _ => ⟨_, C11_txid_preimage H tx⟩)
  obtain ⟨ids, hids⟩ := hids
  constructor
  · intro h
    rw [h] at h1 h2 h3 hok
    have n1 : b.txs ≠ [] := fun e => by have := h1.2 e; cases this
    obtain ⟨cb, rest, hb⟩ := List.exists_cons_of_ne_nil n1
    have n2 : ∃ i, CoinbaseInput cb i := by
      by_cases he : ∃ i, CoinbaseInput cb i
      · exact he
      · have := h2.2 ⟨cb, rest, hb, fun i hi => he ⟨i, hi⟩⟩; cases this
    obtain ⟨i, hi⟩ := n2
    have n3 : IsMerkleRoot H ids b.header.merkleRoot := by
      by_cases he : IsMerkleRoot H ids b.header.merkleRoot
      · exact he
      · have := h3.2 ⟨cb, i, rest, hb, hi, fun ids' e => by rw [hids] at e; cases e; exact he⟩; cases this
    refine ⟨cb, i, rest, ids, hb, hi, hids, n3, fun root hr => ?_⟩
    have := (hok root).2 ⟨cb, i, rest, ids, hb, hi, hids, n3, hr⟩
    cases this
  · rintro ⟨cb, i, rest, ids', hb, hi, hids', hm, hr⟩
    rw [hids] at hids'; cases hids'
    rw [hres]
    rw [hres] at h1 h2 h3 hok
    cases res with
    | ok root =>
      obtain ⟨cb', i', rest', _, hb', hi', _, _, hr'⟩ := (hok root).1 rfl
      rw [hb] at hb'; cases hb'
      have : i = i' := by have := hi.1.symm.trans hi'.1; simpa using this
      subst this
      exact absurd hr' (hr root)
    | error e =>
      cases e with
      | noTransactions => rw [h1.1 rfl] at hb; cases hb
      | invalidCoinbase =>
        obtain ⟨cb', rest', hb', hn⟩ := h2.1 rfl
        rw [hb] at hb'; cases hb'
        exact absurd hi (hn i)
      | invalidMerkleRoot =>
        obtain ⟨_, _, _, _, _, hn⟩ := h3.1 rfl
        exact absurd hm (hn ids hids)
      | invalidWitnessCommitment => rfl

/-- What the messages say of a block.  The last one is only claimed when there is a commitment and a reserved value. -/
inductive BlockSays (H : Bytes → Arr 32) (b : Block) : String → Prop
  | empty : b.txs = [] → BlockSays H b "block has no transactions (missing coinbase)"
  | coinbase (cb : Tx) (rest : List Tx) : b.txs = cb :: rest → (∀ i, ¬ CoinbaseInput cb i) →
      BlockSays H b "the first transaction is not a valid coinbase transaction"
  | root : (∀ ids, b.txs.mapM (Tx.txid H) = some ids → ¬ IsMerkleRoot H ids b.header.merkleRoot) →
      BlockSays H b "header Merkle root does not match the calculated Merkle root"
  | witness (cb : Tx) (i : TxIn) (rest : List Tx) : b.txs = cb :: rest → CoinbaseInput cb i →
      (∀ c reserved ids root, LastCommitment cb.outputs c → Wit.fromSlice [reserved] = some i.witness → reserved.length = 32 →
        rest.mapM (Tx.wtxid H) = some ids → IsMerkleRoot H (⟨List.replicate 32 0, List.length_replicate⟩ :: ids) root → (H (root.1 ++ reserved)).1 ≠ c) →
      BlockSays H b "the witness commitment in coinbase transaction does not match the calculated witness_root"

theorem C122_validate_messages_partial (H : Bytes → Arr 32) (b : Block) (hw : ∀ tx ∈ b.txs, WitnessesFit tx) (e : BlockErr)
    (h : b.validate H = some (.error e)) : BlockSays H b e.msg := by
  obtain ⟨h1, h2, h3⟩ := C22_errors H b hw
  cases e with
  | noTransactions => exact .empty (h1.1 h)
  | invalidCoinbase =>
    obtain ⟨cb, rest, hb, hn⟩ := h2.1 h
    exact .coinbase cb rest hb hn
  | invalidMerkleRoot =>
    obtain ⟨cb, i, rest, _, _, hn⟩ := h3.1 h
    exact .root hn
  | invalidWitnessCommitment =>
    obtain ⟨cb, i, rest, ids, hb, hi, _, _, hr⟩ := (C122_validate H b hw).1 h
    exact .witness cb i rest hb hi fun c reserved ids root a1 a2 a3 a4 a5 a6 => hr (some root) (.committed c reserved ids root a1 a2 a3 a4 a5 a6)

/-- A block whose coinbase has no commitment at all, though another transaction has a witness. -/
def uncommittedBlock : Block :=
  { sampleBlock with txs := [{ sampleCoinbase with outputs := [{ amount := ⟨5000000000, by decide⟩, spk := [0x51] }] }, sampleTx] }

set_option maxRecDepth 100000 in
/-- A block whose coinbase makes no commitment is refused with the text that its commitment does not match. -/
theorem C122_commitment_fails : uncommittedBlock.validate lenHash = some (.error .invalidWitnessCommitment) ∧
    (∃ cb rest, uncommittedBlock.txs = cb :: rest ∧ ∀ o ∈ cb.outputs, ∀ c, ¬ CommitsTo o c) := by
  refine ⟨rfl, _, _, rfl, ?_⟩
  intro o ho c hc
  simp only [List.mem_cons, List.not_mem_nil, or_false] at ho
  subst ho
  obtain ⟨_, rest, hr⟩ := hc
  cases hr

set_option maxRecDepth 100000 in
example : ({ sampleBlock with header := sampleHeader }).validate lenHash = some (.error .invalidMerkleRoot) ∧
    ({ sampleBlock with txs := [] }).validate lenHash = some (.error .noTransactions) := ⟨rfl, rfl⟩

/-! ## The height in the coinbase (bitcoin/src/blockdata/block.rs 242-251) -/
namespace Bip34
open Scr

/-- What the messages say of a version and the script of the coinbase.  A push of more than four bytes may be there when the text says
there is none. -/
inductive Says (version : Nat) (s : Bytes) : String → Prop
  | version : ¬ (2 ≤ version ∧ version < 2 ^ 31) → Says version s "block doesn't support BIP-0034"
  | long : LongPush s → Says version s "byte push not minimally encoded"
  | padded (p d t : Bytes) : s = p ++ t → Scr.Enc p (.push d) → d.length ≤ 4 → ¬ NumMinimal d → Says version s "byte push not minimally encoded"
  | minus1 (t : Bytes) : s = 0x4f :: t → Says version s "negative BIP-0034 height"
  | negative (p d t : Bytes) : s = p ++ t → Scr.Enc p (.push d) → numVal d < 0 → Says version s "negative BIP-0034 height"
  | absent : (∀ p d t, s = p ++ t → Scr.Enc p (.push d) → 4 < d.length) → (∀ o t, s = o :: t → o.toNat = 0x4f ∨ (0x51 ≤ o.toNat ∧ o.toNat ≤ 0x60) → False) →
      Says version s "BIP-0034 push not present in block's coinbase"

theorem C122_height_messages_partial (H : Bytes → Arr 32) (b : Block) (w : Option (Arr 32)) (hv : b.validate H = some (.ok w)) (e : Err)
    (h : blockHeight b = some (.error e)) : ∃ cb i rest, b.txs = cb :: rest ∧ cb.inputs = [i] ∧ Says b.header.version.toNat i.scriptSig (msg e) := by
  obtain ⟨cb, i, rest, hb, hi, h1, h2⟩ := C78_errors H b w hv
  refine ⟨cb, i, rest, hb, hi, ?_⟩
  by_cases hver : 2 ≤ b.header.version.toNat ∧ b.header.version.toNat < 2 ^ 31
  · obtain ⟨h3, h4, h5⟩ := h2 hver
    cases e with
    | unsupported => exact absurd hver (h1.1 h)
    | nonMinimalPush =>
      rcases h3.1 h with h | ⟨p, d, t, a, a2, _, a3, a4⟩
      · exact .long h
      · exact .padded p d t a a2 a3 a4
    | negativeHeight =>
      rcases h4.1 h with ⟨t, h⟩ | ⟨p, d, t, a, a2, _, _, _, a4⟩
      · exact .minus1 t h
      · exact .negative p d t a a2 a4
    | notPresent =>
      rcases h5.1 h with ⟨_, hn⟩ | ⟨o, t, ho, hor⟩ | ⟨p, d, t, hs, he, hm, hl⟩
      · refine .absent (fun p d t hs he => absurd he (hn p _ t hs)) (fun o t hs ho => ?_)
        exact hn [o] (.op o) t hs (.op o (by omega))
      · refine .absent (fun p d t hs he => ?_) (fun o' t' hs ho' => ?_)
        · exfalso
          rw [ho] at hs
          cases he with
          | direct d hd =>
            injection hs with e1 e2
            subst e1
            rw [UInt8.toNat_ofNat'] at hor
            omega
          | pushdata1 => injection hs with e1 e2; subst e1; revert hor; decide
          | pushdata2 => injection hs with e1 e2; subst e1; revert hor; decide
          | pushdata4 => injection hs with e1 e2; subst e1; revert hor; decide
        · rw [ho] at hs; injection hs with e1 e2; subst e1; omega
      · refine .absent (fun p' d' t' hs' he' => ?_) (fun o' t' hs' ho' => ?_)
        · have h6 := (Bip34.enc_unique he he' (hs.symm.trans hs')).1
          cases h6
          exact hl
        · rw [hs'] at hs
          cases he with
          | direct d hd => injection hs with e1 e2; subst e1; rw [UInt8.toNat_ofNat'] at ho'; omega
          | pushdata1 => injection hs with e1 e2; subst e1; revert ho'; decide
          | pushdata2 => injection hs with e1 e2; subst e1; revert ho'; decide
          | pushdata4 => injection hs with e1 e2; subst e1; revert ho'; decide
  · have := h1.2 hver
    rw [h] at this
    cases this
    exact .version hver

/-- A coinbase that starts with a minimal push of a large height (five bytes or more) is said not to have a push. -/
theorem C122_height_fails (d t : Bytes) (h : 4 < d.length) (h' : d.length ≤ 75) :
    heightOf (UInt8.ofNat d.length :: d ++ t) = some (.error .notPresent) := by
  refine (heightOf_enc_push _ d t (.direct d h') ⟨?_, fun ⟨x, hx, _⟩ => by rw [hx] at h; simp at h⟩).1 h
  unfold pushHeader
  rw [if_pos (by show d.length < 76; omega)]
  rfl

example : heightOf [5, 0, 0, 0, 0x80, 0, 1, 2] = some (.error .notPresent) ∧ numVal [0, 0, 0, 0x80, 0] = 2 ^ 31 ∧ NumMinimal [0, 0, 0, 0x80, 0] :=
  ⟨C122_height_fails [0, 0, 0, 0x80, 0] [1, 2] (by decide) (by decide), by decide,
    (numMinimal_concat [0, 0, 0, 0x80] 0).2 (.inr ⟨[0, 0, 0], 0x80, rfl, by decide⟩)⟩

end Bip34

/-! ## Proof of work (block.rs 297-304) -/
namespace Genesis

inductive PowSays (H : Bytes → Arr 32) (h : Header) (t : U256) : String → Prop
  | target : Pow.fromCompact h.bits ≠ t → PowSays H h t "block target incorrect"
  | work : Pow.fromCompact h.bits = t → t.val < leNat (h.blockHash H).1 → PowSays H h t "block target correct but not attained"

/-- The two errors exclude each other and each says exactly what is the case. -/
theorem C122_pow (H : Bytes → Arr 32) (h : Header) (t : U256) (e : PowErr) : validatePow H h t = .error e ↔ PowSays H h t (powMsg e) := by
  have h1 := C77_validate_pow H h t
  cases e with
  | badTarget =>
    rw [(h1 (h.blockHash H)).2]
    refine ⟨.target, fun hs => ?_⟩
    generalize hm : powMsg .badTarget = m at hs
    cases hs with
    | target hn => exact hn
    | work => exact absurd hm (by decide)
  | badProofOfWork =>
    constructor
    · intro he
      have n1 : Pow.fromCompact h.bits = t := by
        by_cases hh : Pow.fromCompact h.bits = t
        · exact hh
        · have := ((h1 (h.blockHash H)).2).2 hh; rw [he] at this; cases this
      refine .work n1 ?_
      by_cases hh : leNat (h.blockHash H).1 ≤ t.val
      · have := ((h1 _).1).2 ⟨n1, rfl, hh⟩; rw [he] at this; cases this
      · omega
    · intro hs
      generalize hm : powMsg .badProofOfWork = m at hs
      cases hs with
      | target hn => exact absurd hm (by decide)
      | work n1 n2 =>
        cases hv : validatePow H h t with
        | ok x => obtain ⟨_, hx, hl⟩ := ((h1 x).1).1 hv; subst hx; omega
        | error e =>
          cases e with
          | badTarget => exact absurd n1 (((h1 (h.blockHash H)).2).1 hv)
          | badProofOfWork => rfl

end Genesis

/-! ## Requests for the transactions of a compact block (p2p/src/bip152.rs 747-756) -/
namespace Bip152

/-- The text that names an index. -/
inductive Says (r : Request) (b : Block) : String → Prop
  | range (l : List Nat) (i : Nat) : r.indices = .ok l → i ∈ l → b.txs.length ≤ i →
      Says r b ("a transaction index is requested that is out of range from the corresponding block: " ++ toString i)

/-- When the indices of the request are numbers at all, the index in the message is one of them and is not in the block. -/
theorem C122_request_partial (r : Request) (b : Block) (e : Nat) (l : List Nat) (hl : r.indices = .ok l) (h : fromRequest r b = .error e) :
    Says r b (msg e) := by
  rcases ((C27_from_request r b).2 e).1 h with h | ⟨l', h1, h2⟩
  · rw [hl] at h; cases h
  · exact .range l' e h1 (List.mem_of_find?_eq_some h2) (by simpa using List.find?_some h2)

/-- When they overflow, the message names an index that was not requested and that is in the block. -/
theorem C122_request_fails (h : Arr 32) (b : Block) (hb : 1 < b.txs.length) :
    fromRequest ⟨h, [0, 2 ^ 64 - 1]⟩ b = .error 1 ∧ ¬ b.txs.length ≤ 1 := ⟨rfl, by omega⟩

example : fromRequest ⟨⟨List.replicate 32 0, List.length_replicate⟩, [0, 5]⟩ sampleBlock = .error 6 := rfl
example : 1 < sampleBlock.txs.length := by decide

end Bip152
end Btc
