import Verif.Serde.Impls
import Verif.Props.C08_C12
import Verif.Props.C80
import Verif.Props.C37_C38
/-!
# C91: what is serialized with serde is read back, in every data format

`F` ranges over all data formats that keep serde's contract, text and binary.
-/
namespace Btc.Serde
open Lock HexInt U256

/-! ### Hashes and byte arrays -/

theorem hashParse_text {n : Nat} (rev : Bool) (b : Arr n) : hashParse rev n (hashText rev b) = some b := by
  unfold hashParse hashText
  rw [unhex_hexBytes]
  have hb := b.2
  cases rev with
  | false => simp [hb]
  | true => simp [hb]

theorem hashParse_iff {n : Nat} (rev : Bool) (s : Bytes) (b : Arr n) :
    hashParse rev n s = some b ↔ unhex s = some (if rev then b.1.reverse else b.1) := by
  unfold hashParse
  cases unhex s with
  | none => simp
  | some x =>
    simp only [Option.some.injEq]
    by_cases h : x.length = n
    · rw [dif_pos h]
      simp only [Option.some.injEq, Subtype.ext_iff]
      cases rev with
      | false => simp
      | true =>
        simp only [if_true]
        constructor
        · rintro h'; rw [← h', List.reverse_reverse]
        · rintro h'; rw [h', List.reverse_reverse]
    · rw [dif_neg h]
      simp only [reduceCtorEq, false_iff]
      rintro rfl
      apply h
      have := b.2
      split <;> simp [this]

theorem C91_hash {n : Nat} (rev : Bool) (F : Fmt) (b : Arr n) : deHash rev n F (serHash rev F b) = .ok b := by
  unfold deHash serHash
  cases h : F.human with
  | true =>
    simp only [if_true]
    rw [visit_fit rfl]
    simp only [canon, hashParse_text, ofOpt]
  | false =>
    simp only [Bool.false_eq_true, if_false]
    rw [visit_fit (by simp [fits, h])]
    simp only [canon, dif_pos b.2]

/-- Text is read exactly if it is the hex digits of the bytes, in the order of the type; a byte string exactly if it has the right length. -/
theorem C91_hash_exact {n : Nat} (rev : Bool) (F : Fmt) (s : Bytes) (b : Arr n) :
    (F.human = true → (deHash rev n F (.str s) = .ok b ↔ unhex s = some (if rev then b.1.reverse else b.1))) ∧
    (F.human = false → (deHash rev n F (.bytes s) = .ok b ↔ s = b.1)) := by
  unfold deHash
  constructor
  · intro h
    rw [h, if_pos rfl, visit_fit rfl, ← hashParse_iff]
    simp only [canon]
    cases hashParse rev n s <;> simp [ofOpt]
  · intro h
    rw [h, if_neg (by simp), visit_fit (by simp [fits, h])]
    simp only [canon]
    by_cases hl : s.length = n
    · simp [hl, Subtype.ext_iff]
    · simp only [hl, dite_false, reduceCtorEq, false_iff]
      rintro rfl
      exact hl b.2

/-! ### Numbers -/

theorem toBe_length (x : U256) : x.toBeBytes.length = 32 := by rw [toBeBytes_eq, beBytes_length]

theorem ofBe_toBe (x : U256) (h : x.toBeBytes.length = 32) : U256.ofBeBytes ⟨x.toBeBytes, h⟩ = x := by
  apply U256.val_inj
  refine (val_ofBeBytes _).trans ?_
  refine (congrArg beNat (toBeBytes_eq x)).trans ?_
  exact beNat_beBytes 32 _ (Nat.lt_of_lt_of_eq (val_lt x) (by decide))

theorem C91_u256 (F : Fmt) (x : U256) : deU256 F (serU256 F x) = .ok x ∧ deTarget F (serTarget F x) = .ok x := by
  have h1 : deU256 F (serU256 F x) = .ok x := by
    unfold deU256 serU256
    cases h : F.human with
    | true =>
      simp only [if_true]
      rw [visit_fit rfl]
      simp only [canon, (C80_u256_print x).2.2.2.2.2.2.1, ofOpt]
    | false =>
      simp only [Bool.false_eq_true, if_false]
      rw [visit_fit (by simp [fits, h])]
      simp only [canon, dif_pos (toBe_length x)]
      exact congrArg Except.ok (ofBe_toBe x _)
  refine ⟨h1, ?_⟩
  unfold deTarget serTarget
  rw [deNewtype_ser, h1]

theorem deU32_ser (F : Fmt) (n : UInt32) : deU32 F (serU32 n) = .ok n := by
  unfold deU32 serU32
  rw [deUint_ser F 32 _ n.toNat_lt]
  simp

theorem C91_integers (F : Fmt) :
    (∀ n : UInt32, deU32 F (serU32 n) = .ok n ∧ deNewU32 F (serNewU32 n) = .ok n) ∧
    (∀ n : UInt16, deU16 F (serU16 n) = .ok n) ∧
    (∀ n : UInt64, deU64 F (serU64 n) = .ok n) ∧
    (∀ n : Int32, deNewI32 F (serNewI32 n) = .ok n) ∧
    (∀ c : Bip32.ChildNumber, deChild F (serChild c) = .ok c) := by
  refine ⟨fun n => ⟨deU32_ser F n, ?_⟩, fun n => ?_, fun n => ?_, fun n => ?_, fun c => ?_⟩
  · unfold deNewU32 serNewU32
    rw [deNewtype_ser, deU32_ser]
  · unfold deU16 serU16
    rw [deUint_ser F 16 _ n.toNat_lt]
    simp
  · unfold deU64 serU64
    rw [deUint_ser F 64 _ n.toNat_lt]
    simp
  · unfold deNewI32 serNewI32
    rw [deNewtype_ser]
    unfold deI32 serI32
    have h1 := Int32.le_toInt n
    have h2 := Int32.toInt_lt n
    rw [deSint_ser F 32 _ ⟨by simpa using h1, by simpa using h2⟩]
    simp
  · unfold deChild serChild
    rw [deU32_ser]

/-- The types that hold only some numbers: a value of the type is read back. -/
theorem C91_checked (F : Fmt) :
    (∀ h : Height, h.n < 500000000 → deHeight F (serHeight h) = .ok h) ∧
    (∀ t : Mtp, 500000000 ≤ t.n → deMtp F (serMtp t) = .ok t) ∧
    (∀ l : LockTime, (∃ n, LockTime.fromConsensus n = some l) → deLock F (serLock l) = .ok l) ∧
    (∀ l : RelLock, deRel F (serRel l) = .ok l) ∧
    (∀ n : UInt8, n ≤ 16 → deWitnessVersion F (serWitnessVersion n) = .ok n) ∧
    (∀ l : Taproot.LeafVersion, deLeafVersion F (serLeafVersion l) = .ok l) := by
  refine ⟨fun h hh => ?_, fun t ht => ?_, ?_, fun l => ?_, fun n hn => ?_, fun l => ?_⟩
  · unfold deHeight serHeight
    rw [deU32_ser]
    simp only [Height.fromU32, isBlockHeight, THRESHOLD, hh, decide_true, if_true, ofOpt]
  · unfold deMtp serMtp
    rw [deU32_ser]
    simp only [Mtp.fromU32, isBlockTime, THRESHOLD, ge_iff_le, ht, decide_true, if_true, ofOpt]
  · rintro l ⟨n, hn⟩
    have hc : l.toConsensus = n := by
      unfold LockTime.fromConsensus Height.fromU32 Mtp.fromU32 at hn
      split at hn
      · cases hn; rfl
      · split at hn
        · cases hn; rfl
        · cases hn
    unfold deLock serLock
    rw [deU32_ser, hc]
    simp only [hn]
  · unfold deRel serRel
    rw [deU32_ser]
    have : RelLock.fromConsensus l.toConsensus = some l := by
      exact (C38_roundtrip l 0).1
    simp only [this, ofOpt]
  · unfold deWitnessVersion serWitnessVersion
    rw [deU8_ser]
    simp only [Scr.witnessVersionFromU8, hn, if_true, ofOpt]
  · unfold deLeafVersion serLeafVersion
    rw [visit_fit (by simp [fits])]
    simp only [canon, l.toConsensus.toNat_lt, if_true, UInt8.ofNat_toNat]
    cases l with
    | tapScript => rfl
    | future v =>
      obtain ⟨v, h1, h2, h3⟩ := v
      simp [Taproot.LeafVersion.toConsensus, Taproot.LeafVersion.fromConsensus, h1, h2, h3, ofExcept]

/-- Whatever was stored, a value that is read keeps the rules of its type, and reading never panics. -/
theorem C91_sound (F : Fmt) (v : SVal) :
    (∀ h, deHeight F v = .ok h → h.n < 500000000) ∧
    (∀ t, deMtp F v = .ok t → 500000000 ≤ t.n) ∧
    (deLock F v ≠ .error .panic ∧ ∀ l, deLock F v = .ok l ↔ ∃ n, deU32 F v = .ok n ∧
      l = if n < 500000000 then .blocks ⟨n⟩ else .seconds ⟨n⟩) ∧
    (∀ n, deWitnessVersion F v = .ok n → n ≤ 16) ∧
    (∀ l, deLeafVersion F v = .ok l → l.toConsensus ≠ 0x50 ∧ l.toConsensus &&& 1 = 0) := by
  refine ⟨fun h hh => ?_, fun t ht => ?_, ?_, fun n hn => ?_, fun l hl => ?_⟩
  · unfold deHeight at hh
    split at hh
    · unfold Height.fromU32 at hh
      split at hh
      · rename_i hb
        cases hh
        exact of_decide_eq_true hb
      · cases hh
    · cases hh
  · unfold deMtp at ht
    split at ht
    · unfold Mtp.fromU32 at ht
      split at ht
      · rename_i hb
        cases ht
        exact of_decide_eq_true hb
      · cases ht
    · cases ht
  · have key : ∀ n, LockTime.fromConsensus n = some (if n < 500000000 then .blocks ⟨n⟩ else .seconds ⟨n⟩) := by
      intro n
      unfold LockTime.fromConsensus Height.fromU32 Mtp.fromU32 isBlockHeight isBlockTime THRESHOLD
      by_cases h : n < 500000000
      · simp [h]
      · simp [h, UInt32.not_lt.mp h]
    unfold deLock
    cases hd : deU32 F v with
    | error e =>
      refine ⟨?_, fun l => by simp⟩
      intro he
      cases he
      unfold deU32 at hd
      cases hu : deUint 32 F v with
      | ok n => rw [hu] at hd; cases hd
      | error e =>
        rw [hu] at hd
        cases hd
        unfold deUint at hu
        split at hu
        · split at hu <;> cases hu
        · split at hu <;> cases hu
        · cases hu
    | ok n =>
      simp only [key]
      refine ⟨by simp, fun l => ?_⟩
      simp only [Except.ok.injEq, exists_eq_left']
      exact eq_comm
  · unfold deWitnessVersion Scr.witnessVersionFromU8 at hn
    split at hn
    · split at hn
      · rename_i hb
        cases hn; exact hb
      · cases hn
    · cases hn
  · unfold deLeafVersion at hl
    split at hl
    · split at hl
      · rename_i n _ _
        generalize UInt8.ofNat n = x at hl
        unfold Taproot.LeafVersion.fromConsensus at hl
        split at hl
        · cases hl; decide
        · split at hl
          · cases hl
          · split at hl
            · rename_i h1 h2 h3
              cases hl
              refine ⟨h2, ?_⟩
              show x &&& 1 = 0
              rw [← h3, UInt8.and_assoc]
              exact UInt8.and_zero
            · cases hl
      · cases hl
    · cases hl

/-! ### Scripts, witnesses -/

theorem C91_script (F : Fmt) (s : Bytes) :
    deScriptBuf F (serScript F s) = .ok s ∧
    (deScriptRef F (serScript F s) = .ok s ↔ F.human = false ∧ F.lends = true) ∧
    (F.human = true → ∀ v, deScriptRef F v = .error .refused) := by
  refine ⟨?_, ?_, ?_⟩
  · unfold deScriptBuf serScript
    cases h : F.human with
    | true =>
      simp only [if_true]
      rw [visit_fit rfl]
      simp only [canon, unhex_hexBytes, ofOpt]
    | false =>
      simp only [Bool.false_eq_true, if_false]
      rw [visit_fit (by simp [fits, h])]
      rfl
  · unfold deScriptRef serScript
    cases h : F.human with
    | true => simp
    | false =>
      simp only [Bool.false_eq_true, if_false]
      rw [visit_fit (by simp [fits, h])]
      simp only [canon]
      cases F.lends <;> simp
  · intro h v
    unfold deScriptRef
    rw [if_pos h]

theorem readAll_ser {α β : Type} (de : SVal → R β) (ser : α → SVal) (f : α → β) : ∀ (xs : List α), (∀ x ∈ xs, de (ser x) = .ok (f x)) →
    readAll de (xs.map ser) = .ok (xs.map f)
  | [], _ => rfl
  | x :: xs, h => by
    rw [List.map_cons, readAll, h x (by simp)]
    simp only []
    rw [readAll_ser de ser f xs fun y hy => h y (by simp [hy])]
    rfl

theorem OffsetsFit.length_lt {l : List Bytes} (h : OffsetsFit l) : l.length ≤ 2 ^ 32 := by
  rcases List.eq_nil_or_concat l with rfl | ⟨a, x, rfl⟩
  · simp
  · have h1 := h a x [] (by simp)
    have h2 : ∀ a : List Bytes, a.length ≤ (elemsEnc a).length := by
      intro a
      induction a with
      | nil => simp
      | cons y a ih =>
        rw [elemsEnc_cons, List.length_append, elemEnc_length, List.length_cons]
        have : 1 ≤ csSize y.length := by unfold csSize; split; omega; split; omega; split <;> omega
        omega
    have := h2 a
    simp only [List.concat_eq_append, List.length_append, List.length_cons, List.length_nil]
    omega

/-- A witness is read back with the same elements, and with the same memory layout. -/
theorem C91_witness (F : Fmt) (l : List Bytes) (ho : OffsetsFit l) (hs : ∀ x ∈ l, x.length ≤ 4000000) :
    ∃ w v, Wit.fromSlice l = some w ∧ serWitness F w = some v ∧ deWitness F v = .ok w := by
  refine ⟨Wit.ofList l, .seq (l.map fun e => if F.human then .str (hexBytes e) else .seq (serU8s e)), Wit.fromSlice_eq l ho, ?_, ?_⟩
  · unfold serWitness
    rw [Wit.toVec_ofList l ho hs]
    rfl
  · unfold deWitness
    cases h : F.human with
    | true =>
      simp only [if_true]
      rw [visit_fit rfl]
      simp only [canon, readVec, List.length_map]
      have hl := OffsetsFit.length_lt ho
      rw [if_neg (by split <;> simp [isizeMax] <;> omega)]
      rw [readAll_ser _ _ id l fun x _ => by rw [deString_ser]; simp only [unhex_hexBytes, ofOpt, id]]
      simp only [List.map_id, Wit.fromSlice_eq l ho]
    | false =>
      simp only [Bool.false_eq_true, if_false]
      rw [deVec_ser F (deVec (deU8 F) F) (fun e => SVal.seq (serU8s e)) l fun x _ => deVec_ser F _ _ x fun b _ => deU8_ser F b]
      simp only [Wit.fromSlice_eq l ho]

/-! ### Out points -/

/-! Full statement: `deOutPoint F (serOutPoint F o) = .ok o` for every `F`.  Proved for text formats and for the two kinds of binary formats
below; false for the others (`C91_outpoint_refuted`, `C91_outpoint_wrong`). -/

/-- Text formats. -/
theorem C91_outpoint_text (F : Fmt) (o : OutPoint) (h : F.human = true) : deOutPoint F (serOutPoint F o) = .ok o := by
  unfold deOutPoint serOutPoint
  rw [h, if_pos rfl, if_pos rfl, visit_fit rfl]
  simp only [canon, C15_roundtrip, ofExcept]

theorem leBytes_vout (n : UInt32) : UInt32.ofNat (leNat (leBytes 4 n.toNat)) = n := by
  rw [leNat_leBytes 4 _ (by have := n.toNat_lt; omega)]
  simp

/-- Binary formats that write structs as maps and give any list of the right length to a reader of a tuple. -/
theorem C91_outpoint_map_partial (F : Fmt) (o : OutPoint) (h : F.human = false) (hm : F.structAsMap = true)
    (ht : ∀ n vs, vs.length = n → F.other (.tuple n) (.seq vs) = some (.seq (some n) vs)) :
    deOutPoint F (serOutPoint F o) = .ok o := by
  unfold deOutPoint serOutPoint
  rw [h, if_neg (by simp), if_neg (by simp), visit_fit (by simp [fits])]
  simp only [canon, hm, if_true]
  have e1 : deArray 32 (deU8 F) F (.seq (serU8s o.txid.1)) = .ok o.txid.1 := by
    unfold deArray
    rw [visit_misfit rfl, ht 32 _ (by simp [serU8s, o.txid.2])]
    simp only [serU8s, List.length_map, o.txid.2, Nat.lt_irrefl, if_false]
    rw [List.take_of_length_le (by simp [o.txid.2])]
    exact readAll_map _ _ _ fun b _ => deU8_ser F b
  have e2 : deArray 4 (deU8 F) F (.tuple (serU8s (leBytes 4 o.vout.toNat))) = .ok (leBytes 4 o.vout.toNat) :=
    deArray_ser 4 F _ _ _ (by simp) fun b _ => deU8_ser F b
  unfold outPointMap
  rw [if_pos rfl]
  simp only [Option.isSome_none, Bool.false_eq_true, if_false, e1, dif_pos o.txid.2]
  unfold outPointMap
  rw [if_neg (by decide), if_pos rfl]
  simp only [Option.isSome_none, Bool.false_eq_true, if_false, e2, leBytes_vout]
  rfl

/-- Binary formats that write structs as tuples, lists of bytes like byte strings, and the bytes of a little-endian number like the number. -/
theorem C91_outpoint_fixed_partial (F : Fmt) (o : OutPoint) (h : F.human = false) (hm : F.structAsMap = false)
    (hb : ∀ b : Bytes, F.other .bytes (.seq (serU8s b)) = some (.bytes F.lends b))
    (hu : ∀ b : Bytes, b.length = 4 → F.other (.uint 32) (.tuple (serU8s b)) = some (.uint (leNat b))) :
    deOutPoint F (serOutPoint F o) = .ok o := by
  unfold deOutPoint serOutPoint
  rw [h, if_neg (by simp), if_neg (by simp), visit_fit (by simp [fits])]
  simp only [canon, hm, Bool.false_eq_true, if_false, List.map_cons, List.map_nil]
  have e1 : deHash true 32 F (.seq (serU8s o.txid.1)) = .ok o.txid := by
    unfold deHash
    rw [h, if_neg (by simp), visit_misfit rfl, hb]
    simp only [dif_pos o.txid.2]
  have e2 : deU32 F (.tuple (serU8s (leBytes 4 o.vout.toNat))) = .ok o.vout := by
    unfold deU32 deUint
    rw [visit_misfit rfl, hu _ (by simp)]
    have : leNat (leBytes 4 o.vout.toNat) = o.vout.toNat := leNat_leBytes 4 _ (by have := o.vout.toNat_lt; omega)
    simp only [this, o.vout.toNat_lt, if_true]
    simp
  rw [e1]
  simp only [e2]

/-- The rest of the map after both fields is empty: a field given twice, or any other field, is refused. -/
theorem outPointMap_done (F : Fmt) (fs : List (Bytes × SVal)) (t : Arr 32) (n : UInt32) (o : OutPoint) :
    outPointMap F fs (some t) (some n) = .ok o ↔ fs = [] ∧ o = ⟨t, n⟩ := by
  cases fs with
  | nil =>
    simp only [outPointMap, Except.ok.injEq, true_and]
    exact ⟨fun h => h.symm, fun h => h.symm⟩
  | cons p fs =>
    obtain ⟨k, v⟩ := p
    simp only [outPointMap, Option.isSome_some, if_true]
    constructor
    · intro h
      split at h
      · cases h
      · split at h <;> cases h
    · intro h; cases h.1

/-- A binary format that answers with a map is believed exactly if the map has each of the two fields once, in either order, and nothing
else. -/
theorem C91_outpoint_fields (F : Fmt) (v : SVal) (fs : List (Bytes × SVal)) (o : OutPoint) (h : F.human = false)
    (hv : F.visit (.struct [txidField, voutField]) v = some (.map fs)) :
    deOutPoint F v = .ok o ↔ ∃ a b c, (fs = [(txidField, a), (voutField, b)] ∨ fs = [(voutField, b), (txidField, a)]) ∧
      deArray 32 (deU8 F) F a = .ok o.txid.1 ∧ deArray 4 (deU8 F) F b = .ok c ∧ UInt32.ofNat (leNat c) = o.vout := by
  have hne : voutField ≠ txidField := by decide
  unfold deOutPoint
  rw [h, if_neg (by simp), hv]
  simp only []
  constructor
  · intro hm
    cases fs with
    | nil => simp [outPointMap] at hm
    | cons p fs =>
      obtain ⟨k, a⟩ := p
      simp only [outPointMap, Option.isSome_none, Bool.false_eq_true, if_false] at hm
      by_cases hk : k = txidField
      · subst hk
        rw [if_pos rfl] at hm
        cases ha : deArray 32 (deU8 F) F a with
        | error e => rw [ha] at hm; cases hm
        | ok ta =>
          rw [ha] at hm
          simp only [] at hm
          split at hm
          case isFalse => cases hm
          case isTrue hl =>
            cases fs with
            | nil => simp [outPointMap] at hm
            | cons p fs =>
              obtain ⟨k, b⟩ := p
              simp only [outPointMap, Option.isSome_some, Option.isSome_none, Bool.false_eq_true, if_true, if_false] at hm
              by_cases hk : k = txidField
              · rw [if_pos hk] at hm; cases hm
              · rw [if_neg hk] at hm
                by_cases hk : k = voutField
                · subst hk
                  rw [if_pos rfl] at hm
                  cases hb : deArray 4 (deU8 F) F b with
                  | error e => rw [hb] at hm; cases hm
                  | ok c =>
                    rw [hb] at hm
                    obtain ⟨h1, h2⟩ := (outPointMap_done F fs _ _ o).mp hm
                    subst h1 h2
                    exact ⟨a, b, c, .inl rfl, ha, hb, rfl⟩
                · rw [if_neg hk] at hm; cases hm
      · rw [if_neg hk] at hm
        by_cases hk : k = voutField
        · subst hk
          rw [if_pos rfl] at hm
          cases hb : deArray 4 (deU8 F) F a with
          | error e => rw [hb] at hm; cases hm
          | ok c =>
            rw [hb] at hm
            simp only [] at hm
            cases fs with
            | nil => simp [outPointMap] at hm
            | cons p fs =>
              obtain ⟨k, b⟩ := p
              simp only [outPointMap, Option.isSome_some, Option.isSome_none, Bool.false_eq_true, if_true, if_false] at hm
              by_cases hk : k = txidField
              · subst hk
                rw [if_pos rfl] at hm
                cases ha : deArray 32 (deU8 F) F b with
                | error e => rw [ha] at hm; cases hm
                | ok ta =>
                  rw [ha] at hm
                  simp only [] at hm
                  split at hm
                  case isFalse => cases hm
                  case isTrue hl =>
                    obtain ⟨h1, h2⟩ := (outPointMap_done F fs _ _ o).mp hm
                    subst h1 h2
                    exact ⟨b, a, c, .inr rfl, ha, hb, rfl⟩
              · rw [if_neg hk] at hm
                split at hm <;> cases hm
        · rw [if_neg hk] at hm; cases hm
  · rintro ⟨a, b, c, hf, ha, hb, hc⟩
    rcases hf with rfl | rfl <;>
      simp only [outPointMap, if_neg hne, if_true, Option.isSome_none, Bool.false_eq_true, if_false, ha, hb, o.txid.2, dif_pos, hc]

/-- A format that answers only what was asked for. -/
def strict (human asMap : Bool) : Fmt := ⟨human, asMap, true, true, true, fun _ _ => none⟩

/-- The code asks for a byte string and a number, or for two arrays, after writing a list and an array, so a binary format that answers only
what was asked for refuses every out point. -/
theorem C91_outpoint_refuted (F : Fmt) (o : OutPoint) (h : F.human = false) (hn : ∀ h v, F.other h v = none) :
    deOutPoint F (serOutPoint F o) = .error .refused := by
  unfold deOutPoint serOutPoint
  rw [h, if_neg (by simp), if_neg (by simp), visit_fit (by simp [fits])]
  cases hm : F.structAsMap with
  | true =>
    simp only [canon, hm, if_true]
    unfold outPointMap
    rw [if_pos rfl]
    simp only [Option.isSome_none, Bool.false_eq_true, if_false]
    have : deArray 32 (deU8 F) F (.seq (serU8s o.txid.1)) = .error .refused := by
      unfold deArray
      rw [visit_misfit rfl, hn]
    simp only [this]
  | false =>
    simp only [canon, hm, Bool.false_eq_true, if_false, List.map_cons, List.map_nil]
    have : deHash true 32 F (.seq (serU8s o.txid.1)) = .error .refused := by
      unfold deHash
      rw [h, if_neg (by simp), visit_misfit rfl, hn]
    simp only [this]

/-- The bytes written for a list of numbers below 256. -/
def rawBytes : List SVal → Bytes
  | .uint 8 n :: vs => UInt8.ofNat n :: rawBytes vs
  | _ => []
/-- Seven bits a byte, least significant first. -/
def varint : Bytes → Nat
  | [] => 0
  | b :: bs => if b.toNat < 128 then b.toNat else b.toNat % 128 + 128 * varint bs

/-- A binary format that writes numbers in a variable number of bytes. -/
def varFmt : Fmt where
  human := false
  structAsMap := false
  posAsUint := false
  sized := true
  lends := true
  other h v :=
    match h, v with
    | .bytes, .seq vs => some (.bytes true (rawBytes vs))
    | .uint 32, .tuple vs => some (.uint (varint (rawBytes vs)))
    | _, _ => none

/-- With variable-length numbers another out point is read, without an error. -/
theorem C91_outpoint_wrong : ∃ o o' : OutPoint, o ≠ o' ∧ deOutPoint varFmt (serOutPoint varFmt o) = .ok o' := by
  refine ⟨⟨⟨List.replicate 32 7, by simp⟩, 384⟩, ⟨⟨List.replicate 32 7, by simp⟩, 128⟩, by decide, ?_⟩
  rfl

/-! ### Consensus encodings -/

theorem hexPair_digits (b : UInt8) :
    hexPair (Char.ofNat (hexDigit (b.toNat / 16)).toNat) (Char.ofNat (hexDigit (b.toNat % 16)).toNat) = some b := by
  have key : ∀ n : Fin 256, hexPair (Char.ofNat (hexDigit (n.1 / 16)).toNat) (Char.ofNat (hexDigit (n.1 % 16)).toNat) =
      some (UInt8.ofNat n.1) := by decide +kernel
  have := key ⟨b.toNat, b.toNat_lt⟩
  simpa using this

theorem chars_hex (bs : Bytes) : hexDecode (chars (hexBytes bs)) = some bs := by
  induction bs with
  | nil => rfl
  | cons b bs ih =>
    have : chars (hexBytes (b :: bs)) =
        Char.ofNat (hexDigit (b.toNat / 16)).toNat :: Char.ofNat (hexDigit (b.toNat % 16)).toNat :: chars (hexBytes bs) := by
      simp [hexBytes, chars]
    rw [this, hexDecode, hexPair_digits, ih]

theorem drainHex_eq (e : Enc) : ∀ (n : Nat) (s : e.S), drainHex e n s = (e.drain n s).map hexBytes
  | 0, _ => rfl
  | n + 1, s => by
    unfold drainHex Enc.drain
    cases h : e.adv s with
    | mk s' m =>
      cases m with
      | false => rfl
      | true =>
        simp only [drainHex_eq e n s']
        cases e.drain n s' <;> simp [hexBytes]

/-- A value whose encoding decodes to it is read back: as hex in a text format, as a byte string in a binary one, and so is any list of such
values and an optional value. -/
theorem C91_consensus {α : Type} (d : Dec α) (hd : IsLawful d) (e : Enc) (enc : α → e.S) (F : Fmt) (good : α → Prop) (n : Nat)
    (hg : ∀ a, good a → ∃ bs, e.drain n (enc a) = some bs ∧ d.decodeSlice bs = .ok a) :
    (∀ a, good a → ∃ v, serConsensus F e n (enc a) = some v ∧ deConsensus d F v = .ok a) ∧
    (∀ o : Option α, (∀ a ∈ o, good a) → ∃ v, serConsensusOpt F e n (o.map enc) = some v ∧ deConsensusOpt d F v = .ok o) ∧
    (∀ l : List α, (∀ a ∈ l, good a) → ∃ v, serConsensusVec F e n (l.map enc) = some v ∧ deConsensusVec d F v = .ok l) := by
  have h1 : ∀ a, good a → ∃ v, serConsensus F e n (enc a) = some v ∧ deConsensus d F v = .ok a := by
    intro a ha
    obtain ⟨bs, hbs, hda⟩ := hg a ha
    unfold serConsensus deConsensus
    cases h : F.human with
    | true =>
      refine ⟨.str (hexBytes bs), by simp [drainHex_eq, hbs], ?_⟩
      simp only [if_true, deString_ser]
      rw [(C04_hex hd 4096 (by omega) (chars (hexBytes bs)) a).mpr ⟨bs, chars_hex bs, hda⟩]
      rfl
    | false =>
      refine ⟨.bytes bs, by simp [hbs], ?_⟩
      simp only [Bool.false_eq_true, if_false]
      rw [visit_fit (by simp [fits, h])]
      simp only [canon, hda, ofExcept]
  refine ⟨h1, ?_, ?_⟩
  · intro o ho
    cases o with
    | none => exact ⟨.none, rfl, deOption_none F _⟩
    | some a =>
      obtain ⟨v, hv, hdv⟩ := h1 a (ho a rfl)
      refine ⟨.some v, by simp [serConsensusOpt, hv], deOption_some F _ v a hdv⟩
  · intro l hl
    have : ∃ vs, (l.map enc).mapM (serConsensus F e n) = some vs ∧ readAll (deConsensus d F) vs = .ok l := by
      induction l with
      | nil => exact ⟨[], rfl, rfl⟩
      | cons a l ih =>
        obtain ⟨vs, h2, h3⟩ := ih fun b hb => hl b (by simp [hb])
        obtain ⟨v, h4, h5⟩ := h1 a (hl a (by simp))
        exact ⟨v :: vs, by simp [h2, h4], by simp [readAll, h5, h3]⟩
    obtain ⟨vs, h2, h3⟩ := this
    refine ⟨.seq vs, by simp [serConsensusVec, h2], ?_⟩
    unfold deConsensusVec deVec
    rw [visit_fit rfl]
    exact h3

/-- In particular a transaction. -/
theorem C91_consensus_tx (F : Fmt) (tx : Tx) (h : Decodable tx) :
    ∃ n v, serConsensus F txEnc n tx.encoder = some v ∧ deConsensus txDec F v = .ok tx := by
  obtain ⟨bs, ⟨n, hn⟩, hd, _⟩ := C08_roundtrip tx h
  refine ⟨n, ?_⟩
  exact (C91_consensus txDec txDec_isLawful txEnc Tx.encoder F (· = tx) n (by rintro a rfl; exact ⟨bs, hn, hd⟩)).1 tx rfl

/-- Only what decodes is read: a text is the hex digits, of either case, of the encoding of the value. -/
theorem C91_consensus_sound {α : Type} (d : Dec α) (hd : IsLawful d) (F : Fmt) (v : SVal) (a : α) (h : deConsensus d F v = .ok a) :
    ∃ bs, d.decodeSlice bs = .ok a ∧
      (F.human = true → ∃ s, deString F v = .ok s ∧ hexDecode (chars s) = some bs) ∧
      (F.human = false → ∃ l, F.visit .bytes v = some (.bytes l bs)) := by
  unfold deConsensus at h
  cases hh : F.human with
  | true =>
    rw [hh, if_pos rfl] at h
    split at h
    · cases h
    · rename_i s hs
      cases hx : d.decodeHex (chars s) with
      | error e => rw [hx] at h; cases h
      | ok b =>
        rw [hx] at h
        cases h
        obtain ⟨bs, h1, h2⟩ := (C04_hex hd 4096 (by omega) (chars s) a).mp hx
        exact ⟨bs, h2, fun _ => ⟨s, hs, h1⟩, by simp⟩
  | false =>
    rw [hh, if_neg (by simp)] at h
    split at h
    · rename_i l bs hv
      cases hx : d.decodeSlice bs with
      | error e => rw [hx] at h; cases h
      | ok b =>
        rw [hx] at h
        cases h
        exact ⟨bs, hx, by simp, fun _ => ⟨l, hv⟩⟩
    · cases h

/-! ### Instances -/

example : deHash true 2 (strict true true) (.str [48, 49, 65, 102]) = .ok ⟨[0xaf, 1], rfl⟩ :=
  ((C91_hash_exact true (strict true true) _ ⟨[0xaf, 1], rfl⟩).1 rfl).2 (by decide)
example : ∃ l : LockTime, (∃ n, LockTime.fromConsensus n = some l) ∧ l.toConsensus = 500000001 :=
  ⟨.seconds ⟨500000001⟩, ⟨500000001, by decide⟩, rfl⟩
example : deHeight (strict true true) (.uint 32 500000000) = .error .refused := by rfl
example : deHeight (strict true true) (.uint 32 499999999) = .ok ⟨499999999⟩ := by rfl
example : deWitnessVersion (strict false false) (.uint 8 17) = .error .refused := by rfl
example : ∃ w v, Wit.fromSlice [[1, 2, 3], []] = some w ∧ serWitness (strict true false) w = some v ∧ deWitness (strict true false) v = .ok w :=
  C91_witness _ _ (fun a x b h => by
    match a, h with
    | [], _ => decide
    | [y], h =>
      simp only [List.cons_append, List.nil_append, List.cons.injEq] at h
      rw [← h.1]; decide
    | _ :: _ :: _, h => simp at h) (by decide)
/-- A format as in `C91_outpoint_map_partial`. -/
def selfDescribing : Fmt where
  human := false
  structAsMap := true
  posAsUint := true
  sized := true
  lends := true
  other h v :=
    match h, v with
    | .tuple n, .seq vs => if vs.length = n then some (.seq (some n) vs) else none
    | .struct _, .struct fs => some (.map fs)
    | _, _ => none
example (o : OutPoint) : deOutPoint selfDescribing (serOutPoint selfDescribing o) = .ok o :=
  C91_outpoint_map_partial _ o rfl rfl fun n vs h => by simp [selfDescribing, h]
/-- A format as in `C91_outpoint_fixed_partial`. -/
def fixedWidth : Fmt where
  human := false
  structAsMap := false
  posAsUint := false
  sized := true
  lends := true
  other h v :=
    match h, v with
    | .bytes, .seq vs => some (.bytes true (rawBytes vs))
    | .uint 32, .tuple vs => some (.uint (leNat (rawBytes vs)))
    | _, _ => none
theorem rawBytes_ser (b : Bytes) : rawBytes (serU8s b) = b := by
  induction b with
  | nil => rfl
  | cons x b ih => simp only [serU8s, List.map_cons, rawBytes] at ih ⊢; simp [ih]
example (o : OutPoint) : deOutPoint fixedWidth (serOutPoint fixedWidth o) = .ok o :=
  C91_outpoint_fixed_partial _ o rfl rfl (fun b => by simp [fixedWidth, rawBytes_ser]) (fun b _ => by simp [fixedWidth, rawBytes_ser])
/-- The fields in the other order are accepted, a field given twice is not. -/
example : deOutPoint selfDescribing (.struct [(voutField, .tuple (serU8s [1, 0, 0, 0])), (txidField, .seq (serU8s (List.replicate 32 7)))]) =
      .ok ⟨⟨List.replicate 32 7, rfl⟩, 1⟩ ∧
    ∀ o, deOutPoint selfDescribing (.struct [(txidField, .seq (serU8s (List.replicate 32 7))), (txidField, .seq (serU8s (List.replicate 32 7))),
      (voutField, .tuple (serU8s [1, 0, 0, 0]))]) ≠ .ok o :=
  ⟨by rfl, fun o h => by
    obtain ⟨a, b, c, hf, -⟩ := (C91_outpoint_fields selfDescribing _ _ o rfl rfl).mp h
    rcases hf with hf | hf <;> simp at hf⟩
example (o : OutPoint) : deOutPoint (strict false true) (serOutPoint (strict false true) o) = .error .refused :=
  C91_outpoint_refuted _ o rfl fun _ _ => rfl
example : ∃ n v, serConsensus (strict true true) txEnc n sampleTx.encoder = some v ∧ deConsensus txDec (strict true true) v = .ok sampleTx :=
  C91_consensus_tx _ _ sampleTx_decodable

end Btc.Serde
