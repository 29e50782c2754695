import Verif.Debug.Debug
import Verif.Props.C49
import Verif.Props.C72
import Verif.Props.C75
import Verif.Props.C117
/-!
# C127: what is printed for debugging shows of secrets only fingerprints, and tells public values apart
-/
namespace Btc
namespace Dbg
open LockErr (bytes)

/-! ### Texts that end where they end -/

/-- Decimal and lower case hexadecimal digits. -/
def Word (c : UInt8) : Prop := (48 ≤ c ∧ c ≤ 57) ∨ (97 ≤ c ∧ c ≤ 102)
instance (c : UInt8) : Decidable (Word c) := by unfold Word; infer_instance
/-- A continuation that does not go on with a digit. -/
def Stop (x : Bytes) : Prop := ∃ c t, x = c :: t ∧ ¬ Word c
/-- Two texts that, followed by anything but a digit, agree only if `P`, and then end at the same place. -/
def Sp (t u : Bytes) (P : Prop) : Prop := ∀ x y, Stop x → Stop y → t ++ x = u ++ y → P ∧ x = y

theorem Sp.eq {t u : Bytes} {P : Prop} (h : Sp t u P) (e : t = u) : P :=
  (h [10] [10] ⟨10, [], rfl, by decide⟩ ⟨10, [], rfl, by decide⟩ (by rw [e])).1

/-- Two runs of characters of one class, each followed by another character. -/
theorem run_split (W : UInt8 → Prop) : ∀ (a b x y : Bytes), (∀ c ∈ a, W c) → (∀ c ∈ b, W c) → (∃ c t, x = c :: t ∧ ¬ W c) →
    (∃ c t, y = c :: t ∧ ¬ W c) → a ++ x = b ++ y → a = b ∧ x = y
  | [], [], _, _, _, _, _, _, h => ⟨rfl, h⟩
  | [], b :: bs, x, y, _, hb, ⟨c, t, hx, hc⟩, _, h => by
    rw [hx] at h
    simp only [List.nil_append, List.cons_append, List.cons.injEq] at h
    exact absurd (h.1 ▸ hb b (by simp)) hc
  | a :: as, [], x, y, ha, _, _, ⟨c, t, hy, hc⟩, h => by
    rw [hy] at h
    simp only [List.nil_append, List.cons_append, List.cons.injEq] at h
    exact absurd (h.1 ▸ ha a (by simp)) hc
  | a :: as, b :: bs, x, y, ha, hb, hx, hy, h => by
    simp only [List.cons_append, List.cons.injEq] at h
    obtain ⟨h1, h2⟩ := run_split W as bs x y (fun c hc => ha c (by simp [hc])) (fun c hc => hb c (by simp [hc])) hx hy h.2
    exact ⟨by rw [h.1, h1], h2⟩

theorem digits_word : ∀ (ds : Bytes) (acc n : Nat), digitsVal 10 acc ds = some n → ∀ c ∈ ds, Word c
  | [], _, _, _, c, hc => by cases hc
  | d :: ds, acc, n, h, c, hc => by
    rw [digitsVal] at h
    split at h
    · cases h
    · rename_i x hx
      rcases List.mem_cons.1 hc with rfl | hc
      · have key : ∀ c : UInt8, (digitVal 10 c).isSome = true → Word c := by
          set_option maxRecDepth 8000 in
          exact Scr.forall_u8 (by decide +kernel)
        exact key c (by rw [hx]; rfl)
      · exact digits_word ds _ _ h c hc

theorem dec_val (n : Nat) : digitsVal 10 0 (dec n) = some n := by
  show digitsVal 10 0 (bytes (String.ofList (Nat.toDigits 10 n))) = _
  rw [LockErr.bytes_ofList, LockErr.digitsVal_chars _ _ fun c hc => Nat.isDigit_of_mem_toDigits (by omega) (by omega) hc,
    Nat.ofDigitChars_ten_toDigits]

theorem dec_ne (n : Nat) : dec n ≠ [] := by
  obtain ⟨ds, k, h1, h2, (⟨h | h, _⟩ | ⟨h, _⟩)⟩ := LockErr.denotes_repr n
  · show bytes (toString n) ≠ []; rw [h]; exact h1
  · show bytes (toString n) ≠ []; rw [h]; simp
  · show bytes (toString n) ≠ []; rw [h]; simp

theorem dec_inj {n m : Nat} (h : dec n = dec m) : n = m := by
  have h1 := dec_val n
  rw [h, dec_val m] at h1
  exact (Option.some.inj h1).symm

theorem sp_dec (n m : Nat) : Sp (dec n) (dec m) (n = m) := fun x y hx hy h => by
  obtain ⟨h1, h2⟩ := run_split Word _ _ x y (digits_word _ _ _ (dec_val n)) (digits_word _ _ _ (dec_val m)) hx hy h
  exact ⟨dec_inj h1, h2⟩

theorem hex_inj {a b : Bytes} (h : hexBytes a = hexBytes b) : a = b := by
  have := congrArg unhex h
  rw [unhex_hexBytes, unhex_hexBytes] at this
  exact Option.some.inj this

theorem hex_word (a : Bytes) : ∀ c ∈ hexBytes a, Word c := by
  intro c hc
  simp only [hexBytes, List.mem_flatMap, List.mem_cons, List.not_mem_nil, or_false] at hc
  have key : ∀ n : Fin 16, Word (hexDigit n.val) := by decide +kernel
  obtain ⟨b, _, rfl | rfl⟩ := hc
  · have := b.toNat_lt
    exact key ⟨b.toNat / 16, by omega⟩
  · exact key ⟨b.toNat % 16, by omega⟩

theorem sp_hex (a b : Bytes) : Sp (hexBytes a) (hexBytes b) (a = b) := fun x y hx hy h => by
  obtain ⟨h1, h2⟩ := run_split Word _ _ x y (hex_word a) (hex_word b) hx hy h
  exact ⟨hex_inj h1, h2⟩

theorem sp_len {t u : Bytes} (h : t.length = u.length) : Sp t u (t = u) := fun _ _ _ _ e => List.append_inj e h

theorem Sp.lit {t u : Bytes} {P : Prop} (l : Bytes) (h : Sp t u P) : Sp (l ++ t) (l ++ u) P := fun x y hx hy e => by
  rw [List.append_assoc, List.append_assoc] at e
  exact h x y hx hy (List.append_cancel_left e)

theorem Sp.app {t u r s : Bytes} {P Q : Prop} (h : Sp t u P) (hr : Stop r) (hs : Stop s) (k : Sp r s Q) : Sp (t ++ r) (u ++ s) (P ∧ Q) :=
  fun x y hx hy e => by
    have st : ∀ {r x : Bytes}, Stop r → Stop (r ++ x) := by
      rintro r x ⟨c, t, rfl, h2⟩
      exact ⟨c, t ++ x, rfl, h2⟩
    rw [List.append_assoc, List.append_assoc] at e
    obtain ⟨hp, e⟩ := h _ _ (st hr) (st hs) e
    obtain ⟨hq, e⟩ := k x y hx hy e
    exact ⟨⟨hp, hq⟩, e⟩

theorem Sp.field {t u : Bytes} {P : Prop} (n : String) (h : Sp t u P) : Sp (field n t) (field n u) P := h.lit _

theorem comma : bytes ", " = [44, 32] := by decide +kernel

theorem more_stop {c : Bytes} (hc : Stop c) : ∀ ts, Stop (more c ts)
  | [] => hc
  | t :: ts => ⟨44, _, by rw [more, comma]; rfl, by decide⟩

theorem sp_close (c : Bytes) : Sp (more c []) (more c []) True := fun _ _ _ _ e => ⟨trivial, List.append_cancel_left e⟩

theorem Sp.more {c t u : Bytes} {ts us : List Bytes} {P Q : Prop} (hc : Stop c) (h : Sp t u P) (k : Sp (more c ts) (more c us) Q) :
    Sp (more c (t :: ts)) (more c (u :: us)) (P ∧ Q) := by
  show Sp (bytes ", " ++ t ++ Dbg.more c ts) (bytes ", " ++ u ++ Dbg.more c us) (P ∧ Q)
  rw [List.append_assoc, List.append_assoc]
  exact (h.app (more_stop hc _) (more_stop hc _) k).lit _

theorem stop_brace : Stop (bytes " }") := ⟨32, [125], by decide +kernel, by decide⟩
theorem stop_paren : Stop (bytes ")") := ⟨41, [], by decide +kernel, by decide⟩
theorem stop_bracket : Stop (bytes "]") := ⟨93, [], by decide +kernel, by decide⟩

theorem Sp.struct {t u : Bytes} {ts us : List Bytes} {P Q : Prop} (n : String) (h : Sp t u P)
    (k : Sp (Dbg.more (bytes " }") ts) (Dbg.more (bytes " }") us) Q) : Sp (struct n (t :: ts)) (struct n (u :: us)) (P ∧ Q) := by
  show Sp (bytes n ++ bytes " { " ++ t ++ Dbg.more _ ts) (bytes n ++ bytes " { " ++ u ++ Dbg.more _ us) _
  rw [List.append_assoc, List.append_assoc (bytes n ++ bytes " { ")]
  exact (h.app (more_stop stop_brace _) (more_stop stop_brace _) k).lit _

/-- Fields of the rest, to the closing brace. -/
theorem Sp.more' {t u : Bytes} {ts us : List Bytes} {P Q : Prop} (h : Sp t u P)
    (k : Sp (Dbg.more (bytes " }") ts) (Dbg.more (bytes " }") us) Q) :
    Sp (Dbg.more (bytes " }") (t :: ts)) (Dbg.more (bytes " }") (u :: us)) (P ∧ Q) := h.more stop_brace k

theorem Sp.tuple1 {t u : Bytes} {P : Prop} (n : String) (h : Sp t u P) : Sp (tuple false n [t]) (tuple false n [u]) P := by
  show Sp (bytes n ++ bytes "(" ++ t ++ Dbg.more (bytes ")") []) (bytes n ++ bytes "(" ++ u ++ Dbg.more (bytes ")") []) _
  rw [List.append_assoc, List.append_assoc (bytes n ++ bytes "(")]
  intro x y hx hy e
  have := ((h.app (more_stop stop_paren _) (more_stop stop_paren _) (sp_close _)).lit (bytes n ++ bytes "(")) x y hx hy e
  exact ⟨this.1.1, this.2⟩

theorem sp_items {α : Type} (T : α → Bytes) (hT : ∀ a b, Sp (T a) (T b) (a = b)) : ∀ l k : List α,
    Sp (more (bytes "]") (l.map T)) (more (bytes "]") (k.map T)) (l = k)
  | [], [] => fun x y hx hy e => ⟨rfl, (sp_close _ x y hx hy e).2⟩
  | [], b :: k => fun x y hx hy e => by
    simp only [List.map_nil, List.map_cons, more, comma] at e
    have : bytes "]" = [93] := by decide +kernel
    rw [this] at e
    simp at e
  | a :: l, [] => fun x y hx hy e => by
    simp only [List.map_nil, List.map_cons, more, comma] at e
    have : bytes "]" = [93] := by decide +kernel
    rw [this] at e
    simp at e
  | a :: l, b :: k => fun x y hx hy e => by
    obtain ⟨⟨h1, h2⟩, h3⟩ := (hT a b).more stop_bracket (sp_items T hT l k) x y hx hy e
    exact ⟨by rw [h1, h2], h3⟩

theorem sp_cons {α : Type} (T : α → Bytes) (hT : ∀ a b, Sp (T a) (T b) (a = b)) (a b : α) (l k : List α) :
    Sp (list ((a :: l).map T)) (list ((b :: k).map T)) (a :: l = b :: k) := by
  show Sp (bytes "[" ++ T a ++ Dbg.more _ (l.map T)) (bytes "[" ++ T b ++ Dbg.more _ (k.map T)) _
  rw [List.append_assoc, List.append_assoc (bytes "[")]
  intro x y hx hy e
  obtain ⟨⟨h1, h2⟩, h3⟩ := (((hT a b).app (more_stop stop_bracket _) (more_stop stop_bracket _) (sp_items T hT l k)).lit (bytes "[")) x y hx hy e
  exact ⟨by rw [h1, h2], h3⟩

/-- Lists of numbers. -/
theorem sp_nums : ∀ l k : List Nat, Sp (list (l.map dec)) (list (k.map dec)) (l = k)
  | [], [] => fun x y _ _ e => ⟨rfl, List.append_cancel_left e⟩
  | a :: l, b :: k => sp_cons dec sp_dec a b l k
  | [], b :: k => fun x y _ _ e => (nums_nil b k x y e).elim
  | a :: l, [] => fun x y _ _ e => (nums_nil a l y x e.symm).elim
where
  nums_nil (b : Nat) (k : List Nat) (x y : Bytes) (e : list ([].map dec) ++ x = list ((b :: k).map dec) ++ y) : False := by
    have e1 : bytes "[]" = [91, 93] := by decide +kernel
    have e2 : bytes "[" = [91] := by decide +kernel
    simp only [List.map_nil, List.map_cons, list] at e
    rw [e1, e2] at e
    cases hd : dec b with
    | nil => exact dec_ne b hd
    | cons c ds =>
      rw [hd] at e
      simp only [List.cons_append, List.nil_append, List.cons.injEq, true_and] at e
      have := digits_word _ _ _ (dec_val b) c (by rw [hd]; simp)
      rw [← e.1] at this
      exact absurd this (by decide)

/-- Lists of byte strings, of one length. -/
theorem sp_hexes : ∀ l k : List Bytes, l.length = k.length → Sp (list (l.map hexBytes)) (list (k.map hexBytes)) (l = k)
  | [], [], _ => fun x y _ _ e => ⟨rfl, List.append_cancel_left e⟩
  | a :: l, b :: k, _ => sp_cons hexBytes sp_hex a b l k
  | [], _ :: _, h => by cases h
  | _ :: _, [], h => by cases h

/-! ## Secrets -/

theorem sha_eq (m : Bytes) (h : m.length < 2 ^ 61) : Sha2.sha256 m = Fips.sha256 m := by
  have := Hashes.sha256_computes [m] (by simpa using h)
  simp only [List.foldl_cons, List.foldl_nil, List.flatten_cons, List.flatten_nil, List.append_nil] at this
  exact this

theorem take_inj4 {a b : Bytes} {k : Nat} (p s : Bytes) (h : p ++ hexBytes (a.take k) ++ s = p ++ hexBytes (b.take k) ++ s) :
    a.take k = b.take k := hex_inj (List.append_cancel_left (List.append_cancel_right h))

/-- A seed is shown as the first four bytes of its SHA-256, so two seeds print the same exactly if these agree. -/
theorem C127_seed (s t : Bip32.Seed) : seed s = bytes "Bip32Seed(sha256=" ++ hexBytes ((Fips.sha256 s.1).take 4) ++ bytes ")" ∧
    (seed s = seed t ↔ (Fips.sha256 s.1).take 4 = (Fips.sha256 t.1).take 4) := by
  have key : ∀ s : Bip32.Seed, seed s = bytes "Bip32Seed(sha256=" ++ hexBytes ((Fips.sha256 s.1).take 4) ++ bytes ")" := by
    intro s
    have hs := s.2.2
    have hl : ((Fips.sha256 s.1).take 4).length = 4 := by rw [List.length_take, Hashes.fips_sha256_length]; rfl
    unfold seed
    simp only [LockErr.hex8_bytes, sha_eq s.1 (by omega)]
    generalize (Fips.sha256 s.1).take 4 = q at hl
    have hlt : beNat q < 2 ^ 32 := by
      unfold beNat
      have := leNat_lt q.reverse
      rw [List.length_reverse, hl] at this
      omega
    rw [UInt32.toNat_ofNat_of_lt' hlt]
    unfold beNat
    rw [leBytes_leNat' 4 _ (by simp [hl]), List.reverse_reverse]
  refine ⟨key s, ?_⟩
  rw [key s, key t]
  exact ⟨take_inj4 _ _, fun h => by rw [h]⟩

example : seed ⟨List.replicate 16 0, by decide⟩ = bytes "Bip32Seed(sha256=374708ff)" := by decide +kernel

example : (Hashes.HmacEng.new Hashes.sha256Alg [1, 2, 3]).isSome = true := by decide +kernel

theorem hkdfTag_eq : hkdfTag = bytes "bitcoin_hashes1DEBUG" := by decide +kernel

/-- The secret of HKDF is shown as eight bytes of a tagged hash, in both styles. -/
theorem C127_hkdf (alt : Bool) (p q : Bytes) (hp : p.length ≤ 64) (hq : q.length ≤ 64) :
    hkdf alt p = (let id := (Fips.sha256 (Fips.sha256 (bytes "bitcoin_hashes1DEBUG") ++ Fips.sha256 (bytes "bitcoin_hashes1DEBUG") ++ p)).take 8
      if alt then bytes "Hkdf(\n    #" ++ hexBytes id ++ bytes ",\n)" else bytes "Hkdf(#" ++ hexBytes id ++ bytes ")") ∧
    (hkdf alt p = hkdf alt q ↔
      (Fips.sha256 (Fips.sha256 (bytes "bitcoin_hashes1DEBUG") ++ Fips.sha256 (bytes "bitcoin_hashes1DEBUG") ++ p)).take 8 =
      (Fips.sha256 (Fips.sha256 (bytes "bitcoin_hashes1DEBUG") ++ Fips.sha256 (bytes "bitcoin_hashes1DEBUG") ++ q)).take 8) := by
  have hpad : ∀ b : Bytes, pad (hexBytes b) = hexBytes b := by
    intro b
    have : ∀ l : Bytes, (∀ c ∈ l, Word c) → pad l = l := by
      intro l
      induction l with
      | nil => intro _; rfl
      | cons c l ih =>
        intro h
        have hc : c ≠ 10 := fun e => absurd (e ▸ h c (by simp)) (by decide)
        rw [pad, if_neg hc, ih fun d hd => h d (by simp [hd])]
    exact this _ (hex_word b)
  have key : ∀ p : Bytes, p.length ≤ 64 → hkdf alt p =
      (let id := (Fips.sha256 (Fips.sha256 (bytes "bitcoin_hashes1DEBUG") ++ Fips.sha256 (bytes "bitcoin_hashes1DEBUG") ++ p)).take 8
      if alt then bytes "Hkdf(\n    #" ++ hexBytes id ++ bytes ",\n)" else bytes "Hkdf(#" ++ hexBytes id ++ bytes ")") := by
    intro p hp
    have h := (Hashes.C49_tagged hkdfTag (by decide) [p] (by simp; omega)).1
    simp only [List.foldl_cons, List.foldl_nil, List.flatten_cons, List.flatten_nil, List.append_nil] at h
    unfold hkdf
    simp only []
    rw [h, ← hkdfTag_eq]
    generalize List.take 8 _ = id
    have e1 : bytes "#" = [35] := by decide +kernel
    cases alt
    · have e2 : bytes "Hkdf(#" = bytes "Hkdf" ++ bytes "(" ++ bytes "#" := by decide +kernel
      show bytes "Hkdf" ++ bytes "(" ++ (bytes "#" ++ hexBytes id) ++ bytes ")" = _
      rw [if_neg (by decide), e2]
      simp only [List.append_assoc]
    · have e2 : bytes "Hkdf(\n    #" = bytes "Hkdf" ++ bytes "(\n" ++ bytes "    " ++ [35] := by decide +kernel
      have e3 : bytes ",\n)" = bytes ",\n" ++ bytes ")" := by decide +kernel
      show bytes "Hkdf" ++ bytes "(\n" ++ (bytes "    " ++ pad (bytes "#" ++ hexBytes id) ++ bytes ",\n" ++ []) ++ bytes ")" = _
      have e4 : pad (bytes "#" ++ hexBytes id) = [35] ++ hexBytes id := by
        rw [e1, List.singleton_append, pad, if_neg (by decide), hpad]
      rw [if_pos rfl, e2, e3, e4]
      simp only [List.append_assoc, List.append_nil]
  refine ⟨key p hp, ?_⟩
  rw [key p hp, key q hq]
  constructor
  · intro h
    cases alt
    · exact take_inj4 _ _ h
    · exact take_inj4 _ _ h
  · intro h; simp only [h]

theorem sp_kind (a b : Crypto.NetworkKind) : Sp (bytes (kind a)) (bytes (kind b)) (a = b) := fun x y hx hy e => by
  have hl : (bytes (kind a)).length = (bytes (kind b)).length := by cases a <;> cases b <;> decide +kernel
  obtain ⟨h1, h2⟩ := List.append_inj e hl
  refine ⟨?_, h2⟩
  cases a <;> cases b
  · rfl
  · exact absurd h1 (by decide +kernel)
  · exact absurd h1 (by decide +kernel)
  · rfl

/-- Without `std` an extended private key is shown without its private key: two of them print the same exactly if all the other fields agree. -/
theorem C127_xpriv (x y : Bip32.Xpriv) : xprivNoStd x = xprivNoStd y ↔
    x.network = y.network ∧ x.depth = y.depth ∧ x.parentFingerprint = y.parentFingerprint ∧ x.childNumber = y.childNumber ∧
      x.chainCode = y.chainCode := by
  constructor
  · intro h
    have := (Sp.struct "Xpriv" ((sp_kind x.network y.network).field "network") <|
      Sp.more' ((sp_dec x.depth.toNat y.depth.toNat).field "depth") <|
      Sp.more' ((sp_hex x.parentFingerprint.1 y.parentFingerprint.1).field "parent_fingerprint") <|
      Sp.more' (((sp_dec x.childNumber.raw.toNat y.childNumber.raw.toNat).tuple1 "ChildNumber").field "child_number") <|
      Sp.more' ((sp_hex x.chainCode.1 y.chainCode.1).field "chain_code") <|
      Sp.more' ((sp_len (t := bytes "\"[SecretKey]\"") rfl).field "private_key") (sp_close _)).eq h
    obtain ⟨h1, h2, h3, h4, h5, -⟩ := this
    refine ⟨h1, UInt8.toNat_inj.1 h2, Subtype.ext h3, ?_, Subtype.ext h5⟩
    have := UInt32.toNat_inj.1 h4
    cases hx : x.childNumber; cases hy : y.childNumber
    rw [hx, hy] at this
    exact congrArg _ this
  · rintro ⟨h1, h2, h3, h4, h5⟩
    unfold xprivNoStd
    rw [h1, h2, h3, h4, h5]

/-- Two keys that differ only in the secret. -/
example : xprivNoStd Bip32.xpriv1 = xprivNoStd { Bip32.xpriv1 with privateKey := ⟨⟨List.replicate 32 7, by decide⟩, by decide +kernel, by decide +kernel⟩ } := by decide +kernel
example : xprivNoStd Bip32.xpriv1 ≠ xprivNoStd { Bip32.xpriv1 with depth := 4 } := by decide +kernel

/-- With `std` the private key is shown as the library behind it shows it, `key`, and in no other way. -/
theorem C127_xpriv_std (key : Crypto.SecretKey → Bytes) (n : Nat) (hk : ∀ k, (key k).length = n) (x y : Bip32.Xpriv) :
    xprivStd key x = xprivStd key y ↔
    x.network = y.network ∧ x.depth = y.depth ∧ x.parentFingerprint = y.parentFingerprint ∧ x.childNumber = y.childNumber ∧
      x.chainCode = y.chainCode ∧ key x.privateKey = key y.privateKey := by
  constructor
  · intro h
    have := (Sp.struct "Xpriv" ((sp_kind x.network y.network).field "network") <|
      Sp.more' ((sp_dec x.depth.toNat y.depth.toNat).field "depth") <|
      Sp.more' ((sp_hex x.parentFingerprint.1 y.parentFingerprint.1).field "parent_fingerprint") <|
      Sp.more' (((sp_dec x.childNumber.raw.toNat y.childNumber.raw.toNat).tuple1 "ChildNumber").field "child_number") <|
      Sp.more' ((sp_len (t := key x.privateKey) (u := key y.privateKey) (by rw [hk, hk])).field "private_key") <|
      Sp.more' ((sp_hex x.chainCode.1 y.chainCode.1).field "chain_code") (sp_close _)).eq h
    obtain ⟨h1, h2, h3, h4, h6, h5, -⟩ := this
    refine ⟨h1, UInt8.toNat_inj.1 h2, Subtype.ext h3, ?_, Subtype.ext h5, h6⟩
    have := UInt32.toNat_inj.1 h4
    cases hx : x.childNumber; cases hy : y.childNumber
    rw [hx, hy] at this
    exact congrArg _ this
  · rintro ⟨h1, h2, h3, h4, h5, h6⟩
    unfold xprivStd
    rw [h1, h2, h3, h4, h5, h6]

/-! ## Keyed engines -/

theorem sp_engine (e d : Sha2.Engine256) : Sp (engine256 e) (engine256 d) (e = d) := fun x y hx hy h => by
  have hb : ∀ l : Bytes, l.map (fun b => dec b.toNat) = (l.map UInt8.toNat).map dec := fun l => by rw [List.map_map]; rfl
  have hw : ∀ l : List (BitVec 32), l.map (fun w => dec w.toNat) = (l.map BitVec.toNat).map dec := fun l => by rw [List.map_map]; rfl
  unfold engine256 at h
  rw [hb, hb, hw, hw] at h
  obtain ⟨⟨h1, h2, h3, -⟩, h4⟩ := (Sp.struct "HashEngine" ((sp_nums _ _).field "buffer") <| Sp.more' ((sp_nums _ _).field "h") <|
    Sp.more' ((sp_dec e.bytesHashed d.bytesHashed).field "bytes_hashed") (sp_close _)) x y hx hy h
  refine ⟨?_, h4⟩
  have h1 := (List.map_inj_right fun a b h => UInt8.toNat_inj.1 h).1 h1
  have h2 := (List.map_inj_right fun a b h => BitVec.eq_of_toNat_eq h).1 h2
  cases e with | mk b s n => cases d with | mk b' s' n' =>
  cases s; cases s'
  simp only [List.cons.injEq, and_true] at h2
  simp only [] at h1 h3
  obtain ⟨g1, g2, g3, g4, g5, g6, g7, g8⟩ := h2
  rw [h1, h3, g1, g2, g3, g4, g5, g6, g7, g8]

/-- FALSE: that the text of a keyed engine shows only a fingerprint.  The text of an HMAC-SHA256 engine made from any key is enough to compute the code of
any message under that key: there is one function that does it. -/
theorem C127_hmac_fails : ∃ f : Bytes → Bytes → Bytes, ∀ (key msg : Bytes), key.length < 2 ^ 61 → 64 + msg.length < 2 ^ 61 →
    ∃ e, Hashes.HmacEng.new Hashes.sha256Alg key = some e ∧ f (hmac256 e) msg = Hashes.hmac Fips.sha256 64 key msg := by
  classical
  refine ⟨fun t msg => if h : ∃ e, hmac256 e = t then ((Classical.choose h).input msg).finish else [], fun key msg hk hm => ?_⟩
  obtain ⟨e, he, hf⟩ := Hashes.C49_hmac_sha256 key hk [msg] (by simpa using hm)
  refine ⟨e, he, ?_⟩
  have hx : ∃ d, hmac256 d = hmac256 e := ⟨e, rfl⟩
  simp only [dif_pos hx]
  have hc := Classical.choose_spec hx
  obtain ⟨h1, h2, -⟩ := (Sp.struct "HmacEngine" ((sp_engine _ _).field "iengine") <| Sp.more' ((sp_engine _ _).field "oengine") (sp_close _)).eq hc
  have : Classical.choose hx = e := by
    generalize Classical.choose hx = d at h1 h2
    cases d; cases e
    simp only [] at h1 h2
    rw [h1, h2]
  rw [this]
  simpa using hf

/-- FALSE for SipHash, too: the text of an engine shows its key. -/
theorem C127_siphash_fails : ∃ f : Bytes → BitVec 64 × BitVec 64, ∀ e : Hashes.Sip.Engine, f (sip e) = (e.k0, e.k1) := by
  classical
  refine ⟨fun t => if h : ∃ e, sip e = t then ((Classical.choose h).k0, (Classical.choose h).k1) else (0, 0), fun e => ?_⟩
  have hx : ∃ d, sip d = sip e := ⟨e, rfl⟩
  simp only [dif_pos hx]
  have hc := Classical.choose_spec hx
  generalize Classical.choose hx = d at hc
  obtain ⟨h1, h2, -⟩ := (Sp.struct "HashEngine" ((sp_dec _ _).field "k0") <| Sp.more' ((sp_dec _ _).field "k1") <|
    Sp.more' ((sp_dec _ _).field "bytes_hashed") <|
    Sp.more' ((Sp.struct "State" ((sp_dec _ _).field "v0") <| Sp.more' ((sp_dec _ _).field "v2") <| Sp.more' ((sp_dec _ _).field "v1") <|
      Sp.more' ((sp_dec _ _).field "v3") (sp_close _)).field "state") <|
    Sp.more' ((sp_dec _ _).field "tail") <| Sp.more' ((sp_dec _ _).field "ntail") (sp_close _)).eq hc
  rw [BitVec.eq_of_toNat_eq h1, BitVec.eq_of_toNat_eq h2]

/-! ## Public values -/

/-- Amounts, signed amounts, sequence numbers, lock times and witnesses are told apart by their texts. -/
theorem C127_public : (∀ n m, amount n = amount m → n = m) ∧ (∀ z w, signedAmount z = signedAmount w → z = w) ∧
    (∀ s t, sequence s = sequence t → s = t) ∧ (∀ a b, lockTime a = lockTime b → a = b) ∧ (∀ l k, witness l = witness k → l = k) := by
  have sat : Stop (bytes " SAT)") := ⟨32, [83, 65, 84, 41], by decide +kernel, by decide⟩
  refine ⟨fun n m h => ?_, fun z w h => ?_, fun s t h => ?_, fun a b h => ?_, fun l k h => ?_⟩
  · exact dec_inj (List.append_cancel_left (List.append_cancel_right h))
  · have h := List.append_cancel_left (List.append_cancel_right h)
    have hm : ∀ n k : Nat, 45 :: dec n = dec k → False := fun n k e => by
      have := digits_word _ _ _ (dec_val k) 45 (by rw [← e]; simp)
      exact absurd this (by decide)
    split at h <;> split at h
    · have := dec_inj (List.cons.inj h).2
      omega
    · exact (hm _ _ h).elim
    · exact (hm _ _ h.symm).elim
    · have := dec_inj h
      omega
  · have h := List.append_cancel_left (List.append_cancel_right h)
    rw [LockErr.hex8_bytes, LockErr.hex8_bytes] at h
    have h := List.reverse_inj.1 (hex_inj h)
    have h1 := s.n.toNat_lt; have h2 := t.n.toNat_lt
    have := congrArg leNat h
    rw [leNat_leBytes 4 _ (by omega), leNat_leBytes 4 _ (by omega)] at this
    cases s; cases t
    exact congrArg _ (UInt32.toNat_inj.1 this)
  · have sb : Stop (bytes " blocks") := ⟨32, [98, 108, 111, 99, 107, 115], by decide +kernel, by decide⟩
    have ss : Stop (bytes " seconds") := ⟨32, [115, 101, 99, 111, 110, 100, 115], by decide +kernel, by decide⟩
    match a, b with
    | .blocks ⟨n⟩, .blocks ⟨m⟩ => cases UInt32.toNat_inj.1 (sp_dec n.toNat m.toNat _ _ sb sb h).1; rfl
    | .seconds ⟨n⟩, .seconds ⟨m⟩ => cases UInt32.toNat_inj.1 (sp_dec n.toNat m.toNat _ _ ss ss h).1; rfl
    | .blocks ⟨n⟩, .seconds ⟨m⟩ => exact absurd (sp_dec _ _ _ _ sb ss h).2 (by decide +kernel)
    | .seconds ⟨n⟩, .blocks ⟨m⟩ => exact absurd (sp_dec _ _ _ _ ss sb h).2 (by decide +kernel)
  · have e : bytes "Witness" ++ bytes " { " ++ field "num_elements" (dec l.length) ++
        (bytes ", " ++ field "total_bytes" (dec (l.map List.length).sum) ++ more (bytes " }") [field "elements" (list (l.map hexBytes))]) =
      bytes "Witness" ++ bytes " { " ++ field "num_elements" (dec k.length) ++
        (bytes ", " ++ field "total_bytes" (dec (k.map List.length).sum) ++ more (bytes " }") [field "elements" (list (k.map hexBytes))]) := h
    have sc : ∀ x : Bytes, Stop (bytes ", " ++ x) := fun x => ⟨44, 32 :: x, by rw [comma]; rfl, by decide⟩
    rw [List.append_assoc, List.append_assoc (bytes "Witness" ++ bytes " { ")] at e
    have hn := ((sp_dec l.length k.length).field "num_elements") _ _ (by rw [List.append_assoc]; exact sc _) (by rw [List.append_assoc]; exact sc _)
      (List.append_cancel_left e)
    exact ((Sp.struct "Witness" ((sp_dec _ _).field "num_elements") <| Sp.more' ((sp_dec _ _).field "total_bytes") <|
      Sp.more' ((sp_hexes l k hn.1).field "elements") (sp_close _)).eq h).2.2.1

example : witness [[], [1, 255]] = bytes "Witness { num_elements: 2, total_bytes: 2, elements: [, 01ff] }" := by decide +kernel
example : lockTime (.blocks ⟨5⟩) = bytes "5 blocks" ∧ sequence ⟨16⟩ = bytes "Sequence(0x00000010)" ∧
    signedAmount (-7) = bytes "SignedAmount(-7 SAT)" := by decide +kernel

/-- Addresses are always shown, and told apart. -/
theorem C127_address (D : Bytes → Arr 32) (checked alt : Bool) (a b : Addr.Address) (ha : a.Valid) (hb : b.Valid) :
    (∃ t, address D checked alt a = some t) ∧ (address D checked alt a = address D checked alt b → a = b) := by
  obtain ⟨t, ht, pt⟩ := Addr.C75_round_trip D alt a ha
  obtain ⟨u, hu, pu⟩ := Addr.C75_round_trip D alt b hb
  unfold address
  rw [ht, hu]
  refine ⟨⟨_, rfl⟩, fun h => ?_⟩
  have h := Option.some.inj h
  have : t = u := by
    cases checked
    · exact List.append_cancel_left (List.append_cancel_right h)
    · exact h
  rw [this, pu] at pt
  injection pt with pt
  exact pt.symm

example : address Addr.sha256d true false (.p2pkh Addr.genesisHash .main) = some (bytes "1A1zP1eP5QGefi2DMPTfTL5SLmv7DivfNa") ∧
    address Addr.sha256d false false (.p2pkh Addr.genesisHash .main) =
      some (bytes "Address<NetworkUnchecked>(1A1zP1eP5QGefi2DMPTfTL5SLmv7DivfNa)") := by decide +kernel

/-- FALSE for network addresses: an IPv6 address that begins with 96 zero bits is shown as an IPv4 address, like the one embedded in `::ffff:0:0`; the
IPv6 loopback address `::1` is shown as the IPv4 address `0.0.0.1`. -/
theorem C127_net_address_fails (services : UInt64 → Bytes) (v4 : UInt16 × UInt16 → Bytes) (v6 : P2p.Segs → Bytes) (s : UInt64) (x y p : UInt16) :
    netAddr services v4 v6 ⟨s, ⟨[0, 0, 0, 0, 0, 0, x, y], rfl⟩, p⟩ = netAddr services v4 v6 ⟨s, ⟨[0, 0, 0, 0, 0, 0xffff, x, y], rfl⟩, p⟩ ∧
    (⟨[0, 0, 0, 0, 0, 0, x, y], rfl⟩ : P2p.Segs) ≠ ⟨[0, 0, 0, 0, 0, 0xffff, x, y], rfl⟩ := by
  refine ⟨rfl, fun h => ?_⟩
  have := congrArg Subtype.val h
  simp at this

/-- Texts as the next theorem supposes them. -/
def exServices (s : UInt64) : Bytes := dec s.toNat
def exV4 (q : UInt16 × UInt16) : Bytes := 46 :: dec (q.1.toNat * 65536 + q.2.toNat)
def exV6 (s : P2p.Segs) : Bytes := 58 :: dec (s.1.foldl (fun a w => a * 65536 + w.toNat) 0)
example : (∀ a b, exServices a = exServices b → a = b) ∧ (∀ a b, exV4 a = exV4 b → a = b) ∧ (∀ a b, exV6 a = exV6 b → a = b) ∧
    (∀ a b, exV4 a ≠ exV6 b) ∧ (∀ a, 44 ∉ exServices a) ∧ (∀ a, 44 ∉ exV4 a) ∧ (∀ a, 44 ∉ exV6 a) := by
  have nc : ∀ n, (44 : UInt8) ∉ dec n := fun n h => absurd (digits_word _ _ _ (dec_val n) 44 h) (by decide)
  refine ⟨fun a b h => UInt64.toNat_inj.1 (dec_inj h), fun a b h => ?_, fun a b h => ?_, fun a b h => (by cases (List.cons.inj h).1), fun a => nc _,
    fun a h => ?_, fun a h => ?_⟩
  · have := dec_inj (List.cons.inj h).2
    have h1 := a.2.toNat_lt; have h2 := b.2.toNat_lt
    exact Prod.ext (UInt16.toNat_inj.1 (by omega)) (UInt16.toNat_inj.1 (by omega))
  · have key : ∀ (l k : List UInt16) (u v : Nat), l.length = k.length →
        l.foldl (fun a w => a * 65536 + w.toNat) u = k.foldl (fun a w => a * 65536 + w.toNat) v → u = v ∧ l = k := by
      intro l
      induction l with
      | nil => intro k u v hl h; cases k with
        | nil => exact ⟨h, rfl⟩
        | cons _ _ => cases hl
      | cons c l ih => intro k u v hl h; cases k with
        | nil => cases hl
        | cons d k =>
          obtain ⟨g1, g2⟩ := ih k _ _ (Nat.succ.inj hl) h
          simp only [] at g1
          have h1 := c.toNat_lt; have h2 := d.toNat_lt
          exact ⟨by omega, by rw [g2, UInt16.toNat_inj.1 (by omega : c.toNat = d.toNat)]⟩
    exact Subtype.ext (key _ _ _ _ (by rw [a.2, b.2]) (dec_inj (List.cons.inj h).2)).2
  · rcases List.mem_cons.1 h with h | h
    · cases h
    · exact nc _ h
  · rcases List.mem_cons.1 h with h | h
    · cases h
    · exact nc _ h

/-- All other network addresses are told apart, if the texts of flags and addresses are without commas and tell them apart. -/
theorem C127_net_address_partial (services : UInt64 → Bytes) (v4 : UInt16 × UInt16 → Bytes) (v6 : P2p.Segs → Bytes)
    (hs : ∀ a b, services a = services b → a = b) (h4 : ∀ a b, v4 a = v4 b → a = b) (h6 : ∀ a b, v6 a = v6 b → a = b)
    (h46 : ∀ a b, v4 a ≠ v6 b) (cs : ∀ a, 44 ∉ services a) (c4 : ∀ a, 44 ∉ v4 a) (c6 : ∀ a, 44 ∉ v6 a) (a b : P2p.NetAddr)
    (ha : a.address.1.take 6 ≠ [0, 0, 0, 0, 0, 0]) (hb : b.address.1.take 6 ≠ [0, 0, 0, 0, 0, 0])
    (h : netAddr services v4 v6 a = netAddr services v4 v6 b) : a = b := by
  have inv : ∀ (s : P2p.Segs) q, s.1.take 6 ≠ [0, 0, 0, 0, 0, 0] → toIpv4 s.1 = some q → s.1 = [0, 0, 0, 0, 0, 0xffff, q.1, q.2] := by
    intro s q hs h
    unfold toIpv4 at h
    split at h
    · rename_i z x y he
      split at h
      · rename_i hz
        cases h
        rw [he] at hs ⊢
        rcases hz with rfl | rfl
        · exact absurd rfl hs
        · rfl
      · cases h
    · cases h
  have e1 : bytes ", address: " = 44 :: bytes " address: " := by decide +kernel
  have e2 : bytes ", port: " = 44 :: bytes " port: " := by decide +kernel
  unfold netAddr at h
  simp only [] at h
  have h := List.append_cancel_right h
  rw [e1, e2] at h
  simp only [List.append_assoc, List.cons_append] at h
  obtain ⟨g1, g2⟩ := run_split (· ≠ 44) _ _ _ _ (fun c hc e => cs _ (e ▸ hc)) (fun c hc e => cs _ (e ▸ hc)) ⟨44, _, rfl, by simp⟩
    ⟨44, _, rfl, by simp⟩ (List.append_cancel_left h)
  have g2 := List.append_cancel_left (List.cons.inj g2).2
  have ct : ∀ s : P2p.Segs, ∀ c ∈ (match toIpv4 s.1 with | some q => v4 q | none => v6 s), c ≠ 44 := by
    intro s c hc e
    subst e
    split at hc
    · exact c4 _ hc
    · exact c6 _ hc
  obtain ⟨g3, g4⟩ := run_split (· ≠ 44) _ _ _ _ (ct a.address) (ct b.address) ⟨44, _, rfl, by simp⟩ ⟨44, _, rfl, by simp⟩ g2
  have g4 := dec_inj (List.append_cancel_left (List.cons.inj g4).2)
  have hadr : a.address = b.address := by
    split at g3 <;> split at g3
    · rename_i q hq _ r hr
      apply Subtype.ext
      rw [inv _ _ ha hq, inv _ _ hb hr, h4 _ _ g3]
    · exact absurd g3 (h46 _ _)
    · exact absurd g3.symm (h46 _ _)
    · exact h6 _ _ g3
  cases a; cases b
  simp only [] at g1 hadr g4
  rw [hs _ _ g1, hadr, UInt16.toNat_inj.1 g4]

end Dbg
end Btc
