import Verif.P2p.Payloads
import Verif.Props.C61
import Verif.Props.C23_C24
/-!
# The payload codecs against their wire forms
-/
namespace Btc
namespace P2p

/-- The decoder accepts exactly `b a ++ rest` for `ok a`, however the bytes arrive. -/
def Dw {α : Type} (d : Dec α) (b : α → Bytes) (ok : α → Prop) : Prop := ∃ P, Lawful d P ∧ Wire P b ok

namespace Dw
variable {α β γ δ ε ζ : Type}

theorem congr {d : Dec α} {b b' : α → Bytes} {ok ok' : α → Prop} (h : Dw d b ok)
    (ho : ∀ a, ok a ↔ ok' a) (he : ∀ a, ok a → b a = b' a) : Dw d b' ok' := by
  obtain ⟨P, h1, h2⟩ := h
  exact ⟨P, h1, h2.congr ho he⟩

theorem mapE {d : Dec α} {b : α → Bytes} {ok : α → Prop} (h : Dw d b ok) {f : α → Except DErr β}
    {g : DErr → DErr} {b' : β → Bytes} {ok' : β → Prop}
    (hf : ∀ a x, ok a → f a = .ok x → ok' x ∧ b' x = b a) (hb : ∀ x, ok' x → ∃ a, ok a ∧ f a = .ok x) :
    Dw (d.mapE f g) b' ok' := by
  obtain ⟨P, h1, h2⟩ := h
  exact ⟨_, mapE_lawful h1 _ _, h2.mapE hf hb⟩

/-- A total, injective packing of the decoded value. -/
theorem map {d : Dec α} {b : α → Bytes} {ok : α → Prop} (h : Dw d b ok) (f : α → β) (k : β → α)
    {b' : β → Bytes} {ok' : β → Prop} (hk : ∀ x, f (k x) = x) (hk' : ∀ a, ok a → k (f a) = a)
    (ho : ∀ x, ok' x ↔ ok (k x)) (hb : ∀ x, b' x = b (k x)) : Dw (d.mapE (fun a => .ok (f a)) id) b' ok' := by
  refine h.mapE ?_ ?_
  · intro a x ha hx
    cases hx
    refine ⟨(ho _).2 ?_, ?_⟩
    · rw [hk' a ha]; exact ha
    · rw [hb, hk' a ha]
  · intro x hx
    exact ⟨k x, (ho x).1 hx, by rw [hk]⟩

theorem array (N : Nat) (h : 0 < N) : Dw (arrayDec N) (fun b => b) (fun b => b.length = N) :=
  ⟨_, arrayDec_lawful N h, Wire.array N⟩

theorem seq2 {da : Dec α} {db : Dec β} {f : α → Bytes} {g : β → Bytes} {p : α → Prop} {q : β → Prop}
    (ha : Dw da f p) (hb : Dw db g q) : Dw (dec2 da db) (fun x => f x.1 ++ g x.2) (fun x => p x.1 ∧ q x.2) := by
  obtain ⟨P, h1, h2⟩ := ha
  obtain ⟨Q, h3, h4⟩ := hb
  exact ⟨_, dec2_lawful h1 h3, h2.seq h4⟩

theorem seq3 {da : Dec α} {db : Dec β} {dc : Dec γ} {f : α → Bytes} {g : β → Bytes} {k : γ → Bytes} {p : α → Prop}
    {q : β → Prop} {r : γ → Prop} (ha : Dw da f p) (hb : Dw db g q) (hc : Dw dc k r) :
    Dw (dec3 da db dc) (fun x => f x.1 ++ g x.2.1 ++ k x.2.2) (fun x => p x.1 ∧ q x.2.1 ∧ r x.2.2) :=
  ((ha.seq2 hb).seq2 hc).map (fun x => (x.1.1, x.1.2, x.2)) (fun y => ((y.1, y.2.1), y.2.2))
    (fun _ => rfl) (fun _ _ => rfl) (fun _ => ⟨fun h => ⟨⟨h.1, h.2.1⟩, h.2.2⟩, fun h => ⟨h.1.1, h.1.2, h.2⟩⟩) (fun _ => rfl)

theorem seq4 {da : Dec α} {db : Dec β} {dc : Dec γ} {de : Dec δ} {f : α → Bytes} {g : β → Bytes} {k : γ → Bytes}
    {m : δ → Bytes} {p : α → Prop} {q : β → Prop} {r : γ → Prop} {t : δ → Prop}
    (ha : Dw da f p) (hb : Dw db g q) (hc : Dw dc k r) (he : Dw de m t) :
    Dw (dec4 da db dc de) (fun x => f x.1 ++ g x.2.1 ++ (k x.2.2.1 ++ m x.2.2.2))
      (fun x => p x.1 ∧ q x.2.1 ∧ r x.2.2.1 ∧ t x.2.2.2) :=
  ((ha.seq2 hb).seq2 (hc.seq2 he)).map (fun x => (x.1.1, x.1.2, x.2.1, x.2.2))
    (fun y => ((y.1, y.2.1), (y.2.2.1, y.2.2.2))) (fun _ => rfl) (fun _ _ => rfl)
    (fun _ => ⟨fun h => ⟨⟨h.1, h.2.1⟩, h.2.2⟩, fun h => ⟨h.1.1, h.1.2, h.2⟩⟩) (fun _ => rfl)

theorem seq6 {da : Dec α} {db : Dec β} {dc : Dec γ} {de : Dec δ} {df : Dec ε} {dg : Dec ζ} {f1 : α → Bytes}
    {f2 : β → Bytes} {f3 : γ → Bytes} {f4 : δ → Bytes} {f5 : ε → Bytes} {f6 : ζ → Bytes} {p1 : α → Prop}
    {p2 : β → Prop} {p3 : γ → Prop} {p4 : δ → Prop} {p5 : ε → Prop} {p6 : ζ → Prop}
    (h1 : Dw da f1 p1) (h2 : Dw db f2 p2) (h3 : Dw dc f3 p3) (h4 : Dw de f4 p4) (h5 : Dw df f5 p5) (h6 : Dw dg f6 p6) :
    Dw (dec6 da db dc de df dg)
      (fun x => (f1 x.1 ++ f2 x.2.1 ++ f3 x.2.2.1) ++ (f4 x.2.2.2.1 ++ f5 x.2.2.2.2.1 ++ f6 x.2.2.2.2.2))
      (fun x => p1 x.1 ∧ p2 x.2.1 ∧ p3 x.2.2.1 ∧ p4 x.2.2.2.1 ∧ p5 x.2.2.2.2.1 ∧ p6 x.2.2.2.2.2) :=
  ((h1.seq3 h2 h3).seq2 (h4.seq3 h5 h6)).map (fun x => (x.1.1, x.1.2.1, x.1.2.2, x.2.1, x.2.2.1, x.2.2.2))
    (fun y => ((y.1, y.2.1, y.2.2.1), (y.2.2.2.1, y.2.2.2.2.1, y.2.2.2.2.2))) (fun _ => rfl) (fun _ _ => rfl)
    (fun _ => ⟨fun h => ⟨⟨h.1, h.2.1, h.2.2.1⟩, h.2.2.2⟩, fun h => ⟨h.1.1, h.1.2.1, h.1.2.2, h.2⟩⟩) (fun _ => rfl)

theorem vec {d : Dec α} {b : α → Bytes} {ok : α → Prop} (h : Dw d b ok) :
    Dw (vecDec d MAX_VEC_SIZE) (fun l => csEncode l.length ++ (l.map b).flatten)
      (fun l => l.length ≤ MAX_VEC_SIZE ∧ ∀ a ∈ l, ok a) := by
  obtain ⟨P, h1, h2⟩ := h
  exact ⟨_, vecDec_lawful h1 _, vec_wire h2⟩

theorem byteVec (lim : Nat) (h : lim < 2 ^ 64) :
    Dw (byteVecDec lim) (fun b => csEncode b.length ++ b) (fun b => b.length ≤ lim) :=
  ⟨_, byteVecDec_lawful lim, (Wire.byteVec lim).congr
    (fun _ => ⟨fun h => h.1, fun h' => ⟨h', Nat.lt_of_le_of_lt h' h⟩⟩) (fun _ _ => rfl)⟩

end Dw

theorem u32_dw : Dw u32Dec u32le (fun _ => True) := ⟨_, u32Dec_lawful, u32_wire⟩
theorem hash32_dw : Dw hash32Dec (fun a => a.1) (fun _ => True) := ⟨_, hash32Dec_lawful, hash32_wire⟩
theorem bytes_dw : Dw (byteVecDec MAX_VEC_SIZE) (fun b => csEncode b.length ++ b) (fun b => b.length ≤ MAX_VEC_SIZE) :=
  Dw.byteVec _ MAX_VEC_SIZE_lt
theorem header_dw : Dw headerDec headerBytes (fun _ => True) := ⟨_, headerDec_lawful, header_wire⟩

theorem u8_dw : Dw u8Dec (fun x => [x]) (fun _ => True) := by
  refine (Dw.array 1 (by omega)).mapE ?_ ?_
  · intro a x ha hx
    match a, ha with
    | [y], _ =>
      cases hx
      refine ⟨trivial, ?_⟩
      simp [leNat]
  · intro x _
    exact ⟨[x], rfl, by simp [leNat]⟩

theorem u64_dw : Dw u64Dec u64le (fun _ => True) := by
  refine (Dw.array 8 (by omega)).mapE ?_ ?_
  · intro a x ha hx
    cases hx
    exact ⟨trivial, u64le_ofNat_leNat a ha⟩
  · intro x _
    exact ⟨u64le x, by simp [u64le], by rw [ofNat_leNat_u64le]⟩

theorem u16be_length (x : UInt16) : (u16be x).length = 2 := by simp [u16be]

theorem beNat_u16be (x : UInt16) : UInt16.ofNat (beNat (u16be x)) = x := by
  unfold u16be
  rw [beNat_beBytes]
  · simp
  · have := x.toNat_lt
    simpa using this

theorem u16be_beNat (b : Bytes) (h : b.length = 2) : u16be (UInt16.ofNat (beNat b)) = b := by
  unfold u16be
  have h2 := beBytes_beNat 2 b h
  have h1 : beNat b < 2 ^ 16 := by
    have := beNat_lt b
    rw [h] at this
    simpa using this
  rw [UInt16.toNat_ofNat', Nat.mod_eq_of_lt h1, h2]

theorem u16be_dw : Dw u16beDec u16be (fun _ => True) := by
  refine (Dw.array 2 (by omega)).mapE ?_ ?_
  · intro a x ha hx
    cases hx
    exact ⟨trivial, u16be_beNat a ha⟩
  · intro x _
    exact ⟨u16be x, u16be_length x, by rw [beNat_u16be]⟩

theorem arr_dw (n : Nat) (h : 0 < n) : Dw (arrDec n) (fun a => a.1) (fun _ => True) := by
  refine (Dw.array n h).mapE ?_ ?_
  · intro a x ha hx
    rw [dif_pos ha] at hx
    cases hx
    exact ⟨trivial, rfl⟩
  · intro x _
    exact ⟨x.1, x.2, dif_pos x.2⟩

theorem segBytes_cons (x : UInt16) (l : List UInt16) : segBytes (x :: l) = u16be x ++ segBytes l := rfl

theorem segBytes_length : ∀ l : List UInt16, (segBytes l).length = 2 * l.length
  | [] => rfl
  | x :: l => by rw [segBytes_cons, List.length_append, u16be_length, segBytes_length l, List.length_cons]; omega

theorem segsOf_segBytes : ∀ l : List UInt16, segsOf (segBytes l) = l
  | [] => rfl
  | x :: l => by
    have h := beNat_u16be x
    obtain ⟨a, b, hx⟩ : ∃ a b, u16be x = [a, b] := by
      match hu : u16be x, u16be_length x with
      | [a, b], _ => exact ⟨a, b, rfl⟩
    rw [segBytes_cons, hx]
    rw [hx] at h
    show UInt16.ofNat (beNat [a, b]) :: segsOf (segBytes l) = _
    rw [h, segsOf_segBytes l]

theorem segBytes_segsOf : ∀ b : Bytes, b.length % 2 = 0 → segBytes (segsOf b) = b ∧ 2 * (segsOf b).length = b.length
  | [], _ => ⟨rfl, rfl⟩
  | [_], h => by simp at h
  | x :: y :: t, h => by
    obtain ⟨h1, h2⟩ := segBytes_segsOf t (by simp only [List.length_cons] at h; omega)
    have := u16be_beNat [x, y] rfl
    refine ⟨?_, ?_⟩
    · show segBytes (UInt16.ofNat (beNat [x, y]) :: segsOf t) = _
      rw [segBytes_cons, this, h1]; rfl
    · show 2 * (UInt16.ofNat (beNat [x, y]) :: segsOf t).length = _
      simp only [List.length_cons]; omega

theorem segsArr_ok {b : Bytes} (h : b.length = 16) : ∃ s, segsArr b = .ok s ∧ segBytes s.1 = b := by
  obtain ⟨h1, h2⟩ := segBytes_segsOf b (by omega)
  have h3 : (segsOf b).length = 8 := by omega
  exact ⟨⟨segsOf b, h3⟩, dif_pos h3, h1⟩

theorem segsArr_segBytes (s : Segs) : segsArr (segBytes s.1) = .ok s := by
  unfold segsArr
  have h : (segsOf (segBytes s.1)).length = 8 := by rw [segsOf_segBytes]; exact s.2
  rw [dif_pos h]
  congr 1
  exact Subtype.ext (segsOf_segBytes s.1)

theorem segs_len (s : Segs) : (segBytes s.1).length = 16 := by rw [segBytes_length, s.2]

/-! ### Addresses -/

def netAddrBytes (a : NetAddr) : Bytes := u64le a.services ++ segBytes a.address.1 ++ u16be a.port
def addrV1Bytes (a : AddrV1) : Bytes := u32le a.time ++ netAddrBytes a.address

theorem netAddr_dw : Dw netAddrDec netAddrBytes (fun _ => True) := by
  refine (u64_dw.seq3 (Dw.array 16 (by omega)) u16be_dw).mapE ?_ ?_
  · rintro ⟨s, b, p⟩ x ⟨_, hb, _⟩ hx
    obtain ⟨g, h1, h2⟩ := segsArr_ok hb
    simp only [h1] at hx
    cases hx
    refine ⟨trivial, ?_⟩
    simp only [netAddrBytes, h2]
  · intro x _
    refine ⟨(x.services, segBytes x.address.1, x.port), ⟨trivial, segs_len _, trivial⟩, ?_⟩
    simp only [segsArr_segBytes]

theorem addrV1_dw : Dw addrV1Dec addrV1Bytes (fun _ => True) :=
  (u32_dw.seq2 netAddr_dw).map (fun x => (⟨x.1, x.2⟩ : AddrV1)) (fun y : AddrV1 => (y.time, y.address)) (fun _ => rfl) (fun _ _ => rfl)
    (fun _ => ⟨fun _ => ⟨trivial, trivial⟩, fun _ => trivial⟩) (fun _ => rfl)

/-- Network identifier and address bytes of BIP-155. -/
def AddrV2.net : AddrV2 → UInt8
  | .ipv4 _ => 1
  | .ipv6 _ => 2
  | .torV3 _ => 4
  | .i2p _ => 5
  | .cjdns _ => 6
  | .unknown n _ => n
def AddrV2.data : AddrV2 → Bytes
  | .ipv4 a => a.1
  | .ipv6 a => segBytes a.1
  | .torV3 a => a.1
  | .i2p a => a.1
  | .cjdns a => segBytes a.1
  | .unknown _ b => b
def addrV2Bytes (a : AddrV2) : Bytes := [a.net] ++ (csEncode a.data.length ++ a.data)
/-- What the decoder accepts: no IPv6 address that wraps an onion or IPv4 address, only `fc00::/8` for CJDNS, no
known network number for `Unknown`, at most 512 bytes. -/
def AddrV2Ok : AddrV2 → Prop
  | .ipv6 s => s.1.take 3 ≠ ONION ∧ s.1.take 6 ≠ IPV4_EMBEDDED_IPV6
  | .cjdns s => (segBytes s.1).head? = some 0xFC
  | .unknown n b => n ≠ 1 ∧ n ≠ 2 ∧ n ≠ 4 ∧ n ≠ 5 ∧ n ≠ 6 ∧ b.length ≤ 512
  | _ => True

theorem addrV2_end (n : UInt8) (b : Bytes) (a : AddrV2) :
    addrV2End n b = .ok a ↔ AddrV2Ok a ∧ n = a.net ∧ b = a.data := by
  unfold addrV2End
  by_cases hl : b.length > 512
  · rw [if_pos hl]
    constructor
    · intro h; cases h
    · rintro ⟨h1, _, rfl⟩
      exfalso
      cases a with
      | ipv4 a => have := a.2; simp only [AddrV2.data] at hl; omega
      | ipv6 a => have := segs_len a; simp only [AddrV2.data] at hl; omega
      | torV3 a => have := a.2; simp only [AddrV2.data] at hl; omega
      | i2p a => have := a.2; simp only [AddrV2.data] at hl; omega
      | cjdns a => have := segs_len a; simp only [AddrV2.data] at hl; omega
      | unknown n b => exact absurd h1.2.2.2.2.2 (by simp only [AddrV2.data] at hl; omega)
  rw [if_neg hl]
  have hfix : ∀ (k : Nat) (f : Arr k → AddrV2), (fixedSize k b).map f = .ok a ↔ ∃ h : b.length = k, f ⟨b, h⟩ = a := by
    intro k f
    unfold fixedSize
    by_cases h : b.length = k
    · rw [dif_pos h]
      simp only [Except.map, Except.ok.injEq]
      exact ⟨fun e => ⟨h, e⟩, fun ⟨_, e⟩ => e⟩
    · rw [dif_neg h]
      simp only [Except.map]
      exact ⟨fun e => (by cases e), fun ⟨h', _⟩ => absurd h' h⟩
  by_cases h1 : n = 1
  · subst h1
    rw [if_pos rfl, hfix]
    constructor
    · rintro ⟨h, rfl⟩; exact ⟨trivial, rfl, rfl⟩
    · rintro ⟨h2, h3, rfl⟩
      cases a with
      | ipv4 a => exact ⟨a.2, rfl⟩
      | unknown n b => exact absurd h3.symm h2.1
      | _ => exact absurd h3 (by simp [AddrV2.net])
  rw [if_neg h1]
  by_cases h2 : n = 2
  · subst h2
    rw [if_pos rfl]
    unfold fixedSize
    by_cases h : b.length = 16
    · rw [dif_pos h]
      obtain ⟨s, h3, h4⟩ := segsArr_ok h
      simp only [h3]
      constructor
      · intro he
        by_cases c1 : s.1.take 3 = ONION
        · rw [if_pos c1] at he; cases he
        · rw [if_neg c1] at he
          by_cases c2 : s.1.take 6 = IPV4_EMBEDDED_IPV6
          · rw [if_pos c2] at he; cases he
          · rw [if_neg c2] at he
            cases he
            exact ⟨⟨c1, c2⟩, rfl, h4.symm⟩
      · rintro ⟨g1, g2, g3⟩
        cases a with
        | ipv6 a =>
          have : s = a := by
            have := segsArr_segBytes a
            rw [show segBytes a.1 = b from g3.symm, h3] at this
            cases this; rfl
          subst this
          rw [if_neg g1.1, if_neg g1.2]
        | unknown n b => exact absurd g2.symm g1.2.1
        | _ => exact absurd g2 (by simp [AddrV2.net])
    · rw [dif_neg h]
      constructor
      · intro e; cases e
      · rintro ⟨g1, g2, g3⟩
        cases a with
        | ipv6 a => exact absurd (by rw [g3]; exact segs_len a) h
        | unknown n b => exact absurd g2.symm g1.2.1
        | _ => exact absurd g2 (by simp [AddrV2.net])
  rw [if_neg h2]
  by_cases h4 : n = 4
  · subst h4
    rw [if_pos rfl, hfix]
    constructor
    · rintro ⟨h, rfl⟩; exact ⟨trivial, rfl, rfl⟩
    · rintro ⟨h2, h3, rfl⟩
      cases a with
      | torV3 a => exact ⟨a.2, rfl⟩
      | unknown n b => exact absurd h3.symm h2.2.2.1
      | _ => exact absurd h3 (by simp [AddrV2.net])
  rw [if_neg h4]
  by_cases h5 : n = 5
  · subst h5
    rw [if_pos rfl, hfix]
    constructor
    · rintro ⟨h, rfl⟩; exact ⟨trivial, rfl, rfl⟩
    · rintro ⟨h2, h3, rfl⟩
      cases a with
      | i2p a => exact ⟨a.2, rfl⟩
      | unknown n b => exact absurd h3.symm h2.2.2.2.1
      | _ => exact absurd h3 (by simp [AddrV2.net])
  rw [if_neg h5]
  by_cases h6 : n = 6
  · subst h6
    rw [if_pos rfl]
    unfold fixedSize
    by_cases h : b.length = 16
    · rw [dif_pos h]
      obtain ⟨s, h3, h4⟩ := segsArr_ok h
      simp only [h3]
      constructor
      · intro he
        by_cases c1 : b.head? ≠ some 0xFC
        · rw [if_pos c1] at he; cases he
        · rw [if_neg c1] at he
          cases he
          refine ⟨?_, rfl, h4.symm⟩
          show (segBytes s.1).head? = _
          rw [h4]; exact Classical.not_not.mp c1
      · rintro ⟨g1, g2, g3⟩
        cases a with
        | cjdns a =>
          have : s = a := by
            have := segsArr_segBytes a
            rw [show segBytes a.1 = b from g3.symm, h3] at this
            cases this; rfl
          subst this
          rw [if_neg (not_not_intro (by rw [g3]; exact g1))]
        | unknown n b => exact absurd g2.symm g1.2.2.2.2.1
        | _ => exact absurd g2 (by simp [AddrV2.net])
    · rw [dif_neg h]
      constructor
      · intro e; cases e
      · rintro ⟨g1, g2, g3⟩
        cases a with
        | cjdns a => exact absurd (by rw [g3]; exact segs_len a) h
        | unknown n b => exact absurd g2.symm g1.2.2.2.2.1
        | _ => exact absurd g2 (by simp [AddrV2.net])
  rw [if_neg h6]
  constructor
  · intro h
    cases h
    exact ⟨⟨h1, h2, h4, h5, h6, by omega⟩, rfl, rfl⟩
  · rintro ⟨g1, rfl, rfl⟩
    cases a with
    | unknown n b => rfl
    | ipv4 _ => exact absurd rfl h1
    | ipv6 _ => exact absurd rfl h2
    | torV3 _ => exact absurd rfl h4
    | i2p _ => exact absurd rfl h5
    | cjdns _ => exact absurd rfl h6

theorem AddrV2Ok.len {a : AddrV2} (h : AddrV2Ok a) : a.data.length ≤ MAX_VEC_SIZE := by
  have : (512 : Nat) ≤ MAX_VEC_SIZE := by decide
  cases a with
  | ipv4 a => have := a.2; simp only [AddrV2.data]; omega
  | ipv6 a => have := segs_len a; simp only [AddrV2.data]; omega
  | torV3 a => have := a.2; simp only [AddrV2.data]; omega
  | i2p a => have := a.2; simp only [AddrV2.data]; omega
  | cjdns a => have := segs_len a; simp only [AddrV2.data]; omega
  | unknown n b => have := h.2.2.2.2.2; simp only [AddrV2.data]; omega

theorem addrV2_dw : Dw addrV2Dec addrV2Bytes AddrV2Ok := by
  refine (u8_dw.seq2 bytes_dw).mapE ?_ ?_
  · rintro ⟨n, b⟩ x _ hx
    obtain ⟨h1, h2, h3⟩ := (addrV2_end _ _ _).1 hx
    simp only at h2 h3
    exact ⟨h1, by simp only [addrV2Bytes, h2, h3]⟩
  · intro x hx
    exact ⟨(x.net, x.data), ⟨trivial, hx.len⟩, (addrV2_end _ _ _).2 ⟨hx, rfl, rfl⟩⟩

def addrV2MsgBytes (a : AddrV2Msg) : Bytes :=
  u32le a.time ++ csEncode a.services.toNat ++ (addrV2Bytes a.addr ++ u16be a.port)

theorem csU64_dw : Dw csU64Dec csEncode (fun v => v < 2 ^ 64) := ⟨_, csU64Dec_lawful, csU64_wire⟩

theorem addrV2Msg_dw : Dw addrV2MsgDec addrV2MsgBytes (fun a => AddrV2Ok a.addr) :=
  (u32_dw.seq4 csU64_dw addrV2_dw u16be_dw).map (fun x => (⟨x.1, UInt64.ofNat x.2.1, x.2.2.1, x.2.2.2⟩ : AddrV2Msg))
    (fun y : AddrV2Msg => (y.time, y.services.toNat, y.addr, y.port)) (fun y => by simp)
    (fun a ha => by
      obtain ⟨_, h, _⟩ := ha
      obtain ⟨t, s, d, p⟩ := a
      simp only at h ⊢
      rw [UInt64.toNat_ofNat', Nat.mod_eq_of_lt h])
    (fun y => ⟨fun h => ⟨trivial, y.services.toNat_lt, h, trivial⟩, fun h => h.2.2.1⟩) (fun _ => rfl)

/-! ### Inventory and locators -/

def invBytes (i : Inventory) : Bytes := u32le i.parts.1 ++ i.parts.2.1
/-- `Unknown` only with a type that has no variant of its own. -/
def InvOk : Inventory → Prop
  | .unknown t _ => t ≠ 0 ∧ t ≠ 1 ∧ t ≠ 2 ∧ t ≠ 4 ∧ t ≠ 5 ∧ t ≠ 0x40000001 ∧ t ≠ 0x40000002
  | _ => True

theorem inv_parts (t : UInt32) (h : Arr 32) : (Inventory.ofParts t h).parts = (t, h) ∧ InvOk (Inventory.ofParts t h) := by
  unfold Inventory.ofParts
  by_cases h0 : t = 0
  · subst h0; exact ⟨rfl, trivial⟩
  rw [if_neg h0]
  by_cases h1 : t = 1
  · subst h1; exact ⟨rfl, trivial⟩
  rw [if_neg h1]
  by_cases h2 : t = 2
  · subst h2; exact ⟨rfl, trivial⟩
  rw [if_neg h2]
  by_cases h4 : t = 4
  · subst h4; exact ⟨rfl, trivial⟩
  rw [if_neg h4]
  by_cases h5 : t = 5
  · subst h5; exact ⟨rfl, trivial⟩
  rw [if_neg h5]
  by_cases h6 : t = 0x40000001
  · subst h6; exact ⟨rfl, trivial⟩
  rw [if_neg h6]
  by_cases h7 : t = 0x40000002
  · subst h7; exact ⟨rfl, trivial⟩
  rw [if_neg h7]
  exact ⟨rfl, h0, h1, h2, h4, h5, h6, h7⟩

theorem inv_ofParts (i : Inventory) (h : InvOk i) : Inventory.ofParts i.parts.1 i.parts.2 = i := by
  cases i with
  | unknown t x =>
    obtain ⟨h0, h1, h2, h4, h5, h6, h7⟩ := h
    show Inventory.ofParts t x = _
    unfold Inventory.ofParts
    rw [if_neg h0, if_neg h1, if_neg h2, if_neg h4, if_neg h5, if_neg h6, if_neg h7]
  | _ => rfl

theorem inv_dw : Dw invDec invBytes InvOk := by
  refine (u32_dw.seq2 hash32_dw).mapE ?_ ?_
  · rintro ⟨t, h⟩ x _ hx
    cases hx
    obtain ⟨h1, h2⟩ := inv_parts t h
    exact ⟨h2, by simp only [invBytes, h1]⟩
  · intro x hx
    exact ⟨x.parts, ⟨trivial, trivial⟩, by rw [inv_ofParts x hx]⟩

def hashesBytes (l : List (Arr 32)) : Bytes := csEncode l.length ++ (l.map (·.1)).flatten
def locatorBytes (l : Locator) : Bytes := u32le l.version ++ hashesBytes l.hashes ++ l.stop.1

theorem hashes_dw : Dw (vecDec hash32Dec MAX_VEC_SIZE) hashesBytes (fun l => l.length ≤ MAX_VEC_SIZE) :=
  hash32_dw.vec.congr (fun _ => ⟨fun h => h.1, fun h => ⟨h, fun _ _ => trivial⟩⟩) (fun _ _ => rfl)

theorem locator_dw : Dw locatorDec locatorBytes (fun l => l.hashes.length ≤ MAX_VEC_SIZE) :=
  (u32_dw.seq3 hashes_dw hash32_dw).map (fun x => (⟨x.1, x.2.1, x.2.2⟩ : Locator)) (fun y : Locator => (y.version, y.hashes, y.stop))
    (fun _ => rfl) (fun _ _ => rfl) (fun _ => ⟨fun h => ⟨trivial, h, trivial⟩, fun h => h.2.1⟩) (fun _ => rfl)

/-! ### Bloom and compact filters -/

theorem bloom_dw : Dw bloomDec (fun f => [f.byte]) (fun _ => True) := by
  refine u8_dw.mapE ?_ ?_
  · intro b x _ hx
    by_cases h0 : b = 0
    · subst h0; cases hx; exact ⟨trivial, rfl⟩
    rw [if_neg h0] at hx
    by_cases h1 : b = 1
    · subst h1; cases hx; exact ⟨trivial, rfl⟩
    rw [if_neg h1] at hx
    by_cases h2 : b = 2
    · subst h2; cases hx; exact ⟨trivial, rfl⟩
    rw [if_neg h2] at hx
    cases hx
  · intro x _
    exact ⟨x.byte, trivial, by cases x <;> rfl⟩

def filterLoadBytes (f : FilterLoad) : Bytes :=
  csEncode f.filter.length ++ f.filter ++ u32le f.hashFuncs ++ (u32le f.tweak ++ [f.flags.byte])
theorem filterLoad_dw : Dw filterLoadDec filterLoadBytes (fun f => f.filter.length ≤ MAX_VEC_SIZE) :=
  (bytes_dw.seq4 u32_dw u32_dw bloom_dw).map (fun x => (⟨x.1, x.2.1, x.2.2.1, x.2.2.2⟩ : FilterLoad))
    (fun y : FilterLoad => (y.filter, y.hashFuncs, y.tweak, y.flags)) (fun _ => rfl) (fun _ _ => rfl)
    (fun _ => ⟨fun h => ⟨h, trivial, trivial, trivial⟩, fun h => h.1⟩) (fun _ => rfl)

def getCFBytes (g : GetCF) : Bytes := [g.filterType] ++ u32le g.start ++ g.stop.1
theorem getCF_dw : Dw getCFDec getCFBytes (fun _ => True) :=
  (u8_dw.seq3 u32_dw hash32_dw).map (fun x => (⟨x.1, x.2.1, x.2.2⟩ : GetCF)) (fun y : GetCF => (y.filterType, y.start, y.stop))
    (fun _ => rfl) (fun _ _ => rfl) (fun _ => ⟨fun _ => ⟨trivial, trivial, trivial⟩, fun _ => trivial⟩) (fun _ => rfl)

def cFilterBytes (c : CFilter) : Bytes := [c.filterType] ++ c.blockHash.1 ++ (csEncode c.filter.length ++ c.filter)
theorem cFilter_dw : Dw cFilterDec cFilterBytes (fun c => c.filter.length ≤ MAX_VEC_SIZE) :=
  (u8_dw.seq3 hash32_dw bytes_dw).map (fun x => (⟨x.1, x.2.1, x.2.2⟩ : CFilter)) (fun y : CFilter => (y.filterType, y.blockHash, y.filter))
    (fun _ => rfl) (fun _ _ => rfl) (fun _ => ⟨fun h => ⟨trivial, trivial, h⟩, fun h => h.2.2⟩) (fun _ => rfl)

def cfHeadersBytes (c : CFHeaders) : Bytes := [c.filterType] ++ c.stop.1 ++ (c.previous.1 ++ hashesBytes c.hashes)
theorem cfHeaders_dw : Dw cfHeadersDec cfHeadersBytes (fun c => c.hashes.length ≤ MAX_VEC_SIZE) :=
  (u8_dw.seq4 hash32_dw hash32_dw hashes_dw).map (fun x => (⟨x.1, x.2.1, x.2.2.1, x.2.2.2⟩ : CFHeaders))
    (fun y : CFHeaders => (y.filterType, y.stop, y.previous, y.hashes)) (fun _ => rfl) (fun _ _ => rfl)
    (fun _ => ⟨fun h => ⟨trivial, trivial, trivial, h⟩, fun h => h.2.2.2⟩) (fun _ => rfl)

def getCFCheckptBytes (c : GetCFCheckpt) : Bytes := [c.filterType] ++ c.stop.1
theorem getCFCheckpt_dw : Dw getCFCheckptDec getCFCheckptBytes (fun _ => True) :=
  (u8_dw.seq2 hash32_dw).map (fun x => (⟨x.1, x.2⟩ : GetCFCheckpt)) (fun y : GetCFCheckpt => (y.filterType, y.stop))
    (fun _ => rfl) (fun _ _ => rfl) (fun _ => ⟨fun _ => ⟨trivial, trivial⟩, fun _ => trivial⟩) (fun _ => rfl)

def cfCheckptBytes (c : CFCheckpt) : Bytes := [c.filterType] ++ c.stop.1 ++ hashesBytes c.headers
theorem cfCheckpt_dw : Dw cfCheckptDec cfCheckptBytes (fun c => c.headers.length ≤ MAX_VEC_SIZE) :=
  (u8_dw.seq3 hash32_dw hashes_dw).map (fun x => (⟨x.1, x.2.1, x.2.2⟩ : CFCheckpt)) (fun y : CFCheckpt => (y.filterType, y.stop, y.headers))
    (fun _ => rfl) (fun _ _ => rfl) (fun _ => ⟨fun h => ⟨trivial, trivial, h⟩, fun h => h.2.2⟩) (fun _ => rfl)

/-! ### Small messages -/

def sendCmpctBytes (s : SendCmpct) : Bytes := [if s.sendCompact then 1 else 0] ++ u64le s.version
theorem sendCmpct_dw : Dw sendCmpctDec sendCmpctBytes (fun _ => True) := by
  refine (u8_dw.seq2 u64_dw).mapE ?_ ?_
  · rintro ⟨b, v⟩ x _ hx
    by_cases h : b = 1 ∨ b = 0
    · simp only [if_pos h] at hx
      cases hx
      refine ⟨trivial, ?_⟩
      rcases h with rfl | rfl <;> rfl
    · simp only [if_neg h] at hx; cases hx
  · rintro ⟨b, v⟩ _
    refine ⟨(if b then 1 else 0, v), ⟨trivial, trivial⟩, ?_⟩
    cases b <;> rfl

def sendTxRcnClBytes (s : SendTxRcnCl) : Bytes := u32le s.version ++ u64le s.salt
theorem sendTxRcnCl_dw : Dw sendTxRcnClDec sendTxRcnClBytes (fun _ => True) :=
  (u32_dw.seq2 u64_dw).map (fun x => (⟨x.1, x.2⟩ : SendTxRcnCl)) (fun y : SendTxRcnCl => (y.version, y.salt))
    (fun _ => rfl) (fun _ _ => rfl) (fun _ => ⟨fun _ => ⟨trivial, trivial⟩, fun _ => trivial⟩) (fun _ => rfl)

/-- Fee rates that survive: whole satoshis per kvB, at most `MAX_MONEY` of them. -/
def FeeOk (r : UInt64) : Prop := r.toNat % 1000 = 0 ∧ r.toNat / 1000 ≤ MAX_MONEY_SAT

theorem feeFilter_dw : Dw feeFilterDec feeFilterBytes FeeOk := by
  have hm : MAX_MONEY_SAT = 2100000000000000 := rfl
  refine (Dw.array 8 (by omega)).mapE ?_ ?_
  · intro b x hb hx
    simp only at hx
    by_cases h1 : leNat b > MAX_MONEY_SAT
    · rw [if_pos h1] at hx; cases hx
    rw [if_neg h1] at hx
    by_cases h2 : 1000 * leNat b < 2 ^ 64
    · rw [if_pos h2] at hx
      cases hx
      have hn : (UInt64.ofNat (1000 * leNat b)).toNat = 1000 * leNat b := by
        rw [UInt64.toNat_ofNat', Nat.mod_eq_of_lt h2]
      refine ⟨⟨by rw [hn]; omega, by rw [hn]; omega⟩, ?_⟩
      unfold feeFilterBytes
      rw [hn]
      have : Amt.kvbCeil (1000 * leNat b) = leNat b := by
        unfold Amt.kvbCeil Amt.divCeil
        rw [if_neg (by omega)]
        omega
      rw [this]
      exact leBytes_leNat' 8 b hb
    · rw [if_neg h2] at hx; cases hx
  · intro x hx
    have hlt := x.toNat_lt
    obtain ⟨h1, h2⟩ := hx
    have hk : Amt.kvbCeil x.toNat = x.toNat / 1000 := by
      unfold Amt.kvbCeil Amt.divCeil
      rw [if_neg (by omega)]
    refine ⟨feeFilterBytes x, by simp [feeFilterBytes], ?_⟩
    have hl : leNat (feeFilterBytes x) = x.toNat / 1000 := by
      unfold feeFilterBytes
      rw [hk, leNat_leBytes]
      omega
    simp only [hl]
    rw [if_neg (by omega), if_pos (by omega)]
    congr 1
    rw [show 1000 * (x.toNat / 1000) = x.toNat by omega]
    simp

def netHeaderBytes (h : NetHeader) : Bytes := headerBytes h.header ++ [h.length]
theorem netHeader_dw : Dw netHeaderDec netHeaderBytes (fun _ => True) :=
  (header_dw.seq2 u8_dw).map (fun x => (⟨x.1, x.2⟩ : NetHeader)) (fun y : NetHeader => (y.header, y.length))
    (fun _ => rfl) (fun _ _ => rfl) (fun _ => ⟨fun _ => ⟨trivial, trivial⟩, fun _ => trivial⟩) (fun _ => rfl)

theorem rejectReason_dw : Dw rejectReasonDec (fun r => [r.byte]) (fun _ => True) := by
  refine u8_dw.mapE ?_ ?_
  · intro b x _ hx
    by_cases h0 : b = 0x01
    · subst h0; cases hx; exact ⟨trivial, rfl⟩
    rw [if_neg h0] at hx
    by_cases h0 : b = 0x10
    · subst h0; cases hx; exact ⟨trivial, rfl⟩
    rw [if_neg h0] at hx
    by_cases h0 : b = 0x11
    · subst h0; cases hx; exact ⟨trivial, rfl⟩
    rw [if_neg h0] at hx
    by_cases h0 : b = 0x12
    · subst h0; cases hx; exact ⟨trivial, rfl⟩
    rw [if_neg h0] at hx
    by_cases h0 : b = 0x40
    · subst h0; cases hx; exact ⟨trivial, rfl⟩
    rw [if_neg h0] at hx
    by_cases h0 : b = 0x41
    · subst h0; cases hx; exact ⟨trivial, rfl⟩
    rw [if_neg h0] at hx
    by_cases h0 : b = 0x42
    · subst h0; cases hx; exact ⟨trivial, rfl⟩
    rw [if_neg h0] at hx
    by_cases h0 : b = 0x43
    · subst h0; cases hx; exact ⟨trivial, rfl⟩
    rw [if_neg h0] at hx
    cases hx
  · intro x _
    exact ⟨x.byte, trivial, by cases x <;> rfl⟩

theorem fromUtf8_ok {b : Bytes} {e : DErr} {u : Utf8} : fromUtf8 b e = .ok u ↔ b = u.1 := by
  unfold fromUtf8
  by_cases h : validUtf8 b = true
  · rw [dif_pos h]
    constructor
    · intro h'; cases h'; rfl
    · intro h'; subst h'; rfl
  · rw [dif_neg h]
    constructor
    · intro h'; cases h'
    · intro h'; subst h'; exact absurd u.2 h

def rejectBytes (r : Reject) : Bytes :=
  csEncode r.message.1.length ++ r.message.1 ++ [r.ccode.byte] ++ (csEncode r.reason.1.length ++ r.reason.1 ++ r.hash.1)
def RejectOk (r : Reject) : Prop := r.message.1.length ≤ MAX_VEC_SIZE ∧ r.reason.1.length ≤ MAX_VEC_SIZE
theorem reject_dw : Dw rejectDec rejectBytes RejectOk := by
  refine (bytes_dw.seq4 rejectReason_dw bytes_dw hash32_dw).mapE ?_ ?_
  · rintro ⟨m, c, r, h⟩ x ⟨h1, _, h3, _⟩ hx
    simp only at hx h1 h3
    cases hm : fromUtf8 m (.custom 48 0) with
    | error e => rw [hm] at hx; cases hx
    | ok m' =>
      rw [hm] at hx
      simp only at hx
      cases hr : fromUtf8 r (.custom 48 0) with
      | error e => rw [hr] at hx; cases hx
      | ok r' =>
        rw [hr] at hx
        cases hx
        have h4 := fromUtf8_ok.1 hm
        have h5 := fromUtf8_ok.1 hr
        subst h4; subst h5
        exact ⟨⟨h1, h3⟩, rfl⟩
  · rintro ⟨m, c, r, h⟩ ⟨h1, h2⟩
    refine ⟨(m.1, c, r.1, h), ⟨h1, trivial, h2, trivial⟩, ?_⟩
    have h4 : fromUtf8 m.1 (.custom 48 0) = .ok m := fromUtf8_ok.2 rfl
    have h5 : fromUtf8 r.1 (.custom 48 0) = .ok r := fromUtf8_ok.2 rfl
    simp only [h4, h5]

theorem featureId_dw : Dw featureIdDec (fun b => csEncode b.1.length ++ b.1) (fun _ => True) := by
  refine (Dw.byteVec 80 (by decide)).mapE ?_ ?_
  · intro b x hb hx
    by_cases h : FeatureIdOk b
    · rw [dif_pos h] at hx; cases hx; exact ⟨trivial, rfl⟩
    · rw [dif_neg h] at hx; cases hx
  · intro x _
    exact ⟨x.1, x.2.2.2, dif_pos x.2⟩
theorem featureData_dw : Dw featureDataDec (fun b => csEncode b.1.length ++ b.1) (fun _ => True) := by
  refine (Dw.byteVec 512 (by decide)).mapE ?_ ?_
  · intro b x hb hx
    by_cases h : b.length ≤ 512
    · rw [dif_pos h] at hx; cases hx; exact ⟨trivial, rfl⟩
    · rw [dif_neg h] at hx; cases hx
  · intro x _
    exact ⟨x.1, x.2, dif_pos x.2⟩
def featureBytes (f : Feature) : Bytes :=
  (csEncode f.id.1.length ++ f.id.1) ++ (csEncode f.data.1.length ++ f.data.1)
theorem feature_dw : Dw featureDec featureBytes (fun _ => True) :=
  (featureId_dw.seq2 featureData_dw).map (fun x => (⟨x.1, x.2⟩ : Feature)) (fun y : Feature => (y.id, y.data))
    (fun _ => rfl) (fun _ _ => rfl) (fun _ => ⟨fun _ => ⟨trivial, trivial⟩, fun _ => trivial⟩) (fun _ => rfl)

def merkleBlockBytes (b : Pmt.MerkleBlock) : Bytes := headerBytes b.header ++ Pmt.treeBytes b.txn
theorem merkleBlock_dw : Dw Pmt.mbDec merkleBlockBytes (fun b => Pmt.TreeOk b.txn) := by
  have h : Dw Pmt.dec Pmt.treeBytes Pmt.TreeOk := ⟨_, Pmt.dec_lawful, Pmt.wire⟩
  exact (header_dw.seq2 h).map (fun x => (⟨x.1, x.2⟩ : Pmt.MerkleBlock)) (fun y : Pmt.MerkleBlock => (y.header, y.txn))
    (fun _ => rfl) (fun _ _ => rfl) (fun _ => ⟨fun h => ⟨trivial, h⟩, fun h => h.2⟩) (fun _ => rfl)

/-! ### The version message -/

theorem userAgent_dw : Dw userAgentDec (fun u => csEncode u.1.length ++ u.1) (fun u => u.1.length ≤ MAX_VEC_SIZE) := by
  refine bytes_dw.mapE ?_ ?_
  · intro b x hb hx
    have := fromUtf8_ok.1 hx
    subst this
    exact ⟨hb, rfl⟩
  · intro x hx
    exact ⟨x.1, hx, fromUtf8_ok.2 rfl⟩

/-- The version message with the given byte for `relay`. -/
def versionForm (v : VersionMsg) (relay : UInt8) : Bytes :=
  u32le v.version ++ u64le v.services ++ u64le v.timestamp.toUInt64 ++
    ((netAddrBytes v.receiver ++ netAddrBytes v.sender ++ u64le v.nonce) ++
      ((csEncode v.userAgent.1.length ++ v.userAgent.1) ++ u32le v.startHeight.toUInt32 ++ [relay]))
def versionBytes (v : VersionMsg) : Bytes := versionForm v (if v.relay then 1 else 0)

/-- The decoder accepts exactly the strings related to the values by `F`. -/
def Df {α : Type} (d : Dec α) (F : α → Bytes → Prop) : Prop :=
  ∃ P, Lawful d P ∧ ∀ bs a rest, P bs = .done a rest ↔ ∃ w, F a w ∧ bs = w ++ rest

theorem Dw.df {α : Type} {d : Dec α} {b : α → Bytes} {ok : α → Prop} (h : Dw d b ok) :
    Df d (fun a w => ok a ∧ w = b a) := by
  obtain ⟨P, h1, h2⟩ := h
  refine ⟨P, h1, fun bs a rest => ?_⟩
  rw [h2]
  constructor
  · rintro ⟨h, rfl⟩; exact ⟨_, ⟨h, rfl⟩, rfl⟩
  · rintro ⟨_, ⟨h, rfl⟩, rfl⟩; exact ⟨h, rfl⟩

/-- Any non-zero byte stands for `relay = true`. -/
def VersionForm (v : VersionMsg) (w : Bytes) : Prop :=
  v.userAgent.1.length ≤ MAX_VEC_SIZE ∧ ∃ r : UInt8, v.relay = (r != 0) ∧ w = versionForm v r

theorem version_df : Df versionDec VersionForm := by
  obtain ⟨P, h1, h2⟩ := (u32_dw.seq3 u64_dw u64_dw).seq2
    (netAddr_dw.seq6 netAddr_dw u64_dw userAgent_dw u32_dw u8_dw)
  refine ⟨_, mapE_lawful h1 _ _, fun bs a rest => ?_⟩
  unfold Parser.mapE
  constructor
  · intro hd
    split at hd
    · rename_i x r hx
      obtain ⟨⟨_, _, _, _, hu, _⟩, rfl⟩ := (h2 _ _ _).mp hx
      simp only [POut.ofEnd] at hd
      cases hd
      refine ⟨_, ⟨hu, x.2.2.2.2.2.2, rfl, rfl⟩, ?_⟩
      simp [versionForm]
    · cases hd
    · cases hd
  · rintro ⟨w, ⟨hu, r, hr, rfl⟩, rfl⟩
    have := (h2 (versionForm a r ++ rest) ((a.version, a.services, a.timestamp.toUInt64),
      (a.receiver, a.sender, a.nonce, a.userAgent, a.startHeight.toUInt32, r)) rest).mpr
      ⟨⟨⟨trivial, trivial, trivial⟩, trivial, trivial, trivial, hu, trivial, trivial⟩, rfl⟩
    rw [this]
    simp only [POut.ofEnd]
    rw [← hr]
    simp

end P2p
end Btc
