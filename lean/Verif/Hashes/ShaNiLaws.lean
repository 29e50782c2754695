import Verif.Hashes.ShaNi
import Verif.Hashes.SimdLaws
/-!
# The SHA-NI and ARM SHA2 back ends compute the FIPS compression function

The straight-line programs of `ShaNi` are run on symbols: each lane of each variable is described by an `Atom` (a word of the message
schedule of one of the transforms, a register after some round, a word of the result, a constant, …). `absRun` checks each
statement against the recurrences of FIPS 180-4, helped by a hint per arithmetic statement that says which transform and round it
belongs to; `absRun_sound` says that what it computes describes the real run, for every input.
-/
namespace Btc
namespace ShaNi
open Sha2 (St)
open Simd (Lanes byteOf ofBytes shuffleEpi8 bswap)

/-- `j` numbers the transform. -/
inductive Atom where
  | c (x : BitVec 32)
  | raw (j t : Nat)
  | w (j t : Nat)
  | kw (j t : Nat)
  | p1 (j t : Nat)
  | p2 (j t : Nat)
  | a (j t : Nat)
  | e (j t : Nat)
  | o (j n : Nat)
  | sw (j n : Nat)
  deriving DecidableEq

/-- The chaining value and the message block of each transform. -/
structure Sem where
  H : Nat → St 32
  M : Nat → Nat → BitVec 32

def Sem.W (S : Sem) (j t : Nat) : BitVec 32 := Fips.W Fips.fns256 (S.M j) t
def Sem.R (S : Sem) (j t : Nat) : St 32 := Fips.rounds Fips.fns256 Fips.K256 (S.M j) (S.H j) t
def Sem.O (S : Sem) (j : Nat) : St 32 := Fips.compress Fips.fns256 Fips.K256 64 (S.H j) (S.M j)
/-- Register a after `t - 3` rounds; for small `t`, what later rounds know as the earlier values. -/
def Sem.A (S : Sem) (j t : Nat) : BitVec 32 := if t ≤ 3 then (S.H j).get (3 - t) else (S.R j (t - 3)).a
def Sem.E (S : Sem) (j t : Nat) : BitVec 32 := if t ≤ 3 then (S.H j).get (7 - t) else (S.R j (t - 3)).e

def Sem.val (S : Sem) : Atom → BitVec 32
  | .c x => x
  | .raw j t => bswap (S.M j t)
  | .w j t => S.W j t
  | .kw j t => Fips.K256 t + S.W j t
  | .p1 j t => S.W j t + Fips.fns256.sigma0 (S.W j (t + 1))
  | .p2 j t => S.W j t + Fips.fns256.sigma0 (S.W j (t + 1)) + S.W j (t + 9)
  | .a j t => S.A j t
  | .e j t => S.E j t
  | .o j n => (S.O j).get n
  | .sw j n => bswap ((S.O j).get n)

theorem get_cases (P : Nat → Prop) (i : Nat) (hi : i < 8) (h0 : P 0) (h1 : P 1) (h2 : P 2) (h3 : P 3) (h4 : P 4) (h5 : P 5) (h6 : P 6)
    (h7 : P 7) : P i := by
  have h : i = 0 ∨ i = 1 ∨ i = 2 ∨ i = 3 ∨ i = 4 ∨ i = 5 ∨ i = 6 ∨ i = 7 := by omega
  rcases h with h | h | h | h | h | h | h | h <;> subst h <;> assumption

theorem Sem.R_succ (S : Sem) (j t : Nat) : S.R j (t + 1) = Fips.round Fips.fns256 (Fips.K256 t) (S.W j t) (S.R j t) := rfl

/-- The registers after `t` rounds are the values of A and E of the last four. -/
theorem Sem.regs (S : Sem) (j t : Nat) :
    S.R j t = ⟨S.A j (t + 3), S.A j (t + 2), S.A j (t + 1), S.A j t, S.E j (t + 3), S.E j (t + 2), S.E j (t + 1), S.E j t⟩ := by
  induction t with
  | zero => rfl
  | succ t ih =>
    have ha : S.A j (t + 1 + 3) = (S.R j (t + 1)).a := by
      unfold Sem.A; rw [if_neg (by omega), show t + 1 + 3 - 3 = t + 1 by omega]
    have he : S.E j (t + 1 + 3) = (S.R j (t + 1)).e := by
      unfold Sem.E; rw [if_neg (by omega), show t + 1 + 3 - 3 = t + 1 by omega]
    rw [ha, he]
    have hb : (S.R j (t + 1)).b = S.A j (t + 1 + 2) := by rw [S.R_succ, ih]; rfl
    have hc : (S.R j (t + 1)).c = S.A j (t + 1 + 1) := by rw [S.R_succ, ih]; rfl
    have hd : (S.R j (t + 1)).d = S.A j (t + 1) := by rw [S.R_succ, ih]; rfl
    have hf : (S.R j (t + 1)).f = S.E j (t + 1 + 2) := by rw [S.R_succ, ih]; rfl
    have hg : (S.R j (t + 1)).g = S.E j (t + 1 + 1) := by rw [S.R_succ, ih]; rfl
    have hh : (S.R j (t + 1)).h = S.E j (t + 1) := by rw [S.R_succ, ih]; rfl
    rw [← hb, ← hc, ← hd, ← hf, ← hg, ← hh]

theorem roundK_eq (s : St 32) (k x : BitVec 32) : roundK s (k + x) = Fips.round Fips.fns256 k x s := by
  unfold roundK Fips.round
  simp only []
  rw [show s.h + Fips.fns256.Sigma1 s.e + Fips.Ch s.e s.f s.g + (k + x) = s.h + Fips.fns256.Sigma1 s.e + Fips.Ch s.e s.f s.g + k + x by ac_rfl]

theorem Sem.roundK (S : Sem) (j t : Nat) : ShaNi.roundK (S.R j t) (S.val (.kw j t)) = S.R j (t + 1) := by
  rw [S.R_succ]; exact roundK_eq _ _ _

theorem Sem.W_rec (S : Sem) (j t : Nat) : S.W j (t + 16) =
    Fips.fns256.sigma1 (S.W j (t + 14)) + S.W j (t + 9) + Fips.fns256.sigma0 (S.W j (t + 1)) + S.W j t := by
  unfold Sem.W
  rw [Fips.W, if_neg (by omega)]
  rfl

/-- The last value of the register that word `n` of the result is made from, and the first. -/
def fin (j n : Nat) : Atom := if n < 4 then .a j (67 - n) else .e j (71 - n)
def ini (j n : Nat) : Atom := if n < 4 then .a j (3 - n) else .e j (7 - n)

theorem Sem.O_eq (S : Sem) (j n : Nat) (hn : n < 8) : S.val (.o j n) = S.val (ini j n) + S.val (fin j n) := by
  have h : S.O j = (S.H j).add (S.R j 64) := rfl
  have hr := S.regs j 64
  change (S.O j).get n = _
  rw [h, Simd.get_add _ _ _ hn, hr]
  exact get_cases (fun n => (S.H j).get n + (St.mk (S.A j (64 + 3)) (S.A j (64 + 2)) (S.A j (64 + 1)) (S.A j 64) (S.E j (64 + 3)) (S.E j (64 + 2))
    (S.E j (64 + 1)) (S.E j 64)).get n = S.val (ini j n) + S.val (fin j n)) n hn rfl rfl rfl rfl rfl rfl rfl rfl

/-! ## The checker -/

inductive Hint where
  | none
  | kw (j t : Nat)
  | p1 (j t : Nat)
  | p2 (j t : Nat)
  | w (j t : Nat)
  | out (j n0 n1 n2 n3 : Nat)
  | rnd (j t : Nat)

/-- The lanes of a variable; no lanes if nothing is known. -/
abbrev AV := List Atom

def lanes (f : Nat → Atom) : AV := [f 0, f 1, f 2, f 3]

def kTab (t : Nat) : BitVec 32 := K.getD t 0

variable (nf : Atom → Atom)

def pairOk (x y a b : Atom) : Bool := (x = a && y = b) || (x = b && y = a)

def addOk (z x y : Atom) : Bool :=
  match z with
  | .kw j t => decide (t < 64) && pairOk x y (nf (.w j t)) (.c (kTab t))
  | .p2 j t => pairOk x y (nf (.p1 j t)) (nf (.w j (t + 9)))
  | .o j n => decide (n < 8) && pairOk x y (nf (fin j n)) (nf (ini j n))
  | _ => false

/-- The result an addition is claimed to have. -/
def claim : Hint → Option AV
  | .kw j t => some [.kw j t, .kw j (t + 1), .kw j (t + 2), .kw j (t + 3)]
  | .p2 j t => some [.p2 j t, .p2 j (t + 1), .p2 j (t + 2), .p2 j (t + 3)]
  | .out j n0 n1 n2 n3 => some [.o j n0, .o j n1, .o j n2, .o j n3]
  | _ => none

def all3 (p : Atom → Atom → Atom → Bool) : AV → AV → AV → Bool
  | z :: zs, x :: xs, y :: ys => p z x y && all3 p zs xs ys
  | [], [], [] => true
  | _, _, _ => false

def swapA : Atom → Option Atom
  | .raw j t => if t < 16 then some (nf (.w j t)) else none
  | .o j n => some (.sw j n)
  | _ => none

def swapAll : AV → Option AV
  | [] => some []
  | x :: xs => match swapA nf x, swapAll xs with
    | some y, some ys => some (y :: ys)
    | _, _ => none

/-- Lane numbers of a byte-wise shift that moves whole lanes. -/
def alignA (x y : AV) (n : Nat) : Option AV :=
  if n % 4 = 0 ∧ n ≤ 16 ∧ x.length = 4 ∧ y.length = 4 then some ((y ++ x).drop (n / 4) |>.take 4) else none

def blendA (imm : Nat) : Nat → AV → AV → Option AV
  | l, x :: xs, y :: ys =>
    if imm.testBit (2 * l) = imm.testBit (2 * l + 1) then
      match blendA imm (l + 1) xs ys with
      | some zs => some ((if imm.testBit (2 * l) then y else x) :: zs)
      | none => none
    else none
  | _, [], [] => some []
  | _, _, _ => none

def maskA : AV := [.c 0x00010203#32, .c 0x04050607#32, .c 0x08090a0b#32, .c 0x0c0d0e0f#32]

def absE (tr : Nat → Nat) (env : List AV) (h : Hint) : Expr → Option AV
  | .v r => some (env.getD r [])
  | .tbl t off => some [.c (t.getD off 0), .c (t.getD (off + 1) 0), .c (t.getD (off + 2) 0), .c (t.getD (off + 3) 0)]
  | .set64 hi lo => some [.c (lo.setWidth 32), .c ((lo >>> 32).setWidth 32), .c (hi.setWidth 32), .c ((hi >>> 32).setWidth 32)]
  | .inp i off => if off % 4 = 0 ∧ off ≤ 48 then
      some [.raw (tr i) (off / 4), .raw (tr i) (off / 4 + 1), .raw (tr i) (off / 4 + 2), .raw (tr i) (off / 4 + 3)] else none
  | .st off => match off with
    | 0 => some [.a 0 3, .a 0 2, .a 0 1, .a 0 0]
    | 4 => some [.e 0 3, .e 0 2, .e 0 1, .e 0 0]
    | _ => none
  | .shuf32 x imm => match absE tr env .none x with
    | some [x0, x1, x2, x3] =>
      let g := fun i => match i with | 0 => x0 | 1 => x1 | 2 => x2 | _ => x3
      some [g (imm % 4), g (imm / 4 % 4), g (imm / 16 % 4), g (imm / 64 % 4)]
    | _ => none
  | .alignr x y n => match absE tr env .none x, absE tr env .none y with
    | some xs, some ys => alignA xs ys n
    | _, _ => none
  | .blend x y imm => match absE tr env .none x, absE tr env .none y with
    | some xs, some ys => blendA imm 0 xs ys
    | _, _ => none
  | .shuf8 x m => match absE tr env .none x, absE tr env .none m with
    | some xs, some ms => if ms = maskA then swapAll nf xs else none
    | _, _ => none
  | .rev32 x => match absE tr env .none x with
    | some xs => swapAll nf xs
    | none => none
  | .add x y => match absE tr env .none x, absE tr env .none y, claim h with
    | some xs, some ys, some zs => if all3 (addOk nf) zs xs ys then some (zs.map nf) else none
    | _, _, _ => none
  | .msg1 x y => msg1A h (absE tr env .none x) (absE tr env .none y)
  | .su0 x y => msg1A h (absE tr env .none x) (absE tr env .none y)
  | .msg2 x y => match h, absE tr env .none x, absE tr env .none y with
    | .w j t, some xs, some [_, _, y2, y3] =>
      if xs = [nf (.p2 j t), nf (.p2 j (t + 1)), nf (.p2 j (t + 2)), nf (.p2 j (t + 3))] ∧ y2 = nf (.w j (t + 14)) ∧ y3 = nf (.w j (t + 15)) then
        some [nf (.w j (t + 16)), nf (.w j (t + 17)), nf (.w j (t + 18)), nf (.w j (t + 19))] else none
    | _, _, _ => none
  | .su1 x y z => match h, absE tr env .none x, absE tr env .none y, absE tr env .none z with
    | .w j t, some xs, some [_, y1, y2, y3], some [z0, _, z2, z3] =>
      if xs = [nf (.p1 j t), nf (.p1 j (t + 1)), nf (.p1 j (t + 2)), nf (.p1 j (t + 3))] ∧ y1 = nf (.w j (t + 9)) ∧ y2 = nf (.w j (t + 10)) ∧
          y3 = nf (.w j (t + 11)) ∧ z0 = nf (.w j (t + 12)) ∧ z2 = nf (.w j (t + 14)) ∧ z3 = nf (.w j (t + 15)) then
        some [nf (.w j (t + 16)), nf (.w j (t + 17)), nf (.w j (t + 18)), nf (.w j (t + 19))] else none
    | _, _, _, _ => none
  | .rnds2 x y z => match h, absE tr env .none x, absE tr env .none y, absE tr env .none z with
    | .rnd j t, some xs, some ys, some (z0 :: z1 :: _) =>
      if xs = [nf (.e j t), nf (.e j (t + 1)), nf (.a j t), nf (.a j (t + 1))] ∧
          ys = [nf (.e j (t + 2)), nf (.e j (t + 3)), nf (.a j (t + 2)), nf (.a j (t + 3))] ∧ z0 = nf (.kw j t) ∧ z1 = nf (.kw j (t + 1)) then
        some [nf (.e j (t + 4)), nf (.e j (t + 5)), nf (.a j (t + 4)), nf (.a j (t + 5))] else none
    | _, _, _, _ => none
  | .h x y z => hA h (absE tr env .none x) (absE tr env .none y) (absE tr env .none z) .a
  | .h2 x y z => hA h (absE tr env .none y) (absE tr env .none x) (absE tr env .none z) .e
where
  msg1A (h : Hint) (x y : Option AV) : Option AV := match h, x, y with
    | .p1 j t, some xs, some (y0 :: _) =>
      if xs = [nf (.w j t), nf (.w j (t + 1)), nf (.w j (t + 2)), nf (.w j (t + 3))] ∧ y0 = nf (.w j (t + 4)) then
        some [nf (.p1 j t), nf (.p1 j (t + 1)), nf (.p1 j (t + 2)), nf (.p1 j (t + 3))] else none
    | _, _, _ => none
  hA (h : Hint) (x y z : Option AV) (f : Nat → Nat → Atom) : Option AV := match h, x, y, z with
    | .rnd j t, some xs, some ys, some zs =>
      if xs = [nf (.a j (t + 3)), nf (.a j (t + 2)), nf (.a j (t + 1)), nf (.a j t)] ∧
          ys = [nf (.e j (t + 3)), nf (.e j (t + 2)), nf (.e j (t + 1)), nf (.e j t)] ∧
          zs = [nf (.kw j t), nf (.kw j (t + 1)), nf (.kw j (t + 2)), nf (.kw j (t + 3))] then
        some [nf (f j (t + 7)), nf (f j (t + 6)), nf (f j (t + 5)), nf (f j (t + 4))] else none
    | _, _, _, _ => none

structure AMach where
  env : List AV
  stores : List (Dst × AV)
  deriving DecidableEq

def absS (tr : Nat → Nat) (s : AMach) (p : Stmt × Hint) : Option AMach :=
  match p.1 with
  | .set r e => if r < s.env.length then (absE nf tr s.env p.2 e).map fun v => { s with env := s.env.set r v } else none
  | .out i off e => (absE nf tr s.env p.2 e).map fun v => { s with stores := s.stores ++ [(.out i off, v)] }
  | .stSt off e => (absE nf tr s.env p.2 e).map fun v => { s with stores := s.stores ++ [(.st off, v)] }

def absRun (tr : Nat → Nat) : List (Stmt × Hint) → AMach → Option AMach
  | [], s => some s
  | p :: ps, s => (absS nf tr s p).bind (absRun tr ps)

/-! ## Soundness -/

/-- The lanes hold what the atoms say. -/
def Rel (S : Sem) (v : Lanes) (av : AV) : Prop := ∀ l, l < 4 → ∀ x, av[l]? = some x → v l = S.val x

theorem rel4 (S : Sem) (v : Lanes) (x0 x1 x2 x3 : Atom) :
    Rel S v [x0, x1, x2, x3] ↔ v 0 = S.val x0 ∧ v 1 = S.val x1 ∧ v 2 = S.val x2 ∧ v 3 = S.val x3 := by
  constructor
  · intro h
    exact ⟨h 0 (by omega) x0 rfl, h 1 (by omega) x1 rfl, h 2 (by omega) x2 rfl, h 3 (by omega) x3 rfl⟩
  · rintro ⟨h0, h1, h2, h3⟩ l hl x hx
    have h : l = 0 ∨ l = 1 ∨ l = 2 ∨ l = 3 := by omega
    rcases h with h | h | h | h <;> subst h <;> cases hx <;> assumption

theorem ofBytes_byteOf (x : BitVec 32) : ofBytes (byteOf x) = x := by
  apply BitVec.eq_of_toNat_eq
  have app : ∀ {n : Nat} (y : BitVec n) (z : BitVec 8), (y ++ z).toNat = y.toNat * 256 + z.toNat := by
    intro n y z
    rw [BitVec.toNat_append, ← Nat.shiftLeft_add_eq_or_of_lt z.isLt, Nat.shiftLeft_eq]
  unfold ofBytes
  simp only [app, Simd.byteOf_toNat]
  obtain ⟨a, b, c, d, ha, hb, hc, hd, hx⟩ := Simd.digits4 x.toNat x.isLt
  rw [hx]
  have h0 : (a + 256 * b + 65536 * c + 16777216 * d) / 2 ^ (8 * 0) % 256 = a := by rw [Nat.mul_zero, Nat.pow_zero]; omega
  have h1 : (a + 256 * b + 65536 * c + 16777216 * d) / 2 ^ (8 * 1) % 256 = b := by rw [show 2 ^ (8 * 1) = 256 from rfl]; omega
  have h2 : (a + 256 * b + 65536 * c + 16777216 * d) / 2 ^ (8 * 2) % 256 = c := by rw [show 2 ^ (8 * 2) = 65536 from rfl]; omega
  have h3 : (a + 256 * b + 65536 * c + 16777216 * d) / 2 ^ (8 * 3) % 256 = d := by rw [show 2 ^ (8 * 3) = 16777216 from rfl]; omega
  rw [h0, h1, h2, h3]
  omega

theorem ofBytes_congr (f g : Nat → BitVec 8) (h : ∀ i, i < 4 → f i = g i) : ofBytes f = ofBytes g := by
  unfold ofBytes
  rw [h 0 (by omega), h 1 (by omega), h 2 (by omega), h 3 (by omega)]

theorem bswap_bswap (x : BitVec 32) : bswap (bswap x) = x := by
  apply BitVec.eq_of_toNat_eq
  obtain ⟨a, b, c, d, ha, hb, hc, hd, hx⟩ := Simd.digits4 x.toNat x.isLt
  rw [Simd.bswap_digits _ d c b a hd hc hb ha (Simd.bswap_digits x a b c d ha hb hc hd hx), hx]

theorem kTab_eq : ∀ t, t < 64 → kTab t = Fips.K256 t := by decide +kernel

theorem shuf32_rel (S : Sem) (v : Lanes) (x0 x1 x2 x3 : Atom) (imm : Nat) (hv : Rel S v [x0, x1, x2, x3]) :
    Rel S (shuf32 v imm) [(fun i => match i with | 0 => x0 | 1 => x1 | 2 => x2 | _ => x3) (imm % 4),
      (fun i => match i with | 0 => x0 | 1 => x1 | 2 => x2 | _ => x3) (imm / 4 % 4),
      (fun i => match i with | 0 => x0 | 1 => x1 | 2 => x2 | _ => x3) (imm / 16 % 4),
      (fun i => match i with | 0 => x0 | 1 => x1 | 2 => x2 | _ => x3) (imm / 64 % 4)] := by
  rw [rel4] at hv ⊢
  obtain ⟨h0, h1, h2, h3⟩ := hv
  have key : ∀ i, i < 4 → v i = S.val ((fun i : Nat => match i with | 0 => x0 | 1 => x1 | 2 => x2 | _ => x3) i) := by
    intro i hi
    have h : i = 0 ∨ i = 1 ∨ i = 2 ∨ i = 3 := by omega
    rcases h with h | h | h | h <;> subst h <;> assumption
  unfold shuf32
  refine ⟨?_, ?_, ?_, ?_⟩
  · rw [show (4 : Nat) ^ 0 = 1 from rfl, Nat.div_one]; exact key _ (Nat.mod_lt _ (by omega))
  · rw [show (4 : Nat) ^ 1 = 4 from rfl]; exact key _ (Nat.mod_lt _ (by omega))
  · rw [show (4 : Nat) ^ 2 = 16 from rfl]; exact key _ (Nat.mod_lt _ (by omega))
  · rw [show (4 : Nat) ^ 3 = 64 from rfl]; exact key _ (Nat.mod_lt _ (by omega))

theorem alignr_lane (x y : Lanes) (n l : Nat) (hl : l < 4) (h4 : n % 4 = 0) (hn : n ≤ 16) :
    alignr x y n l = if l + n / 4 < 4 then y (l + n / 4) else x (l + n / 4 - 4) := by
  unfold alignr
  by_cases h : l + n / 4 < 4
  · rw [if_pos h, ← ofBytes_byteOf (y (l + n / 4))]
    apply ofBytes_congr
    intro i hi
    simp only []
    rw [if_pos (by omega), show (4 * l + i + n) / 4 = l + n / 4 by omega, show (4 * l + i + n) % 4 = i by omega]
  · rw [if_neg h, ← ofBytes_byteOf (x (l + n / 4 - 4))]
    apply ofBytes_congr
    intro i hi
    simp only []
    rw [if_neg (by omega), if_pos (by omega), show (4 * l + i + n - 16) / 4 = l + n / 4 - 4 by omega,
      show (4 * l + i + n - 16) % 4 = i by omega]

theorem alignr_rel (S : Sem) (v u : Lanes) (xs ys zs : AV) (n : Nat) (hx : Rel S v xs) (hy : Rel S u ys) (h : alignA xs ys n = some zs) :
    Rel S (alignr v u n) zs := by
  unfold alignA at h
  split at h
  · next hc =>
    cases h
    intro l hl x hz
    rw [alignr_lane v u n l hl hc.1 hc.2.1]
    rw [List.getElem?_take, if_pos hl, List.getElem?_drop] at hz
    by_cases hlt : l + n / 4 < 4
    · rw [if_pos hlt]
      rw [List.getElem?_append_left (by omega), Nat.add_comm] at hz
      exact hy _ hlt x hz
    · rw [if_neg hlt]
      rw [List.getElem?_append_right (by omega), hc.2.2.2, Nat.add_comm] at hz
      exact hx _ (by omega) x hz
  · cases h

theorem half_append (x : BitVec 32) : halfOf x 1 ++ halfOf x 0 = x := by
  apply BitVec.eq_of_toNat_eq
  rw [BitVec.toNat_append, ← Nat.shiftLeft_add_eq_or_of_lt (halfOf x 0).isLt, Nat.shiftLeft_eq]
  unfold halfOf
  rw [BitVec.toNat_setWidth, BitVec.toNat_setWidth, BitVec.toNat_ushiftRight, BitVec.toNat_ushiftRight, Nat.shiftRight_eq_div_pow,
    Nat.shiftRight_eq_div_pow, Nat.mul_zero, Nat.pow_zero, Nat.div_one, show 2 ^ (16 * 1) = 65536 from rfl]
  have := x.isLt
  omega

theorem blend_rel' (S : Sem) (v u : Lanes) (imm : Nat) (xs : AV) : ∀ (k : Nat) (ys zs : AV),
    (∀ i, k + i < 4 → ∀ x, xs[i]? = some x → v (k + i) = S.val x) → (∀ i, k + i < 4 → ∀ x, ys[i]? = some x → u (k + i) = S.val x) →
    blendA imm k xs ys = some zs → ∀ i, k + i < 4 → ∀ x, zs[i]? = some x → blend v u imm (k + i) = S.val x := by
  induction xs with
  | nil =>
    intro k ys zs _ _ h i hi x hz
    cases ys with
    | nil => simp only [blendA, Option.some.injEq] at h; subst h; cases hz
    | cons y ys => simp [blendA] at h
  | cons a xs ih =>
    intro k ys zs hx hy h i hi x hz
    cases ys with
    | nil => simp [blendA] at h
    | cons b ys =>
      unfold blendA at h
      split at h
      · next hb =>
        split at h
        · next ws hws =>
          cases h
          cases i with
          | zero =>
            simp only [List.getElem?_cons_zero, Option.some.injEq] at hz
            subst hz
            rw [Nat.add_zero] at hi ⊢
            unfold blend
            simp only [Nat.add_zero, ← hb]
            have h1 := hx 0 hi a rfl
            have h2 := hy 0 hi b rfl
            rw [Nat.add_zero] at h1 h2
            cases imm.testBit (2 * k) with
            | true => simp only [if_true]; rw [half_append, h2]
            | false => simp only [Bool.false_eq_true, if_false]; rw [half_append, h1]
          | succ i =>
            rw [List.getElem?_cons_succ] at hz
            have := ih (k + 1) ys ws (fun i hi x hx' => by
                have := hx (i + 1) (by omega) x (by rw [List.getElem?_cons_succ]; exact hx')
                rwa [show k + (i + 1) = k + 1 + i by omega] at this)
              (fun i hi x hx' => by
                have := hy (i + 1) (by omega) x (by rw [List.getElem?_cons_succ]; exact hx')
                rwa [show k + (i + 1) = k + 1 + i by omega] at this) hws i (by omega) x hz
            rwa [show k + 1 + i = k + (i + 1) by omega] at this
        · cases h
      · cases h

theorem blend_rel (S : Sem) (v u : Lanes) (xs ys zs : AV) (imm : Nat) (hx : Rel S v xs) (hy : Rel S u ys)
    (h : blendA imm 0 xs ys = some zs) : Rel S (blend v u imm) zs := by
  intro l hl x hz
  have := blend_rel' S v u imm xs 0 ys zs (fun i hi x hx' => by rw [Nat.zero_add]; exact hx i (by omega) x hx')
    (fun i hi x hx' => by rw [Nat.zero_add]; exact hy i (by omega) x hx') h l (by omega) x hz
  rwa [Nat.zero_add] at this

/-- What the checker is told about the machine. -/
structure Good (S : Sem) (tr : Nat → Nat) (m : Mem) : Prop where
  nf : ∀ x, S.val (nf x) = S.val x
  inp : ∀ i t, t < 16 → BitVec.ofNat 32 (leNat (((m.inp i).drop (4 * t)).take 4)) = bswap (S.M (tr i) t)
  st : S.H 0 = m.st

variable {nf}

theorem swapA_val (S : Sem) (hn : ∀ x, S.val (nf x) = S.val x) (x y : Atom) (h : swapA nf x = some y) : bswap (S.val x) = S.val y := by
  cases x with
  | raw j t =>
    simp only [swapA] at h
    split at h
    · next ht =>
      cases h
      rw [hn]
      change bswap (bswap (S.M j t)) = Fips.W _ (S.M j) t
      rw [bswap_bswap, Sha2.W_lt _ _ _ ht]
    · cases h
  | o j n => cases h; rfl
  | _ => cases h

theorem swapAll_rel (S : Sem) (hn : ∀ x, S.val (nf x) = S.val x) (v : Lanes) (xs : AV) : ∀ (k : Nat) (zs : AV),
    (∀ i, k + i < 4 → ∀ x, xs[i]? = some x → v (k + i) = S.val x) → swapAll nf xs = some zs →
    ∀ i, k + i < 4 → ∀ x, zs[i]? = some x → bswap (v (k + i)) = S.val x := by
  induction xs with
  | nil =>
    intro k zs _ h i hi x hz
    simp only [swapAll, Option.some.injEq] at h; subst h; cases hz
  | cons a xs ih =>
    intro k zs hx h i hi x hz
    unfold swapAll at h
    split at h
    · next y ys hy hys =>
      cases h
      cases i with
      | zero =>
        simp only [List.getElem?_cons_zero, Option.some.injEq] at hz
        subst hz
        rw [hx 0 hi a rfl]
        exact swapA_val S hn a y hy
      | succ i =>
        rw [List.getElem?_cons_succ] at hz
        have := ih (k + 1) ys (fun i hi x hx' => by
            have := hx (i + 1) (by omega) x (by rw [List.getElem?_cons_succ]; exact hx')
            rwa [show k + (i + 1) = k + 1 + i by omega] at this) hys i (by omega) x hz
        rwa [show k + 1 + i = k + (i + 1) by omega] at this
    · cases h

theorem swap_rel (S : Sem) (hn : ∀ x, S.val (nf x) = S.val x) (v u : Lanes) (xs zs : AV) (hx : Rel S v xs)
    (h : swapAll nf xs = some zs) (hu : ∀ l, l < 4 → u l = bswap (v l)) : Rel S u zs := by
  intro l hl x hz
  have := swapAll_rel S hn v xs 0 zs (fun i hi x hx' => by rw [Nat.zero_add]; exact hx i (by omega) x hx') h l (by omega) x hz
  rw [Nat.zero_add] at this
  rw [hu l hl, this]

theorem shuf8_lane (S : Sem) (x m : Lanes) (hm : Rel S m maskA) (l : Nat) (hl : l < 4) : shuffleEpi8 x m l = bswap (x l) := by
  have hml : m l = Simd.mask 1 l := by
    obtain ⟨h0, h1, h2, h3⟩ := (rel4 S m _ _ _ _).1 hm
    have h : l = 0 ∨ l = 1 ∨ l = 2 ∨ l = 3 := by omega
    rcases h with h | h | h | h <;> subst h
    · rw [h0]; simp only [Sem.val]; decide
    · rw [h1]; simp only [Sem.val]; decide
    · rw [h2]; simp only [Sem.val]; decide
    · rw [h3]; simp only [Sem.val]; decide
  rw [← Simd.shuffle_mask 1 l (by omega) (by omega) x]
  unfold shuffleEpi8
  rw [hml]

theorem pairOk_val (S : Sem) (x y a b : Atom) (h : pairOk x y a b = true) : S.val x + S.val y = S.val a + S.val b := by
  unfold pairOk at h
  simp only [Bool.or_eq_true, Bool.and_eq_true, decide_eq_true_eq] at h
  rcases h with ⟨h1, h2⟩ | ⟨h1, h2⟩
  · rw [h1, h2]
  · rw [h1, h2, BitVec.add_comm]

theorem addOk_val (S : Sem) (hn : ∀ x, S.val (nf x) = S.val x) (z x y : Atom) (h : addOk nf z x y = true) :
    S.val x + S.val y = S.val (nf z) := by
  unfold addOk at h
  split at h
  · next j t =>
    simp only [Bool.and_eq_true, decide_eq_true_eq] at h
    rw [pairOk_val S _ _ _ _ h.2, hn, hn]
    change S.W j t + kTab t = Fips.K256 t + S.W j t
    rw [kTab_eq t h.1, BitVec.add_comm]
  · next j t =>
    rw [pairOk_val S _ _ _ _ h, hn, hn, hn]
    rfl
  · next j n =>
    simp only [Bool.and_eq_true, decide_eq_true_eq] at h
    rw [pairOk_val S _ _ _ _ h.2, hn, hn, hn, S.O_eq j n h.1, BitVec.add_comm]
  · cases h

theorem all3_rel (S : Sem) (hn : ∀ x, S.val (nf x) = S.val x) (v u : Lanes) (zs : AV) : ∀ (k : Nat) (xs ys : AV),
    (∀ i, k + i < 4 → ∀ x, xs[i]? = some x → v (k + i) = S.val x) → (∀ i, k + i < 4 → ∀ x, ys[i]? = some x → u (k + i) = S.val x) →
    all3 (addOk nf) zs xs ys = true → ∀ i, k + i < 4 → ∀ x, (zs.map nf)[i]? = some x → v (k + i) + u (k + i) = S.val x := by
  induction zs with
  | nil => intro k xs ys _ _ _ i _ x hz; cases hz
  | cons a zs ih =>
    intro k xs ys hx hy h i hi x hz
    cases xs with
    | nil => simp [all3] at h
    | cons b xs =>
      cases ys with
      | nil => simp [all3] at h
      | cons c ys =>
        simp only [all3, Bool.and_eq_true] at h
        cases i with
        | zero =>
          simp only [List.map_cons, List.getElem?_cons_zero, Option.some.injEq] at hz
          subst hz
          rw [hx 0 hi b rfl, hy 0 hi c rfl]
          exact addOk_val S hn a b c h.1
        | succ i =>
          rw [List.map_cons, List.getElem?_cons_succ] at hz
          have := ih (k + 1) xs ys (fun i hi x hx' => by
              have := hx (i + 1) (by omega) x (by rw [List.getElem?_cons_succ]; exact hx')
              rwa [show k + (i + 1) = k + 1 + i by omega] at this)
            (fun i hi x hx' => by
              have := hy (i + 1) (by omega) x (by rw [List.getElem?_cons_succ]; exact hx')
              rwa [show k + (i + 1) = k + 1 + i by omega] at this) h.2 i (by omega) x hz
          rwa [show k + 1 + i = k + (i + 1) by omega] at this

theorem msg1_rel (S : Sem) (hn : ∀ x, S.val (nf x) = S.val x) (v u : Lanes) (h : Hint) (ox oy : Option AV) (zs : AV)
    (hx : ∀ xs, ox = some xs → Rel S v xs) (hy : ∀ ys, oy = some ys → Rel S u ys) (hz : absE.msg1A nf h ox oy = some zs) :
    Rel S (sha256msg1 v u) zs := by
  unfold absE.msg1A at hz
  split at hz
  · next j t xs y0 ys =>
    split at hz
    · next hc =>
      cases hz
      obtain ⟨h1, h2⟩ := hc
      subst h1 h2
      obtain ⟨x0, x1, x2, x3⟩ := (rel4 S v _ _ _ _).1 (hx _ rfl)
      have y0 := hy _ rfl 0 (by omega) _ rfl
      rw [hn] at x0 x1 x2 x3 y0
      rw [rel4, hn, hn, hn, hn]
      unfold sha256msg1
      simp only [vec, x0, x1, x2, x3, y0]
      exact ⟨rfl, rfl, rfl, rfl⟩
    · cases hz
  · cases hz

theorem rnds2_val (S : Sem) (v u z : Lanes) (j t : Nat) (x0 : v 0 = S.E j t) (x1 : v 1 = S.E j (t + 1)) (x2 : v 2 = S.A j t) (x3 : v 3 = S.A j (t + 1))
    (y0 : u 0 = S.E j (t + 2)) (y1 : u 1 = S.E j (t + 3)) (y2 : u 2 = S.A j (t + 2)) (y3 : u 3 = S.A j (t + 3))
    (z0 : z 0 = S.val (.kw j t)) (z1 : z 1 = S.val (.kw j (t + 1))) :
    rnds2 v u z = vec (S.E j (t + 4)) (S.E j (t + 5)) (S.A j (t + 4)) (S.A j (t + 5)) := by
  unfold rnds2
  rw [x0, x1, x2, x3, y0, y1, y2, y3, z0, z1, ← S.regs j t, S.roundK, S.roundK, S.regs j (t + 1 + 1)]

theorem rounds4_val (S : Sem) (v u z : Lanes) (j t : Nat) (x0 : v 0 = S.A j (t + 3)) (x1 : v 1 = S.A j (t + 2)) (x2 : v 2 = S.A j (t + 1)) (x3 : v 3 = S.A j t)
    (y0 : u 0 = S.E j (t + 3)) (y1 : u 1 = S.E j (t + 2)) (y2 : u 2 = S.E j (t + 1)) (y3 : u 3 = S.E j t)
    (z0 : z 0 = S.val (.kw j t)) (z1 : z 1 = S.val (.kw j (t + 1))) (z2 : z 2 = S.val (.kw j (t + 2))) (z3 : z 3 = S.val (.kw j (t + 3))) :
    rounds4 v u z = S.R j (t + 4) := by
  unfold rounds4
  rw [x0, x1, x2, x3, y0, y1, y2, y3, z0, z1, z2, z3, ← S.regs j t, S.roundK, S.roundK, S.roundK, S.roundK]

theorem hA_rel (S : Sem) (hn : ∀ x, S.val (nf x) = S.val x) (v u z : Lanes) (h : Hint) (ox oy oz : Option AV) (zs : AV)
    (hx : ∀ xs, ox = some xs → Rel S v xs) (hy : ∀ ys, oy = some ys → Rel S u ys) (hw : ∀ ys, oz = some ys → Rel S z ys) (f : Nat → Nat → Atom)
    (hz : absE.hA nf h ox oy oz f = some zs) :
    ∃ j t, zs = [nf (f j (t + 7)), nf (f j (t + 6)), nf (f j (t + 5)), nf (f j (t + 4))] ∧ rounds4 v u z = S.R j (t + 4) := by
  unfold absE.hA at hz
  split at hz
  · next j t xs ys ws =>
    split at hz
    · next hc =>
      cases hz
      obtain ⟨h1, h2, h3⟩ := hc
      subst h1 h2 h3
      obtain ⟨x0, x1, x2, x3⟩ := (rel4 S v _ _ _ _).1 (hx _ rfl)
      obtain ⟨y0, y1, y2, y3⟩ := (rel4 S u _ _ _ _).1 (hy _ rfl)
      obtain ⟨z0, z1, z2, z3⟩ := (rel4 S z _ _ _ _).1 (hw _ rfl)
      rw [hn] at x0 x1 x2 x3 y0 y1 y2 y3 z0 z1 z2 z3
      exact ⟨j, t, rfl, rounds4_val S v u z j t x0 x1 x2 x3 y0 y1 y2 y3 z0 z1 z2 z3⟩
    · cases hz
  · cases hz

theorem absE_sound (S : Sem) (tr : Nat → Nat) (m : Mem) (G : Good nf S tr m) (env : Nat → Lanes) (aenv : List AV)
    (henv : ∀ r, Rel S (env r) (aenv.getD r [])) (e : Expr) : ∀ (h : Hint) (av : AV), absE nf tr aenv h e = some av → Rel S (e.eval m env) av := by
  have hn := G.nf
  induction e with
  | v r => intro h av ha; cases ha; exact henv r
  | tbl t off => intro h av ha; cases ha; rw [rel4]; exact ⟨rfl, rfl, rfl, rfl⟩
  | set64 hi lo => intro h av ha; cases ha; rw [rel4]; exact ⟨rfl, rfl, rfl, rfl⟩
  | inp i off =>
    intro h av ha
    unfold absE at ha
    split at ha
    · next hc =>
      cases ha
      rw [rel4]
      have key : ∀ l, l < 4 → (Expr.inp i off).eval m env l = S.val (.raw (tr i) (off / 4 + l)) := by
        intro l hl
        change BitVec.ofNat 32 (leNat (((m.inp i).drop (off + 4 * l)).take 4)) = bswap (S.M (tr i) (off / 4 + l))
        rw [← G.inp i (off / 4 + l) (by omega), show 4 * (off / 4 + l) = off + 4 * l by omega]
      exact ⟨key 0 (by omega), key 1 (by omega), key 2 (by omega), key 3 (by omega)⟩
    · cases ha
  | st off =>
    intro h av ha
    unfold absE at ha
    split at ha
    · cases ha; rw [rel4]
      simp only [Expr.eval, Sem.val, Sem.A, ← G.st]
      exact ⟨rfl, rfl, rfl, rfl⟩
    · cases ha; rw [rel4]
      simp only [Expr.eval, Sem.val, Sem.E, ← G.st]
      exact ⟨rfl, rfl, rfl, rfl⟩
    · cases ha
  | shuf32 x imm ih =>
    intro h av ha
    unfold absE at ha
    split at ha
    · next x0 x1 x2 x3 hx => cases ha; exact shuf32_rel S _ x0 x1 x2 x3 imm (ih _ _ hx)
    · cases ha
  | alignr x y n ihx ihy =>
    intro h av ha
    unfold absE at ha
    split at ha
    · next xs ys hx hy => exact alignr_rel S _ _ xs ys av n (ihx _ _ hx) (ihy _ _ hy) ha
    · cases ha
  | blend x y imm ihx ihy =>
    intro h av ha
    unfold absE at ha
    split at ha
    · next xs ys hx hy => exact blend_rel S _ _ xs ys av imm (ihx _ _ hx) (ihy _ _ hy) ha
    · cases ha
  | shuf8 x y ihx ihy =>
    intro h av ha
    unfold absE at ha
    split at ha
    · next xs ys hx hy =>
      split at ha
      · next hm =>
        subst hm
        exact swap_rel S hn _ _ xs av (ihx _ _ hx) ha (fun l hl => shuf8_lane S _ _ (ihy _ _ hy) l hl)
      · cases ha
    · cases ha
  | rev32 x ih =>
    intro h av ha
    unfold absE at ha
    split at ha
    · next xs hx => exact swap_rel S hn _ _ xs av (ih _ _ hx) ha (fun l hl => rfl)
    · cases ha
  | add x y ihx ihy =>
    intro h av ha
    unfold absE at ha
    split at ha
    · next xs ys zs hx hy hz =>
      split at ha
      · next hc =>
        cases ha
        intro l hl z hz'
        have := all3_rel S hn (x.eval m env) (y.eval m env) zs 0 xs ys (fun i hi x hx' => by rw [Nat.zero_add]; exact ihx _ _ hx i (by omega) x hx')
          (fun i hi x hx' => by rw [Nat.zero_add]; exact ihy _ _ hy i (by omega) x hx') hc l (by omega) z hz'
        rw [Nat.zero_add] at this
        exact this
      · cases ha
    · cases ha
  | msg1 x y ihx ihy =>
    intro h av ha
    exact msg1_rel S hn _ _ h _ _ av (fun xs hx => ihx _ _ hx) (fun ys hy => ihy _ _ hy) ha
  | su0 x y ihx ihy =>
    intro h av ha
    exact msg1_rel S hn _ _ h _ _ av (fun xs hx => ihx _ _ hx) (fun ys hy => ihy _ _ hy) ha
  | msg2 x y ihx ihy =>
    intro h av ha
    unfold absE at ha
    split at ha
    · next j t xs a b y2 y3 hx hy =>
      split at ha
      · next hc =>
        cases ha
        obtain ⟨h1, h2, h3⟩ := hc
        subst h1 h2 h3
        obtain ⟨x0, x1, x2, x3⟩ := (rel4 S _ _ _ _ _).1 (ihx _ _ hx)
        obtain ⟨_, _, y2, y3⟩ := (rel4 S _ _ _ _ _).1 (ihy _ _ hy)
        rw [hn] at x0 x1 x2 x3 y2 y3
        rw [rel4, hn, hn, hn, hn]
        have e0 : (x.eval m env) 0 + Fips.fns256.sigma1 ((y.eval m env) 2) = S.W j (t + 16) := by
          rw [x0, y2, S.W_rec]; simp only [Sem.val]; ac_rfl
        have e1 : (x.eval m env) 1 + Fips.fns256.sigma1 ((y.eval m env) 3) = S.W j (t + 17) := by
          rw [x1, y3, show t + 17 = t + 1 + 16 by omega, S.W_rec j (t + 1)]; simp only [Sem.val, Nat.add_assoc]; ac_rfl
        have e2 : (x.eval m env) 2 + Fips.fns256.sigma1 (S.W j (t + 16)) = S.W j (t + 18) := by
          rw [x2, show t + 18 = t + 2 + 16 by omega, S.W_rec j (t + 2)]; simp only [Sem.val, Nat.add_assoc]; ac_rfl
        have e3 : (x.eval m env) 3 + Fips.fns256.sigma1 (S.W j (t + 17)) = S.W j (t + 19) := by
          rw [x3, show t + 19 = t + 3 + 16 by omega, S.W_rec j (t + 3)]; simp only [Sem.val, Nat.add_assoc]; ac_rfl
        simp only [Expr.eval, sha256msg2, vec, e0, e1, e2, e3]
        exact ⟨rfl, rfl, rfl, rfl⟩
      · cases ha
    · cases ha
  | su1 x y z ihx ihy ihz =>
    intro h av ha
    unfold absE at ha
    split at ha
    · next j t xs y0 y1 y2 y3 z0 z1 z2 z3 hx hy hz =>
      split at ha
      · next hc =>
        cases ha
        obtain ⟨h1, h2, h3, h4, h5, h6, h7⟩ := hc
        subst h1 h2 h3 h4 h5 h6 h7
        obtain ⟨x0, x1, x2, x3⟩ := (rel4 S _ _ _ _ _).1 (ihx _ _ hx)
        obtain ⟨_, y1, y2, y3⟩ := (rel4 S _ _ _ _ _).1 (ihy _ _ hy)
        obtain ⟨z0, _, z2, z3⟩ := (rel4 S _ _ _ _ _).1 (ihz _ _ hz)
        rw [hn] at x0 x1 x2 x3 y1 y2 y3 z0 z2 z3
        rw [rel4, hn, hn, hn, hn]
        have e0 : Fips.fns256.sigma1 ((z.eval m env) 2) + (x.eval m env) 0 + (y.eval m env) 1 = S.W j (t + 16) := by
          rw [x0, y1, z2, S.W_rec]; simp only [Sem.val]; ac_rfl
        have e1 : Fips.fns256.sigma1 ((z.eval m env) 3) + (x.eval m env) 1 + (y.eval m env) 2 = S.W j (t + 17) := by
          rw [x1, y2, z3, show t + 17 = t + 1 + 16 by omega, S.W_rec j (t + 1)]; simp only [Sem.val, Nat.add_assoc]; ac_rfl
        have e2 : Fips.fns256.sigma1 (S.W j (t + 16)) + (x.eval m env) 2 + (y.eval m env) 3 = S.W j (t + 18) := by
          rw [x2, y3, show t + 18 = t + 2 + 16 by omega, S.W_rec j (t + 2)]; simp only [Sem.val, Nat.add_assoc]; ac_rfl
        have e3 : Fips.fns256.sigma1 (S.W j (t + 17)) + (x.eval m env) 3 + (z.eval m env) 0 = S.W j (t + 19) := by
          rw [x3, z0, show t + 19 = t + 3 + 16 by omega, S.W_rec j (t + 3)]; simp only [Sem.val, Nat.add_assoc]; ac_rfl
        simp only [Expr.eval, su1, vec, e0, e1, e2, e3]
        exact ⟨rfl, rfl, rfl, rfl⟩
      · cases ha
    · cases ha
  | rnds2 x y z ihx ihy ihz =>
    intro h av ha
    unfold absE at ha
    split at ha
    · next j t xs ys z0 z1 zs hx hy hz =>
      split at ha
      · next hc =>
        cases ha
        obtain ⟨h1, h2, h3, h4⟩ := hc
        subst h1 h2 h3 h4
        obtain ⟨x0, x1, x2, x3⟩ := (rel4 S _ _ _ _ _).1 (ihx _ _ hx)
        obtain ⟨y0, y1, y2, y3⟩ := (rel4 S _ _ _ _ _).1 (ihy _ _ hy)
        have z0 := ihz _ _ hz 0 (by omega) _ rfl
        have z1 := ihz _ _ hz 1 (by omega) _ rfl
        rw [hn] at x0 x1 x2 x3 y0 y1 y2 y3 z0 z1
        rw [rel4, hn, hn, hn, hn]
        change ShaNi.rnds2 (x.eval m env) (y.eval m env) (z.eval m env) 0 = _ ∧ ShaNi.rnds2 (x.eval m env) (y.eval m env) (z.eval m env) 1 = _ ∧
          ShaNi.rnds2 (x.eval m env) (y.eval m env) (z.eval m env) 2 = _ ∧ ShaNi.rnds2 (x.eval m env) (y.eval m env) (z.eval m env) 3 = _
        rw [rnds2_val S _ _ _ j t x0 x1 x2 x3 y0 y1 y2 y3 z0 z1]
        exact ⟨rfl, rfl, rfl, rfl⟩
      · cases ha
    · cases ha
  | h x y z ihx ihy ihz =>
    intro h av ha
    obtain ⟨j, t, hav, hr⟩ := hA_rel S hn (x.eval m env) (y.eval m env) (z.eval m env) h _ _ _ av (fun _ hx => ihx _ _ hx) (fun _ hy => ihy _ _ hy)
      (fun _ hz => ihz _ _ hz) .a ha
    subst hav
    rw [rel4, hn, hn, hn, hn]
    simp only [Expr.eval, hash1, hr, S.regs j (t + 4), vec]
    exact ⟨rfl, rfl, rfl, rfl⟩
  | h2 x y z ihx ihy ihz =>
    intro h av ha
    obtain ⟨j, t, hav, hr⟩ := hA_rel S hn (y.eval m env) (x.eval m env) (z.eval m env) h _ _ _ av (fun _ hx => ihy _ _ hx) (fun _ hy => ihx _ _ hy)
      (fun _ hz => ihz _ _ hz) .e ha
    subst hav
    rw [rel4, hn, hn, hn, hn]
    simp only [Expr.eval, hash2, hr, S.regs j (t + 4), vec]
    exact ⟨rfl, rfl, rfl, rfl⟩

/-- The symbolic machine describes the machine. -/
structure MRel (S : Sem) (s : Mach) (a : AMach) : Prop where
  env : ∀ r, Rel S (s.env r) (a.env.getD r [])
  len : s.stores.length = a.stores.length
  dst : ∀ (i : Nat) (d : Dst) (v : Lanes), s.stores[i]? = some (d, v) → ∃ av, a.stores[i]? = some (d, av) ∧ Rel S v av

theorem MRel.store (S : Sem) (s : Mach) (a : AMach) (h : MRel S s a) (d : Dst) (v : Lanes) (av : AV) (hv : Rel S v av) :
    MRel S { s with stores := s.stores ++ [(d, v)] } { a with stores := a.stores ++ [(d, av)] } := by
  refine ⟨h.env, by simp [h.len], ?_⟩
  intro i d' v' hi
  simp only [List.getElem?_append] at hi ⊢
  rw [h.len] at hi
  split at hi
  · next hlt => rw [if_pos hlt]; exact h.dst i d' v' hi
  · next hlt =>
    rw [if_neg hlt]
    generalize i - a.stores.length = k at hi
    cases k with
    | zero => cases hi; exact ⟨av, rfl, hv⟩
    | succ k => cases hi

theorem absS_sound (S : Sem) (tr : Nat → Nat) (m : Mem) (G : Good nf S tr m) (s : Mach) (a a' : AMach) (h : MRel S s a) (p : Stmt × Hint)
    (ha : absS nf tr a p = some a') : MRel S (p.1.run m s) a' := by
  unfold absS at ha
  split at ha
  · next r e he =>
    split at ha
    · next hr =>
      rw [Option.map_eq_some_iff] at ha
      obtain ⟨av, h1, h2⟩ := ha
      subst h2
      rw [he]
      refine ⟨?_, h.len, h.dst⟩
      intro q
      change Rel S (Simd.assign s.env r (e.eval m s.env) q) _
      unfold Simd.assign
      rw [List.getD_eq_getElem?_getD, List.getElem?_set]
      by_cases hq : q = r
      · subst hq
        rw [if_pos rfl, if_pos rfl, if_pos hr]
        exact absE_sound S tr m G s.env a.env h.env e _ _ h1
      · rw [if_neg hq, if_neg (fun x => hq x.symm), ← List.getD_eq_getElem?_getD]
        exact h.env q
    · cases ha
  · next i off e he =>
    rw [Option.map_eq_some_iff] at ha
    obtain ⟨av, h1, h2⟩ := ha
    subst h2
    rw [he]
    exact MRel.store S s a h _ _ av (absE_sound S tr m G s.env a.env h.env e _ _ h1)
  · next off e he =>
    rw [Option.map_eq_some_iff] at ha
    obtain ⟨av, h1, h2⟩ := ha
    subst h2
    rw [he]
    exact MRel.store S s a h _ _ av (absE_sound S tr m G s.env a.env h.env e _ _ h1)

theorem absRun_sound (S : Sem) (tr : Nat → Nat) (m : Mem) (G : Good nf S tr m) (ps : List (Stmt × Hint)) (s : Mach) (a a' : AMach)
    (h : MRel S s a) (ha : absRun nf tr ps a = some a') : MRel S (runAll m (ps.map Prod.fst) s) a' := by
  induction ps generalizing s a with
  | nil => cases ha; exact h
  | cons p ps ih =>
    simp only [absRun, Option.bind_eq_some_iff] at ha
    obtain ⟨b, h1, h2⟩ := ha
    exact ih _ b (absS_sound S tr m G s a b h p h1) h2

end ShaNi
end Btc
