import Verif.Hashes.Sha2
/-!
# SHA-2 as FIPS 180-4 defines it

Written from the standard, not from the Rust source: the message schedule is the recurrence of §6.2.2/§6.4.2, the constants are
computed as the fractional parts of roots of primes, the rotations go to the right.
-/
namespace Btc
namespace Fips
open Sha2 (St Fns)

def Ch {w : Nat} (x y z : BitVec w) : BitVec w := (x &&& y) ^^^ (~~~x &&& z)
def Maj {w : Nat} (x y z : BitVec w) : BitVec w := (x &&& y) ^^^ (x &&& z) ^^^ (y &&& z)

/-- §4.1.2. -/
def fns256 : Fns 32 where
  Sigma0 x := x.rotateRight 2 ^^^ x.rotateRight 13 ^^^ x.rotateRight 22
  Sigma1 x := x.rotateRight 6 ^^^ x.rotateRight 11 ^^^ x.rotateRight 25
  sigma0 x := x.rotateRight 7 ^^^ x.rotateRight 18 ^^^ (x >>> 3)
  sigma1 x := x.rotateRight 17 ^^^ x.rotateRight 19 ^^^ (x >>> 10)

/-- §4.1.3. -/
def fns512 : Fns 64 where
  Sigma0 x := x.rotateRight 28 ^^^ x.rotateRight 34 ^^^ x.rotateRight 39
  Sigma1 x := x.rotateRight 14 ^^^ x.rotateRight 18 ^^^ x.rotateRight 41
  sigma0 x := x.rotateRight 1 ^^^ x.rotateRight 8 ^^^ (x >>> 7)
  sigma1 x := x.rotateRight 19 ^^^ x.rotateRight 61 ^^^ (x >>> 6)

/-- The message schedule, §6.2.2 step 1. -/
def W {w : Nat} (F : Fns w) (M : Nat → BitVec w) (t : Nat) : BitVec w :=
  if t < 16 then M t
  else F.sigma1 (W F M (t - 2)) + W F M (t - 7) + F.sigma0 (W F M (t - 15)) + W F M (t - 16)
  termination_by t

/-- §6.2.2 step 3. -/
def round {w : Nat} (F : Fns w) (k x : BitVec w) (s : St w) : St w :=
  let T1 := s.h + F.Sigma1 s.e + Ch s.e s.f s.g + k + x
  let T2 := F.Sigma0 s.a + Maj s.a s.b s.c
  ⟨T1 + T2, s.a, s.b, s.c, s.d + T1, s.e, s.f, s.g⟩

/-- The first `t` rounds. -/
def rounds {w : Nat} (F : Fns w) (K : Nat → BitVec w) (M : Nat → BitVec w) (s : St w) : Nat → St w
  | 0 => s
  | t + 1 => round F (K t) (W F M t) (rounds F K M s t)

/-- §6.2.2 step 4. -/
def compress {w : Nat} (F : Fns w) (K : Nat → BitVec w) (N : Nat) (H : St w) (M : Nat → BitVec w) : St w :=
  H.add (rounds F K M H N)

/-- Largest `r` with `r^e ≤ n`, bit by bit from the top. -/
def rootFrom (e n : Nat) : Nat → Nat → Nat
  | 0, r => r
  | b + 1, r => rootFrom e n b (if (r + 2 ^ b) ^ e ≤ n then r + 2 ^ b else r)
def root (e n : Nat) : Nat := rootFrom e n 80 0

def isPrime (n : Nat) : Bool := 2 ≤ n && (List.range n).all fun d => d < 2 || n % d != 0
/-- The primes in order: 80 of them. -/
def primes : List Nat := (List.range 410).filter isPrime

/-- The first `bits` bits of the fractional part of the cube root (square root) of the prime. -/
def fracCbrt (bits p : Nat) : Nat := root 3 (p * 2 ^ (3 * bits)) % 2 ^ bits
def fracSqrt (bits p : Nat) : Nat := root 2 (p * 2 ^ (2 * bits)) % 2 ^ bits

/-- §4.2.2, §4.2.3. -/
def K256 (t : Nat) : BitVec 32 := BitVec.ofNat 32 (fracCbrt 32 (primes.getD t 0))
def K512 (t : Nat) : BitVec 64 := BitVec.ofNat 64 (fracCbrt 64 (primes.getD t 0))

/-- §5.3: the initial values from the primes number `i`, `i+1`, .. -/
def ivFrom (w i : Nat) : St w :=
  let g := fun j => BitVec.ofNat w (fracSqrt w (primes.getD (i + j) 0))
  ⟨g 0, g 1, g 2, g 3, g 4, g 5, g 6, g 7⟩
def iv256 : St 32 := ivFrom 32 0
def iv512 : St 64 := ivFrom 64 0
def iv384 : St 64 := ivFrom 64 8

/-- §5.1: a one bit, the least number of zero bits, and the length in bits in `L` bytes. -/
def zeros (B L len : Nat) : Nat := (2 * B - 1 - L - len % B) % B
def pad (B L : Nat) (len : Nat → Bytes) (msg : Bytes) : Bytes :=
  msg ++ 0x80 :: List.replicate (zeros B L msg.length) 0 ++ len (8 * msg.length)

/-- §5.2: parsing into blocks. -/
def blocks (B : Nat) (bs : Bytes) : List Bytes := (List.range (bs.length / B)).map fun i => (bs.drop (B * i)).take B
def word (w k : Nat) (block : Bytes) (i : Nat) : BitVec w := BitVec.ofNat w (beNat ((block.drop (k * i)).take k))

/-- §6.2.2, §6.4.2: the hash value before truncation. -/
def hash {w : Nat} (F : Fns w) (K : Nat → BitVec w) (N B L : Nat) (iv : St w) (msg : Bytes) : Bytes :=
  (((blocks B (pad B L (beBytes L) msg)).foldl (fun H b => compress F K N H (word w (w / 8) b)) iv).toList.map
    fun x => beBytes (w / 8) x.toNat).flatten
def sha256 (msg : Bytes) : Bytes := hash fns256 K256 64 64 8 iv256 msg
def sha512With (iv : St 64) (msg : Bytes) : Bytes := hash fns512 K512 80 128 16 iv msg
def sha512 (msg : Bytes) : Bytes := sha512With iv512 msg
def sha384 (msg : Bytes) : Bytes := (sha512With iv384 msg).take 48

end Fips
end Btc
