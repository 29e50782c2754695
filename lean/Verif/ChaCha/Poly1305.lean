import Verif.ChaCha.ChaCha20
/-!
# The Poly1305 authenticator and the ChaCha20-Poly1305 construction

chacha20_poly1305/src/poly1305.rs and lib.rs, without `cfg(chacha20_poly1305_fuzz)`. Machine words are natural numbers; arithmetic is
checked (`none` is the panic of an overflow with overflow checks on) except where the code wraps or truncates.
-/
namespace Btc
namespace ChaCha

/-- A `u32` sum or product. -/
def chk32 (n : Nat) : Option Nat := if n < 2 ^ 32 then some n else none
/-- A `u64` sum or product. -/
def chk64 (n : Nat) : Option Nat := if n < 2 ^ 64 then some n else none

/-- Five words: `[u32; 5]` or `[u64; 5]`. -/
@[ext] structure L5 where
  l0 : Nat
  l1 : Nat
  l2 : Nat
  l3 : Nat
  l4 : Nat
  deriving DecidableEq, Repr

/-- Indexing. -/
def L5.get (a : L5) : Nat → Nat
  | 0 => a.l0
  | 1 => a.l1
  | 2 => a.l2
  | 3 => a.l3
  | _ => a.l4

/-- chacha20_poly1305/src/poly1305.rs:9 `BITMASK`. -/
def BITMASK : Nat := 0x03ffffff

/-- chacha20_poly1305/src/poly1305.rs:17-28 `Poly1305`. -/
structure Poly where
  r : L5
  s : Nat × Nat × Nat × Nat
  acc : L5
  leftovers : Bytes
  leftoversLen : Nat

/-- `u32::from_le_bytes` of the four bytes from `i` on. -/
def le32 (bs : Bytes) (i : Nat) : Nat := leNat ((bs.drop i).take 4)

/-- chacha20_poly1305/src/poly1305.rs:33-53 `new`. -/
def Poly.new (key : Arr 32) : Poly where
  r := ⟨le32 key.1 0 &&& 0x03ffffff, (le32 key.1 3 >>> 2) &&& 0x03ffff03, (le32 key.1 6 >>> 4) &&& 0x03ffc0ff,
    (le32 key.1 9 >>> 6) &&& 0x03f03fff, (le32 key.1 12 >>> 8) &&& 0x000fffff⟩
  s := (le32 key.1 16, le32 key.1 20, le32 key.1 24, le32 key.1 28)
  acc := ⟨0, 0, 0, 0, 0⟩
  leftovers := List.replicate 16 0
  leftoversLen := 0

/-- chacha20_poly1305/src/poly1305.rs:214-231 `prepare_padded_message_slice`, for messages of at most 16 bytes. -/
def prepare (msg : Bytes) (isLast : Bool) : L5 :=
  let hiBit := if isLast then 0 else 1 <<< 24
  let fmt := msg ++ [0x01] ++ List.replicate (16 - msg.length) 0
  ⟨le32 fmt 0 &&& BITMASK, (le32 fmt 3 >>> 2) &&& BITMASK, (le32 fmt 6 >>> 4) &&& BITMASK, (le32 fmt 9 >>> 6) &&& BITMASK,
   (le32 fmt 12 >>> 8) ||| hiBit⟩

/-- chacha20_poly1305/src/poly1305.rs:191-197: `t[j]` after the loops over `i`. The terms are not negative, so that an addition of the
loop overflows exactly when the whole sum does. -/
def mulSum (r a : L5) (j : Nat) : Option Nat :=
  chk64 (((List.range 5).map fun i => (if i > j then 5 else 1) * r.get i * a.get (((5 - i) % 5 + j) % 5)).sum)

/-- chacha20_poly1305/src/poly1305.rs:186-210 `r_times_a`: the new accumulator. -/
def rTimesA (r a : L5) : Option L5 := do
  let t0 ← mulSum r a 0
  let t1 ← mulSum r a 1
  let t2 ← mulSum r a 2
  let t3 ← mulSum r a 3
  let t4 ← mulSum r a 4
  let t1 ← chk64 (t1 + (t0 >>> 26))
  let t2 ← chk64 (t2 + (t1 >>> 26))
  let t3 ← chk64 (t3 + (t2 >>> 26))
  let t4 ← chk64 (t4 + (t3 >>> 26))
  let m := fun t => t % 2 ^ 32 &&& BITMASK
  let c ← chk32 ((t4 >>> 26) % 2 ^ 32 * 5)
  let a0 ← chk32 (m t0 + c)
  let a1 ← chk32 (m t1 + (a0 >>> 26))
  some ⟨a0 &&& BITMASK, a1, m t2, m t3, m t4⟩

/-- `for (i, b) in msg_slice.iter().enumerate() { self.acc[i] += *b }`, chacha20_poly1305/src/poly1305.rs:81-83, 96-98, 124-126. -/
def addLimbs (a m : L5) : Option L5 := do
  let a0 ← chk32 (a.l0 + m.l0)
  let a1 ← chk32 (a.l1 + m.l1)
  let a2 ← chk32 (a.l2 + m.l2)
  let a3 ← chk32 (a.l3 + m.l3)
  let a4 ← chk32 (a.l4 + m.l4)
  some ⟨a0, a1, a2, a3, a4⟩

/-- Adding a piece of message and multiplying, chacha20_poly1305/src/poly1305.rs:80-84, 94-99, 122-127. -/
def absorb (r acc : L5) (piece : Bytes) (isLast : Bool) : Option L5 := (addLimbs acc (prepare piece isLast)).bind (rTimesA r)

/-- chacha20_poly1305/src/poly1305.rs:92-101: the loop over `n` whole pieces. -/
def absorbAll (r : L5) : Nat → L5 → Bytes → Option L5
  | 0, acc, _ => some acc
  | n + 1, acc, msg => (absorb r acc (msg.take 16) false).bind fun acc => absorbAll r n acc (msg.drop 16)

/-- chacha20_poly1305/src/poly1305.rs:77-86: filling the leftovers with the first `fill` bytes. -/
def Poly.fillUp (p : Poly) (msg : Bytes) (fill : Nat) : Option Poly :=
  if fill > 0 then
    let left := p.leftovers.take p.leftoversLen ++ msg.take fill
    (absorb p.r p.acc left false).map fun acc => { p with leftovers := left, acc := acc, leftoversLen := 0 }
  else some p

/-- chacha20_poly1305/src/poly1305.rs:104-110: saving leftovers; `none` is a slice out of range. -/
def Poly.save (p : Poly) (rem : Bytes) : Option Poly :=
  if rem.length % 16 > 0 then
    let idx := rem.length - rem.length % 16
    let newLen := p.leftoversLen + rem.length % 16
    if newLen ≤ 16 then
      some { p with leftovers := p.leftovers.take p.leftoversLen ++ rem.drop idx ++ p.leftovers.drop newLen, leftoversLen := newLen }
    else none
  else some p

/-- chacha20_poly1305/src/poly1305.rs:69-111 `input`. -/
def Poly.input (p : Poly) (msg : Bytes) : Option Poly :=
  let fill := if p.leftoversLen + msg.length ≥ 16 then 16 - p.leftoversLen else 0
  (p.fillUp msg fill).bind fun p =>
    (absorbAll p.r ((msg.drop fill).length / 16) p.acc (msg.drop fill)).bind fun acc => ({ p with acc := acc } : Poly).save (msg.drop fill)

/-- chacha20_poly1305/src/poly1305.rs:131-139: carry and mask. -/
def carryMask (a : L5) : Option L5 := do
  let a2 ← chk32 (a.l2 + (a.l1 >>> 26))
  let a3 ← chk32 (a.l3 + (a2 >>> 26))
  let a4 ← chk32 (a.l4 + (a3 >>> 26))
  let c ← chk32 ((a4 >>> 26) * 5)
  let a0 ← chk32 (a.l0 + c)
  let a1 ← chk32 (a.l1 + (a0 >>> 26))
  some ⟨a0 &&& BITMASK, a1 &&& BITMASK, a2 &&& BITMASK, a3 &&& BITMASK, a4 &&& BITMASK⟩

/-- chacha20_poly1305/src/poly1305.rs:140-155: subtract the modulus if that is possible. -/
def reduce (a : L5) : Option L5 := do
  let t0 ← chk32 (a.l0 + 5)
  let t4 := (a.l4 + 2 ^ 32 - 1 <<< 26) % 2 ^ 32
  let t1 ← chk32 (a.l1 + (t0 >>> 26))
  let t2 ← chk32 (a.l2 + (t1 >>> 26))
  let t3 ← chk32 (a.l3 + (t2 >>> 26))
  let t4 := (t4 + (t3 >>> 26)) % 2 ^ 32
  let mask := ((t4 >>> 31) + 2 ^ 32 - 1) % 2 ^ 32
  let pick := fun t a => (t &&& mask) ||| (a &&& (2 ^ 32 - 1 - mask))
  some ⟨pick (t0 &&& BITMASK) a.l0, pick (t1 &&& BITMASK) a.l1, pick (t2 &&& BITMASK) a.l2, pick (t3 &&& BITMASK) a.l3, pick t4 a.l4⟩

/-- chacha20_poly1305/src/poly1305.rs:156-179: to four words, plus `s`, to bytes. A `u32` left shift drops bits; the `u64` sums cannot
overflow. -/
def finish (a : L5) (s : Nat × Nat × Nat × Nat) : Bytes :=
  let a0 := a.l0 ||| (a.l1 <<< 26) % 2 ^ 32
  let a1 := (a.l1 >>> 6) ||| (a.l2 <<< 20) % 2 ^ 32
  let a2 := (a.l2 >>> 12) ||| (a.l3 <<< 14) % 2 ^ 32
  let a3 := (a.l3 >>> 18) ||| (a.l4 <<< 8) % 2 ^ 32
  let t0 := a0 + s.1
  let t1 := a1 + s.2.1 + (t0 >>> 32)
  let t2 := a2 + s.2.2.1 + (t1 >>> 32)
  let t3 := a3 + s.2.2.2 + (t2 >>> 32)
  leBytes 4 (t0 % 2 ^ 32) ++ leBytes 4 (t1 % 2 ^ 32) ++ leBytes 4 (t2 % 2 ^ 32) ++ leBytes 4 (t3 % 2 ^ 32)

/-- chacha20_poly1305/src/poly1305.rs:119-180 `tag`. -/
def Poly.tag (p : Poly) : Option Bytes :=
  (if p.leftoversLen > 0 then absorb p.r p.acc (p.leftovers.take p.leftoversLen) true else some p.acc).bind fun acc =>
    (carryMask acc).bind fun acc => (reduce acc).map fun acc => finish acc p.s

/-! ## ChaCha20-Poly1305 -/

/-- chacha20_poly1305/src/lib.rs:156-165 `encode_lengths`; the lengths are below 2^64. -/
def encodeLengths (aad content : Nat) : Bytes := leBytes 8 aad ++ leBytes 8 content

/-- chacha20_poly1305/src/lib.rs:72-75, 78-81, 120-123, 125-128: the zeroes after a part that is not aligned. -/
def Poly.pad (p : Poly) (n : Nat) : Option Poly := if n % 16 > 0 then p.input (List.replicate (16 - n % 16) 0) else some p

/-- chacha20_poly1305/src/lib.rs:68-85, 116-132: the tag of additional data and ciphertext. -/
def macOf (polyKey : Arr 32) (aad content : Bytes) : Option Bytes := do
  let p ← (Poly.new polyKey).input aad
  let p ← p.pad aad.length
  let p ← p.input content
  let p ← p.pad content.length
  let p ← p.input (encodeLengths aad.length content.length)
  p.tag

/-- `k.copy_from_slice(&keystream[..32])`. -/
def polyKey (keystream : Bytes) : Option (Arr 32) := if h : (keystream.take 32).length = 32 then some ⟨keystream.take 32, h⟩ else none

/-- chacha20_poly1305/src/lib.rs:56-86 `encrypt`: the content afterwards and the tag. -/
def encrypt (key : Arr 32) (nonce : Arr 12) (content : Bytes) (aad : Option Bytes) : Option (Bytes × Bytes) :=
  match (ChaCha20.newFromBlock key nonce 1).applyKeystream content with
  | none => none
  | some (chacha, content) =>
    (polyKey (chacha.getKeystream 0)).bind fun k => (macOf k (aad.getD []) content).map fun tag => (content, tag)

/-- chacha20_poly1305/src/lib.rs:147-153 `constant_time_eq`. -/
def constantTimeEq (a b : Bytes) : Bool := ((a.zip b).foldl (fun res xy => res ||| (xy.1 ^^^ xy.2)) (0 : UInt8)) = 0

/-- chacha20_poly1305/src/lib.rs:100-141 `decrypt`: the content afterwards; the error leaves it as it was. -/
def decrypt (key : Arr 32) (nonce : Arr 12) (content : Bytes) (tag : Arr 16) (aad : Option Bytes) : Option (Except Unit Bytes) :=
  (polyKey ((ChaCha20.newFromBlock key nonce 0).getKeystream 0)).bind fun k => (macOf k (aad.getD []) content).bind fun derived =>
    if constantTimeEq derived tag.1 then ((ChaCha20.newFromBlock key nonce 1).applyKeystream content).map fun r => .ok r.2
    else some (.error ())

end ChaCha
end Btc
