import Verif.Bytes
/-!
# SipHash-2-4 (`hashes/src/siphash24/mod.rs`)
-/
namespace Btc
namespace Hashes
namespace Sip

/-- `State` (siphash24/mod.rs 110-119). -/
structure State where
  v0 : BitVec 64
  v1 : BitVec 64
  v2 : BitVec 64
  v3 : BitVec 64
  deriving DecidableEq

/-- `compress!` (siphash24/mod.rs 18-38), assignment by assignment. -/
def compress (s : State) : State :=
  let v0 := s.v0; let v1 := s.v1; let v2 := s.v2; let v3 := s.v3
  let v0 := v0 + v1
  let v1 := v1.rotateLeft 13
  let v1 := v1 ^^^ v0
  let v0 := v0.rotateLeft 32
  let v2 := v2 + v3
  let v3 := v3.rotateLeft 16
  let v3 := v3 ^^^ v2
  let v0 := v0 + v3
  let v3 := v3.rotateLeft 21
  let v3 := v3 ^^^ v0
  let v2 := v2 + v1
  let v1 := v1.rotateLeft 17
  let v1 := v1 ^^^ v2
  let v2 := v2.rotateLeft 32
  ⟨v0, v1, v2, v3⟩

/-- `c_rounds` and `d_rounds` (siphash24/mod.rs 155-166). -/
def cRounds (s : State) : State := compress (compress s)
def dRounds (s : State) : State := compress (compress (compress (compress s)))

/-- `HashEngine` (siphash24/mod.rs 123-130). -/
structure Engine where
  k0 : BitVec 64
  k1 : BitVec 64
  bytesHashed : Nat
  state : State
  tail : BitVec 64
  ntail : Nat

/-- `with_keys` (siphash24/mod.rs 135-149). -/
def withKeys (k0 k1 : BitVec 64) : Engine :=
  ⟨k0, k1, 0, ⟨k0 ^^^ 0x736f6d6570736575, k1 ^^^ 0x646f72616e646f6d, k0 ^^^ 0x6c7967656e657261, k1 ^^^ 0x7465646279746573⟩, 0, 0⟩

/-- `load_int_le!(buf, i, uN)` with `n` bytes (siphash24/mod.rs 45-54), widened to `u64`. -/
def loadLe (buf : Bytes) (i n : Nat) : BitVec 64 := BitVec.ofNat 64 (leNat ((buf.drop i).take n))

/-- `u8to64_le` (siphash24/mod.rs 222-240). -/
def u8to64le (buf : Bytes) (start len : Nat) : BitVec 64 :=
  let (i, out) := if 0 + 3 < len then (4, loadLe buf (start + 0) 4) else (0, 0)
  let (i, out) := if i + 1 < len then (i + 2, out ||| (loadLe buf (start + i) 2 <<< (i * 8))) else (i, out)
  if i < len then out ||| (loadLe buf (start + i) 1 <<< (i * 8)) else out

/-- Mixing one word in (siphash24/mod.rs 188-190, 202-204). -/
def mix (s : State) (m : BitVec 64) : State :=
  let s := cRounds { s with v3 := s.v3 ^^^ m }
  { s with v0 := s.v0 ^^^ m }

/-- `while i < len - left` (siphash24/mod.rs 199-207); returns the state and `i`.  Fuel: the length of `msg` suffices. -/
def loop (msg : Bytes) (bound : Nat) : Nat → State → Nat → State × Nat
  | 0, s, i => (s, i)
  | fuel + 1, s, i => if i < bound then loop msg bound fuel (mix s (loadLe msg i 8)) (i + 8) else (s, i)

/-- The rest of `input` once the tail is flushed (siphash24/mod.rs 195-210). -/
def inputRest (e : Engine) (msg : Bytes) (needed : Nat) : Engine :=
  let len := msg.length - needed
  let left := len % 8
  let (s, i) := loop msg (len - left) msg.length e.state needed
  { e with state := s, tail := u8to64le msg i left, ntail := left }

/-- `input` (siphash24/mod.rs 174-211).  `bytes_hashed` is a `u64`; only its low byte is ever used. -/
def input (e : Engine) (msg : Bytes) : Engine :=
  let e := { e with bytesHashed := (e.bytesHashed + msg.length) % 2 ^ 64 }
  if e.ntail ≠ 0 then
    let needed := 8 - e.ntail
    let tail := e.tail ||| (u8to64le msg 0 (min msg.length needed) <<< (8 * e.ntail))
    if msg.length < needed then { e with tail := tail, ntail := e.ntail + msg.length }
    else inputRest { e with state := mix e.state tail, tail := tail, ntail := 0 } msg needed
  else inputRest e msg 0

/-- `from_engine_to_u64` (siphash24/mod.rs 86-99). -/
def finish (e : Engine) : BitVec 64 :=
  let b := (BitVec.ofNat 64 (e.bytesHashed % 256) <<< 56) ||| e.tail
  let s := e.state
  let s := cRounds { s with v3 := s.v3 ^^^ b }
  let s := { s with v0 := s.v0 ^^^ b }
  let s := dRounds { s with v2 := s.v2 ^^^ 0xff }
  s.v0 ^^^ s.v1 ^^^ s.v2 ^^^ s.v3

/-- `from_u64`, `from_engine` (siphash24/mod.rs 62, 105) and `hash_with_keys` (71-75). -/
def fromEngine (e : Engine) : Bytes := leBytes 8 (finish e).toNat
def hashWithKeys (k0 k1 : BitVec 64) (data : Bytes) : Bytes := fromEngine (input (withKeys k0 k1) data)

end Sip
end Hashes
end Btc
