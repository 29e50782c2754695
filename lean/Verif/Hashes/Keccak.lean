import Verif.Hashes.Engine
/-!
# SHA3-256 (`hashes/src/sha3_256/mod.rs`)
-/
namespace Btc
namespace Hashes
namespace Keccak

abbrev L := BitVec 64
/-- `KeccakState` (sha3_256/mod.rs 88): 25 lanes. -/
abbrev State := List L

/-- `ROUND_CONSTANTS` (sha3_256/mod.rs 47-72). -/
def roundConstants : List L := [
  0x0000000000000001, 0x0000000000008082, 0x800000000000808A, 0x8000000080008000,
  0x000000000000808B, 0x0000000080000001, 0x8000000080008081, 0x8000000000008009,
  0x000000000000008A, 0x0000000000000088, 0x0000000080008009, 0x000000008000000A,
  0x000000008000808B, 0x800000000000008B, 0x8000000000008089, 0x8000000000008003,
  0x8000000000008002, 0x8000000000000080, 0x000000000000800A, 0x800000008000000A,
  0x8000000080008081, 0x8000000000008080, 0x0000000080000001, 0x8000000080008008
  ]
/-- `ROTATION_OFFSETS` (sha3_256/mod.rs 74-80). -/
def rotationOffsets : List (List Nat) := [
  [0, 36, 3, 41, 18],
  [1, 44, 10, 45, 2],
  [62, 6, 43, 15, 61],
  [28, 55, 25, 21, 56],
  [27, 20, 39, 8, 14]
  ]

/-- `ind`, `assign`, `lane`, `column_xor`, `xor_assign`, `chi` (sha3_256/mod.rs 84-126). -/
def ind (x y : Nat) : Nat := x + 5 * y
def assign (s : State) (x y : Nat) (v : L) : State := s.set (ind x y) v
def lane (s : State) (x y : Nat) : L := s.getD (ind x y) 0
def columnXor (s : State) (x : Nat) : L :=
  s.getD (ind x 0) 0 ^^^ s.getD (ind x 1) 0 ^^^ s.getD (ind x 2) 0 ^^^ s.getD (ind x 3) 0 ^^^ s.getD (ind x 4) 0
def xorAssign (s : State) (x y : Nat) (v : L) : State := s.set (ind x y) (s.getD (ind x y) 0 ^^^ v)
def chi (s : State) (x y : Nat) : L := lane s x y ^^^ (~~~(lane s ((x + 1) % 5) y) &&& lane s ((x + 2) % 5) y)

/-- `(0..B).for_each(|x| (0..B).for_each(|y| ..))`. -/
def pairs : List (Nat × Nat) := (List.range 5).flatMap fun x => (List.range 5).map fun y => (x, y)

/-- `keccak_round` (sha3_256/mod.rs 129-166). -/
def keccakRound (state : State) (rc : L) : State :=
  let c := (List.range 5).foldl (fun c x => c.set x (columnXor state x)) (List.replicate 5 0)
  let d := (List.range 5).foldl (fun d x => d.set x (c.getD ((x + 5 - 1) % 5) 0 ^^^ (c.getD ((x + 1) % 5) 0).rotateLeft 1))
    (List.replicate 5 (0 : L))
  let state := pairs.foldl (fun s p => xorAssign s p.1 p.2 (d.getD p.1 0)) state
  let b := pairs.foldl (fun b p =>
    assign b p.2 ((2 * p.1 + 3 * p.2) % 5) ((lane state p.1 p.2).rotateLeft ((rotationOffsets.getD p.1 []).getD p.2 0)))
    (List.replicate 25 (0 : L))
  let state := pairs.foldl (fun s p => assign s p.1 p.2 (chi b p.1 p.2)) state
  xorAssign state 0 0 rc

/-- `keccakf1600` (sha3_256/mod.rs 168-172). -/
def keccakf1600 (state : State) : State := roundConstants.foldl keccakRound state

/-- `absorb` (sha3_256/mod.rs 192-201). -/
def absorb (state : State) (block : Bytes) : State :=
  (List.range 17).foldl (fun s lane => xorAssign s (lane % 5) (lane / 5) (BitVec.ofNat 64 (leNat ((block.drop (8 * lane)).take 8)))) state

/-- One turn of the loop of `process_blocks` (sha3_256/mod.rs 206-209). -/
def comp (state : State) (block : Bytes) : State := keccakf1600 (absorb state block)

/-- `HashEngine` and `finalize` (sha3_256/mod.rs 188-190, 213-234). -/
def new : Eng State := Eng.new 136 (List.replicate 25 0)
def input (e : Eng State) (x : Bytes) : Eng State := e.input 136 comp x
def finish (e : Eng State) : Bytes :=
  let h := e.finishSha3 136 comp
  leBytes 8 (lane h 0 0).toNat ++ leBytes 8 (lane h 1 0).toNat ++ leBytes 8 (lane h 2 0).toNat ++ leBytes 8 (lane h 3 0).toNat

end Keccak
end Hashes
end Btc
