import Verif.Script.Script
/-!
# Model of script numbers

`bitcoin/src/blockdata/script/{mod,push_bytes,owned,instruction}.rs`.  `i32`/`i64` values are `Int`.
-/
namespace Btc
namespace Scr

/-- `ScriptIntError` (push_bytes.rs 99-105); `panic` is a failed `expect`. -/
inductive NumErr where
  | numericOverflow
  | nonMinimal
  | panic
deriving DecidableEq, Repr

/-- The loop and the tail of `write_scriptint` (script/mod.rs 127-147): the bytes written for magnitude `abs`. -/
def writeLoop (abs : Nat) (neg : Bool) : Bytes :=
  if abs > 0xFF then UInt8.ofNat (abs &&& 0xFF) :: writeLoop (abs >>> 8) neg
  else if abs &&& 0x80 ≠ 0 then [UInt8.ofNat abs, if neg then 0x80 else 0]
  else [UInt8.ofNat (abs ||| (if neg then 0x80 else 0))]
termination_by abs
decreasing_by
  rw [Nat.shiftRight_eq_div_pow]
  omega

/-- `write_scriptint` (script/mod.rs 119-148): the bytes `out[..len]`; `none` is the index panic when more than the 8
bytes of the buffer are written. -/
def writeScriptint (n : Int) : Option Bytes :=
  if n = 0 then some []
  else
    let out := writeLoop n.natAbs (n < 0)
    if out.length ≤ 8 then some out else none

/-- `scriptint_parse` (168-176), for non-empty `v` of at most 7 bytes, where the `i64` arithmetic cannot overflow (all
callers pass at most 5 bytes). -/
def scriptintParse (v : Bytes) : Int :=
  let (ret, sh) := v.foldl (fun (acc, sh) n => (acc + (n.toNat <<< sh), sh + 8)) (0, 0)
  match v.getLast? with
  | none => 0
  | some last =>
    if last &&& 0x80 ≠ 0 then -((ret &&& ((1 <<< (sh - 1)) - 1) : Nat) : Int) else (ret : Int)

/-- `i32::try_from(x).expect(..)`. -/
def expectI32 (x : Int) : Except NumErr Int :=
  if -(2 ^ 31) ≤ x ∧ x < 2 ^ 31 then .ok x else .error .panic

/-- `read_scriptint_non_minimal` (156-166). -/
def readScriptintNonMinimal (v : Bytes) : Except NumErr Int :=
  if v.isEmpty then .ok 0
  else if v.length > 4 then .error .numericOverflow
  else expectI32 (scriptintParse v)

/-- `read_scriptint_internal` (push_bytes.rs 64-89); the default of `getD` is unreachable, the index is guarded. -/
def readScriptintInternal (v : Bytes) (maxSize : Nat) : Except NumErr Int :=
  match v.getLast? with
  | none => .ok 0
  | some last =>
    if v.length > maxSize then .error .numericOverflow
    else if last &&& 0x7f = 0 ∧
        (v.length ≤ 1 ∨ v.getD (v.length - 2) 0 &&& 0x80 = 0) then
      .error .nonMinimal
    else .ok (scriptintParse v)

/-- `PushBytes::read_scriptint` (push_bytes.rs 26-30). -/
def readScriptint (v : Bytes) : Except NumErr Int :=
  match readScriptintInternal v 4 with
  | .error e => .error e
  | .ok x => expectI32 x

/-- `PushBytes::read_cltv_scriptint` (53-55). -/
def readCltvScriptint (v : Bytes) : Except NumErr Int := readScriptintInternal v 5

/-- `read_scriptbool` (mod.rs 183-188). -/
def readScriptbool (v : Bytes) : Bool :=
  match v.getLast? with
  | some last => !((last &&& ~~~ 0x80 == 0) && v.dropLast.all (· == 0))
  | none => false

/-- `push_int_non_minimal` (owned.rs 225-230); `none` is the panic of `write_scriptint`. -/
def pushIntNonMinimal (s : Bytes) (n : Int) : Option Bytes :=
  (writeScriptint n).map (pushSliceNoOpt s)

/-- `push_int_unchecked` (owned.rs 58-65). -/
def pushIntUnchecked (s : Bytes) (n : Int) : Option Bytes :=
  if n = -1 then some (pushOpcode s OP_1NEGATE)
  else if n = 0 then some (pushOpcode s 0)
  else if 1 ≤ n ∧ n ≤ 16 then some (pushOpcode s (UInt8.ofNat n.toNat + (OP_1 - 1)))
  else pushIntNonMinimal s n

/-- `push_int` (owned.rs 33-41): outer `none` is a panic. -/
def pushInt (s : Bytes) (n : Int) : Option (Except ScrErr Bytes) :=
  if n = -(2 ^ 31) then some (.error .numericOverflow)
  else (pushIntUnchecked s n).map .ok

/-- `push_lock_time`, `push_relative_lock_time`, `push_sequence` (builder.rs 106-132): all push the consensus `u32`. -/
def pushU32 (s : Bytes) (n : UInt32) : Option Bytes := pushIntUnchecked s n.toNat

/-- `Instruction::script_num` (instruction.rs 38-53). -/
def Instr.scriptNum : Instr → Option Int
  | .op v =>
    if 0x51 ≤ v ∧ v ≤ 0x60 then some ((v.toNat : Int) - 0x50) else if v = 0x4f then some (-1) else none
  | .push b => match readScriptintNonMinimal b with | .ok x => some x | .error _ => none

/-- `Instruction::read_int` (68-82). -/
def Instr.readInt : Instr → Option Int
  | .op v =>
    if 0x51 ≤ v ∧ v ≤ 0x60 then some ((v.toNat : Int) - 0x50) else if v = 0x4f then some (-1) else none
  | .push b => match readCltvScriptint b with | .ok x => some x | .error _ => none

end Scr
end Btc
