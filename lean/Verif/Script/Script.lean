import Verif.Script.Opcodes
/-!
# Model of scripts: building and iterating over instructions

`primitives/src/script/owned.rs`, `primitives/src/script/builder.rs`, `internals/src/script.rs`,
`bitcoin/src/blockdata/script/instruction.rs`, `bitcoin/src/blockdata/script/owned.rs`.  A script is its bytes; the phantom
tag is dropped.  `&mut self` methods return the new bytes.  Capacity reservations are not modelled.
-/
namespace Btc
namespace Scr

/-- `Instruction` (instruction.rs 10-15). -/
inductive Instr where
  | push (bytes : Bytes)
  | op (code : UInt8)
deriving DecidableEq, Repr

/-- `script::Error` as far as iteration produces it (script/mod.rs 237-249); `panic` is a failed `expect` or
`unreachable!`. -/
inductive ScrErr where
  | nonMinimalPush
  | earlyEndOfScript
  | numericOverflow
  | panic
deriving DecidableEq, Repr

/-! ### Building -/

/-- `push_opcode` (owned.rs 177). -/
def pushOpcode (s : Bytes) (op : UInt8) : Bytes := s ++ [op]

/-- The push opcode and length bytes of `push_slice_no_opt` (owned.rs 243-264; the copy in
bitcoin/src/blockdata/script/owned.rs 171-192 is the same).  `n as u8` is `UInt8.ofNat n`. -/
def pushHeader (n : Nat) : Bytes :=
  if n < OP_PUSHDATA1.toNat then [UInt8.ofNat n]
  else if n < 0x100 then [OP_PUSHDATA1, UInt8.ofNat n]
  else if n < 0x10000 then [OP_PUSHDATA2, UInt8.ofNat (n % 0x100), UInt8.ofNat (n / 0x100)]
  else [OP_PUSHDATA4, UInt8.ofNat (n % 0x100), UInt8.ofNat (n / 0x100 % 0x100), UInt8.ofNat (n / 0x10000 % 0x100),
    UInt8.ofNat (n / 0x1000000)]

/-- `push_slice_no_opt` (owned.rs 240-267). -/
def pushSliceNoOpt (s data : Bytes) : Bytes := s ++ pushHeader data.length ++ data

/-- `push_slice_non_minimal` (owned.rs 214-218). -/
def pushSliceNonMinimal (s data : Bytes) : Bytes := pushSliceNoOpt s data

/-- `push_slice` (owned.rs 190-207). -/
def pushSlice (s data : Bytes) : Bytes :=
  match data with
  | [b] =>
    if b = 0x81 then pushOpcode s OP_1NEGATE
    else if 1 ≤ b ∧ b ≤ 16 then pushOpcode s (b + (OP_1 - 1))
    else pushSliceNonMinimal s data
  | _ => pushSliceNonMinimal s data

/-- `reserved_len_for_slice` (owned.rs 221-229); `Instruction::script_serialized_len` (instruction.rs 56-64). -/
def reservedLen (len : Nat) : Nat :=
  len + (if len ≤ 0x4b then 1 else if len ≤ 0xff then 2 else if len ≤ 0xffff then 3 else 5)
def Instr.serializedLen : Instr → Nat
  | .op _ => 1
  | .push b => reservedLen b.length

/-- `push_instruction`, `push_instruction_no_opt` (bitcoin owned.rs 73-86). -/
def pushInstr (s : Bytes) : Instr → Bytes
  | .op o => pushOpcode s o
  | .push b => pushSlice s b
def pushInstrNoOpt (s : Bytes) : Instr → Bytes
  | .op o => pushOpcode s o
  | .push b => pushSliceNoOpt s b

/-- `Extend<Instruction>` (bitcoin owned.rs 245-279): `hint` is the upper bound of `size_hint`; `none` is the panic
for an iterator that yields more than its upper bound. -/
def extendInstrs (s : Bytes) (hint : Option Nat) (is : List Instr) : Option Bytes :=
  match hint with
  | some m =>
    if m < 6 then
      if (is.drop 5).isEmpty then some ((is.take 5).foldl pushInstrNoOpt s) else none
    else some (is.foldl pushInstr s)
  | none => some (is.foldl pushInstr s)

/-! ### Reading -/

/-- `read_push_data_len` (internals/src/script.rs 14-31): the length and the remaining bytes. -/
def readPushDataLen (data : Bytes) (size : Nat) : Option (Nat × Bytes) :=
  if data.length < size then none
  else some (((data.take size).zipIdx).foldl (fun ret (item, i) => ret ||| (item.toNat <<< (i * 8))) 0, data.drop size)

/-- `take_slice_or_kill` (instruction.rs 111-124). -/
def takeSliceOrKill (data : Bytes) (len : Nat) : Except ScrErr Instr × Bytes :=
  if data.length ≥ len then (.ok (.push (data.take len)), data.drop len)
  else (.error .earlyEndOfScript, [])

/-- `next_push_data_len` (126-148). -/
def nextPushDataLen (minimal : Bool) (data : Bytes) (size minPushLen : Nat) : Except ScrErr Instr × Bytes :=
  match readPushDataLen data size with
  | none => (.error .earlyEndOfScript, [])
  | some (n, rest) =>
    if minimal ∧ n < minPushLen then (.error .nonMinimalPush, [])
    else if n < 2 ^ 32 then takeSliceOrKill rest n
    else (.error .numericOverflow, rest)

/-- `Instructions::next` (154-189): the item and the remaining bytes. -/
def next (minimal : Bool) (data : Bytes) : Option (Except ScrErr Instr × Bytes) :=
  match data with
  | [] => none
  | byte :: rest =>
    match classify byte .legacy with
    | .pushBytes n =>
      match minimal, rest, n with
      | true, opByte :: _, 1 =>
        if opByte = 0x81 ∨ (opByte > 0 ∧ opByte ≤ 16) then some (.error .nonMinimalPush, [])
        else some (takeSliceOrKill rest n)
      | _, [], 0 => some (.ok (.push []), rest)
      | _, _, _ => some (takeSliceOrKill rest n)
    | .ordinary op =>
      if op = OP_PUSHDATA1 then some (nextPushDataLen minimal rest 1 76)
      else if op = OP_PUSHDATA2 then some (nextPushDataLen minimal rest 2 0x100)
      else if op = OP_PUSHDATA4 then some (nextPushDataLen minimal rest 4 0x10000)
      else some (.ok (.op byte), rest)
    | .unreachable => some (.error .panic, rest)
    | _ => some (.ok (.op byte), rest)

/-- Everything the iterator yields before its first `None`, with `fuel` calls of `next`. -/
def walk (minimal : Bool) : Nat → Bytes → List (Except ScrErr Instr)
  | 0, _ => []
  | fuel + 1, data =>
    match next minimal data with
    | none => []
    | some (r, rest) => r :: walk minimal fuel rest

/-- `Script::instructions`, `Script::instructions_minimal` (bitcoin borrowed.rs 87-98), collected.  One call per
byte is enough: every call consumes at least one byte (`C33_terminates`). -/
def instructions (s : Bytes) : List (Except ScrErr Instr) := walk false s.length s
def instructionsMinimal (s : Bytes) : List (Except ScrErr Instr) := walk true s.length s

/-- `InstructionIndices::next` through `next_with` (instruction.rs 233-252). -/
def nextIdx (minimal : Bool) (data : Bytes) (pos : Nat) : Option (Except ScrErr (Nat × Instr) × Bytes × Nat) :=
  match next minimal data with
  | none => none
  | some (r, rest) =>
    let consumed := data.length - rest.length
    some (match r with | .ok i => .ok (pos, i) | .error e => .error e, rest, pos + consumed)

def walkIdx (minimal : Bool) : Nat → Bytes → Nat → List (Except ScrErr (Nat × Instr))
  | 0, _, _ => []
  | fuel + 1, data, pos =>
    match nextIdx minimal data pos with
    | none => []
    | some (r, rest, pos') => r :: walkIdx minimal fuel rest pos'

/-- `instruction_indices`, `instruction_indices_minimal` (borrowed.rs 108-119), collected. -/
def instructionIndices (s : Bytes) : List (Except ScrErr (Nat × Instr)) := walkIdx false s.length s 0
def instructionIndicesMinimal (s : Bytes) : List (Except ScrErr (Nat × Instr)) := walkIdx true s.length s 0

/-- `is_push_only` (borrowed.rs 61-73). -/
def isPushOnly (s : Bytes) : Bool :=
  (instructions s).all fun r =>
    match r with
    | .error _ => false
    | .ok (.push _) => true
    | .ok (.op o) => o ≤ 0x60

/-- `last_opcode`, `last_pushdata` (388-409). -/
def lastOpcode (s : Bytes) : Option UInt8 :=
  match (instructions s).getLast? with
  | some (.ok (.op o)) => some o
  | _ => none
def lastPushdata (s : Bytes) : Option Bytes :=
  match (instructions s).getLast? with
  | some (.ok (.push b)) => some b
  | _ => none

/-- The test inside `redeem_script`. -/
def isNotPush : Except ScrErr Instr → Bool
  | .ok (.push _) => false
  | _ => true

/-- `ScriptSigExt::redeem_script` (463-474). -/
def redeemScript (s : Bytes) : Option Bytes :=
  if (instructions s).any isNotPush then none
  else
    match (instructions s).getLast? with
    | some (.ok (.push b)) => some b
    | _ => none

/-- `opcode_to_verify` (script/mod.rs 190-198). -/
def opcodeToVerify : Option UInt8 → Option UInt8
  | none => none
  | some op =>
    if op = OP_EQUAL then some OP_EQUALVERIFY
    else if op = OP_NUMEQUAL then some OP_NUMEQUALVERIFY
    else if op = OP_CHECKSIG then some OP_CHECKSIGVERIFY
    else if op = OP_CHECKMULTISIG then some OP_CHECKMULTISIGVERIFY
    else none

/-- `scan_and_push_verify` (bitcoin owned.rs 102, 212-220), `Builder::push_verify` (builder.rs 78-89). -/
def pushVerify (s : Bytes) : Bytes :=
  match opcodeToVerify (lastOpcode s) with
  | some op => pushOpcode s.dropLast op
  | none => pushOpcode s OP_VERIFY

end Scr
end Btc
