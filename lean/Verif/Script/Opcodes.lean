import Verif.Bytes
/-!
# Model of script opcodes

`bitcoin/src/blockdata/opcodes.rs` and `primitives/src/opcodes.rs`.  An `Opcode` is a newtype over `u8`
(primitives/src/opcodes.rs 29-51) and is modelled as `UInt8`.  The names used for display are not modelled.
-/
namespace Btc
namespace Scr

/-- Opcode constants (primitives/src/opcodes.rs 74-184; bitcoin/src/blockdata/opcodes.rs 118-300). -/
def OP_PUSHBYTES_75 : UInt8 := 0x4b
def OP_PUSHDATA1 : UInt8 := 0x4c
def OP_PUSHDATA2 : UInt8 := 0x4d
def OP_PUSHDATA4 : UInt8 := 0x4e
def OP_1NEGATE : UInt8 := 0x4f
def OP_1 : UInt8 := 0x51
def OP_16 : UInt8 := 0x60
def OP_NOP : UInt8 := 0x61
def OP_VERIFY : UInt8 := 0x69
def OP_RETURN : UInt8 := 0x6a
def OP_DUP : UInt8 := 0x76
def OP_EQUAL : UInt8 := 0x87
def OP_EQUALVERIFY : UInt8 := 0x88
def OP_NUMEQUAL : UInt8 := 0x9c
def OP_NUMEQUALVERIFY : UInt8 := 0x9d
def OP_HASH160 : UInt8 := 0xa9
def OP_CHECKSIG : UInt8 := 0xac
def OP_CHECKSIGVERIFY : UInt8 := 0xad
def OP_CHECKMULTISIG : UInt8 := 0xae
def OP_CHECKMULTISIGVERIFY : UInt8 := 0xaf
def OP_NOP1 : UInt8 := 0xb0
def OP_NOP10 : UInt8 := 0xb9
def OP_CHECKSIGADD : UInt8 := 0xba

/-- `ClassifyContext` (opcodes.rs 321-326). -/
inductive Ctx where
  | tapScript
  | legacy
deriving DecidableEq, Repr

/-- `Class` (439-454); `unreachable` stands for the panic of `Ordinary::with` (477). -/
inductive Class where
  | pushNum (n : Int)
  | pushBytes (n : Nat)
  | returnOp
  | successOp
  | illegalOp
  | noOp
  | ordinary (op : UInt8)
  | unreachable
deriving DecidableEq, Repr

/-- The list of ordinary opcodes (493-516), in source order. -/
def ordinaryList : List UInt8 :=
  [0x4c, 0x4d, 0x4e,
   0x63, 0x64, 0x67, 0x68, 0x69,
   0x6b, 0x6c,
   0x6d, 0x6e, 0x6f, 0x70, 0x71, 0x72,
   0x75, 0x76, 0x77, 0x78, 0x79, 0x7a, 0x7b, 0x7c, 0x7d,
   0x73, 0x74, 0x82,
   0x87, 0x88,
   0x8b, 0x8c, 0x8f, 0x90, 0x91, 0x92,
   0x93, 0x94, 0x9a, 0x9b,
   0x9c, 0x9d, 0x9e, 0x9f,
   0xa0, 0xa1, 0xa2,
   0xa3, 0xa4, 0xa5,
   0xa6, 0xa7, 0xa8, 0xa9, 0xaa,
   0xab, 0xac, 0xad,
   0xae, 0xaf,
   0xba]

/-- `Ordinary::with` (474-479). -/
def ordinaryWith (op : UInt8) : Class := if op ∈ ordinaryList then .ordinary op else .unreachable

/-- `Opcode::classify` (339-398), match arms in source order. -/
def classify (op : UInt8) (ctx : Ctx) : Class :=
  if op = 0x65 ∨ op = 0x66 ∨ op = 0xff then .illegalOp
  else if op ∈ [(0x7e : UInt8), 0x7f, 0x80, 0x81, 0x83, 0x84, 0x85, 0x86, 0x8d, 0x8e, 0x95, 0x96, 0x97, 0x98, 0x99] ∧
      ctx = .legacy then .illegalOp
  else if ctx = .tapScript ∧ (op = 80 ∨ op = 98 ∨ (126 ≤ op ∧ op ≤ 129) ∨ (131 ≤ op ∧ op ≤ 134) ∨
      (137 ≤ op ∧ op ≤ 138) ∨ (141 ≤ op ∧ op ≤ 142) ∨ (149 ≤ op ∧ op ≤ 153) ∨ (187 ≤ op ∧ op ≤ 254)) then .successOp
  else if op = OP_NOP then .noOp
  else if OP_NOP1 ≤ op ∧ op ≤ OP_NOP10 then .noOp
  else if op = OP_RETURN then .returnOp
  else if op ∈ [(0x50 : UInt8), 0x89, 0x8a, 0x62] ∧ ctx = .legacy then .returnOp
  else if ctx = .legacy ∧ OP_CHECKSIGADD ≤ op then .returnOp
  else if (op = OP_CHECKMULTISIG ∨ op = OP_CHECKMULTISIGVERIFY) ∧ ctx = .tapScript then .returnOp
  else if op = OP_1NEGATE then .pushNum (-1)
  else if OP_1 ≤ op ∧ op ≤ OP_16 then .pushNum (1 + (op.toNat : Int) - (OP_1.toNat : Int))
  else if op ≤ OP_PUSHBYTES_75 then .pushBytes op.toNat
  else ordinaryWith op

/-- `decode_pushnum` (409-416). -/
def decodePushnum (op : UInt8) : Option UInt8 :=
  if OP_1 ≤ op ∧ op ≤ OP_16 then some (op - OP_1 + 1) else none

/-! ### Witness versions (`primitives/src/witness_version.rs`); a version is its number, 0 to 16 -/

/-- `TryFrom<u8> for WitnessVersion` (117-138). -/
def witnessVersionFromU8 (n : UInt8) : Option UInt8 := if n ≤ 16 then some n else none

/-- `TryFrom<Opcode> for WitnessVersion` (144-151). -/
def witnessVersionFromOp (op : UInt8) : Option UInt8 :=
  if op = 0 then some 0
  else if OP_1 ≤ op ∧ op ≤ OP_16 then witnessVersionFromU8 (op - OP_1 + 1)
  else none

/-- `From<WitnessVersion> for Opcode` (155-160). -/
def opOfWitnessVersion (v : UInt8) : UInt8 := if v = 0 then 0 else OP_1 + v - 1

end Scr
end Btc
