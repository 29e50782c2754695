import Verif.Script.Templates
import Verif.Script.Num
import Verif.Primitives.OutPointText
import Verif.Crypto.Sighash
import Verif.Hashes.Hmac
import Verif.Units.U256
/-!
# The texts of the errors about scripts, script numbers, out points, witness versions, sizes and indices

The `Display` implementations (with `std`, where `write_err!` leaves the source out), and the conversions to a witness version with their
error values, which `Script/Opcodes.lean` drops.
-/
namespace Btc
namespace ScrErrs
open Scr

/-- `Display for script::Error` (bitcoin/src/blockdata/script/mod.rs 255-268), the variants of the model. -/
def scriptMsg : ScrErr → String
  | .nonMinimalPush => "non-minimal datapush"
  | .earlyEndOfScript => "unexpected end of script"
  | .numericOverflow => "numeric overflow (number on stack larger than 4 bytes)"
  | .panic => "panic"

/-- `Display for ScriptIntError` (bitcoin/src/blockdata/script/push_bytes.rs 120-127). -/
def numMsg : NumErr → String
  | .numericOverflow => "script integer outside of valid range"
  | .nonMinimal => "non-minimal encoded script integer"
  | .panic => "panic"

/-- `Display for ParseOutPointError` (primitives/src/transaction.rs 1477-1487). -/
def outPointMsg : OutPointErr → String
  | .txid => "error parsing TXID"
  | .vout _ => "error parsing vout"
  | .format => "OutPoint not in <txid>:<vout> format"
  | .tooLong => "vout should be at most 10 digits"
  | .voutNotCanonical => "no leading zeroes or + allowed in vout part"

/-- `Display for ParseU256Error` (include/u256.rs 575-585); the text of `InvalidEncoding` is not modelled, the model has no such error. -/
def u256Msg : U256.ParseErr → String
  | .overflow => "parsed value exceeded unsigned 256-bit range"
  | .empty => "parsed string is empty"
  | .invalidDigit => "parsed number contained invalid digit"

/-- `TryFrom<u8> for WitnessVersion` (primitives/src/witness_version.rs 117-138); the error is the `invalid` field. -/
def versionOfU8 (n : UInt8) : Except UInt8 UInt8 := if n ≤ 16 then .ok n else .error n

/-- `TryFrom<Opcode> for WitnessVersion` (144-151). -/
def versionOfOp (op : UInt8) : Except UInt8 UInt8 :=
  if op = 0 then .ok 0
  else if OP_1 ≤ op ∧ op ≤ OP_16 then versionOfU8 (op - OP_1 + 1)
  else .error op

/-- `TryFromInstructionError` (bitcoin/src/blockdata/script/witness_version.rs 46-51). -/
inductive FromInstrErr where
  | tryFrom (invalid : UInt8)
  | dataPush
deriving DecidableEq, Repr

/-- `TryFrom<Instruction> for WitnessVersion` (19-29). -/
def versionOfInstr : Instr → Except FromInstrErr UInt8
  | .op op => match versionOfOp op with
    | .ok v => .ok v
    | .error e => .error (.tryFrom e)
  | .push b => if b.isEmpty then .ok 0 else .error .dataPush

/-- `ParseWitnessVersionError` (primitives/src/witness_version.rs 194-200). -/
inductive ParseVersionErr where
  | unparsable (e : IntErr)
  | invalid (n : UInt8)
deriving DecidableEq, Repr

/-- `FromStr for WitnessVersion` (104-112). -/
def parseVersion (s : Bytes) : Except ParseVersionErr UInt8 :=
  match parseUInt 255 10 s with
  | .error e => .error (.unparsable e)
  | .ok n => match versionOfU8 (UInt8.ofNat n) with
    | .ok v => .ok v
    | .error e => .error (.invalid e)

/-- `Display for InvalidWitnessVersionError` (240-244). -/
def versionMsg (n : UInt8) : String := "invalid witness script version: " ++ toString n.toNat
/-- `Display for TryFromInstructionError` (bitcoin witness_version.rs 59-67). -/
def fromInstrMsg : FromInstrErr → String
  | .tryFrom _ => "opcode is not a valid witness version"
  | .dataPush => "non-zero data push opcode is not a valid witness version"
/-- `Display for ParseWitnessVersionError` (208-215). -/
def parseVersionMsg : ParseVersionErr → String
  | .unparsable _ => "integer parse error"
  | .invalid _ => "invalid version number"

/-- `ScriptHash::from_script` (primitives/src/hash_types/script_hash.rs 48-60), `WScriptHash::from_script` (witness_script_hash.rs 46-53):
the error is the `size` field. -/
def scriptHash (H : Bytes → Arr 20) (s : Bytes) : Except Nat (Arr 20) := if s.length > 520 then .error s.length else .ok (H s)
def wscriptHash (H : Bytes → Arr 32) (s : Bytes) : Except Nat (Arr 32) := if s.length > 10000 then .error s.length else .ok (H s)
/-- `Display` of their errors (script_hash.rs 92-98, witness_script_hash.rs 87-93). -/
def redeemSizeMsg (n : Nat) : String := "redeem script size exceeds " ++ toString 520 ++ " bytes: " ++ toString n
def witnessSizeMsg (n : Nat) : String := "witness script size exceeds " ++ toString 10000 ++ " bytes: " ++ toString n

/-- `check_limit` on targets with 64-bit pointers (primitives/src/script/push_bytes.rs 34-40): the error is the `len` field. -/
def checkLimit (len : Nat) : Except Nat Unit := if len < 0x100000000 then .ok () else .error len
/-- `usize::saturating_add`. -/
def satAdd (a b : Nat) : Nat := min (a + b) (2 ^ 64 - 1)
/-- `TryFrom<&[u8]>`, `TryFrom<&mut [u8]> for &PushBytes`, `TryFrom<Vec<u8>> for PushBytesBuf` (129-145, 280-287). -/
def pushBytesOf (b : Bytes) : Except Nat Bytes := match checkLimit b.length with
  | .ok () => .ok b
  | .error e => .error e
/-- `PushBytesBuf::push`, `extend_from_slice` (224-240). -/
def bufPush (buf : Bytes) (c : UInt8) : Except Nat Bytes := match checkLimit (satAdd buf.length 1) with
  | .ok () => .ok (buf ++ [c])
  | .error e => .error e
def bufExtend (buf b : Bytes) : Except Nat Bytes := match checkLimit (satAdd buf.length b.length) with
  | .ok () => .ok (buf ++ b)
  | .error e => .error e
/-- The methods of `PushBytesBuf` that change it (224-258); `reserve` changes only the capacity. -/
inductive BufOp where
  | push (c : UInt8) | extend (b : Bytes) | pop | remove (i : Nat) | clear | truncate (n : Nat)
/-- One call: the buffer afterwards and the error, if any; `none` is the panic of `Vec::remove`. -/
def bufStep (buf : Bytes) : BufOp → Option (Bytes × Option Nat)
  | .push c => match bufPush buf c with
    | .ok b => some (b, none)
    | .error e => some (buf, some e)
  | .extend b => match bufExtend buf b with
    | .ok b => some (b, none)
    | .error e => some (buf, some e)
  | .pop => some (buf.dropLast, none)
  | .remove i => if i < buf.length then some (buf.eraseIdx i, none) else none
  | .clear => some ([], none)
  | .truncate n => some (buf.take n, none)
/-- A sequence of calls. -/
def bufRun (buf : Bytes) : List BufOp → Option (Bytes × List (Option Nat))
  | [] => some (buf, [])
  | o :: os => match bufStep buf o with
    | none => none
    | some (b, e) => (bufRun b os).map fun (c, es) => (c, e :: es)
/-- `Display for PushBytesError` (441-449). -/
def pushBytesMsg (n : Nat) : String :=
  "attempt to prepare " ++ toString n ++ " bytes to be pushed into script but the limit is 2^32-1"

/-- `TransactionExt::tx_out` (bitcoin/src/blockdata/transaction.rs 438-442). -/
def txOut (tx : Tx) (i : Nat) : Except Sighash.InputsIndexError TxOut :=
  match tx.outputs[i]? with
  | some x => .ok x
  | none => .error ⟨i, tx.outputs.length⟩
/-- `Display for InputsIndexError`, `OutputsIndexError` (1055-1059, 1074-1078) and the `IndexOutOfBoundsError` inside (1099-1107). -/
def inputIndexMsg : String := "invalid input index"
def outputIndexMsg : String := "invalid output index"
def indexMsg (e : Sighash.InputsIndexError) : String :=
  "index " ++ toString e.index ++ " is out-of-bounds for vector with length " ++ toString e.length

/-- `Display for MidstateError` (hashes/src/sha256/mod.rs 350-358). -/
def midstateMsg (e : Sha2.MidstateError) : String :=
  "invalid number of bytes hashed " ++ toString e.invalidBytesHashed ++ " (should have been a multiple of 64)"

/-- `Display for hkdf::MaxLengthError` (hashes/src/hkdf/mod.rs 162-166). -/
def hkdfMsg (max : Nat) : String := "exceeds " ++ toString max ++ " byte max output material limit"

end ScrErrs
end Btc
