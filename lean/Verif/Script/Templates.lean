import Verif.Script.Num
import Verif.Codec.Combinators
import Verif.Units.Amount
/-!
# Model of script templates

`primitives/src/script/{borrowed,owned,mod}.rs`, `bitcoin/src/blockdata/script/{borrowed,owned,mod}.rs`,
`addresses/src/{lib,witness_program}.rs`.  Public keys enter as their serialised bytes and script hashes as the 20 or
32 hash bytes; tweaking of taproot keys is not modelled here.
-/
namespace Btc
namespace Scr

/-- Index expressions such as `self.as_bytes()[1]`, always guarded by a length test in the modelled functions. -/
def at? (s : Bytes) (i : Nat) : Option UInt8 := s[i]?

/-- `witness_version` (primitives borrowed.rs 219-241). -/
def witnessVersion (s : Bytes) : Option UInt8 :=
  if ¬ (4 ≤ s.length ∧ s.length ≤ 42) then none
  else
    match s with
    | verOpcode :: pushOpbyte :: _ =>
      if pushOpbyte < 0x02 ∨ pushOpbyte > 0x28 then none
      else if s.length - 2 ≠ pushOpbyte.toNat then none
      else witnessVersionFromOp verOpcode
    | _ => none

/-- `is_p2wsh` (245-252), `is_p2wpkh` (256-263), `is_witness_program` (269). -/
def isP2wsh (s : Bytes) : Bool := s.length == 34 && witnessVersion s == some 0 && at? s 1 == some 0x20
def isP2wpkh (s : Bytes) : Bool := s.length == 22 && witnessVersion s == some 0 && at? s 1 == some 0x14
def isWitnessProgram (s : Bytes) : Bool := (witnessVersion s).isSome

/-- `is_p2sh` (273-278). -/
def isP2sh (s : Bytes) : Bool :=
  s.length == 23 && at? s 0 == some OP_HASH160 && at? s 1 == some 0x14 && at? s 22 == some OP_EQUAL

/-- `is_p2pkh` (282-289). -/
def isP2pkh (s : Bytes) : Bool :=
  s.length == 25 && at? s 0 == some OP_DUP && at? s 1 == some OP_HASH160 && at? s 2 == some 0x14 &&
    at? s 23 == some OP_EQUALVERIFY && at? s 24 == some OP_CHECKSIG

/-- `P2A_PROGRAM` (primitives script/mod.rs 94), `is_p2a` (293-298). -/
def P2A_PROGRAM : Bytes := [78, 115]
def isP2a (s : Bytes) : Bool :=
  s.length == 4 && witnessVersion s == some 1 && at? s 1 == some 0x02 && s.drop 2 == P2A_PROGRAM

/-- `is_op_return` (305-307). -/
def isOpReturn (s : Bytes) : Bool := match s.head? with | some b => b == OP_RETURN | none => false

/-- `is_p2tr` (bitcoin borrowed.rs 267-271). -/
def isP2tr (s : Bytes) : Bool := s.length == 34 && witnessVersion s == some 1 && at? s 1 == some 0x20

/-- `is_standard_op_return` (278); `MAX_OP_RETURN_RELAY` is policy.rs 47. -/
def isStandardOpReturn (s : Bytes) : Bool := isOpReturn s && s.length ≤ 83

/-- `is_provably_unspendable` (286-298). -/
def isProvablyUnspendable (s : Bytes) : Bool :=
  match s.head? with
  | some b => classify b .legacy == .returnOp || classify b .legacy == .illegalOp
  | none => false

/-- `p2pk_pubkey_bytes` (416-428), `is_p2pk` (214). -/
def p2pkPubkeyBytes (s : Bytes) : Option Bytes :=
  if s.length = 67 then
    match s with
    | first :: bytes => if first = 0x41 ∧ bytes.getLast? = some OP_CHECKSIG then some bytes.dropLast else none
    | [] => none
  else if s.length = 35 then
    match s with
    | first :: bytes => if first = 0x21 ∧ bytes.getLast? = some OP_CHECKSIG then some bytes.dropLast else none
    | [] => none
  else none
def isP2pk (s : Bytes) : Bool := (p2pkPubkeyBytes s).isSome

/-- The loop of `is_multisig` (241-252) over the remaining items: the number of keys and the items after the `break`
(empty if the loop ended without it).  `checks` is whether `u8` overflow is checked (debug builds): `none` is the
panic; without checks the counter wraps. -/
def multisigLoop (checks : Bool) : List (Except ScrErr Instr) → Nat → Option (Option (Nat × List (Except ScrErr Instr)))
  | .ok (.push _) :: rest, n =>
    if n + 1 < 256 then multisigLoop checks rest (n + 1)
    else if checks then none else multisigLoop checks rest 0
  | .ok (.op op) :: rest, n =>
    match decodePushnum op with
    | some m => if m.toNat = n then some (some (n, rest)) else some none
    | none => some none
  | .error _ :: rest, n => some (some (n, rest))
  | [], n => some (some (n, []))

/-- `is_multisig` (232-263). -/
def isMultisig (checks : Bool) (s : Bytes) : Option Bool :=
  match instructions s with
  | .ok (.op op) :: rest =>
    match decodePushnum op with
    | none => some false
    | some required =>
      match multisigLoop checks rest 0 with
      | none => none
      | some none => some false
      | some (some (n, rest)) =>
        if required.toNat > n then some false
        else match rest with
          | [.ok (.op o)] => some (o == OP_CHECKMULTISIG)
          | _ => some false
  | _ => some false

/-! ### Constructors -/

/-- `new_op_return` (primitives owned.rs 272-274). -/
def newOpReturn (data : Bytes) : Bytes := pushSlice (pushOpcode [] OP_RETURN) data
/-- `new_p2sh` (277-283). -/
def newP2sh (h : Arr 20) : Bytes := pushOpcode (pushSlice (pushOpcode [] OP_HASH160) h.val) OP_EQUAL
/-- `new_witness_program_unchecked` (script/mod.rs 102-111); the `debug_assert`s are the callers' duty.
`new_witness_program` (addresses/src/lib.rs 214-219) is the same with a checked `WitnessProgram`. -/
def newWitnessProgramUnchecked (version : UInt8) (program : Bytes) : Bytes :=
  pushSlice (pushOpcode [] (opOfWitnessVersion version)) program
/-- `new_p2a` (286-288), `new_p2wsh` (293-296), `new_p2wpkh` (bitcoin owned.rs 114-117), `new_p2tr_tweaked`
(addresses/src/lib.rs 209-212). -/
def newP2a : Bytes := newWitnessProgramUnchecked 1 P2A_PROGRAM
def newP2wsh (h : Arr 32) : Bytes := newWitnessProgramUnchecked 0 h.val
def newP2wpkh (h : Arr 20) : Bytes := newWitnessProgramUnchecked 0 h.val
def newP2tr (outputKey : Arr 32) : Bytes := newWitnessProgramUnchecked 1 outputKey.val
/-- `new_p2pk` (addresses/src/lib.rs 185-187). -/
def newP2pk (key : Bytes) : Bytes := pushOpcode (pushSlice [] key) OP_CHECKSIG
/-- `new_p2pkh` (189-197); `p2wpkh_script_code` (bitcoin script/mod.rs 101-109) builds the same bytes. -/
def newP2pkh (h : Arr 20) : Bytes :=
  pushOpcode (pushOpcode (pushSlice (pushOpcode (pushOpcode [] OP_DUP) OP_HASH160) h.val) OP_EQUALVERIFY) OP_CHECKSIG

/-- `WitnessProgram` (addresses/src/witness_program.rs 37-42) and its constructor `new` (53-66). -/
structure WitProgram where
  version : UInt8
  program : Bytes
deriving DecidableEq, Repr
inductive WitProgErr where
  | invalidLength (n : Nat)
  | invalidSegwitV0Length (n : Nat)
deriving DecidableEq, Repr
def WitProgram.new (version : UInt8) (bytes : Bytes) : Except WitProgErr WitProgram :=
  if bytes.length < 2 ∨ bytes.length > 40 then .error (.invalidLength bytes.length)
  else if version = 0 ∧ (bytes.length ≠ 20 ∧ bytes.length ≠ 32) then .error (.invalidSegwitV0Length bytes.length)
  else .ok ⟨version, bytes⟩
/-- `new_witness_program` (addresses/src/lib.rs 214-219). -/
def WitProgram.script (w : WitProgram) : Bytes := newWitnessProgramUnchecked w.version w.program
/-- `WitnessProgram::is_p2wpkh`, `is_p2wsh`, `is_p2tr`, `is_p2a` (141-156). -/
def WitProgram.isP2wpkh (w : WitProgram) : Bool := w.version == 0 && w.program.length == 20
def WitProgram.isP2wsh (w : WitProgram) : Bool := w.version == 0 && w.program.length == 32
def WitProgram.isP2tr (w : WitProgram) : Bool := w.version == 1 && w.program.length == 32
def WitProgram.isP2a (w : WitProgram) : Bool := w.version == 1 && w.program == P2A_PROGRAM

/-- `Script::p2wpkh_script_code` (bitcoin borrowed.rs 158-169); the inner `none` of the conversion is the `expect`. -/
def p2wpkhScriptCode (s : Bytes) : Option (Option Bytes) :=
  if isP2wpkh s then
    if h : (s.drop 2).length = 20 then some (some (newP2pkh ⟨s.drop 2, h⟩)) else none
  else some none

/-- `to_p2sh` (144-148) over `ScriptHash::from_script` (primitives/src/hash_types/script_hash.rs 48-69: size limit 520); `H` is HASH160. -/
def toP2sh (H : Bytes → Arr 20) (s : Bytes) : Option Bytes := if s.length > 520 then none else some (newP2sh (H s))
/-- `to_p2wsh` (178-180) over `WScriptHash::from_script` (primitives/src/hash_types/witness_script_hash.rs 46-64: size limit 10,000); `H` is SHA256. -/
def toP2wsh (H : Bytes → Arr 32) (s : Bytes) : Option Bytes := if s.length > 10000 then none else some (newP2wsh (H s))
/-- `p2sh_p2wpkh` (bitcoin owned.rs 132-135) for a key with hash `h`, `p2sh_p2wsh` (144-148). -/
def p2shP2wpkh (h : Arr 20) : Bytes := pushSlice [] (pushSlice (pushOpcode [] 0) h.val)
def p2shP2wsh (H : Bytes → Arr 32) (s : Bytes) : Option Bytes :=
  if s.length > 10000 then none else some (pushSlice [] (pushSlice (pushOpcode [] 0) (H s).val))

/-! ### Dust -/

/-- `minimal_non_dust_internal` (bitcoin borrowed.rs 430-450).  `u64` additions of lengths cannot overflow. -/
def minimalNonDustInternal (s : Bytes) (rate : Nat) : Option Nat :=
  let size := if isOpReturn s then 0
    else if isWitnessProgram s then 32 + 4 + 1 + (107 / 4) + 4 + 8 + (csSize s.length + s.length)
    else 32 + 4 + 1 + 107 + 4 + 8 + (csSize s.length + s.length)
  (Amt.u64Mul rate size).bind fun x => Amt.okSat (x / 1000)

/-- `minimal_non_dust` (314-317): `none` is the `expect`. -/
def minimalNonDust (s : Bytes) : Option Nat := minimalNonDustInternal s 3000

end Scr
end Btc
