import Verif.Primitives.BlockValidate
import Verif.Script.Num
/-!
# The block height in the coinbase (BIP-34)

Model of `BlockCheckedExt::bip34_block_height` (bitcoin/src/blockdata/block.rs 161-189).
-/
namespace Btc
namespace Bip34
open Scr

/-- `Bip34Error` (227-236). -/
inductive Err where
  | unsupported | notPresent | nonMinimalPush | negativeHeight
deriving DecidableEq, Repr

/-- `to_bip34_error` (276-281) and `From<ScriptIntError>` (267-272); `none` stands for the `NumErr.panic` of the model. -/
def ofScriptErr (e : ScrErr) : Err := if e = .nonMinimalPush then .nonMinimalPush else .notPresent
def ofNumErr : NumErr → Option Err
  | .nonMinimal => some .nonMinimalPush
  | .numericOverflow => some .notPresent
  | .panic => none

/-- `Instruction::push_bytes` (instruction.rs). -/
def pushBytes : Instr → Option Bytes
  | .push b => some b
  | .op _ => none

/-- The part after the version test (175-188); `none` is a panic. -/
def heightOf (scriptSig : Bytes) : Option (Except Err Nat) :=
  match instructionsMinimal scriptSig with
  | [] => some (.error .notPresent)
  | .error e :: _ => some (.error (ofScriptErr e))
  | .ok push :: _ =>
    match push.scriptNum, (pushBytes push).map readScriptint with
    | some num, some (.ok _) => some (if num < 0 then .error .negativeHeight else .ok num.toNat)
    | some num, none => some (if num < 0 then .error .negativeHeight else .ok num.toNat)
    | _, some (.error e) => (ofNumErr e).map .error
    | none, _ => some (.error .notPresent)

/-- `bip34_block_height`; `none` is an index panic of `coinbase()` or `first_input()`.  The comparison of versions is signed. -/
def blockHeight (b : Block) : Option (Except Err Nat) :=
  if b.header.version.toBitVec.toInt < 2 then some (.error .unsupported)
  else match b.txs with
    | [] => none
    | cb :: _ => match cb.inputs with
      | [] => none
      | i :: _ => heightOf i.scriptSig

end Bip34
end Btc
