import Verif.Script.Templates
import Verif.Primitives.Transaction
/-!
# Model of signature operation counting

`bitcoin/src/blockdata/script/borrowed.rs` 343-383 and `bitcoin/src/blockdata/transaction.rs` 419-568.
-/
namespace Btc
namespace Scr

/-- The loop of `count_sigops_internal` (343-383); the `usize` sum is a `Nat` (it is at most 20 per script byte). -/
def sigopsLoop (accurate : Bool) : List (Except ScrErr Instr) → Nat → Option UInt8 → Nat
  | [], n, _ => n
  | .ok (.op opcode) :: rest, n, cache =>
    if opcode = OP_CHECKSIG ∨ opcode = OP_CHECKSIGVERIFY then sigopsLoop accurate rest (n + 1) none
    else if opcode = OP_CHECKMULTISIG ∨ opcode = OP_CHECKMULTISIGVERIFY then
      match accurate, cache with
      | true, some pushnum => sigopsLoop accurate rest (n + pushnum.toNat) none
      | _, _ => sigopsLoop accurate rest (n + 20) none
    else sigopsLoop accurate rest n (decodePushnum opcode)
  | .ok (.push _) :: rest, n, _ => sigopsLoop accurate rest n none
  | .error _ :: _, n, _ => n

/-- `count_sigops`, `count_sigops_legacy` (40 and 54, over 343-383). -/
def countSigops (s : Bytes) : Nat := sigopsLoop true (instructions s) 0 none
def countSigopsLegacy (s : Bytes) : Nat := sigopsLoop false (instructions s) 0 none

/-- `usize` saturating arithmetic on a 64-bit target. -/
def satAdd (a b : Nat) : Nat := min (2 ^ 64 - 1) (a + b)
def satMul (a b : Nat) : Nat := min (2 ^ 64 - 1) (a * b)

/-- `count_p2pk_p2pkh_sigops` (transaction.rs 481-491). -/
def txLegacySigops (tx : Tx) : Nat :=
  tx.outputs.foldl (fun c o => satAdd c (countSigopsLegacy o.spk))
    (tx.inputs.foldl (fun c i => satAdd c (countSigopsLegacy i.scriptSig)) 0)

/-- The inner function of `count_p2sh_sigops` (498-507). -/
def inputP2shSigops (spk scriptSig : Bytes) : Nat :=
  if isP2sh spk then
    match lastPushdata scriptSig with
    | some redeem => satAdd 0 (countSigops redeem)
    | none => 0
  else 0

/-- `count_p2sh_sigops` (494-516).  The `FnMut` closure `spent` is a function here. -/
def txP2shSigops (spent : OutPoint → Option TxOut) (tx : Tx) : Nat :=
  tx.inputs.foldl (fun c i => match spent i.prev with | some o => satAdd c (inputP2shSigops o.spk i.scriptSig) | none => c) 0

/-- `count_sigops_with_witness_program` (523-535); `none` is the panic of `Witness::last` on an ill-formed witness. -/
def witnessProgramSigops (w : Wit) (program : Bytes) : Option Nat :=
  if isP2wpkh program then some 1
  else if isP2wsh program then
    match w.getBack 0 with
    | none => none
    | some (some script) => some (countSigops script)
    | some none => some 0
  else some 0

/-- The inner `count_sigops` of `count_witness_sigops` (537-559). -/
def inputWitnessSigops (spk scriptSig : Bytes) (w : Wit) : Option Nat :=
  if isWitnessProgram spk then witnessProgramSigops w spk
  else if isP2sh spk && isPushOnly scriptSig then
    match lastPushdata scriptSig with
    | some p => witnessProgramSigops w p
    | none => some 0
  else some 0

/-- `count_witness_sigops` (519-568). -/
def txWitnessSigops (spent : OutPoint → Option TxOut) : List TxIn → Nat → Option Nat
  | [], c => some c
  | i :: is, c =>
    match spent i.prev with
    | none => txWitnessSigops spent is c
    | some o =>
      match inputWitnessSigops o.spk i.scriptSig i.witness with
      | none => none
      | some k => txWitnessSigops spent is (satAdd c k)

/-- `total_sigop_cost` (419-428). -/
def totalSigopCost (spent : OutPoint → Option TxOut) (tx : Tx) : Option Nat :=
  let cost := satMul (txLegacySigops tx) 4
  let cost := satAdd cost (satMul (txP2shSigops spent tx) 4)
  (txWitnessSigops spent tx.inputs 0).map (satAdd cost)

end Scr
end Btc
