import Verif.Bitcoin.PredictWeight
import Verif.Units.Amount
import Verif.Units.LockTime
import Verif.Script.Templates
/-!
# Helpers on transactions

Model of the parts of `bitcoin/src/blockdata/transaction.rs` that decide on replacement, finality and value, of
`bitcoin/src/policy.rs` and of `bitcoin/src/consensus_validation.rs`.  Arithmetic panics (`none`) as in builds with overflow checks.
-/
namespace Btc

/-! ### Replacement and finality -/

/-- `TxInExt::enables_lock_time` (transaction.rs 100). -/
def TxIn.enablesLockTime (i : TxIn) : Bool := (Lock.Seq.mk i.sequence) != Lock.Seq.MAX

/-- `is_explicitly_rbf` (404). -/
def Tx.isExplicitlyRbf (tx : Tx) : Bool := tx.inputs.any fun i => (Lock.Seq.mk i.sequence).isRbf

/-- `is_lock_time_enabled` (413). -/
def Tx.isLockTimeEnabled (tx : Tx) : Bool := tx.inputs.any TxIn.enablesLockTime

/-- `is_absolute_timelock_satisfied` (406-411); `none` is the panic of `from_consensus`, which made the lock time. -/
def Tx.isAbsoluteTimelockSatisfied (tx : Tx) (height : Lock.Height) (time : Lock.Mtp) : Option Bool :=
  (Lock.LockTime.fromConsensus tx.lockTime).map fun l =>
    if !tx.isLockTimeEnabled then true else l.isSatisfiedBy height time

/-- `tx_in`, `tx_out` (431-442); the error is the index and the length. -/
def Tx.txIn (tx : Tx) (n : Nat) : Except (Nat × Nat) TxIn :=
  match tx.inputs[n]? with
  | some i => .ok i
  | none => .error (n, tx.inputs.length)
def Tx.txOut (tx : Tx) (n : Nat) : Except (Nat × Nat) TxOut :=
  match tx.outputs[n]? with
  | some o => .ok o
  | none => .error (n, tx.outputs.length)

/-- `script_pubkey_lens` and its iterator (415-417, 447-455). -/
def Tx.scriptPubkeyLens (tx : Tx) : List Nat := tx.outputs.map fun o => o.spk.length

/-! ### Weight predictions for signatures -/

namespace InputPrediction

/-- `P2WPKH_MAX`, `NESTED_P2WPKH_MAX`, `P2PKH_COMPRESSED_MAX`, `P2PKH_UNCOMPRESSED_MAX`, `P2TR_KEY_DEFAULT_SIGHASH`,
`P2TR_KEY_NON_DEFAULT_SIGHASH` (762-809). -/
def P2WPKH_MAX : InputPrediction := fromSlice 0 [72, 33]
def NESTED_P2WPKH_MAX : InputPrediction := fromSlice 23 [72, 33]
def P2PKH_COMPRESSED_MAX : InputPrediction := fromSlice 107 []
def P2PKH_UNCOMPRESSED_MAX : InputPrediction := fromSlice 139 []
def P2TR_KEY_DEFAULT_SIGHASH : InputPrediction := fromSlice 0 [64]
def P2TR_KEY_NON_DEFAULT_SIGHASH : InputPrediction := fromSlice 0 [65]

/-- The size of a ground signature (844, 865, 885). -/
def derSize (grind : Nat) : Option Nat := if grind ≤ 62 then some (10 + (62 - grind)) else none

/-- `ground_p2wpkh` (842-846), `ground_nested_p2wpkh` (863-867), `ground_p2pkh_compressed` (883-888). -/
def groundP2wpkh (grind : Nat) : Option InputPrediction := (derSize grind).map fun n => fromSlice 0 [n, 33]
def groundNestedP2wpkh (grind : Nat) : Option InputPrediction := (derSize grind).map fun n => fromSlice 23 [n, 33]
def groundP2pkhCompressed (grind : Nat) : Option InputPrediction := (derSize grind).map fun n => fromSlice (2 + 33 + n) []

end InputPrediction

/-- `effective_value` (596-605). -/
def effectiveValue (rate : Nat) (p : InputPrediction) (value : Nat) : Option Int :=
  p.totalWeight.bind fun w => Amt.signedSub value (Amt.toFee rate w)

/-! ### Policy -/

/-- `get_virtual_tx_size` (policy.rs 50-53), in `i64`; the division truncates. -/
def getVirtualTxSize (weight sigops : Int) : Option Int :=
  (Amt.i64 (sigops * 20)).bind fun s =>
  (Amt.i64 (max weight s + 4)).bind fun x =>
  (Amt.i64 (x - 1)).map fun y => y.tdiv 4

/-- `TxOut::minimal_non_dust`, `TxOut::minimal_non_dust_custom` (transaction.rs 199-219), `minimal_non_dust_custom`
(script/borrowed.rs 330-332): the amount for the output. -/
def txOutMinimalNonDust (spk : Bytes) : Option Nat := Scr.minimalNonDust spk
def txOutMinimalNonDustCustom (spk : Bytes) (rate : Nat) : Option Nat := Scr.minimalNonDustInternal spk (Amt.kvbCeil rate)

/-! ### Verification against spent outputs -/

/-- `TxVerifyError` (consensus_validation.rs 243-248). -/
inductive TxVerifyError (E : Type) where
  | script (e : E)
  | unknown (o : OutPoint)
deriving DecidableEq

/-- The library `bitcoinconsensus` as a parameter: script, amount, transaction, index, flags. -/
abbrev ConsensusLib (E : Type) := Bytes → Nat → Bytes → Nat → UInt32 → Except E Unit

/-- The loop of `verify_transaction_with_flags` (103-116); `spent` is `FnMut`: it has a state. -/
def verifyLoop {E σ : Type} (lib : ConsensusLib E) (ser : Bytes) (flags : UInt32) (spent : σ → OutPoint → Option TxOut × σ) :
    Nat → List TxIn → σ → Except (TxVerifyError E) Unit
  | _, [], _ => .ok ()
  | idx, i :: rest, st =>
    match spent st i.prev with
    | (some o, st') =>
      match lib o.spk o.amount.1 ser idx flags with
      | .ok () => verifyLoop lib ser flags spent (idx + 1) rest st'
      | .error e => .error (.script e)
    | (none, _) => .error (.unknown i.prev)

/-- `verify_transaction_with_flags` (92-117); `ser` is the result of `encode_to_vec(tx)`. -/
def verifyTransactionWithFlags {E σ : Type} (lib : ConsensusLib E) (tx : Tx) (ser : Bytes) (spent : σ → OutPoint → Option TxOut × σ)
    (st : σ) (flags : UInt32) : Except (TxVerifyError E) Unit :=
  verifyLoop lib ser flags spent 0 tx.inputs st

/-- `verify_transaction` (82-87): `VERIFY_ALL_PRE_TAPROOT` of `bitcoinconsensus` is P2SH, DERSIG, NULLDUMMY, CHECKLOCKTIMEVERIFY,
CHECKSEQUENCEVERIFY and WITNESS. -/
def verifyTransaction {E σ : Type} (lib : ConsensusLib E) (tx : Tx) (ser : Bytes) (spent : σ → OutPoint → Option TxOut × σ)
    (st : σ) : Except (TxVerifyError E) Unit :=
  verifyTransactionWithFlags lib tx ser spent st (1 ||| 4 ||| 16 ||| 512 ||| 1024 ||| 2048)

end Btc
