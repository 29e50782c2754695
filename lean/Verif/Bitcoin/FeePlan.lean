import Verif.Bitcoin.SignTx
import Verif.Bitcoin.TxHelpers
/-!
# Planning a fee before signing

The program the documentation of `predict_weight` and `InputWeightPrediction` describes (bitcoin/src/blockdata/transaction.rs
607-648, 741-810): one prediction for each input of the unsigned transaction, the constants for the usual kinds and `new` with the
lengths of the elements for the others; the weight predicted from them and from the output scripts; the fee at a rate.
The outer `none` is a panic or an error the program does not handle.
-/
namespace Btc
namespace SignTx
open Crypto
open Taproot (Hash)

variable {S : Secp} {D : Der}

/-- The prediction for an input: the constants and `new` (bitcoin/src/blockdata/transaction.rs 750-809, 891-910). -/
def Lock.prediction (H : Bytes → Hash) {C : Curve S D} : Lock C → Option InputPrediction
  | .p2pkh k _ => some (if k.compressed then InputPrediction.P2PKH_COMPRESSED_MAX else InputPrediction.P2PKH_UNCOMPRESSED_MAX)
  | .p2wpkh _ _ => some InputPrediction.P2WPKH_MAX
  | .p2shP2wpkh _ _ => some InputPrediction.NESTED_P2WPKH_MAX
  | .p2wshMultisig keys signers _ =>
    (multisigScript signers.length keys).bind fun s => InputPrediction.new 0 (0 :: List.replicate signers.length 72 ++ [s.length])
  | .p2trKey _ _ ty => some (if ty = .default then InputPrediction.P2TR_KEY_DEFAULT_SIGHASH else InputPrediction.P2TR_KEY_NON_DEFAULT_SIGHASH)
  | .p2trScript internal tree k ty =>
    match spendInfo H internal (some tree) with
    | none => none
    | some info =>
      let script := leafScript (XOnlyKey.fromKeypair C k)
      match Taproot.controlBlock info (script, .tapScript) with
      | some (some cb) => InputPrediction.new 0 [if ty = .default then 64 else 65, script.length, cb.size]
      | _ => none

/-- The predicted weight of the transaction once signed: `predict_weight` over the predictions and `script_pubkey_lens` (transaction.rs 415-417, 649-700). -/
def planWeight (H : Bytes → Hash) {C : Curve S D} (tx : Tx) (locks : List (Lock C)) : Option Nat :=
  (locks.mapM (Lock.prediction H)).bind fun ps => predictWeight ps tx.scriptPubkeyLens

/-- The fee for it at `rate` (satoshis per million virtual bytes): `FeeRate::mul_by_weight` (units/src/fee_rate/mod.rs 212-222). -/
def planFee (H : Bytes → Hash) {C : Curve S D} (rate : Nat) (tx : Tx) (locks : List (Lock C)) : Option Nat :=
  (planWeight H tx locks).bind fun w =>
    match Amt.mulByWeight rate w with
    | .ok fee => some fee
    | .error _ => none

end SignTx
end Btc
