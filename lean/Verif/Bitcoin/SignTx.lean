import Verif.Addresses.Address
import Verif.Bitcoin.P2trWitness
import Verif.Bitcoin.TaprootLaws
import Verif.Crypto.Keypair
import Verif.Crypto.Sighash
import Verif.Script.Num
/-!
# Signing a transaction: bitcoin/examples/sign-tx-segwit-v0.rs, bitcoin/examples/sign-tx-taproot.rs

The program of the two examples: one `SighashCache` over the unsigned transaction, for each input a signature hash, a signature and
`*witness_mut(i) = ..`, then `into_transaction`.  The examples sign one input that spends one kind of output; here there is a list of inputs,
and the other kinds of outputs the library can make are spent with the functions it has for them.  Where an input needs a script
signature the transaction is taken out of the cache, changed, and put into a new one (the cache gives access to witnesses only).
The outer `none` is a panic or an error the program does not handle.
-/
namespace Btc
namespace SignTx
open Crypto
open Taproot (Hash)
open Sighash (Cache)

variable {S : Secp} {D : Der}

/-- An output the program can spend: how it is locked, and the keys and the signature hash type to spend it with. -/
inductive Lock (C : Curve S D) where
  /-- Pay to public key hash. -/
  | p2pkh (k : PrivateKey) (ty : Ecdsa)
  /-- Pay to witness public key hash (sign-tx-segwit-v0.rs). -/
  | p2wpkh (k : PrivateKey) (ty : Ecdsa)
  /-- The same, nested in pay to script hash. -/
  | p2shP2wpkh (k : PrivateKey) (ty : Ecdsa)
  /-- Pay to witness script hash, the script asking for as many signatures as there are signers. -/
  | p2wshMultisig (keys : List (FullPublicKey S)) (signers : List PrivateKey) (ty : Ecdsa)
  /-- Taproot key path (sign-tx-taproot.rs, where there is no tree). -/
  | p2trKey (kp : Keypair) (tree : Option Taproot.Tree) (ty : Tap)
  /-- Taproot script path, for a leaf that asks for one signature. -/
  | p2trScript (internal : XOnlyKey C) (tree : Taproot.Tree) (k : Keypair) (ty : Tap)

/-- `Builder::push_int`, `push_key` (bitcoin/src/blockdata/script/builder.rs 92), `push_opcode`: m, the keys, n, OP_CHECKMULTISIG. -/
def multisigScript (m : Nat) (keys : List (FullPublicKey S)) : Option Bytes :=
  match Scr.pushInt [] m with
  | some (.ok s) =>
    match Scr.pushInt (keys.foldl (fun s k => Scr.pushSlice s k.toLegacy.serialize) s) keys.length with
    | some (.ok s) => some (Scr.pushOpcode s Scr.OP_CHECKMULTISIG)
    | _ => none
  | _ => none

/-- `Builder::push_x_only_key` (builder.rs 101), `push_opcode(OP_CHECKSIG)`. -/
def leafScript {C : Curve S D} (k : XOnlyKey C) : Bytes := Scr.pushOpcode (Scr.pushSlice [] k.serialize.1.1) Scr.OP_CHECKSIG

/-- `TaprootBuilder::new`, `add_leaf` for each leaf, `finalize`. -/
def spendInfo (H : Bytes → Hash) {C : Curve S D} (internal : XOnlyKey C) : Option Taproot.Tree → Option (Taproot.SpendInfo C.taproot)
  | none =>
    match Taproot.finalize H [] internal with
    | some (.ok info) => some info
    | _ => none
  | some t =>
    match Taproot.runCalls H [] (t.dfs 0) with
    | .error _ => none
    | .ok st =>
      match Taproot.finalize H st internal with
      | some (.ok info) => some info
      | _ => none

/-- The address of the output. -/
def Lock.address (H : Bytes → Hash) (H160 : Bytes → Arr 20) {C : Curve S D} (kind : NetworkKind) (hrp : Addr.KnownHrp) : Lock C → Option Addr.Address
  | .p2pkh k _ => some (.p2pkh (H160 (k.toLegacyPublicKey S).serialize) kind)
  | .p2wpkh k _ => some (.ofWpubkeyHash (H160 (k.toPublicKey S).toBytes) hrp)
  | .p2shP2wpkh k _ => Addr.Address.p2shwpkh H160 (H160 (k.toPublicKey S).toBytes) kind
  | .p2wshMultisig keys signers _ => (multisigScript signers.length keys).bind fun s => Addr.Address.p2wsh H s hrp
  | .p2trKey kp tree _ => (spendInfo H (XOnlyKey.fromKeypair C kp) tree).map fun info => .p2trTweaked (C.serX info.outputKey.inner) hrp
  | .p2trScript internal tree _ _ => (spendInfo H internal (some tree)).map fun info => .p2trTweaked (C.serX info.outputKey.inner) hrp

/-- What is to be stored into an input: a script signature, a witness. -/
abbrev Fill := Option Bytes × Option Wit

/-- Hash, sign and build for input `i` that spends `own`; `spent` are the outputs spent by all inputs. -/
def prepare (H : Bytes → Hash) (H160 : Bytes → Arr 20) {C : Curve S D} (spent : List TxOut) (own : TxOut) (i : Nat) (c : Cache) :
    Lock C → Cache × Option Fill
  | .p2pkh k ty =>
    match Sighash.legacyHash H c i own.spk ty.toU32 with
    | some (.ok h) =>
      match (signSighash C h k ty).serialize.bind EcdsaSer.bytes with
      | some sig => (c, some (some (Scr.pushSlice (Scr.pushSlice [] sig) (k.toLegacyPublicKey S).serialize), none))
      | none => (c, none)
    | _ => (c, none)
  | .p2wpkh k ty =>
    match Sighash.p2wpkhHash H c i own.spk own.amount ty with
    | (c, some (.ok h)) => (c, (P2tr.p2wpkh (signSighash C h k ty) (k.toPublicKey S)).map fun w => (none, some w))
    | (c, _) => (c, none)
  | .p2shP2wpkh k ty =>
    match Sighash.p2wpkhHash H c i (Scr.newP2wpkh (H160 (k.toPublicKey S).toBytes)) own.amount ty with
    | (c, some (.ok h)) =>
      (c, (P2tr.p2wpkh (signSighash C h k ty) (k.toPublicKey S)).map fun w => (some (Scr.p2shP2wpkh (H160 (k.toPublicKey S).toBytes)), some w))
    | (c, _) => (c, none)
  | .p2wshMultisig keys signers ty =>
    match multisigScript signers.length keys with
    | none => (c, none)
    | some script =>
      match Sighash.p2wshHash H c i script own.amount ty with
      | (c, some (.ok h)) => (c, (P2tr.p2wsh ([] :: signers.map fun k => (signSighash C h k ty).toVec) script).map fun w => (none, some w))
      | (c, _) => (c, none)
  | .p2trKey kp tree ty =>
    match spendInfo H (XOnlyKey.fromKeypair C kp) tree with
    | none => (c, none)
    | some info =>
      match Sighash.tapKeyHash H c i (.all spent) ty with
      | (c, some (.ok h)) =>
        match kp.tapTweak H C info.merkleRoot with
        | none => (c, none)
        | some tweaked => (c, (P2tr.p2trKeySpend (signKeySpend C h tweaked ty)).map fun w => (none, some w))
      | (c, _) => (c, none)
  | .p2trScript internal tree k ty =>
    match spendInfo H internal (some tree) with
    | none => (c, none)
    | some info =>
      let script := leafScript (XOnlyKey.fromKeypair C k)
      match Taproot.controlBlock info (script, .tapScript) with
      | some (some cb) =>
        match Sighash.tapScriptHash H c i (.all spent) (Taproot.leafHash H script .tapScript) ty with
        | (c, some (.ok h)) =>
          (c, ((Wit.fromSlice [(signScriptSpend C h k ty).toVec]).bind fun w => P2tr.pushP2trScriptSpend w script cb none).map fun w => (none, some w))
        | (c, _) => (c, none)
      | _ => (c, none)

/-- Storing: the witness through the cache, the script signature in the transaction itself. -/
def store (c : Cache) (i : Nat) (f : Fill) : Cache :=
  let c := match f.2 with
    | some w => Sighash.witnessMut c i w
    | none => c
  match f.1 with
  | some s => Cache.new { c.tx with inputs := c.tx.inputs.modify i fun x => { x with scriptSig := s } }
  | none => c

/-- The inputs from `i` on. -/
def signFrom (H : Bytes → Hash) (H160 : Bytes → Arr 20) {C : Curve S D} (spent : List TxOut) : Nat → Cache → List (Lock C) → Option Cache
  | _, c, [] => some c
  | i, c, l :: ls =>
    match spent[i]? with
    | none => none
    | some own =>
      match prepare H H160 spent own i c l with
      | (c, some f) => signFrom H H160 spent (i + 1) (store c i f) ls
      | (_, none) => none

/-- The whole program: the signed transaction. -/
def signTx (H : Bytes → Hash) (H160 : Bytes → Arr 20) {C : Curve S D} (tx : Tx) (spent : List TxOut) (locks : List (Lock C)) : Option Tx :=
  (signFrom H H160 spent 0 (Cache.new tx) locks).map (·.tx)

end SignTx
end Btc
