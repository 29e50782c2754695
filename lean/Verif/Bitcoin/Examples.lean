import Verif.Bitcoin.SignTx
import Verif.Io.Io
import Verif.Primitives.HexText
/-!
# Programs of the examples that read: bitcoin/examples/sighash.rs, script.rs, io.rs, consensus_encoding/examples/encoder.rs

(`bip32.rs` is Verif.Bitcoin.Wallet and the two signing examples are Verif.Bitcoin.SignTx.)  Every `unwrap`, `expect`, index and `assert` that
does not hold is `none`; what is printed is left out, except for the hashes, which are returned.
-/
namespace Btc
namespace Examples
open Crypto
open Taproot (Hash)
open Sighash (Cache)

variable {S : Secp} {D : Der}

/-- `decode_from_slice(raw_tx).unwrap()`, `&tx.inputs[inp_idx]` (sighash.rs 24-25, 63-64, 108-109). -/
def load (raw : Bytes) (i : Nat) : Option (Tx × TxIn) :=
  match txDec.decodeSlice raw with
  | .error _ => none
  | .ok tx => tx.inputs[i]?.map fun x => (tx, x)

/-- `witness.get(n).unwrap()`; `get` itself could also panic. -/
def element (w : Wit) (n : Nat) : Option Bytes := (w.get n).join

/-- `ecdsa::Signature::from_slice(..).expect(..)`. -/
def signature (D : Der) (b : Bytes) : Option (EcdsaSig D) :=
  match EcdsaSig.fromSlice D b with
  | .error _ => none
  | .ok s => some s

/-- `pk_bytes.try_into().expect(..)`, `FullPublicKey::from_bytes(..).expect(..)` (39-40). -/
def fullKey (S : Secp) (b : Bytes) : Option (FullPublicKey S) := if h : b.length = 33 then FullPublicKey.fromBytes ⟨b, h⟩ else none

/-- The rest of `compute_sighash_p2wpkh` (41-52): the hash for the key and the signature, and the check. -/
def verifyP2wpkh (H : Bytes → Hash) (H160 : Bytes → Arr 20) (C : Curve S D) (tx : Tx) (i : Nat) (amount : Amount) (sig : EcdsaSig D)
    (pk : FullPublicKey S) : Option Hash :=
  match (Sighash.p2wpkhHash H (Cache.new tx) i (Scr.newP2wpkh (H160 pk.toBytes)) amount sig.ty).2 with
  | some (.ok h) => if pk.verify C h sig then some h else none
  | _ => none

/-- `compute_sighash_p2wpkh` (sighash.rs 23-53). -/
def computeP2wpkh (H : Bytes → Hash) (H160 : Bytes → Arr 20) (C : Curve S D) (raw : Bytes) (i : Nat) (amount : Amount) : Option Hash :=
  (load raw i).bind fun (tx, inp) =>
    if inp.witness.elems = 2 then
      (element inp.witness 0).bind fun sigBytes => (element inp.witness 1).bind fun pkBytes =>
        (signature D sigBytes).bind fun sig => (fullKey S pkBytes).bind fun pk => verifyP2wpkh H H160 C tx i amount sig pk
    else none

/-- The loop `for n in 1..=witness.len() - 2` (119-130): `k` rounds from `n` on. -/
def wshLoop (H : Bytes → Hash) (D : Der) (w : Wit) (i : Nat) (script : Bytes) (amount : Amount) : Nat → Nat → Cache → Option (List Hash)
  | 0, _, _ => some []
  | k + 1, n, c =>
    (element w n).bind fun sigBytes => (signature D sigBytes).bind fun sig =>
      if 70 ≤ sigBytes.length - 1 ∧ sigBytes.length - 1 ≤ 72 then
        match Sighash.p2wshHash H c i script amount sig.ty with
        | (c, some (.ok h)) => (wshLoop H D w i script amount k (n + 1) c).map (h :: ·)
        | _ => none
      else none

/-- `compute_sighash_p2wsh` (107-131).  With one element `witness.len() - 2` is below zero: a panic, or without overflow checks a loop that asks
for element 1, which panics too. -/
def computeP2wsh (H : Bytes → Hash) (D : Der) (raw : Bytes) (i : Nat) (amount : Amount) : Option (List Hash) :=
  (load raw i).bind fun (tx, inp) => (inp.witness.getBack 0).join.bind fun script =>
    if 2 ≤ inp.witness.elems then wshLoop H D inp.witness i script amount (inp.witness.elems - 2) 1 (Cache.new tx) else none

/-- `.unwrap().push_bytes().unwrap()` (83-85, 91) on an item of `instructions()`. -/
def pushOf : Except Scr.ScrErr Scr.Instr → Option Bytes
  | .ok (.push b) => some b
  | _ => none

/-- `instructions.pop().unwrap().unwrap().push_bytes().unwrap()` (78-79): the popped bytes and what is left. -/
def popPush (is : List (Except Scr.ScrErr Scr.Instr)) : Option (Bytes × List (Except Scr.ScrErr Scr.Instr)) :=
  is.getLast?.bind fun x => (pushOf x).map fun b => (b, is.dropLast)

/-- The loop over the signatures (90-97). -/
def legacyLoop (H : Bytes → Hash) (D : Der) (tx : Tx) (i : Nat) (code : Bytes) : List (Except Scr.ScrErr Scr.Instr) → Option (List Hash)
  | [] => some []
  | x :: xs =>
    (pushOf x).bind fun b => (signature D b).bind fun sig =>
      match Sighash.legacyHash H (Cache.new tx) i code sig.ty.toU32 with
      | some (.ok h) => (legacyLoop H D tx i code xs).map (h :: ·)
      | _ => none

/-- `compute_sighash_legacy` (62-98). -/
def computeLegacy (H : Bytes → Hash) (D : Der) (raw : Bytes) (i : Nat) (spk : Option Bytes) : Option (List Hash) :=
  (load raw i).bind fun (tx, inp) =>
    let is := Scr.instructions inp.scriptSig
    (match spk with
      | some b => some (b, is)
      | none => popPush is).bind fun (code, is) =>
        match is with
        | [] => none
        | x :: xs => (pushOf x).bind fun b => if b.isEmpty then legacyLoop H D tx i code xs else none

/-- script.rs 13-81: do all the assertions hold and all the `unwrap`s succeed?  `{:x}` of a script (primitives/src/script/mod.rs) is the text
without length; `encode_to_hex` and `encode_to_vec` drain the encoder of the script. -/
def scriptProgram (fuel : Nat) (pk : Arr 20) : Bool :=
  let code := Scr.newP2pkh pk
  let prefixed := HexText.scriptHexPrefixed fuel code
  let plain := HexText.scriptHex code
  let viaHex := HexText.drainToHex prefixedBytesEnc fuel (prefixedBytes code) .lower
  let viaVec := prefixedBytesEnc.drain fuel (prefixedBytes code)
  let reads (r : Option (List Char)) : Bool := match r with
    | none => false
    | some t => match HexText.scriptFromHexPrefixed t with
      | .ok s => s == code
      | .error _ => false
  let refuses (t : List Char) : Bool := match HexText.scriptFromHexPrefixed t with
    | .ok _ => false
    | .error _ => true
  let readsVec : Bool := match viaVec with
    | none => false
    | some [] => false
    | some (x :: e) => e == code && (match scriptDec.decodeSlice (x :: e) with
      | .ok s => s == code
      | .error _ => false)
  reads prefixed && (HexText.scriptFromHex plain == some code) && refuses plain && reads viaHex && readsVec

/-- `WriteCounter` (io.rs 49-65, 103-127); its `write_all` is what the default one does with this `write`. -/
def countWriter : Io.Writer Nat := ⟨fun n b => (n + b.length, .ok b.length)⟩

/-- io.rs 29-42: a `Vec` written to, then read as a slice. -/
def ioProgram (rounds fuel : Nat) (o : OutPoint) : Option OutPoint :=
  match Io.vecWriter.drain outPointEnc rounds fuel [] o.encoder with
  | some (v, .ok ()) =>
    match Io.decodeFromRead Io.sliceBuf outPointDec fuel v outPointDec.init with
    | some (.ok o _) => some o
    | _ => none
  | _ => none

/-- encoder.rs 20-71: the encoder of `Inner` (an array, most significant byte first) and of `Adt` (the list with its length, then the bytes without). -/
def innerEnc : Enc := bytesEnc
def innerEncoder (x : UInt32) : innerEnc.S := beBytes 4 x.toNat
def adtEnc : Enc := encN [prefixedSliceEnc innerEnc, bytesEnc]
def adtEncoder (v : List UInt32) (b : Bytes) : adtEnc.S := (0, prefixedSlice innerEnc (v.map innerEncoder), b, ())

end Examples
end Btc
