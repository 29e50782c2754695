import Verif.Bitcoin.Taproot
import Verif.Bitcoin.SignMessage
import Verif.Crypto.Sighash
import Verif.Crypto.Signature
/-!
# Model of the texts of Taproot and signature errors

`bitcoin/src/taproot/mod.rs` (module `error`), `taproot/merkle_branch/mod.rs`, `bitcoin/src/crypto/sighash.rs` (module `error`),
`crypto/src/{taproot,ecdsa,sighash}.rs` (modules `error`) and `bitcoin/src/sign_message.rs`: the texts without the fixed headings
that `write_err!` puts before the text of the source.
-/
namespace Btc

namespace Taproot.Msg

/-- `Display for InvalidMerkleTreeDepthError` (taproot/mod.rs 1390-1398). -/
def depth (n : Nat) : String := "Merkle tree depth(" ++ toString n ++ ") must be less than " ++ toString maxNodes

/-- `Display for InvalidMerkleBranchSizeError` (1361-1369). -/
def branchSize (n : Nat) : String := "Merkle branch size(" ++ toString n ++ ") must be a multiple of 32"

/-- `Display for InvalidTaprootLeafVersionError` (taproot_primitives/src/lib.rs 460-464). -/
def leafVersion (v : UInt8) : String := "leaf version(" ++ toString v.toNat ++ ") must have the least significant bit 0"

/-- `Display` of `TaprootBuilderError`, `IncompleteBuilderError`, `HiddenNodesError` (1176-1186, 1219-1226, 1257-1278); the line
continuation in the third text leaves no space after "must".  A panic has no text here. -/
def builder : BErr → Option String
  | .depth n => some (depth n)
  | .notDfs => some "add_leaf/add_hidden must be called in DFS walk order"
  | .overComplete => some "attempted to create a tree with two nodes at depth 0. There mustonly be exactly one node at depth 0"
  | .emptyTree => some "called finalize on an empty tree"
  | .notFinalized => some "an attempt to construct a Taproot tree from a builder containing incomplete branches"
  | .hiddenParts => some "an attempt to construct a Taproot tree from a builder containing hidden parts"
  | .panic => none

/-- `Display` of the sources of `TaprootError` (1314-1330, 1418-1426); the one of the internal key is its heading (1328). -/
def control : CErr → String
  | .size n => "Control Block size(" ++ toString n ++ ") must be of the form 33 + 32*m where 0 <= m <= " ++ toString maxNodes ++ " "
  | .leafVersion v => leafVersion v
  | .branchSize n => branchSize n
  | .branchDepth n => depth n
  | .key => "invalid internal x-only key"

/-- `DecodeError` of `TaprootMerkleBranch::decode` is the number of bytes (merkle_branch/mod.rs 18-39): the conversions into it. -/
def numBytes : CErr → Option Nat
  | .branchSize n => some n
  | .branchDepth n => some (n * 32)
  | _ => none

/-- `From<DecodeError> for TaprootError` (merkle_branch/mod.rs 68-76). -/
def ofNumBytes (n : Nat) : CErr := if n % 32 = 0 then .branchDepth (n / 32) else .branchSize n

/-- `Display for DecodeError` (merkle_branch/mod.rs 41-58). -/
def branch (n : Nat) : String :=
  if n % 32 = 0 then "the Merkle branch has " ++ toString (n / 32) ++ " nodes which is more than the limit " ++ toString maxNodes
  else "the Merkle branch is " ++ toString n ++ " bytes long which is not an integer multiple of 32"

end Taproot.Msg

namespace Crypto.Msg

/-- `Display` of `SigFromSliceError` and `InvalidSighashTypeError` (taproot.rs 480-489; sighash.rs 254-259). -/
def tapSig : TapSigErr → String
  | .sighashType n => "invalid sighash type " ++ toString n.toNat
  | .size n => "invalid Taproot signature size: " ++ toString n

/-- `Display for ParseSignatureError` (taproot.rs 521-534); of the hex error only the heading. -/
def tapSigText : TapSigParseErr → String
  | .length n => "signature must be 128 or 130 ASCII characters long but it had " ++ toString n ++ " bytes"
  | .char => "invalid character in signature"
  | .decode e => tapSig e

/-- `Display` of `DecodeError`, `InvalidDerError`, `NonStandardSighashTypeError` (ecdsa.rs 338-347, 372-375; sighash.rs 281-286). -/
def ecdsaSig : EcdsaSigErr → String
  | .sighashType n => "non-standard sighash type " ++ toString n.toNat
  | .empty => "empty ECDSA signature"
  | .invalidDer => "invalid DER encoding"

/-- `Display for MessageSignatureError` (sign_message.rs 217-226); the text of the secp256k1 error is not modelled. -/
def messageSig : MessageSignatureErr → Option String
  | .invalidLength => some "length not 65 bytes"
  | .invalidEncoding => none
  | .invalidBase64 => some "invalid base64"
  | .unsupportedAddressType t => some ("unsupported address type: " ++ String.ofList (t.display.map fun b => Char.ofNat b.toNat))

end Crypto.Msg

namespace Sighash.Msg

/-- `Display for IndexOutOfBoundsError` (bitcoin/src/blockdata/transaction.rs 1101-1105). -/
def index (e : InputsIndexError) : String := "index " ++ toString e.index ++ " is out-of-bounds for vector with length " ++ toString e.length

/-- `Display` of the sources of `TaprootError` (crypto/sighash.rs 1037-1044, 1060-1064, 1098-1107, 1138-1150, 1225-1234). -/
def tap : TapErr → String
  | .inputsIndex e => index e
  | .singleMissing i n => "sighash single requires an output at the same index as the input (input index: " ++ toString i ++
      ", outputs length: " ++ toString n ++ ")"
  | .prevoutsSize => "number of supplied prevouts differs from the number of inputs in transaction"
  | .prevoutsOneIndex => "invalid index when accessing a Prevouts::One kind"
  | .prevoutsAllIndex => "invalid index when accessing a Prevouts::All kind"
  | .prevoutsKind => "single prevout provided but all prevouts are needed without `ANYONECANPAY`"

/-- `Display for P2wpkhError` (1193-1201). -/
def p2wpkh : P2wpkhErr → String
  | .sighash e => index e
  | .notP2wpkh => "script is not a script pubkey for a p2wpkh output"

/-- Two hex digits (`{:02x}`). -/
def hex02 (b : UInt8) : String :=
  let dig (n : Nat) : Char := Char.ofNat (if n < 10 then 48 + n else 87 + n)
  String.ofList [dig (b.toNat / 16), dig (b.toNat % 16)]

/-- `Display for AnnexError` (1262-1268): `none` is `Empty`. -/
def annex : Option UInt8 → String
  | none => "the annex is empty"
  | some b => "incorrect prefix byte in the annex " ++ hex02 b ++ ", expecting 0x50"

end Sighash.Msg
end Btc
