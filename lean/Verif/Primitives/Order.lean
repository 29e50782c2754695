import Verif.Primitives.Transaction
import Verif.Primitives.WitnessLaws
import Verif.Crypto.Signature
import Verif.Bitcoin.Taproot
import Verif.Hashes.Cmp
/-!
# Comparisons

Model of the comparison traits that are written by hand, and of the derived ones they use.  A derived `Ord` compares the
fields in the order of their declaration, variants by position; slices and vectors compare lexicographically, arrays of
bytes as slices.  `Ordering` and its `then` are those of the Lean library, which are Rust's.
-/
namespace Btc

/-- Derived for `Witness` (witness.rs 57-82). -/
def Wit.cmp (a b : Wit) : Ordering :=
  (compare a.content b.content).then ((compare a.elems b.elems).then (compare a.idx b.idx))

/-- Derived for `OutPoint` (transaction.rs 928-934). -/
def OutPoint.cmp (a b : OutPoint) : Ordering := (compare a.txid.1 b.txid.1).then (compare a.vout b.vout)

/-- Derived for `TxIn` (763-784). -/
def TxIn.cmp (a b : TxIn) : Ordering :=
  (a.prev.cmp b.prev).then ((compare a.scriptSig b.scriptSig).then ((compare a.sequence b.sequence).then (a.witness.cmp b.witness)))

/-- Derived for `TxOut` (868-875). -/
def TxOut.cmp (a b : TxOut) : Ordering := (compare a.amount.1 b.amount.1).then (compare a.spk b.spk)

/-- `Ord for Transaction` (232-240). -/
def Tx.cmp (a b : Tx) : Ordering :=
  (((compare a.version b.version).then (compare a.lockTime b.lockTime)).then (List.compareLex TxIn.cmp a.inputs b.inputs)).then
    (List.compareLex TxOut.cmp a.outputs b.outputs)

namespace Crypto

/-- `PartialEq`, `Ord for SerializedSignature` (crypto/src/taproot.rs 266-289), also against slices (271-305). -/
def TapSer.eq (a b : TapSer) : Bool := a.bytes == b.bytes
def TapSer.cmp (a b : TapSer) : Ordering := compare a.bytes b.bytes
def TapSer.eqSlice (a : TapSer) (b : Bytes) : Bool := a.bytes == b
def TapSer.cmpSlice (a : TapSer) (b : Bytes) : Ordering := compare a.bytes b

/-- The same of the ECDSA module (crypto/src/ecdsa.rs 220-258); `none` is the range panic of `Deref`. -/
def EcdsaSer.eq (a b : EcdsaSer) : Option Bool := a.bytes.bind fun x => b.bytes.map fun y => x == y
def EcdsaSer.cmp (a b : EcdsaSer) : Option Ordering := a.bytes.bind fun x => b.bytes.map fun y => compare x y

end Crypto

namespace Taproot

/-- Derived for `LeafVersion` and `FutureLeafVersion` (taproot_primitives/src/lib.rs 200-207, 314-315). -/
def LeafVersion.cmp : LeafVersion → LeafVersion → Ordering
  | .tapScript, .tapScript => .eq
  | .tapScript, .future _ => .lt
  | .future _, .tapScript => .gt
  | .future a, .future b => compare a.1 b.1

/-- Derived for `TapLeaf` (taproot/mod.rs 859-866). -/
def TapLeaf.cmp : TapLeaf → TapLeaf → Ordering
  | .script s v, .script s' v' => (compare s s').then (v.cmp v')
  | .script _ _, .hidden _ => .lt
  | .hidden _, .script _ _ => .gt
  | .hidden h, .hidden h' => compare h.1 h'.1

/-- Derived for `LeafNode` (889-895) and `TaprootMerkleBranchBuf` (merkle_branch/buf.rs 16-19). -/
def LeafNode.cmp (a b : LeafNode) : Ordering :=
  (a.leaf.cmp b.leaf).then (List.compareLex (fun x y : Hash => compare x.1 y.1) a.branch b.branch)

/-- `Ord for NodeInfo` (710-720). -/
def NodeInfo.cmp (a b : NodeInfo) : Ordering :=
  match compare a.hash.1 b.hash.1 with
  | .eq =>
    match List.compareLex LeafNode.cmp a.leaves b.leaves with
    | .eq => compare a.hasHidden b.hasHidden
    | o => o
  | o => o

/-- `PartialEq for NodeInfo` (726-728); `Hash` (730-732) feeds the hasher the same field. -/
def NodeInfo.eq (a b : NodeInfo) : Bool := a.hash.1 == b.hash.1

end Taproot

/-- `PartialEq for Bip32Seed` (key_expression/src/bip32.rs 129-135) and, with equal lengths, for `Hmac` (hashes/src/hmac/mod.rs
28-30); `none` is the assertion of `fixed_time_eq`. -/
def seedEq (a b : Bytes) : Option Bool := if a.length = b.length then Cmp.fixedTimeEq a b else some false

end Btc
