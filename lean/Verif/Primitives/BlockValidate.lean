import Verif.Primitives.Block
import Verif.Primitives.Merkle
/-!
# Model of block validation (primitives/src/block.rs 136-228, 406-457)

`H` is sha256d.  An outer `none` is a panic of the witness iterator.
-/
namespace Btc

/-- `MerkleNode::combine` (merkle_tree.rs 165-170, 183-188). -/
def combineH (H : Bytes → Arr 32) (a b : Arr 32) : Arr 32 := H (a.1 ++ b.1)

/-- `TxMerkleNode::calculate_root`, `WitnessMerkleNode::calculate_root` in `std` builds on x86 and
aarch64 (merkle_tree.rs 174-177, 192-195). -/
def merkleRootOf (H : Bytes → Arr 32) (l : List (Arr 32)) : Option (Arr 32) :=
  Merkle.calculateRootBatched (combineH H) l

/-- `compute_merkle_root` (block.rs 406-413). -/
def computeMerkleRoot (H : Bytes → Arr 32) (txs : List Tx) : Option (Option (Arr 32)) :=
  (txs.mapM (Tx.txid H)).map (merkleRootOf H)

/-- `Wtxid::COINBASE`: all zeros (hash_types/wtxid.rs). -/
def zeroHash : Arr 32 := ⟨List.replicate 32 0, List.length_replicate⟩

/-- `compute_witness_root` (block.rs 425-439). -/
def computeWitnessRoot (H : Bytes → Arr 32) : List Tx → Option (Option (Arr 32))
  | [] => some (merkleRootOf H [])
  | _ :: txs => (txs.mapM (Tx.wtxid H)).map fun l => merkleRootOf H (zeroHash :: l)

/-- `WITNESS_COMMITMENT_MAGIC` (block.rs 56). -/
def commitmentMagic : Bytes := [0x6a, 0x24, 0xaa, 0x21, 0xa9, 0xed]

/-- The predicate of `rposition` (block.rs 448-450). -/
def isCommitment (o : TxOut) : Bool := decide (38 ≤ o.spk.length) && o.spk.take 6 == commitmentMagic

/-- `witness_commitment_from_coinbase` (block.rs 442-457). -/
def witnessCommitment (cb : Tx) : Option Bytes :=
  if cb.isCoinbase then
    match cb.outputs.reverse.find? isCommitment with
    | some o => some ((o.spk.drop 6).take 32)
    | none => none
  else none

/-- `Block::compute_witness_commitment` (block.rs 174-187). -/
def computeWitnessCommitment (H : Bytes → Arr 32) (txs : List Tx) (reserved : Bytes) :
    Option (Option (Arr 32 × Arr 32)) :=
  (computeWitnessRoot H txs).map fun r => r.map fun root => (root, H (root.1 ++ reserved))

/-- `transactions.iter().all(…)` (block.rs 222). -/
def noWitnesses (txs : List Tx) : Bool := txs.all fun t => t.inputs.all fun i => i.witness.isEmpty

/-- `Block::check_witness_commitment` (block.rs 197-227). -/
def checkWitnessCommitment (H : Bytes → Arr 32) (txs : List Tx) : Option (Bool × Option (Arr 32)) :=
  match txs with
  | [] => some (false, none)
  | cb :: _ =>
    match (if cb.isCoinbase then witnessCommitment cb else none) with
    | some commitment =>
      match cb.inputs with
      | [] => none
      | i :: _ =>
        match i.witness.toVec with
        | none => none
        | some [reserved] =>
          if reserved.length = 32 then
            match computeWitnessCommitment H txs reserved with
            | none => none
            | some (some (root, c)) =>
              if commitment = c.1 then some (true, some root) else some (false, none)
            | some none => some (false, none)
          else some (false, none)
        | some _ => some (false, none)
    | none => if noWitnesses txs then some (true, none) else some (false, none)

/-- `InvalidBlockError` (block.rs 784-795). -/
inductive BlockErr where
  | noTransactions | invalidCoinbase | invalidMerkleRoot | invalidWitnessCommitment
deriving DecidableEq, Repr

/-- `Block::check_merkle_root` (block.rs 166-171). -/
def checkMerkleRoot (H : Bytes → Arr 32) (b : Block) : Option Bool :=
  (computeMerkleRoot H b.txs).map fun
    | some r => b.header.merkleRoot == r
    | none => false

/-- `Block::validate` (block.rs 143-163); the value is the witness root kept in the checked block. -/
def Block.validate (H : Bytes → Arr 32) (b : Block) : Option (Except BlockErr (Option (Arr 32))) :=
  match b.txs with
  | [] => some (.error .noTransactions)
  | cb :: _ =>
    if !cb.isCoinbase then some (.error .invalidCoinbase)
    else match checkMerkleRoot H b with
      | none => none
      | some false => some (.error .invalidMerkleRoot)
      | some true => match checkWitnessCommitment H b.txs with
        | none => none
        | some (false, _) => some (.error .invalidWitnessCommitment)
        | some (true, root) => some (.ok root)

end Btc
