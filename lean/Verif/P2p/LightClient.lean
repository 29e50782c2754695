import Verif.P2p.Pmt
import Verif.Primitives.BlockValidate
/-!
# What a full node sends to a light client (p2p/src/merkle_tree.rs)
-/
namespace Btc
namespace Pmt

/-- `MerkleBlock::from_block_with_predicate` (80-87); `none` is a panic of `compute_txid` or of `from_txids`. -/
def MerkleBlock.fromBlock (H : Bytes → Arr 32) (b : Block) (p : Arr 32 → Bool) : Option MerkleBlock :=
  match b.txs.mapM (Tx.txid H) with
  | none => none
  | some ids => MerkleBlock.fromHeader (combineH H) b.header ids p

end Pmt
end Btc
