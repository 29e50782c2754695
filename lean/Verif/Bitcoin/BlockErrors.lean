import Verif.P2p.Pmt
import Verif.P2p.Bip152
import Verif.Bitcoin.Bip34
import Verif.Bitcoin.Genesis
/-!
# Model of the texts of the errors about blocks

`p2p/src/merkle_tree.rs`, `p2p/src/bip152.rs`, `primitives/src/block.rs` and `bitcoin/src/blockdata/block.rs` (modules `error`).
-/
namespace Btc

/-- `Display for MerkleBlockError` (merkle_tree.rs 612-627). -/
def Pmt.msg : Pmt.Err → String
  | .merkleRootMismatch => "Merkle header root doesn't match to the root calculated from the partial Merkle tree"
  | .noTransactions => "partial Merkle tree contains no transactions"
  | .tooManyTransactions => "too many transactions"
  | .tooManyHashes => "proof contains more hashes than transactions"
  | .notEnoughBits => "proof contains fewer bits than hashes"
  | .notAllBitsConsumed => "not all bits were consumed"
  | .notAllHashesConsumed => "not all hashes were consumed"
  | .bitsArrayOverflow => "overflowed the bits array"
  | .hashesArrayOverflow => "overflowed the hashes array"
  | .identicalHashesFound => "found identical transaction hashes"

/-- `Display for TxIndexOutOfRangeError` (bip152.rs 747-756). -/
def Bip152.msg (n : Nat) : String := "a transaction index is requested that is out of range from the corresponding block: " ++ toString n

/-- `Display for InvalidBlockError` (primitives/src/block.rs 830-841). -/
def BlockErr.msg : BlockErr → String
  | .invalidMerkleRoot => "header Merkle root does not match the calculated Merkle root"
  | .invalidWitnessCommitment => "the witness commitment in coinbase transaction does not match the calculated witness_root"
  | .noTransactions => "block has no transactions (missing coinbase)"
  | .invalidCoinbase => "the first transaction is not a valid coinbase transaction"

/-- `Display for Bip34Error` (bitcoin/src/blockdata/block.rs 242-251). -/
def Bip34.msg : Bip34.Err → String
  | .unsupported => "block doesn't support BIP-0034"
  | .notPresent => "BIP-0034 push not present in block's coinbase"
  | .nonMinimalPush => "byte push not minimally encoded"
  | .negativeHeight => "negative BIP-0034 height"

/-- `Display for ValidationError` (block.rs 297-304). -/
def Genesis.powMsg : Genesis.PowErr → String
  | .badProofOfWork => "block target correct but not attained"
  | .badTarget => "block target incorrect"

end Btc
