import Verif.Primitives.TransactionLaws
/-!
# Model of block headers and blocks (primitives/src/block.rs, bitcoin/src/blockdata/block.rs)
-/
namespace Btc

/-- `Header` (block.rs 469-483).  `Version` is an `i32`; only its bit pattern is kept. -/
structure Header where
  version : UInt32
  prev : Arr 32
  merkleRoot : Arr 32
  time : UInt32
  bits : UInt32
  nonce : UInt32
deriving DecidableEq

/-- `Encode for Header` (block.rs 540-572). -/
def headerEnc : Enc := encN [bytesEnc, bytesEnc, bytesEnc, bytesEnc, bytesEnc, bytesEnc]
def Header.encoder (h : Header) : headerEnc.S :=
  (0, u32le h.version, h.prev.1, h.merkleRoot.1, u32le h.time, u32le h.bits, u32le h.nonce, ())

/-- `BlockHashDecoder`, `TxMerkleNodeDecoder` (hash_types/block_hash.rs 53-66,
transaction_merkle_node.rs 73-86). -/
def hash32Dec : Dec (Arr 32) :=
  (arrayDec 32).mapE (fun b => if h : b.length = 32 then .ok ⟨b, h⟩ else .error .panic) id

/-- `HeaderDecoder` (block.rs 574-624); version, time and bits decoders are 752-765 here, units time.rs
144-157 and pow.rs 338-351, all `u32Dec`. -/
def headerDec : Dec Header :=
  (dec6 u32Dec hash32Dec hash32Dec u32Dec u32Dec (arrayDec 4)).mapE
    (fun x => .ok ⟨x.1, x.2.1, x.2.2.1, x.2.2.2.1, x.2.2.2.2.1, UInt32.ofNat (leNat x.2.2.2.2.2)⟩) id

/-- `Header::block_hash` (block.rs 492-495): `encode_to_hash` feeds every chunk of the encoder to the
engine; `H` is sha256d. -/
def Header.blockHash (H : Bytes → Arr 32) (h : Header) : Arr 32 :=
  H (u32le h.version ++ h.prev.1 ++ h.merkleRoot.1 ++ u32le h.time ++ u32le h.bits ++ u32le h.nonce)

/-- `Block` (block.rs 84-97) without the cached witness root. -/
structure Block where
  header : Header
  txs : List Tx

/-- `Encode for Block` (block.rs 345-374). -/
def blockEnc : Enc := encN [headerEnc, prefixedSliceEnc txEnc]
def Block.encoder (b : Block) : blockEnc.S :=
  (0, b.header.encoder, prefixedSlice txEnc (b.txs.map Tx.encoder), ())

/-- `BlockDecoder` (block.rs 377-394). -/
def blockDec : Dec Block :=
  (dec2 headerDec (vecDec txDec MAX_VEC_SIZE)).mapE (fun x => .ok ⟨x.1, x.2⟩) id

/-! ## Sizes (bitcoin/src/blockdata) -/

/-- `TxInExt::base_size` (transaction.rs 146-153). -/
def TxIn.baseSize (i : TxIn) : Nat := 36 + csSize i.scriptSig.length + i.scriptSig.length + 4

/-- `TxInExt::total_size` (162); the outer `none` is a panic of `Witness::size`. -/
def TxIn.totalSize (i : TxIn) : Option Nat := i.witness.size.map (i.baseSize + ·)

/-- `TxOutExt::size` (188, 224-227). -/
def TxOut.size (o : TxOut) : Nat := 8 + csSize o.spk.length + o.spk.length

/-- `TransactionExt::base_size` (364-374). -/
def Tx.baseSize (tx : Tx) : Nat :=
  4 + csSize tx.inputs.length + (tx.inputs.map TxIn.baseSize).sum +
    csSize tx.outputs.length + (tx.outputs.map TxOut.size).sum + 4

/-- `TransactionExt::total_size` (377-396). -/
def Tx.totalSize (tx : Tx) : Option Nat :=
  (tx.inputs.mapM fun i => if tx.usesSegwit then i.totalSize else some i.baseSize).map fun ins =>
    4 + (if tx.usesSegwit then 2 else 0) + csSize tx.inputs.length + ins.sum +
      csSize tx.outputs.length + (tx.outputs.map TxOut.size).sum + 4

/-- `TransactionExt::weight` (358-362). -/
def Tx.weight (tx : Tx) : Option Nat := tx.totalSize.map (tx.baseSize * 3 + ·)

/-- `Weight::to_vb_ceil` (units/src/weight.rs: `self.to_wu().div_ceil(4)`). -/
def toVbCeil (w : Nat) : Nat := w / 4 + if w % 4 = 0 then 0 else 1

/-- `TransactionExt::vsize` (399-402). -/
def Tx.vsize (tx : Tx) : Option Nat := tx.weight.map toVbCeil

/-- `TxInExt::legacy_weight`, `segwit_weight` (115-137). -/
def TxIn.legacyWeight (i : TxIn) : Nat := i.baseSize * 4
def TxIn.segwitWeight (i : TxIn) : Option Nat := i.witness.size.map (i.baseSize * 4 + ·)
/-- `TxOutExt::weight` (179-183). -/
def TxOut.weight (o : TxOut) : Nat := o.size * 4

/-- `BlockCheckedExt::total_size` (block.rs 146-153), `block_base_size` (192-199), `weight`
(140-144). -/
def Block.totalSize (b : Block) : Option Nat :=
  (b.txs.mapM Tx.totalSize).map fun s => 80 + csSize b.txs.length + s.sum
def Block.baseSize (b : Block) : Nat := 80 + csSize b.txs.length + (b.txs.map Tx.baseSize).sum
def Block.weight (b : Block) : Option Nat := b.totalSize.map (b.baseSize * 3 + ·)

end Btc
