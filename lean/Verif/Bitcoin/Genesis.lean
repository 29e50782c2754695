import Verif.Bitcoin.SignMessage
import Verif.Primitives.BlockValidate
import Verif.Units.Pow
import Verif.Script.Num
import Verif.Addresses.Network
/-!
# Genesis blocks, chain hashes, network parameters and network magic

Model of `bitcoin/src/blockdata/constants.rs`, `bitcoin/src/network`, `p2p/src/network_ext.rs` and of `Magic` in `p2p/src/lib.rs`.
`TestnetVersion` is marked `non_exhaustive` but has two values; the arms for others cannot be reached and are left out.
-/
namespace Btc
namespace Genesis
open Pow (Network)

/-- `sha256d::Hash::hash`. -/
def sha256d (b : Bytes) : Arr 32 := ⟨Sha2.finish256d (Sha2.input256 Sha2.new256 b), finish256d_length _⟩

/-- `GENESIS_OUTPUT_PK` (constants.rs 61-71). -/
def OUTPUT_PK : Bytes :=
  [0x04,
   0x67, 0x8a, 0xfd, 0xb0, 0xfe, 0x55, 0x48, 0x27,
   0x19, 0x67, 0xf1, 0xa6, 0x71, 0x30, 0xb7, 0x10,
   0x5c, 0xd6, 0xa8, 0x28, 0xe0, 0x39, 0x09, 0xa6,
   0x79, 0x62, 0xe0, 0xea, 0x1f, 0x61, 0xde, 0xb6,
   0x49, 0xf6, 0xbc, 0x3f, 0x4c, 0xef, 0x38, 0xc4,
   0xf3, 0x55, 0x04, 0xe5, 0x1e, 0xc1, 0x12, 0xde,
   0x5c, 0x38, 0x4d, 0xf7, 0xba, 0x0b, 0x8d, 0x57,
   0x8a, 0x4c, 0x70, 0x2b, 0x6b, 0xf1, 0x1d, 0x5f]

/-- `TESTNET4_GENESIS_OUTPUT_PK` (constants.rs 74). -/
def TESTNET4_OUTPUT_PK : Bytes := List.replicate 33 0

/-- The two scripts of `bitcoin_genesis_tx` (constants.rs 86-106); `none` is a panic of `push_int_*`. -/
def inScript (message : Bytes) : Option Bytes :=
  ((Scr.pushIntUnchecked [] 486604799).bind fun s => Scr.pushIntNonMinimal s 4).map fun s => Scr.pushSlice s message
def outScript (pk : Bytes) : Bytes := Scr.pushOpcode (Scr.pushSlice [] pk) 0xac

def scripts : Network → Option (Bytes × Bytes)
  | .testnet4 => (inScript (Net.str "03/May/2024 000000000000000000001ebd58c244970b3aa9d783bb001011fbe8ea8e98e00e")).map (·, outScript TESTNET4_OUTPUT_PK)
  | _ => (inScript (Net.str "The Times 03/Jan/2009 Chancellor on brink of second bailout for banks")).map (·, outScript OUTPUT_PK)

/-- `Amount::FIFTY_BTC` (units/src/amount/unsigned.rs). -/
def FIFTY_BTC : Amount := ⟨50 * 100000000, by decide⟩

/-- `bitcoin_genesis_tx` (constants.rs 77-119). -/
def genesisTx (n : Network) : Option Tx :=
  (scripts n).map fun s => ⟨1, 0, [⟨OutPoint.null, s.1, 0xFFFFFFFF, Wit.empty⟩], [⟨FIFTY_BTC, s.2⟩]⟩

/-- The arms of `genesis_block` (constants.rs 128-201). -/
def genesisHeader (merkleRoot : Arr 32) : Network → Header
  | .bitcoin => ⟨1, Pow.genesisPrev, merkleRoot, 1231006505, 0x1d00ffff, 2083236893⟩
  | .testnet3 => ⟨1, Pow.genesisPrev, merkleRoot, 1296688602, 0x1d00ffff, 414098458⟩
  | .testnet4 => ⟨1, Pow.genesisPrev, merkleRoot, 1714777860, 0x1d00ffff, 393743547⟩
  | .signet => ⟨1, Pow.genesisPrev, merkleRoot, 1598918400, 0x1e0377ae, 52613770⟩
  | .regtest => ⟨1, Pow.genesisPrev, merkleRoot, 1296688602, 0x207fffff, 2⟩

/-- `genesis_block` (constants.rs 122-202) with the cached witness root; `none` is a panic. -/
def genesisBlock (n : Network) : Option (Block × Option (Arr 32)) :=
  (genesisTx n).bind fun tx =>
    (computeMerkleRoot sha256d [tx]).bind fun r => r.bind fun root =>
      (computeWitnessRoot sha256d [tx]).map fun w => (⟨genesisHeader root n, [tx]⟩, w)

/-! ## `ChainHash` (constants.rs 206-283) -/

def ch (l : Bytes) (h : l.length = 32 := by decide) : Arr 32 := ⟨l, h⟩

def BITCOIN : Arr 32 := ch
  [111, 226, 140, 10, 182, 241, 179, 114, 193, 166, 162, 70, 174, 99, 247, 79, 147, 30, 131,
   101, 225, 90, 8, 156, 104, 214, 25, 0, 0, 0, 0, 0]
def TESTNET3 : Arr 32 := ch
  [67, 73, 127, 215, 248, 38, 149, 113, 8, 244, 163, 15, 217, 206, 195, 174, 186, 121, 151,
   32, 132, 233, 14, 173, 1, 234, 51, 9, 0, 0, 0, 0]
def TESTNET4 : Arr 32 := ch
  [67, 240, 139, 218, 176, 80, 227, 91, 86, 124, 134, 75, 145, 244, 127, 80, 174, 114, 90,
   226, 222, 83, 188, 251, 186, 242, 132, 218, 0, 0, 0, 0]
def SIGNET : Arr 32 := ch
  [246, 30, 238, 59, 99, 163, 128, 164, 119, 160, 99, 175, 50, 178, 187, 201, 124, 159, 249,
   240, 31, 44, 66, 37, 233, 115, 152, 129, 8, 0, 0, 0]
def REGTEST : Arr 32 := ch
  [6, 34, 110, 70, 17, 26, 11, 89, 202, 175, 18, 96, 67, 235, 91, 191, 40, 195, 79, 58, 94,
   51, 42, 31, 199, 178, 183, 60, 241, 136, 145, 15]

/-- `using_genesis_block`, `using_genesis_block_const` (248-272), `NetworkExt::chain_hash` (network/mod.rs 57). -/
def chainHash : Network → Arr 32
  | .bitcoin => BITCOIN
  | .testnet3 => TESTNET3
  | .testnet4 => TESTNET4
  | .signet => SIGNET
  | .regtest => REGTEST

/-- `from_genesis_block_hash` (275-277). -/
def fromGenesisBlockHash (h : Arr 32) : Arr 32 := h

/-- `NetworkExt::from_chain_hash`, `TryFrom<ChainHash> for Network` (network/mod.rs 59, 111-121). -/
def fromChainHash (c : Arr 32) : Option Network :=
  if c = BITCOIN then some .bitcoin
  else if c = TESTNET3 then some .testnet3
  else if c = TESTNET4 then some .testnet4
  else if c = SIGNET then some .signet
  else if c = REGTEST then some .regtest
  else none

/-! ## `Params` (network/params.rs 73-283) -/

/-- The fields of `Params` besides those in `Pow.Params`. -/
structure FullParams where
  network : Network
  bip16Time : Nat
  bip34Height : Nat
  bip65Height : Nat
  bip66Height : Nat
  ruleChangeActivationThreshold : Nat
  minerConfirmationWindow : Nat
  powLimit : U256
  pow : Pow.Params

/-- `Params::MAINNET` … `Params::REGTEST` (143-249), `Params::new` (252-261), `NetworkExt::params` (network/mod.rs 62-71). -/
def params : Network → FullParams
  | .bitcoin => ⟨.bitcoin, 1333238400, 227931, 388381, 363725, 1916, 2016, Pow.maxMainnet, Pow.Network.params .bitcoin⟩
  | .testnet3 => ⟨.testnet3, 1333238400, 21111, 581885, 330776, 1512, 2016, Pow.maxTestnet, Pow.Network.params .testnet3⟩
  | .testnet4 => ⟨.testnet4, 1333238400, 1, 1, 1, 1512, 2016, Pow.maxTestnet, Pow.Network.params .testnet4⟩
  | .signet => ⟨.signet, 1333238400, 1, 1, 1, 1916, 2016, Pow.maxSignet, Pow.Network.params .signet⟩
  | .regtest => ⟨.regtest, 1333238400, 100000000, 1351, 1251, 108, 144, Pow.maxRegtest, Pow.Network.params .regtest⟩

/-- `difficulty_adjustment_interval` (264-266). -/
def difficultyAdjustmentInterval (p : FullParams) : Nat := p.pow.timespan / p.pow.spacing

/-- `HeaderExt::validate_pow` (bitcoin/src/blockdata/block.rs 64-75). -/
inductive PowErr where
  | badProofOfWork | badTarget
deriving DecidableEq, Repr

def validatePow (H : Bytes → Arr 32) (h : Header) (required : U256) : Except PowErr (Arr 32) :=
  let target := Pow.fromCompact h.bits
  if target ≠ required then .error .badTarget
  else
    let hash := h.blockHash H
    if Pow.isMetBy target hash then .ok hash else .error .badProofOfWork

/-! ## `Magic` (p2p/src/lib.rs 339-425) and `NetworkExt` (p2p/src/network_ext.rs) -/

def mg (l : Bytes) (h : l.length = 4 := by decide) : Arr 4 := ⟨l, h⟩

/-- The constants (343-351), `TryFrom<Network> for Magic` (378-387), `default_network_magic` (network_ext.rs 57-66). -/
def magic : Network → Arr 4
  | .bitcoin => mg [0xF9, 0xBE, 0xB4, 0xD9]
  | .testnet3 => mg [0x0B, 0x11, 0x09, 0x07]
  | .testnet4 => mg [0x1c, 0x16, 0x3f, 0x28]
  | .signet => mg [0x0A, 0x03, 0xCF, 0x40]
  | .regtest => mg [0xFA, 0xBF, 0xB5, 0xDA]

/-- `TryFrom<Magic> for Network` (393-402). -/
def fromMagic (m : Arr 4) : Option Network :=
  if m = magic .bitcoin then some .bitcoin
  else if m = magic .testnet3 then some .testnet3
  else if m = magic .testnet4 then some .testnet4
  else if m = magic .signet then some .signet
  else if m = magic .regtest then some .regtest
  else none

/-- `Display`, `LowerHex` and `FromStr` for `Magic` (367-372, 405-418). -/
def magicDisplay (m : Arr 4) : Bytes := hexBytes m.1
def magicParse (s : Bytes) : Option (Arr 4) :=
  match unhex s with
  | some b => if h : b.length = 4 then some ⟨b, h⟩ else none
  | none => none

/-- `default_p2p_port`, `default_rpc_port` (network_ext.rs 28-51). -/
def p2pPort : Network → Nat
  | .bitcoin => 8333
  | .testnet3 => 18333
  | .testnet4 => 48333
  | .signet => 38333
  | .regtest => 18444
def rpcPort : Network → Nat
  | .bitcoin => 8332
  | .testnet3 => 18332
  | .testnet4 => 48332
  | .signet => 38332
  | .regtest => 18442

end Genesis
end Btc
