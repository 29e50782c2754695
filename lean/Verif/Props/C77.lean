import Verif.Bitcoin.Genesis
import Verif.Props.C62
import Verif.Props.C49
import Verif.Props.C45
/-!
# C77: genesis blocks, chain hashes, network parameters and magic
-/
namespace Btc
namespace Genesis
open Pow (Network)

/-- The hash used is SHA-256 twice. -/
theorem sha256d_fips (b : Bytes) (h : b.length < 2 ^ 61) : (sha256d b).1 = Fips.sha256 (Fips.sha256 b) := by
  show Sha2.sha256 (Sha2.sha256 b) = _
  rw [Sha2.sha256_eq b h, Sha2.sha256_eq _ (by rw [Hashes.fips_sha256_length]; decide)]

def okPow : Except PowErr (Arr 32) → Option (Arr 32)
  | .ok h => some h
  | .error _ => none

def okBlock : Option (Except BlockErr (Option (Arr 32))) → Bool
  | some (.ok _) => true
  | _ => false

/-- What is computed for each network. -/
def check (n : Network) : Bool :=
  match genesisBlock n with
  | some (b, w) =>
    decide (b.header.blockHash sha256d = chainHash n) && okBlock (b.validate sha256d) &&
    decide (okPow (validatePow sha256d b.header (params n).pow.maxAttainable) = some (chainHash n)) &&
    decide (b.header.prev = zeroHash) && decide (w = some zeroHash) &&
    (match b.txs with
     | [tx] => tx.isCoinbase && decide (tx.txid sha256d = some b.header.merkleRoot) && decide ((tx.outputs.map (·.amount.1)).sum = 5000000000)
     | _ => false)
  | none => false

theorem check_true (n : Network) : check n = true := by
  cases n <;> decide +kernel

/-- Building the genesis block never panics.  It is a valid block without predecessor whose only transaction is a coinbase of fifty
bitcoin and whose hash is the network's chain hash; it is mined at exactly the network's easiest target. -/
theorem C77_genesis (n : Network) : ∃ b w tx, genesisBlock n = some (b, w) ∧ b.txs = [tx] ∧
    b.header.blockHash sha256d = chainHash n ∧ fromGenesisBlockHash (b.header.blockHash sha256d) = chainHash n ∧
    (∃ r, b.validate sha256d = some (.ok r)) ∧
    validatePow sha256d b.header (params n).pow.maxAttainable = .ok (chainHash n) ∧
    b.header.prev = zeroHash ∧ w = some zeroHash ∧
    tx.isCoinbase = true ∧ tx.txid sha256d = some b.header.merkleRoot ∧ (tx.outputs.map (·.amount.1)).sum = 50 * 100000000 := by
  have h := check_true n
  unfold check at h
  split at h
  · rename_i b w hb
    simp only [Bool.and_eq_true, decide_eq_true_eq] at h
    obtain ⟨⟨⟨⟨⟨h1, h2⟩, h3⟩, h4⟩, h5⟩, h6⟩ := h
    split at h6
    · rename_i tx htx
      simp only [Bool.and_eq_true, decide_eq_true_eq] at h6
      refine ⟨b, w, tx, hb, htx, h1, h1, ?_, ?_, h4, h5, h6.1.1, h6.1.2, h6.2⟩
      · unfold okBlock at h2
        split at h2
        · rename_i r hr; exact ⟨r, hr⟩
        · cases h2
      · unfold okPow at h3
        split at h3
        · rename_i r hr; injection h3 with h3; rw [hr, h3]
        · cases h3
    · cases h6
  · cases h

/-- The chain hash is SHA-256 twice of the eighty header bytes. -/
theorem C77_hash (n : Network) (b : Block) (w : Option (Arr 32)) (h : genesisBlock n = some (b, w)) :
    (chainHash n).1 = Fips.sha256 (Fips.sha256 (leBytes 4 b.header.version.toNat ++ b.header.prev.1 ++ b.header.merkleRoot.1 ++
      leBytes 4 b.header.time.toNat ++ leBytes 4 b.header.bits.toNat ++ leBytes 4 b.header.nonce.toNat)) := by
  obtain ⟨b', w', tx, h1, _, h2, _⟩ := C77_genesis n
  rw [h] at h1
  cases h1
  rw [← h2]
  unfold Header.blockHash
  rw [sha256d_fips _ (by simp [u32le, leBytes_length, b.header.prev.2, b.header.merkleRoot.2])]
  rfl

theorem scripts_eq (n : Network) : scripts n = some
    ([0x04, 0xff, 0xff, 0x00, 0x1d, 0x01, 0x04] ++
        (if n = .testnet4 then 0x4c :: 76 :: Net.str "03/May/2024 000000000000000000001ebd58c244970b3aa9d783bb001011fbe8ea8e98e00e"
         else 69 :: Net.str "The Times 03/Jan/2009 Chancellor on brink of second bailout for banks"),
     (if n = .testnet4 then 33 :: List.replicate 33 0 else 65 :: OUTPUT_PK) ++ [0xac]) := by
  cases n <;> decide +kernel

/-- The messages in the genesis coinbases, and who is paid. -/
theorem C77_coinbase (n : Network) (tx : Tx) (h : genesisTx n = some tx) :
    ∃ i o, tx.inputs = [i] ∧ tx.outputs = [o] ∧ i.prev = OutPoint.null ∧ tx.version = 1 ∧ tx.lockTime = 0 ∧ i.sequence = 0xFFFFFFFF ∧
      i.witness = Wit.empty ∧
      i.scriptSig = [0x04, 0xff, 0xff, 0x00, 0x1d, 0x01, 0x04] ++
        (if n = .testnet4 then 0x4c :: 76 :: Net.str "03/May/2024 000000000000000000001ebd58c244970b3aa9d783bb001011fbe8ea8e98e00e"
         else 69 :: Net.str "The Times 03/Jan/2009 Chancellor on brink of second bailout for banks") ∧
      o.spk = (if n = .testnet4 then 33 :: List.replicate 33 0 else 65 :: OUTPUT_PK) ++ [0xac] := by
  unfold genesisTx at h
  cases hs : scripts n with
  | none => rw [hs] at h; cases h
  | some s =>
    rw [hs] at h
    simp only [Option.map_some, Option.some.injEq] at h
    subst h
    rw [scripts_eq n] at hs
    injection hs with hs
    subst hs
    exact ⟨_, _, rfl, rfl, rfl, rfl, rfl, rfl, rfl, rfl, rfl⟩

/-- Chain hashes name networks: one each, and no other hash is accepted. -/
theorem C77_chain_hash (c : Arr 32) (n : Network) : fromChainHash c = some n ↔ c = chainHash n := by
  constructor
  · intro h
    unfold fromChainHash at h
    split at h; · cases h; assumption
    split at h; · cases h; assumption
    split at h; · cases h; assumption
    split at h; · cases h; assumption
    split at h; · cases h; assumption
    cases h
  · rintro rfl
    cases n <;> decide +kernel

/-- So the hash of a genesis block identifies its network. -/
theorem C77_genesis_network (n : Network) (b : Block) (w : Option (Arr 32)) (h : genesisBlock n = some (b, w)) :
    fromChainHash (fromGenesisBlockHash (b.header.blockHash sha256d)) = some n := by
  obtain ⟨b', w', tx, h1, _, h2, _⟩ := C77_genesis n
  rw [h] at h1
  cases h1
  exact (C77_chain_hash _ _).2 h2

/-- Magic bytes name networks, and survive their text form. -/
theorem C77_magic (m : Arr 4) (n : Network) (s : Bytes) :
    (fromMagic m = some n ↔ m = magic n) ∧ magicParse (magicDisplay m) = some m ∧
    (magicParse s = some m ↔ unhex s = some m.1) := by
  refine ⟨⟨fun h => ?_, ?_⟩, ?_, ?_⟩
  · unfold fromMagic at h
    split at h; · cases h; assumption
    split at h; · cases h; assumption
    split at h; · cases h; assumption
    split at h; · cases h; assumption
    split at h; · cases h; assumption
    cases h
  · rintro rfl
    cases n <;> decide
  · unfold magicParse magicDisplay
    rw [unhex_hexBytes]
    simp only [m.2, dif_pos]
  · unfold magicParse
    cases hu : unhex s with
    | none => simp
    | some b =>
      simp only [Option.some.injEq]
      by_cases hl : b.length = 4
      · rw [dif_pos hl]
        simp only [Option.some.injEq]
        exact ⟨fun h => h ▸ rfl, fun h => Subtype.ext h⟩
      · rw [dif_neg hl]
        constructor
        · intro h; cases h
        · intro h; exact absurd (h ▸ m.2) hl

/-- The script that challenges the blocks of the default signet: one signature of two keys. -/
def signetChallenge : Bytes :=
  (unhex (Net.str ("512103ad5e0edad18cb1f0fc0d28a3d4f1f3e445640337489abb10404f2d1e086be430" ++
    "210359ef5021964fe22d6f8e05b2463c9540ce96883fe3b278760f048f5189f2e6c452ae"))).getD []

/-- The values on the wire: the message starts of Bitcoin Core, where that of signet is the first four bytes of the double hash of the
length and bytes of the challenge (BIP-325); the port of a node, and beside it the port of its interface. -/
theorem C77_values (n : Network) :
    magicDisplay (magic n) = Net.str (match n with
      | .bitcoin => "f9beb4d9" | .testnet3 => "0b110907" | .testnet4 => "1c163f28" | .signet => "0a03cf40" | .regtest => "fabfb5da") ∧
    (magic .signet).1 = (sha256d (UInt8.ofNat signetChallenge.length :: signetChallenge)).1.take 4 ∧
    p2pPort n = (match n with
      | .bitcoin => 8333 | .testnet3 => 18333 | .testnet4 => 48333 | .signet => 38333 | .regtest => 18444) ∧
    rpcPort n + (if n = .regtest then 2 else 1) = p2pPort n := by
  refine ⟨by cases n <;> decide +kernel, by decide +kernel, by cases n <;> rfl, by cases n <;> rfl⟩

/-- The parameters: those of the network itself; retargeting every 2016 blocks; an activation threshold of 95 percent of the window on
the networks with real difficulty and 75 percent on the others; ports that tell networks and uses apart; pay-to-script-hash from
1 April 2012 on; and the buried deployments of BIP-34, BIP-66 and BIP-65 at the heights Bitcoin Core enforces, in that order on the two
networks where they were voted on. -/
theorem C77_params (n m : Network) :
    (params n).network = n ∧ (params n).powLimit = (params n).pow.maxAttainable ∧ (params n).pow = Pow.Network.params n ∧
    difficultyAdjustmentInterval (params n) = 2016 ∧
    (params n).ruleChangeActivationThreshold * 100 / (params n).minerConfirmationWindow =
      (if (params n).pow.allowMinDifficulty then 75 else 95) ∧
    ((p2pPort n = p2pPort m → n = m) ∧ (rpcPort n = rpcPort m → n = m) ∧ p2pPort n ≠ rpcPort m) ∧
    (params n).bip16Time = (42 * 365 + 10 + 31 + 29 + 31) * 86400 ∧
    ((params n).bip34Height, (params n).bip66Height, (params n).bip65Height) = (match n with
      | .bitcoin => (227931, 363725, 388381) | .testnet3 => (21111, 330776, 581885)
      | .testnet4 => (1, 1, 1) | .signet => (1, 1, 1) | .regtest => (100000000, 1251, 1351)) := by
  refine ⟨by cases n <;> rfl, by cases n <;> rfl, by cases n <;> rfl, by cases n <;> decide, by cases n <;> decide, ?_, ?_, ?_⟩
  · cases n <;> cases m <;> decide
  · cases n <;> decide
  · cases n <;> rfl

/-- `validate_pow` says yes exactly if the bits decode to the required target and the hash, as a little-endian number, is at most that. -/
theorem C77_validate_pow (H : Bytes → Arr 32) (h : Header) (t : U256) (x : Arr 32) :
    (validatePow H h t = .ok x ↔ Pow.fromCompact h.bits = t ∧ x = h.blockHash H ∧ leNat x.1 ≤ t.val) ∧
    (validatePow H h t = .error .badTarget ↔ Pow.fromCompact h.bits ≠ t) := by
  unfold validatePow
  simp only []
  by_cases ht : Pow.fromCompact h.bits = t
  · rw [if_neg (fun hn => hn ht)]
    by_cases hm : Pow.isMetBy (Pow.fromCompact h.bits) (h.blockHash H) = true
    · rw [if_pos hm]
      rw [Pow.C45_is_met_by, ht] at hm
      refine ⟨⟨fun e => ?_, fun e => ?_⟩, ⟨fun e => (by cases e), fun e => absurd ht e⟩⟩
      · injection e with e; subst e; exact ⟨ht, rfl, hm⟩
      · rw [e.2.1]
    · rw [if_neg hm]
      rw [Pow.C45_is_met_by, ht] at hm
      refine ⟨⟨fun e => (by cases e), fun e => ?_⟩, ⟨fun e => (by cases e), fun e => absurd ht e⟩⟩
      rw [e.2.1] at e; exact absurd e.2.2 hm
  · rw [if_pos ht]
    exact ⟨⟨fun e => (by cases e), fun e => absurd e.1 ht⟩, ⟨fun _ => ht, fun _ => rfl⟩⟩

/-! ## Examples -/

example : signetChallenge.length = 71 := by decide +kernel

/-- The genesis transaction of Bitcoin (displayed backwards). -/
example : ((genesisTx .bitcoin).bind fun tx => tx.txid sha256d).map (fun h => h.1.reverse) =
    unhex (Net.str "4a5e1e4baab89f3a32518a88c31bc87f618f76673e2cc77ab2127b7afdeda33b") := by decide +kernel
example : (chainHash .bitcoin).1.reverse = (unhex (Net.str "000000000019d6689c085ae165831e934ff763ae46a2a6c172b3f1b60a8ce26f")).getD [] := by decide +kernel
example : fromChainHash zeroHash = none := by decide
example : fromMagic (mg [0xF9, 0xBE, 0xB4, 0xDA]) = none := by decide
example : magicDisplay (magic .signet) = Net.str "0a03cf40" := by decide +kernel

end Genesis
end Btc
