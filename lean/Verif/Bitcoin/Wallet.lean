import Verif.Bip32.Xkey
import Verif.Bitcoin.SignTx
/-!
# Model of a wallet and its watch-only copy

/repo/bitcoin/examples/bip32.rs (root key from a seed, account key at a path, its extended public key as text, addresses below it), over any
seed, account, paths and kinds of addresses with one key, followed by the signing of `Verif.Bitcoin.SignTx`.

Not modelled: gap limits, coin selection, how the coins are found.
-/
namespace Btc
namespace Wallet

open Crypto
open Bip32 (Xpriv Xpub Seed ChildNumber)
open Taproot (Hash)
open SignTx (Lock)
open Pow (Network)

variable {S : Secp} {D : Der}

/-- The kinds of addresses made from one key. -/
inductive Kind where
  | p2pkh | p2wpkh | p2shP2wpkh | p2tr
deriving DecidableEq

/-- An output received: where its key is below the account, what kind of address, and the types to sign with. -/
structure Coin where
  kind : Kind
  path : List ChildNumber
  ecdsa : Ecdsa
  tap : Tap

/-- `Xpriv::to_private_key`, `to_keypair` (key_expression/src/bip32.rs 761, 768). -/
def toPrivateKey (k : Xpriv) : PrivateKey := .fromSecp k.privateKey
def toKeypair (k : Xpriv) : Keypair := .fromPrivateKey (toPrivateKey k)

/-- `Xpub::to_public_key`, `to_x_only_public_key` (905, 914). -/
def toPublicKey (k : Xpub S) : FullPublicKey S := ⟨k.publicKey⟩
def toXOnly (C : Curve S D) (k : Xpub S) : XOnlyKey C := .ofPoint C k.publicKey

/-- `expect`/`unwrap` on the result of a derivation. -/
def okOf {α ε : Type} : Option (Except ε α) → Option α
  | some (.ok k) => some k
  | _ => none

/-- `Xpriv::new_master`, then `derive_from_path` (examples/bip32.rs 29-34). -/
def keyAt (S : Secp) (n : NetworkKind) (seed : Seed) (path : List ChildNumber) : Option Xpriv :=
  (Xpriv.newMaster n seed).bind fun m => okOf (m.deriveFromPath S path)

/-- `Xpub::from_xpriv` of the account key as text (36-37); `B` is the checksum of base58 strings. -/
def exportXpub (S : Secp) (B : Bytes → Arr 32) (n : NetworkKind) (seed : Seed) (account : List ChildNumber) : Option Bytes :=
  (keyAt S n seed account).bind fun k => (Xpub.fromXpriv S k).display B

/-- `Address::p2pkh`, `p2wpkh`, `p2shwpkh`, `p2tr` (addresses/src/lib.rs 665-763) of an extended public key. -/
def addressOf (H : Bytes → Hash) (H160 : Bytes → Arr 20) (C : Curve S D) (n : Network) (k : Xpub S) : Kind → Option Addr.Address
  | .p2pkh => some (.p2pkh (Addr.Address.pubkeyHash H160 (toPublicKey k).toLegacy) (Net.kindOf n))
  | .p2wpkh => some (.ofWpubkeyHash (H160 (toPublicKey k).toBytes) (.fromNetwork n))
  | .p2shP2wpkh => Addr.Address.p2shwpkh H160 (H160 (toPublicKey k).toBytes) (Net.kindOf n)
  | .p2tr => (Taproot.tapTweak H (toXOnly C k) none).map fun q => .p2trTweaked (C.serX q.inner) (.fromNetwork n)

/-- The watch-only copy: it has nothing but the text of the extended public key (41-44). -/
def receive (H : Bytes → Hash) (H160 : Bytes → Arr 20) (B : Bytes → Arr 32) (C : Curve S D) (n : Network) (xpub : Bytes) (c : Coin) : Option Bytes :=
  match (Xpub.parse B xpub : Except _ (Xpub S)) with
  | .error _ => none
  | .ok k =>
    (okOf (k.deriveFromPath c.path)).bind fun k => (addressOf H H160 C n k c.kind).bind fun a => a.display B false

/-- The payer: the text of the address is parsed, checked for the network and turned into a script. -/
def payTo (B : Bytes → Arr 32) (n : Network) (text : Bytes) : Option Bytes :=
  match Addr.Address.parse B text with
  | .error _ => none
  | .ok a =>
    match a.requireNetwork n with
    | .error _ => none
    | .ok a => some a.scriptPubkey

/-- The keys of a coin. -/
def lockOf (C : Curve S D) (k : Xpriv) (c : Coin) : Lock C :=
  match c.kind with
  | .p2pkh => .p2pkh (toPrivateKey k) c.ecdsa
  | .p2wpkh => .p2wpkh (toPrivateKey k) c.ecdsa
  | .p2shP2wpkh => .p2shP2wpkh (toPrivateKey k) c.ecdsa
  | .p2tr => .p2trKey (toKeypair k) none c.tap

/-- The wallet: the keys of all coins from the seed. -/
def locks (C : Curve S D) (n : NetworkKind) (seed : Seed) (account : List ChildNumber) : List Coin → Option (List (Lock C))
  | [] => some []
  | c :: cs =>
    (keyAt S n seed (account ++ c.path)).bind fun k => (locks C n seed account cs).map (lockOf C k c :: ·)

/-- Spending the coins: every input is signed. -/
def spend (H : Bytes → Hash) (H160 : Bytes → Arr 20) (C : Curve S D) (n : NetworkKind) (seed : Seed) (account : List ChildNumber) (coins : List Coin)
    (tx : Tx) (spent : List TxOut) : Option Tx :=
  (locks C n seed account coins).bind fun ls => SignTx.signTx H H160 tx spent ls

end Wallet
end Btc
