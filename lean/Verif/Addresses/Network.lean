import Verif.Crypto.Keys
import Verif.Units.Pow
/-!
# Model of `network/src/lib.rs`

`Network` is `Pow.Network` (`Testnet(V3)` is `testnet3`, `Testnet(V4)` is `testnet4`), `NetworkKind` is `Crypto.NetworkKind`.  Text is
bytes.  The input string carried by `ParseNetworkError` is not modelled.
-/
namespace Btc.Net
open Crypto (NetworkKind)
open Pow (Network)

/-- The bytes of an ASCII string. -/
def str (s : String) : Bytes := s.toList.map fun c => UInt8.ofNat c.toNat

/-- `From<Network> for NetworkKind` (62-69). -/
def kindOf : Network → NetworkKind
  | .bitcoin => .main
  | .testnet3 | .testnet4 | .signet | .regtest => .test

/-- `to_core_arg` (107-117). -/
def toCoreArg : Network → Bytes
  | .bitcoin => str "main"
  | .testnet3 => str "test"
  | .testnet4 => str "testnet4"
  | .signet => str "signet"
  | .regtest => str "regtest"

/-- `from_core_arg` (130-141). -/
def fromCoreArg (s : Bytes) : Option Network :=
  if s = str "main" then some .bitcoin
  else if s = str "test" then some .testnet3
  else if s = str "testnet4" then some .testnet4
  else if s = str "signet" then some .signet
  else if s = str "regtest" then some .regtest
  else none

/-- `as_display_str` (143-152), `Display` (154-158) and `Serialize` (183-190). -/
def display : Network → Bytes
  | .bitcoin => str "bitcoin"
  | .testnet3 => str "testnet"
  | .testnet4 => str "testnet4"
  | .signet => str "signet"
  | .regtest => str "regtest"

/-- `FromStr` (160-176) and `Deserialize` (193-220). -/
def parse (s : Bytes) : Option Network :=
  if s = str "bitcoin" then some .bitcoin
  else if s = str "testnet" then some .testnet3
  else if s = str "testnet4" then some .testnet4
  else if s = str "signet" then some .signet
  else if s = str "regtest" then some .regtest
  else none

end Btc.Net
