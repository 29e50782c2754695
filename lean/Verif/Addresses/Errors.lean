import Verif.Addresses.Address
import Verif.Base58.Errors
/-!
# Model of the texts of address errors (addresses/src/error.rs, addresses/src/witness_program.rs)

The texts without their fixed headings.  The human-readable part in an error is printed as it was given; `Bech32.decode` returns it in lower
case, so for an upper case text the model prints it in lower case.
-/
namespace Btc.Addr
namespace Msg
open Net (str)

/-- `InputString::unknown_variant` with `alloc` (internals/src/error/input_string.rs 162-167), for `UnknownHrpError` (error.rs 146-151). -/
def unknownHrp (hrp : Bytes) : Bytes := str "'" ++ hrp ++ str "' is not a known hrp"

/-- `Display` of `LegacyAddressTooLongError` (336-340), `InvalidLegacyPrefixError` (362-366), `UnknownHrpError` and the base58 errors;
the others are not texts about the input. -/
def parse : Address.ParseErr → Option Bytes
  | .tooLong n => some (str ("legacy address is too long: " ++ toString n ++ " (max 50 characters)"))
  | .invalidLegacyPrefix b => some (str ("invalid legacy address prefix in decoded base58 data " ++ toString b.toNat))
  | .base58 e => some (str (B58.Msg.arr e))
  | .unknownHrp h => some (unknownHrp h)
  | _ => none

/-- `Display for witness_program::Error` (witness_program.rs 178-187). -/
def witnessProgram : Scr.WitProgErr → String
  | .invalidLength n => "witness program must be between 2 and 40 bytes: length=" ++ toString n
  | .invalidSegwitV0Length n => "a v0 witness program must be either 20 or 32 bytes: length=" ++ toString n

end Msg
end Btc.Addr
