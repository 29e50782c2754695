import Verif.Bip32.Xkey
import Verif.Base58.Errors
/-!
# Model of the texts of key errors (crypto/src/key.rs, module `error`; key_expression/src/bip32.rs, module `error`)

The texts without the fixed headings that `write_err!` puts before the text of the source.
-/
namespace Btc

namespace Crypto.Msg

/-- `Display` of `FromSliceError` (key.rs 1609-1619) and `InvalidPublicKeyError` (2019). -/
def fromSlice : FromSliceErr → String
  | .invalidPublicKey => "invalid public key"
  | .invalidKeyPrefix b => "key prefix invalid: " ++ toString b.toNat
  | .invalidLength got => "slice length should be 33 or 65 bytes, got: " ++ toString got

/-- `Display for ParsePublicKeyError` (key.rs 1732-1742); the text of the hex error is not modelled. -/
def parsePublic : ParsePublicKeyErr → Option String
  | .encoding e => some (fromSlice e)
  | .invalidChar => none
  | .invalidHexLength got => some ("pubkey string should be 66 or 130 digits long, got: " ++ toString got)

/-- `Display` of the sources of `FromWifError` (key.rs 1658-1673, 1841-1850, 1879-1884, 1917-1922, 2038-2045). -/
def wif : FromWifErr → String
  | .base58 e => B58.Msg.dec e
  | .invalidPayloadLength n => "decoded base58 data was an invalid length: " ++ toString n ++ " (expected 33 or 34)"
  | .invalidAddressVersion b => "invalid address version in decoded base58 data " ++ toString b.toNat
  | .fromSecretBytes => "invalid secret key"
  | .invalidCompressionFlag b =>
    "invalid WIF compression flag. Expected a 0x01 byte at the end of the key but found: " ++ toString b.toNat

end Crypto.Msg

namespace Bip32.Msg

/-- `{:?}` of an array of bytes. -/
def debug (b : Bytes) : String := "[" ++ ", ".intercalate (b.map fun x => toString x.toNat) ++ "]"

/-- `Display` of `XkeyDecodeError`, `XprivDecodeError`, `XpubDecodeError` (bip32.rs 1178-1189, 1220-1232, 1265-1274). -/
def xkey (priv : Bool) : XkeyErr → String
  | .wrongLength n => "encoded extended key data has wrong length " ++ toString n
  | .nonZeroParentFingerprint => "non-zero parent fingerprint in master key"
  | .nonZeroChildNumber => "non-zero child number in master key"
  | .unknownVersion b => "unknown " ++ (if priv then "private" else "public") ++ " version magic bytes: " ++ debug b
  | .invalidPrivateKeyPrefix => "invalid private key prefix, byte 45 must be 0 as required by BIP-0032"
  | .secp256k1 => "secp256k1 error"

/-- `Display` of `ParseXprivError`, `ParseXpubError`, `InvalidBase58PayloadLengthError` (bip32.rs 1307-1315, 1348-1356, 1594-1602). -/
def parseXkey (priv : Bool) : ParseXkeyErr → String
  | .base58 e => B58.Msg.dec e
  | .invalidPayloadLength n => "decoded base58 xpriv/xpub data was an invalid length: " ++ toString n ++ " (expected 78)"
  | .decode e => xkey priv e

/-- `Display for InvalidSeedLengthError` (bip32.rs 1627-1635). -/
def seed (n : Nat) : String := "invalid BIP-0032 master seed length: " ++ toString n ++ " (expected 16 to 64 inclusive)"

/-- `Display` of `MaximumDepthExceededError` and `CannotDeriveHardenedChildError` (bip32.rs 1376-1400). -/
def derive : DeriveErr → String
  | .maximumDepthExceeded => "cannot derive child of depth 256 or higher"
  | .cannotDeriveHardenedChild => "cannot derive hardened child of public key"

/-- `Display for ParseIntError` (of the standard library), for unsigned numbers. -/
def parseInt : IntErr → String
  | .empty => "cannot parse integer from empty string"
  | .invalidDigit => "invalid digit found in string"
  | .posOverflow => "number too large to fit in target type"

/-- `Display` of `IndexOutOfRangeError` and `ParseChildNumberError` (bip32.rs 1458-1462, 1487-1494). -/
def child : ParseChildErr → String
  | .parseInt e => parseInt e
  | .indexOutOfRange e =>
    "index " ++ toString e.index.toNat ++ " out of range [0, 2^31 - 1] (do you have a hardened child number, rather than an index?)"

/-- `Display` of `ParseRelativeDerivationPathError` and `ParseAbsoluteDerivationPathError` (bip32.rs 1522-1531, 1559-1568). -/
def path : PathErr → String
  | .child e => child e
  | .emptyChild => "derivation path contains an empty child number"
  | .unexpectedMasterPrefix => "relative derivation path contains unexpected master prefix `m`"
  | .missingMasterPrefix => "absolute derivation path is missing master prefix `m`"

end Bip32.Msg
end Btc
