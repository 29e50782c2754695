import Verif.Base58.Base58
/-!
# Model of the texts of base58 errors (base58/src/error.rs)

The texts without their fixed headings ("decode", "incorrect checksum", "too short", "unexpected length"), which `write_err!` puts before
the text of the source.
-/
namespace Btc
namespace B58
namespace Msg

/-- `{:#x}` of an unsigned integer. -/
def hex (n : Nat) : String := "0x" ++ String.ofList (Nat.toDigits 16 n)

/-- `Display` of `InvalidCharacterError` (326-330), `TooShortError` (144-152), `IncorrectChecksumError` (115-123). -/
def dec : DecErr → String
  | .invalidChar c => "invalid base58 character " ++ hex c.toNat
  | .tooShort n => "base58 decoded data was not long enough, must be at least 4 bytes: " ++ toString n
  | .incorrectChecksum a e => "base58 checksum " ++ hex a ++ " does not match expected " ++ hex e
  | .unreachable => "Vec cannot fail try_push"

/-- `Display` of `DecodeCheckArrayError` (243-252) and `UnexpectedLengthError` (282-290). -/
def arr : ArrErr → String
  | .decode e => dec e
  | .unexpectedLength expected actual => "decoded base58check payload was " ++ toString actual ++ " bytes, expected " ++ toString expected

/-- `Display for InputTooLongError` (183-191). -/
def inputTooLong (len : Nat) : String := "base58check encoding of " ++ toString len ++ " bytes of data exceeds the 128 character buffer"

end Msg
end B58
end Btc
