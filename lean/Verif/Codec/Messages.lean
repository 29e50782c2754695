import Verif.Primitives.Transaction
/-!
# Model of the texts of decoding errors (consensus_encoding/src/error.rs, primitives/src/{transaction,witness}.rs)

Only the texts that state something about the bytes are modelled; the other errors print a fixed text and pass on what
the inner error says (`write_err!`).
-/
namespace Btc
namespace Msg

/-- `Display for CompactSizeDecoderError` and of its source (consensus_encoding/src/error.rs 146-168, 198-202). -/
def compactSize : DErr → List String
  | .csEof 1 0 => ["required at least one byte but the input is empty"]
  | .csEof required 0 => ["required at least " ++ toString required ++ " bytes but the input is empty"]
  | .csEof required received =>
    ["required at least " ++ toString required ++ " bytes but only " ++ toString received ++ " bytes were received"]
  | .nonMinimal v => ["the value " ++ toString v ++ " was not encoded minimally"]
  | .exceeds limit v => ["value exceeds limit", "decoded length " ++ toString v ++ " exceeds maximum allowed " ++ toString limit]
  | _ => []

/-- `Display for UnexpectedEofError` (consensus_encoding/src/error.rs 314-318). -/
def unexpectedEof (missing : Nat) : String := "not enough bytes for decoder, " ++ toString missing ++ " more bytes required"

/-- `Display for UnexpectedEofError` of witnesses (primitives/src/witness.rs 976-980). -/
def witnessEof (missing : Nat) : String := "not enough witness elements for decoder, missing " ++ toString missing

/-- The names of `EarlyEnd` (primitives/src/transaction.rs 581-586). -/
def part : Nat → String
  | 0 => "version"
  | 1 => "inputs"
  | 2 => "segwit flag"
  | 3 => "outputs"
  | 4 => "witnesses"
  | _ => "locktime"

/-- `Display for TransactionDecoderError` (primitives/src/transaction.rs 1327-1354); `none` for `DuplicateInput` (1348), which prints the out
point with the `Debug` of its identifier. -/
def transaction : DErr → Option String
  | .custom 10 v => some ("we only support segwit flag value 0x01: " ++ toString v)
  | .custom 11 _ => some "non-empty Segwit transaction with no witnesses"
  | .custom 12 i => some ("early end of transaction (still decoding " ++ part i ++ ")")
  | .custom 13 _ => some "transaction has no outputs"
  | .custom 14 i => some ("null prevout in non-coinbase transaction at input " ++ toString i)
  | .custom 15 n => some ("coinbase scriptSig too small: " ++ toString n ++ " bytes (min 2)")
  | .custom 16 n => some ("coinbase scriptSig too large: " ++ toString n ++ " bytes (max 100)")
  | .custom 17 _ => none
  | .custom 18 n => some ("sum of output values " ++ toString n ++ " satoshis exceeds MAX_MONEY")
  | _ => some "transaction decoder error"

end Msg
end Btc
