import Verif.Primitives.Block
import Verif.Codec.Drivers
/-!
# Hexadecimal text of encodable objects

Model of `primitives/src/hex_codec.rs`, of the `Display`, `LowerHex`, `UpperHex` and `FromStr` implementations of
transactions, headers, blocks and witnesses, of `drain_to_hex` of `consensus_encoding` and of the hex functions of scripts.
The external `hex` crate is modelled by what it does with a byte (two digits) and with a pair of characters.
-/
namespace Btc
namespace HexText

/-- `hex::Case`. -/
inductive Case where
  | lower | upper
deriving DecidableEq, Repr

/-- The digit of the external `hex` crate. -/
def digit (c : Case) (n : Nat) : Char :=
  if n < 10 then Char.ofNat (48 + n) else match c with
    | .lower => Char.ofNat (87 + n)
    | .upper => Char.ofNat (55 + n)

/-- `BytesToHexIter::next` on one byte. -/
def pair (c : Case) (b : UInt8) : Char × Char := (digit c (b.toNat / 16), digit c (b.toNat % 16))

/-- `core::fmt::Alignment`. -/
inductive Align where
  | left | center | right
deriving DecidableEq, Repr

/-- The options of a `core::fmt::Formatter` that are read. -/
structure Opts where
  width : Option Nat := none
  precision : Option Nat := none
  align : Option Align := none
  fill : Char := ' '
  alternate : Bool := false

/-- The loop over the digits (hex_codec.rs 66-79); the argument is `remaining`. -/
def digitLoop (c : Case) : Nat → Bytes → List Char
  | _, [] => []
  | r, b :: bs =>
    if r = 0 then []
    else if r - 1 = 0 then [(pair c b).1]
    else (pair c b).1 :: (pair c b).2 :: digitLoop c (r - 1 - 1) bs

/-- `trunc_width` (44) and `left_pad` (49-54) of `fmt_hex`. -/
def truncWidth (precision : Option Nat) (len extra : Nat) : Nat :=
  match precision with
  | some v => v - extra
  | none => len
def leftPad (align : Option Align) (padDiff : Nat) : Nat :=
  match align with
  | some .left => 0
  | some .center => padDiff / 2
  | some .right => padDiff
  | none => 0

/-- The characters of the `#` flag (58-63). -/
def altChars : Case → List Char
  | .lower => ['0', 'x']
  | .upper => ['0', 'X']

/-- `HexPrimitive::fmt_hex` (hex_codec.rs 26-85), the characters written; `none` when the byte iterator does not finish
within the fuel. -/
def fmtHex (e : Enc) (fuel : Nat) (s : e.S) (c : Case) (o : Opts) : Option (List Char) :=
  (e.biCollect fuel fuel (s, 0)).map fun bs =>
    let len := bs.length * 2
    let extra := if o.alternate then 2 else 0
    let total := len + extra
    let padWidth := o.width.getD total
    let trunc := truncWidth o.precision len extra
    let padDiff := padWidth - total
    let left := leftPad o.align padDiff
    List.replicate left o.fill ++ (if o.alternate then altChars c else []) ++ digitLoop c trunc bs ++
      List.replicate (padDiff - left) o.fill

/-- `Display` (hex_codec.rs 88-91; transaction.rs 252-256, block.rs 319-326, 506-510): lower case.  `LowerHex` and `UpperHex` (98-106)
are `fmtHex` with the case. -/
def display (e : Enc) (fuel : Nat) (s : e.S) (o : Opts) : Option (List Char) := fmtHex e fuel s .lower o

/-- `drain_to_hex`, `encode_to_hex` (consensus_encoding/src/encode/mod.rs 345-364) and with `Lower`
`Script::to_hex_string_prefixed` (primitives/src/script/borrowed.rs 152-157). -/
def drainToHex (e : Enc) (fuel : Nat) (s : e.S) (c : Case) : Option (List Char) :=
  (e.biCollect fuel fuel (s, 0)).map fun bs => bs.flatMap fun b => [(pair c b).1, (pair c b).2]

/-- `FromStr` of transactions (transaction.rs 244-248), blocks (block.rs 306-314) and headers (block.rs 498-503). -/
def parseTx (s : List Char) : Except HexError Tx := txDec.decodeHex s
def parseBlock (s : List Char) : Except HexError Block := blockDec.decodeHex s
def parseHeader (s : List Char) : Except HexError Header := headerDec.decodeHex s

/-- `Script::to_hex_string_prefixed`, `ScriptBuf::from_hex_prefixed` (owned.rs 65-69). -/
def scriptHexPrefixed (fuel : Nat) (s : Bytes) : Option (List Char) := drainToHex prefixedBytesEnc fuel (prefixedBytes s) .lower
def scriptFromHexPrefixed (s : List Char) : Except HexError Bytes := scriptDec.decodeHex s

/-- `to_hex_string_no_length_prefix` (borrowed.rs 165-169), `from_hex_no_length_prefix` (owned.rs 84-87); `none` is an error of
the `hex` crate. -/
def scriptHex (s : Bytes) : List Char := s.flatMap fun b => [(pair .lower b).1, (pair .lower b).2]
def scriptFromHex (s : List Char) : Option Bytes := hexDecode s

end HexText
end Btc
