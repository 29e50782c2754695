import Verif.Units.AmountText
/-!
# Model of the errors of amount parsing (units/src/amount/error.rs, mod.rs)

The parser of `AmountText.lean` works on bytes and keeps only the positions of its errors.  Here the same
function is written on characters and keeps everything the error values hold, together with the messages they
print.  Property C116 shows that the two parsers agree.
-/
namespace Btc
namespace Amt
namespace Msg

/-- `MissingDigitsKind` (error.rs 295-299). -/
inductive MissingKind where
  | empty | onlyMinusSign
deriving DecidableEq, Repr

/-- `InnerParseError` (mod.rs 348-355) with the fields of `TooPreciseError`, `MissingDigitsError`,
`InvalidCharacterError` and `BadPositionError` (error.rs 196-199, 266-269, 302-306, 336-340).  `panic` is the
failing negation of line 342. -/
inductive Inner where
  | overflow (neg : Bool)
  | tooPrecise (position : Nat)
  | missingDigits (kind : MissingKind)
  | inputTooLarge (len : Nat)
  | invalidCharacter (char : Char) (position : Nat)
  | badPosition (char : Char) (position : Nat)
  | panic
deriving DecidableEq, Repr

/-- `str::len`: the number of UTF-8 bytes. -/
def bytesLen : List Char → Nat
  | [] => 0
  | c :: cs => c.utf8Size + bytesLen cs

/-- `s.find('.')`: the byte position of the first dot. -/
def findDot : List Char → Option Nat
  | [] => none
  | c :: cs => if c = '.' then some 0 else (findDot cs).map (· + c.utf8Size)

/-- `s[..s.find('.')]` (mod.rs 264). -/
def beforeDot : List Char → List Char
  | [] => []
  | c :: cs => if c = '.' then [] else c :: beforeDot cs

/-- `s[(pos + 1)..]` where `pos` is the first dot (mod.rs 206). -/
def afterDot : List Char → List Char
  | [] => []
  | c :: cs => if c = '.' then cs else afterDot cs

/-- `char_indices().find(|(_, d)| *d != '0')`. -/
def findNonZero : List Char → Option Nat
  | [] => none
  | c :: cs => if c ≠ '0' then some 0 else (findNonZero cs).map (· + 1)

/-- `is_too_precise` (mod.rs 196-211) with a precision of 0, the only one it is called with: satoshi is the only
denomination that has no decimals. -/
def isTooPrecise (s : List Char) : Option Nat :=
  match findDot s with
  | some 0 => some 0
  | some pos => (findNonZero (afterDot s)).map (· + pos + 1)
  | none => if s.isEmpty then some 0 else none

/-- `s.parse::<i64>() == Ok(0)` (mod.rs 254-255). -/
def parsesToZero (s : List Char) : Bool :=
  let digits := match s with
    | '+' :: r => r
    | '-' :: r => r
    | r => r
  !digits.isEmpty && digits.all (· == '0')

/-- `'0'..='9'` (mod.rs 274). -/
def isDigit (c : Char) : Bool := 48 ≤ c.toNat && c.toNat ≤ 57

/-- `10_i64.checked_mul(value)` and `checked_add(c as u8 - b'0')` (mod.rs 276-282). -/
def pushDigit (value : Nat) (c : Char) : Option Nat :=
  if 10 * value < 2 ^ 63 then
    if 10 * value + (c.toNat - 48) < 2 ^ 63 then some (10 * value + (c.toNat - 48)) else none
  else none

/-- The character loop (mod.rs 272-328). -/
def loop (maxDec : Nat) (neg : Bool) :
    Nat → List Char → Option Nat → Bool → Nat → Except Inner (Option Nat × Nat)
  | _, [], dec, _, value => .ok (dec, value)
  | i, c :: cs, dec, us, value =>
    let at_ := i + (if neg then 1 else 0)
    if isDigit c then
      match pushDigit value c with
      | none => .error (.overflow neg)
      | some value =>
        match dec with
        | none => loop maxDec neg (i + c.utf8Size) cs none false value
        | some d =>
          if d < maxDec then loop maxDec neg (i + c.utf8Size) cs (some (d + 1)) false value
          else .error (.tooPrecise at_)
    else if c = '_' then
      if i = 0 then .error (.badPosition '_' at_)
      else if us then .error (.badPosition '_' at_)
      else loop maxDec neg (i + c.utf8Size) cs dec true value
    else if c = '.' then
      match dec with
      | none =>
        if maxDec = 0 then .ok (dec, value)
        else loop maxDec neg (i + c.utf8Size) cs (some 0) false value
      | some _ => .error (.invalidCharacter '.' at_)
    else .error (.invalidCharacter c at_)

/-- The part after the sign has been removed (mod.rs 241-344). -/
def parseBody (neg : Bool) (s : List Char) (d : Denom) : Except Inner (Bool × Int) :=
  let diff := -d.precision
  match (if diff ≤ 0 then isTooPrecise s else none) with
  | some pos =>
    if parsesToZero s then .ok (neg, 0) else .error (.tooPrecise (pos + (if neg then 1 else 0)))
  | none =>
    let s := if diff ≤ 0 then beforeDot s else s
    let maxDec := if diff ≤ 0 then 0 else diff.toNat
    match loop maxDec neg 0 s none false 0 with
    | .error e => .error e
    | .ok (dec, value) =>
      match scaleUp (maxDec - dec.getD 0) value with
      | none => .error (.overflow neg)
      | some value =>
        match sFromSat (value : Int) with
        | .error _ => .error (.overflow neg)
        | .ok ret =>
          if neg then match sNeg ret with
            | none => .error .panic
            | some r => .ok (neg, r)
          else .ok (neg, ret)

/-- `parse_signed_to_satoshi` (mod.rs 220-345). -/
def parseSigned (s : List Char) (d : Denom) : Except Inner (Bool × Int) :=
  match s with
  | [] => .error (.missingDigits .empty)
  | c :: cs =>
    if bytesLen s > 50 then .error (.inputTooLarge (bytesLen s))
    else if c = '-' then
      if bytesLen s = 1 then .error (.missingDigits .onlyMinusSign) else parseBody true cs d
    else parseBody false s d

/-- `ParseAmountErrorInner` (error.rs 59-78) without the two hexadecimal variants. -/
inductive ParseAmountError where
  | outOfRange (e : OutOfRange)
  | tooPrecise (position : Nat)
  | missingDigits (kind : MissingKind)
  | inputTooLarge (len : Nat)
  | invalidCharacter (char : Char) (position : Nat)
  | badPosition (char : Char) (position : Nat)
  | panic
deriving DecidableEq, Repr

/-- `InnerParseError::convert` (mod.rs 363-378). -/
def Inner.convert (isSigned : Bool) : Inner → ParseAmountError
  | .overflow neg => .outOfRange ⟨isSigned, !neg⟩
  | .tooPrecise p => .tooPrecise p
  | .missingDigits k => .missingDigits k
  | .inputTooLarge n => .inputTooLarge n
  | .invalidCharacter c p => .invalidCharacter c p
  | .badPosition c p => .badPosition c p
  | .panic => .panic

/-- `Amount::from_str_in` (unsigned.rs 192-201). -/
def fromStrIn (s : List Char) (d : Denom) : Except ParseAmountError Nat :=
  match parseSigned s d with
  | .error e => .error (e.convert false)
  | .ok (isNeg, a) =>
    if isNeg then .error (.outOfRange ⟨false, false⟩)
    else match toUnsigned a with
      | none => .error .panic
      | some (.error e) => .error (.outOfRange e)
      | some (.ok n) => .ok n

/-- `SignedAmount::from_str_in` (signed.rs 202-206). -/
def sFromStrIn (s : List Char) (d : Denom) : Except ParseAmountError Int :=
  match parseSigned s d with
  | .error e => .error (e.convert true)
  | .ok (_, a) => .ok a

/-- `OutOfRangeError::valid_range` (error.rs 133-138). -/
def validRange (e : OutOfRange) : Int × Nat :=
  if e.isSigned then (-2 ^ 63, 2 ^ 63 - 1) else (0, 2 ^ 64 - 1)

/-- `Display for OutOfRangeError` (error.rs 176-184). -/
def showOutOfRange (e : OutOfRange) : String :=
  if e.greater then "the amount is greater than " ++ toString (validRange e).2
  else "the amount is less than " ++ toString (validRange e).1

/-- `Display for TooPreciseError` (error.rs 205-216). -/
def showTooPrecise (position : Nat) : String :=
  if position = 0 then "the amount is less than 1 satoshi but it's not zero"
  else "the digits starting from position " ++ toString position ++ " represent a sub-satoshi amount"

/-- `Display for InputTooLargeError` (error.rs 237-252). -/
def showInputTooLarge (len : Nat) : String :=
  if len - 50 = 1 then "the input is one character longer than the maximum allowed length (50)"
  else "the input is " ++ toString (len - 50) ++ " characters longer than the maximum allowed length (50)"

/-- `Display for MissingDigitsError` (error.rs 275-284). -/
def showMissingDigits : MissingKind → String
  | .empty => "the input is empty"
  | .onlyMinusSign => "there are no digits following the minus (-) sign"

/-- `Display for InvalidCharacterError` (error.rs 312-324). -/
def showInvalidCharacter (c : Char) (position : Nat) : String :=
  if c = '.' then "there is more than one decimal separator (dot) in the input"
  else if c = '-' then "there is more than one minus sign (-) in the input"
  else "the character '" ++ c.toString ++ "' at position " ++ toString position ++ " is not a valid digit"

/-- `Display for BadPositionError` (error.rs 346-360). -/
def showBadPosition (c : Char) (position : Nat) : String :=
  if c = '_' then
    if position = 0 then "the input amount is prefixed with an underscore (_)"
    else if position = 1 then "the input amount is prefixed with an underscore (_)"
    else "there are consecutive underscores (_) in the input"
  else "The character '" ++ c.toString ++ "' is at a bad position: " ++ toString position

/-- The source message of a `ParseAmountError` (error.rs 83-101). -/
def ParseAmountError.source : ParseAmountError → String
  | .outOfRange e => showOutOfRange e
  | .tooPrecise p => showTooPrecise p
  | .missingDigits k => showMissingDigits k
  | .inputTooLarge n => showInputTooLarge n
  | .invalidCharacter c p => showInvalidCharacter c p
  | .badPosition c p => showBadPosition c p
  | .panic => ""

end Msg
end Amt
end Btc
