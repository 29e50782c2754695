import Verif.Units.Amount
/-!
# Model of amount text (units/src/amount/mod.rs, unsigned.rs, signed.rs)

Strings are UTF-8 bytes.  Bytes of multi-byte characters are never ASCII, so the searches for `.`, `_`,
digits and spaces are the same on bytes; an invalid character is reported at its first byte.
-/
namespace Btc
namespace Amt

/-- `Denomination` (mod.rs 88-105). -/
inductive Denom where
  | btc | cbtc | mbtc | ubtc | bit | sat
deriving DecidableEq, Repr

/-- `precision` (116-126). -/
def Denom.precision : Denom → Int
  | .btc => -8 | .cbtc => -6 | .mbtc => -5 | .ubtc => -2 | .bit => -2 | .sat => 0

/-- UTF-8 bytes of a string literal. -/
def str (s : String) : Bytes := s.toUTF8.toList

/-- `as_str` (130-140): `BTC`, `cBTC`, `mBTC`, `uBTC`, `bits`, `satoshi`. -/
def Denom.asStr : Denom → Bytes
  | .btc => [66, 84, 67]
  | .cbtc => [99, 66, 84, 67]
  | .mbtc => [109, 66, 84, 67]
  | .ubtc => [117, 66, 84, 67]
  | .bit => [98, 105, 116, 115]
  | .sat => [115, 97, 116, 111, 115, 104, 105]

/-- `forms` (144-155). -/
def Denom.forms (s : Bytes) : Option Denom :=
  if s = [66, 84, 67] ∨ s = [98, 116, 99] then some .btc
  else if s = [99, 66, 84, 67] ∨ s = [99, 98, 116, 99] then some .cbtc
  else if s = [109, 66, 84, 67] ∨ s = [109, 98, 116, 99] then some .mbtc
  else if s = [117, 66, 84, 67] ∨ s = [117, 98, 116, 99] ∨ s = [194, 181, 66, 84, 67] ∨
      s = [194, 181, 98, 116, 99] then some .ubtc
  else if s = [98, 105, 116] ∨ s = [98, 105, 116, 115] ∨ s = [66, 73, 84] ∨ s = [66, 73, 84, 83] then some .bit
  else if s = [83, 65, 84, 79, 83, 72, 73] ∨ s = [115, 97, 116, 111, 115, 104, 105] ∨
      s = [83, 65, 84, 79, 83, 72, 73, 83] ∨ s = [115, 97, 116, 111, 115, 104, 105, 115] ∨
      s = [83, 65, 84] ∨ s = [115, 97, 116] ∨ s = [83, 65, 84, 83] ∨ s = [115, 97, 116, 115] then some .sat
  else none

/-- `InnerParseError` (348-355) and the errors of the callers. -/
inductive PErr where
  | missingDigits
  | inputTooLarge
  | tooPrecise (pos : Nat)
  | overflow (neg : Bool)
  | badPosition (pos : Nat)
  | invalidCharacter (pos : Nat)
  | outOfRange (e : OutOfRange)
  | missingDenomination
  | denomination
  | panic
deriving DecidableEq, Repr

/-- `str::find` of an ASCII character. -/
def findByte (c : UInt8) : Bytes → Option Nat
  | [] => none
  | b :: bs => if b = c then some 0 else (findByte c bs).map (· + 1)

/-- `find(|d| d != '0')` over `char_indices`. -/
def findNonZero : Bytes → Option Nat
  | [] => none
  | b :: bs => if b ≠ 48 then some 0 else (findNonZero bs).map (· + 1)

/-- `char_indices().rev().take(n).find(|d| d != '0')`. -/
def revFindNonZero (s : Bytes) (n : Nat) : Option Nat :=
  match findNonZero (s.reverse.take n) with
  | some k => some (s.length - 1 - k)
  | none => none

/-- `is_too_precise` (196-211). -/
def isTooPrecise (s : Bytes) (precision : Nat) : Option Nat :=
  match findByte 46 s with
  | some pos =>
    if precision ≥ pos then some 0
    else match revFindNonZero (s.take pos) precision with
      | some i => some i
      | none => (findNonZero (s.drop (pos + 1))).map (· + pos + 1)
  | none => if precision ≥ s.length then some 0 else revFindNonZero s precision

/-- `s.parse::<i64>() == Ok(0)`. -/
def parsesToZeroI64 (s : Bytes) : Bool :=
  let digits := match s with
    | 43 :: r => r
    | 45 :: r => r
    | r => r
  !digits.isEmpty && digits.all (· == 48)

/-- `value = 10 * value + digit` with `i64` overflow checks (276-282). -/
def pushDigit (value : Nat) (c : UInt8) : Option Nat :=
  if 10 * value < 2 ^ 63 then
    if 10 * value + (c.toNat - 48) < 2 ^ 63 then some (10 * value + (c.toNat - 48)) else none
  else none

/-- The character loop (272-328).  `i` is the position, `us` is `underscores.is_some()`. -/
def parseLoop (maxDec : Nat) (neg : Bool) :
    Nat → Bytes → Option Nat → Bool → Nat → Except PErr (Option Nat × Nat)
  | _, [], dec, _, value => .ok (dec, value)
  | i, c :: cs, dec, us, value =>
    let at_ := i + (if neg then 1 else 0)
    if 48 ≤ c ∧ c ≤ 57 then
      match pushDigit value c with
      | none => .error (.overflow neg)
      | some value =>
        match dec with
        | none => parseLoop maxDec neg (i + 1) cs none false value
        | some d =>
          if d < maxDec then parseLoop maxDec neg (i + 1) cs (some (d + 1)) false value
          else .error (.tooPrecise at_)
    else if c = 95 then
      if i = 0 then .error (.badPosition at_)
      else if us then .error (.badPosition at_)
      else parseLoop maxDec neg (i + 1) cs dec true value
    else if c = 46 then
      match dec with
      | none =>
        if maxDec = 0 then .ok (dec, value)
        else parseLoop maxDec neg (i + 1) cs (some 0) false value
      | some _ => .error (.invalidCharacter at_)
    else .error (.invalidCharacter at_)

/-- The scaling loop (332-337). -/
def scaleUp : Nat → Nat → Option Nat
  | 0, value => some value
  | k + 1, value => if 10 * value < 2 ^ 63 then scaleUp k (10 * value) else none

/-- The part after the sign has been removed (241-344). -/
def parseBody (neg : Bool) (s : Bytes) (d : Denom) : Except PErr (Bool × Int) :=
  let diff := -d.precision
  let lastN := diff.natAbs
  match (if diff ≤ 0 then isTooPrecise s lastN else none) with
  | some pos =>
    if parsesToZeroI64 s then .ok (neg, 0) else .error (.tooPrecise (pos + (if neg then 1 else 0)))
  | none =>
    let s := if diff ≤ 0 then s.take ((findByte 46 s).getD s.length - lastN) else s
    let maxDec := if diff ≤ 0 then 0 else diff.toNat
    match parseLoop maxDec neg 0 s none false 0 with
    | .error e => .error e
    | .ok (dec, value) =>
      match scaleUp (maxDec - dec.getD 0) value with
      | none => .error (.overflow neg)
      | some value =>
        match sFromSat (value : Int) with
        | .error _ => .error (.overflow neg)
        | .ok ret =>
          if neg then match sNeg ret with
            | none => .error .panic
            | some r => .ok (neg, r)
          else .ok (neg, ret)

/-- `parse_signed_to_satoshi` (220-345). -/
def parseSigned (s : Bytes) (d : Denom) : Except PErr (Bool × Int) :=
  match s with
  | [] => .error .missingDigits
  | c :: cs =>
    if s.length > 50 then .error .inputTooLarge
    else if c = 45 then
      if cs.isEmpty then .error .missingDigits else parseBody true cs d
    else parseBody false s d

/-- `InnerParseError::convert` (363-378). -/
def PErr.convert (isSigned : Bool) : PErr → PErr
  | .overflow neg => .outOfRange ⟨isSigned, !neg⟩
  | e => e

/-- `Amount::from_str_in` (unsigned.rs 192-201). -/
def fromStrIn (s : Bytes) (d : Denom) : Except PErr Nat :=
  match parseSigned s d with
  | .error e => .error (e.convert false)
  | .ok (isNeg, a) =>
    if isNeg then .error (.outOfRange ⟨false, false⟩)
    else match toUnsigned a with
      | none => .error .panic
      | some (.error e) => .error (.outOfRange e)
      | some (.ok n) => .ok n

/-- `SignedAmount::from_str_in` (signed.rs 202-206). -/
def sFromStrIn (s : Bytes) (d : Denom) : Except PErr Int :=
  match parseSigned s d with
  | .error e => .error (e.convert true)
  | .ok (_, a) => .ok a

/-- `CONFUSING_FORMS` and `FromStr for Denomination` (161-189); both failures are one error here. -/
def Denom.fromStr (s : Bytes) : Option Denom := Denom.forms s

/-- `split_amount_and_denomination` (381-393).  `alpha` is `s.find(char::is_alphabetic)`, a Unicode table
that is not modelled. -/
def splitDenom (alpha : Bytes → Option Nat) (s : Bytes) : Except PErr (Bytes × Denom) :=
  let ij := match findByte 32 s with
    | some i => some (i, i + 1)
    | none => (alpha s).map fun i => (i, i)
  match ij with
  | none => .error .missingDenomination
  | some (i, j) => match Denom.fromStr (s.drop j) with
    | none => .error .denomination
    | some d => .ok (s.take i, d)

/-- `Amount::from_str_with_denomination` (unsigned.rs 221-224). -/
def fromStrWithDenom (alpha : Bytes → Option Nat) (s : Bytes) : Except PErr Nat :=
  match splitDenom alpha s with
  | .error e => .error e
  | .ok (amt, d) => fromStrIn amt d

/-- `SignedAmount::from_str_with_denomination` (signed.rs 226-229). -/
def sFromStrWithDenom (alpha : Bytes → Option Nat) (s : Bytes) : Except PErr Int :=
  match splitDenom alpha s with
  | .error e => .error e
  | .ok (amt, d) => sFromStrIn amt d

/-- `FromStr for Amount` (unsigned.rs 574-589): a missing denomination is fine for zero. -/
def fromStrAmt (alpha : Bytes → Option Nat) (s : Bytes) : Except PErr Nat :=
  match fromStrWithDenom alpha s with
  | .error .missingDenomination =>
    match fromStrIn s .sat with
    | .ok 0 => .ok 0
    | _ => .error .missingDenomination
  | r => r

/-- `FromStr for SignedAmount` (signed.rs 549-564). -/
def sFromStrAmt (alpha : Bytes → Option Nat) (s : Bytes) : Except PErr Int :=
  match sFromStrWithDenom alpha s with
  | .error .missingDenomination =>
    match sFromStrIn s .sat with
    | .ok 0 => .ok 0
    | _ => .error .missingDenomination
  | r => r

/-! ### Formatting -/

inductive Align where
  | left | right | center
deriving DecidableEq, Repr

/-- `FormatOptions` (397-432); the fill character is one byte here. -/
structure FmtOpts where
  fill : UInt8 := 32
  align : Option Align := none
  width : Option Nat := none
  precision : Option Nat := none
  signPlus : Bool := false
  zeroPad : Bool := false

/-- `dec_width` (434-444). -/
def decWidth (n : Nat) : Nat :=
  if n / 10 = 0 then 1 else 1 + decWidth (n / 10)
termination_by n
decreasing_by omega

/-- The normalising loop (501-504); `nb` bounds it. -/
def stripZeros : Nat → Nat → Nat × Nat
  | 0, n => (0, n)
  | nb + 1, n => if n % 10 = 0 then stripZeros nb (n / 10) else (nb + 1, n)

/-- Rounding to the requested precision (481-492); `p` is `|denom.precision()|`. -/
def roundTo (sat p : Nat) (prec : Option Nat) : Nat :=
  match prec with
  | none => sat
  | some f =>
    if p > f then
      let div := 10 ^ (p - f)
      let rem := sat % div
      if rem / (div / 10) ≥ 5 then sat - rem + div else sat - rem
    else sat

/-- `{:0width$}`. -/
def padZero (w n : Nat) : Bytes := List.replicate (w - (decBytes n).length) 48 ++ decBytes n

/-- The numbers of 462-511: before the point, number of decimals, decimals, trailing zeros.  The positive
precision branch does not exist for the six denominations. -/
def fmtParts (sat : Nat) (d : Denom) (prec : Option Nat) : Nat × Nat × Nat × Nat :=
  let p := d.precision.natAbs
  if p = 0 then (sat, 0, 0, prec.getD 0)
  else
    let sat := roundTo sat p prec
    let before := sat / 10 ^ p
    let after := sat % 10 ^ p
    let norm := if after = 0 then (0, 0) else stripZeros p after
    (before, norm.1, norm.2, prec.getD 0 - norm.1)

/-- `fmt_satoshi_in` (454-574). -/
def fmtSatoshiIn (sat : Nat) (neg : Bool) (d : Denom) (showDenom : Bool) (o : FmtOpts) : Bytes :=
  let parts := fmtParts sat d o.precision
  let before := parts.1
  let nb := parts.2.1
  let after := parts.2.2.1
  let trailing := parts.2.2.2
  let total := nb + trailing
  let numWidth := (if total > 0 then 1 + total else 0) + decWidth before +
    (if o.signPlus || neg then 1 else 0) + (if showDenom then d.asStr.length + 1 else 0)
  let width := o.width.getD 0
  let pads : Nat × Nat :=
    if numWidth < width then
      if o.zeroPad then (width - numWidth, 0)
      else match o.align.getD .right with
        | .right => (width - numWidth, 0)
        | .left => (0, width - numWidth)
        | .center => ((width - numWidth) / 2, (width - numWidth + 1) / 2)
    else (0, 0)
  (if o.zeroPad then [] else List.replicate pads.1 o.fill) ++
  (if neg then [45] else if o.signPlus then [43] else []) ++
  (if o.zeroPad then List.replicate pads.1 48 else []) ++
  decBytes before ++
  (if total > 0 then [46] else []) ++
  (if nb > 0 then padZero nb after else []) ++
  List.replicate trailing 48 ++
  (if showDenom then 32 :: d.asStr else []) ++
  List.replicate pads.2 o.fill

/-- `to_string_in`, `to_string_with_denomination` (unsigned.rs 363-380). -/
def toStringIn (a : Nat) (d : Denom) : Bytes := fmtSatoshiIn a false d false {}
def toStringWithDenom (a : Nat) (d : Denom) : Bytes := fmtSatoshiIn a false d true {}

/-- The same for `SignedAmount` (signed.rs 330-384); `none` is a panic of `unsigned_abs`. -/
def sToStringIn (a : Int) (d : Denom) : Option Bytes :=
  (unsignedAbs a).map fun n => fmtSatoshiIn n (a < 0) d false {}
def sToStringWithDenom (a : Int) (d : Denom) : Option Bytes :=
  (unsignedAbs a).map fun n => fmtSatoshiIn n (a < 0) d true {}

/-- `Display for Amount` (unsigned.rs 563-565): bitcoin with denomination; `display_dynamic` (mod.rs
618-636): bitcoin from one bitcoin on, satoshi below. -/
def display (a : Nat) : Bytes := fmtSatoshiIn a false .btc true {}
def displayDynamic (a : Nat) : Bytes :=
  if a ≥ 100000000 then fmtSatoshiIn a false .btc true {} else fmtSatoshiIn a false .sat true {}

end Amt
end Btc
