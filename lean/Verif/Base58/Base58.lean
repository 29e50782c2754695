import Verif.Bytes
/-!
# Model of base58 and base58check

`base58/src/lib.rs`.  Text is modelled by its bytes.  `H` is `sha256d::Hash::hash`.
-/
namespace Btc
namespace B58

/-- `BASE58_CHARS` (61). -/
def CHARS : Bytes :=
  [49, 50, 51, 52, 53, 54, 55, 56, 57, 65, 66, 67, 68, 69, 70, 71, 72, 74, 75, 76, 77, 78, 80, 81, 82, 83, 84, 85, 86, 87, 88,
   89, 90, 97, 98, 99, 100, 101, 102, 103, 104, 105, 106, 107, 109, 110, 111, 112, 113, 114, 115, 116, 117, 118, 119, 120, 121,
   122]

/-- `BASE58_DIGITS` (92-109). -/
def DIGITS : List (Option UInt8) :=
  [none, none, none, none, none, none, none, none,
   none, none, none, none, none, none, none, none,
   none, none, none, none, none, none, none, none,
   none, none, none, none, none, none, none, none,
   none, none, none, none, none, none, none, none,
   none, none, none, none, none, none, none, none,
   none, some 0, some 1, some 2, some 3, some 4, some 5, some 6,
   some 7, some 8, none, none, none, none, none, none,
   none, some 9, some 10, some 11, some 12, some 13, some 14, some 15,
   some 16, none, some 17, some 18, some 19, some 20, some 21, none,
   some 22, some 23, some 24, some 25, some 26, some 27, some 28, some 29,
   some 30, some 31, some 32, none, none, none, none, none,
   none, some 33, some 34, some 35, some 36, some 37, some 38, some 39,
   some 40, some 41, some 42, some 43, none, some 44, some 45, some 46,
   some 47, some 48, some 49, some 50, some 51, some 52, some 53, some 54,
   some 55, some 56, some 57, none, none, none, none, none]

/-- `SHORT_OPT_BUFFER_LEN` (280). -/
def BUF_LEN : Nat := 128

/-- `Buffer::try_push` for `Vec` (`cap = none`, 455-461) and for `ArrayVec<u8, N>` (`cap = some N`, 468-471). -/
def tryPush (cap : Option Nat) (buf : Bytes) (v : UInt8) : Option Bytes :=
  match cap with
  | none => some (buf ++ [v])
  | some n => if buf.length < n then some (buf ++ [v]) else none

/-- The inner `for` loops: lines 132-136 with `base = 256`, `mul = 58` (where `carry as u8` is `carry % 256`), and lines
491-495 with `base = 58`, `mul = 256`.  The `u32` carry is a `Nat`: it never exceeds 255 + 255 * 256. -/
def sweep (base mul : Nat) : Bytes → Nat → Bytes × Nat
  | [], carry => ([], carry)
  | d :: ds, carry =>
    let new := carry + d.toNat * mul
    let (ds', carry') := sweep base mul ds (new / base)
    (UInt8.ofNat (new % base) :: ds', carry')

/-- The inner `while` loops: lines 137-141 and 497-500 (both bases are greater than 1). -/
def pushCarry (base : Nat) (cap : Option Nat) (buf : Bytes) (carry : Nat) : Option Bytes :=
  if h : carry > 0 ∧ base > 1 then
    match tryPush cap buf (UInt8.ofNat (carry % base)) with
    | none => none
    | some buf' => pushCarry base cap buf' (carry / base)
  else some buf
termination_by carry
decreasing_by exact Nat.div_lt_self h.1 h.2

/-- `Base256Error` (error.rs). -/
inductive B256Err where
  | invalidChar (c : UInt8)
  | buffer
deriving DecidableEq, Repr

/-- `build_base256` (119-144), with the scratch buffer threaded through. -/
def buildBase256 (cap : Option Nat) : Bytes → Bytes → Except B256Err Bytes
  | [], scratch => .ok scratch
  | c :: cs, scratch =>
    match DIGITS[c.toNat]? with
    | none => .error (.invalidChar c)
    | some none => .error (.invalidChar c)
    | some (some d) =>
      let (s, carry) := sweep 256 58 scratch d.toNat
      match pushCarry 256 cap s carry with
      | none => .error .buffer
      | some scratch' => buildBase256 cap cs scratch'

/-- `DecodeCheckError` (error.rs); checksums are `u32` values. -/
inductive DecErr where
  | invalidChar (c : UInt8)
  | tooShort (length : Nat)
  | incorrectChecksum (incorrect expected : Nat)
  | unreachable
deriving DecidableEq, Repr

/-- `decode_check` up to line 178: the decoded bytes before the checksum is looked at. -/
def decodeRaw (data : Bytes) : Except DecErr Bytes :=
  match buildBase256 none data [] with
  | .error .buffer => .error .unreachable
  | .error (.invalidChar c) => .error (.invalidChar c)
  | .ok scratch => .ok ((data.takeWhile (· == 49)).map (fun _ => 0) ++ scratch.reverse)

/-- The first four bytes of the double SHA-256, as `u32::from_le_bytes`. -/
def check32 (H : Bytes → Arr 32) (b : Bytes) : Nat := leNat ((H b).val.take 4)

/-- `decode_check` (167-194). -/
def decodeCheck (H : Bytes → Arr 32) (data : Bytes) : Except DecErr Bytes :=
  match decodeRaw data with
  | .error e => .error e
  | .ok ret =>
    if ret.length < 4 then .error (.tooShort ret.length)
    else
      let remaining := ret.take (ret.length - 4)
      let actual := leNat (ret.drop (ret.length - 4))
      let expected := check32 H remaining
      if actual ≠ expected then .error (.incorrectChecksum actual expected) else .ok remaining

/-- `DecodeCheckArrayError` (error.rs). -/
inductive ArrErr where
  | decode (e : DecErr)
  | unexpectedLength (expected actual : Nat)
deriving DecidableEq, Repr

/-- `decode_check_to_array` (224-278). -/
def decodeCheckToArray (H : Bytes → Arr 32) (N : Nat) (data : Bytes) : Except ArrErr Bytes :=
  match buildBase256 (some BUF_LEN) data [] with
  | .error .buffer => .error (.unexpectedLength N (data.length * 11 / 15))
  | .error (.invalidChar c) => .error (.decode (.invalidChar c))
  | .ok scratch =>
    let leadingZeros := (data.takeWhile (· == 49)).length
    let decodedLen := leadingZeros + scratch.length
    if decodedLen > BUF_LEN then .error (.unexpectedLength N (data.length * 11 / 15))
    else
      let decoded := List.replicate leadingZeros 0 ++ scratch.reverse
      if decoded.length < 4 then .error (.decode (.tooShort decodedLen))
      else
        let payload := decoded.take (decoded.length - 4)
        if payload.length ≠ N then .error (.unexpectedLength N payload.length)
        else
          let expected := check32 H payload
          let actual := leNat (decoded.drop (decoded.length - 4))
          if actual ≠ expected then .error (.decode (.incorrectChecksum actual expected)) else .ok payload

/-- The `for` loop of `encode_to_buffer` (483-501): the digits and the number of leading zeroes; `none` is a full
buffer. -/
def encLoop (cap : Option Nat) : Bytes → Bytes → Nat → Bool → Option (Bytes × Nat)
  | [], buf, lz, _ => some (buf, lz)
  | d :: ds, buf, lz, leading =>
    let zero := leading && d == 0
    let (s, carry) := sweep 58 256 buf d.toNat
    match pushCarry 58 cap s carry with
    | none => none
    | some buf' => encLoop cap ds buf' (if zero then lz + 1 else lz) zero

/-- `for _ in 0..leading_zero_count { buf.try_push(0)? }` (504-506). -/
def pushZeros (cap : Option Nat) (buf : Bytes) : Nat → Option Bytes
  | 0 => some buf
  | k + 1 => match tryPush cap buf 0 with | none => none | some b => pushZeros cap b k

/-- `encode_to_buffer` (479-514): outer `none` is the index panic of line 510, inner `none` a full buffer. -/
def encodeToBuffer (cap : Option Nat) (data : Bytes) : Option (Option Bytes) :=
  match encLoop cap data [] 0 true with
  | none => some none
  | some (buf, lz) =>
    match pushZeros cap buf lz with
    | none => some none
    | some b => (b.reverse.mapM fun c => CHARS[c.toNat]?).map some

/-- `encoded_check_reserve_len` (435-444). -/
def reserveLen (n : Nat) : Nat := (n + 4) * 137 / 100

/-- `data ++ checksum` (334-335, 357-358). -/
def withCheck (H : Bytes → Arr 32) (data : Bytes) : Bytes := data ++ (H data).val.take 4

/-- `Base58CkString::encode_unbounded` (356-370) and `as_bytes`: `none` is a panic (an `expect` or an index). -/
def encodeUnbounded (H : Bytes → Arr 32) (data : Bytes) : Option Bytes :=
  if reserveLen data.length ≤ BUF_LEN then
    match encodeToBuffer (some BUF_LEN) (withCheck H data) with
    | some (some t) => some t
    | _ => none
  else
    match encodeToBuffer none (withCheck H data) with
    | some (some t) => some t
    | _ => none

/-- `Base58CkString::encode` without the `alloc` feature (333-340): outer `none` panic, inner `none` the error
`InputTooLongError`. With `alloc` (328-330) it is `encode_unbounded`. -/
def encodeNoAlloc (H : Bytes → Arr 32) (data : Bytes) : Option (Option Bytes) :=
  encodeToBuffer (some BUF_LEN) (withCheck H data)

end B58
end Btc
