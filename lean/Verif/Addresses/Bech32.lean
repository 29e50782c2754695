import Verif.Bytes
/-!
# The external `bech32` crate (0.11) as far as addresses use it

The crate is not part of the repository.  `segwit::decode`, `encode_lower_to_fmt_unchecked` and
`encode_upper_to_fmt_unchecked` are modelled by the documents they implement, BIP-173 and BIP-350; errors are not told apart.
Text is bytes.
-/
namespace Btc.Bech32

/-- A character's value: five bits. -/
abbrev Fe := BitVec 5

/-- The alphabet: qpzry9x8gf2tvdw0s3jn54khce6mua7l. -/
def CHARSET : Bytes :=
  [113, 112, 122, 114, 121, 57, 120, 56, 103, 102, 50, 116, 118, 100, 119, 48, 115, 51, 106, 110, 53, 52, 107, 104, 99, 101, 54,
   109, 117, 97, 55, 108]

def isUpper (c : UInt8) : Bool := 65 ≤ c.toNat && c.toNat ≤ 90
def isLower (c : UInt8) : Bool := 97 ≤ c.toNat && c.toNat ≤ 122
/-- `u8::to_ascii_lowercase`, `u8::to_ascii_uppercase`. -/
def lower (c : UInt8) : UInt8 := if isUpper c then c + 32 else c
def upper (c : UInt8) : UInt8 := if isLower c then c - 32 else c

/-- `Fe32::to_char`. -/
def charOf (f : Fe) : UInt8 := CHARSET.getD f.toNat 0
/-- `Fe32::from_char`: either case. -/
def feOf (c : UInt8) : Option Fe := (CHARSET.idxOf? (lower c)).map (BitVec.ofNat 5)

/-- The generator coefficients of BIP-173, selected by the five bits shifted out. -/
def gen (t : BitVec 5) : BitVec 30 :=
  (if t.getLsbD 0 then 0x3b6a57b2#30 else 0#30) ^^^ (if t.getLsbD 1 then 0x26508e6d#30 else 0#30) ^^^
  (if t.getLsbD 2 then 0x1ea119fa#30 else 0#30) ^^^ (if t.getLsbD 3 then 0x3d4233dd#30 else 0#30) ^^^
  (if t.getLsbD 4 then 0x2a1462b3#30 else 0#30)

/-- One step of `bech32_polymod`. -/
def step (chk : BitVec 30) (v : Fe) : BitVec 30 := (chk <<< 5) ^^^ v.setWidth 30 ^^^ gen (chk.extractLsb' 25 5)

def polymod (vs : List Fe) : BitVec 30 := vs.foldl step 1#30

/-- `bech32_hrp_expand`; `hrp` is in lower case. -/
def hrpExpand (hrp : Bytes) : List Fe :=
  hrp.map (fun c => BitVec.ofNat 5 (c.toNat / 32)) ++ [0#5] ++ hrp.map (fun c => BitVec.ofNat 5 c.toNat)

/-- The constant of the checksum: bech32 for version 0, bech32m for the others. -/
def residue (version : Fe) : BitVec 30 := if version = 0#5 then 1#30 else 0x2bc830a3#30

/-- `bech32_verify_checksum`. -/
def verifyChecksum (hrp : Bytes) (data : List Fe) (c : BitVec 30) : Bool := polymod (hrpExpand hrp ++ data) == c

/-- Thirty bits as six characters. -/
def split6 (p : BitVec 30) : List Fe :=
  [p.extractLsb' 25 5, p.extractLsb' 20 5, p.extractLsb' 15 5, p.extractLsb' 10 5, p.extractLsb' 5 5, p.extractLsb' 0 5]

/-- `bech32_create_checksum`. -/
def createChecksum (hrp : Bytes) (data : List Fe) (c : BitVec 30) : List Fe :=
  split6 (polymod (hrpExpand hrp ++ data ++ List.replicate 6 0#5) ^^^ c)

/-! ## Regrouping bits -/

def bits5 (f : Fe) : List Bool := [f.getLsbD 4, f.getLsbD 3, f.getLsbD 2, f.getLsbD 1, f.getLsbD 0]
def bits8 (b : UInt8) : List Bool :=
  [b.toBitVec.getLsbD 7, b.toBitVec.getLsbD 6, b.toBitVec.getLsbD 5, b.toBitVec.getLsbD 4, b.toBitVec.getLsbD 3, b.toBitVec.getLsbD 2,
   b.toBitVec.getLsbD 1, b.toBitVec.getLsbD 0]

/-- The number a list of bits stands for, most significant first. -/
def bitVal (l : List Bool) : Nat := l.foldl (fun a b => 2 * a + b.toNat) 0

/-- Groups of five bits, the last one padded with zeros. -/
def group5 : List Bool → List Fe
  | [] => []
  | [a] => [BitVec.ofNat 5 (bitVal [a, false, false, false, false])]
  | [a, b] => [BitVec.ofNat 5 (bitVal [a, b, false, false, false])]
  | [a, b, c] => [BitVec.ofNat 5 (bitVal [a, b, c, false, false])]
  | [a, b, c, d] => [BitVec.ofNat 5 (bitVal [a, b, c, d, false])]
  | a :: b :: c :: d :: e :: rest => BitVec.ofNat 5 (bitVal [a, b, c, d, e]) :: group5 rest

/-- Groups of eight bits; an incomplete last group is dropped. -/
def group8 : List Bool → Bytes
  | a :: b :: c :: d :: e :: f :: g :: h :: rest => UInt8.ofNat (bitVal [a, b, c, d, e, f, g, h]) :: group8 rest
  | _ => []

def toFes (bs : Bytes) : List Fe := group5 (bs.flatMap bits8)

/-- Back to bytes: at most four bits of padding, all zero (BIP-173). -/
def fromFes (fs : List Fe) : Option Bytes :=
  let bits := fs.flatMap bits5
  let pad := bits.drop (bits.length - bits.length % 8)
  if 4 < pad.length ∨ pad.any id then none else some (group8 bits)

/-! ## Segwit addresses -/

/-- `segwit::encode_lower_to_fmt_unchecked`; `hrp` is in lower case. -/
def encodeLower (hrp : Bytes) (version : Fe) (program : Bytes) : Bytes :=
  let data := version :: toFes program
  hrp ++ [49] ++ (data ++ createChecksum hrp data (residue version)).map charOf

/-- `segwit::encode_upper_to_fmt_unchecked`. -/
def encodeUpper (hrp : Bytes) (version : Fe) (program : Bytes) : Bytes := (encodeLower hrp version program).map upper

/-- `Hrp::parse`: 1 to 83 printable characters. -/
def hrpOk (hrp : Bytes) : Bool := hrp ≠ [] && hrp.length ≤ 83 && hrp.all fun c => 33 ≤ c.toNat && c.toNat ≤ 126

/-- The human-readable part and the data part: the separator is the last `1`. -/
def splitSep : Bytes → Option (Bytes × Bytes)
  | [] => none
  | c :: s =>
    match splitSep s with
    | some (h, d) => some (c :: h, d)
    | none => if c = 49 then some ([], s) else none

/-- `Fe32::from_char` on every character. -/
def fesOf : Bytes → Option (List Fe)
  | [] => some []
  | c :: s =>
    match feOf c, fesOf s with
    | some f, some fs => some (f :: fs)
    | _, _ => none

/-- Program lengths (BIP-141): 2 to 40 bytes, for version 0 only 20 or 32. -/
def lengthOk (version : Fe) (n : Nat) : Bool := 2 ≤ n && n ≤ 40 && (version ≠ 0#5 || n = 20 || n = 32)

/-- `segwit::decode`: the human-readable part (in lower case), version and program.  The order of the tests is not observable as errors
are not told apart. -/
def decode (s : Bytes) : Option (Bytes × Fe × Bytes) :=
  if s.length > 90 then none
  else if s.any isUpper && s.any isLower then none
  else
    match splitSep s with
    | none => none
    | some (hrp, data) =>
      if !hrpOk hrp then none
      else
        match fesOf data with
        | none => none
        | some [] => none
        | some (v :: fs) =>
          if 16 < v.toNat then none
          else if (v :: fs).length < 7 then none
          else if !verifyChecksum (hrp.map lower) (v :: fs) (residue v) then none
          else
            match fromFes (fs.take (fs.length - 6)) with
            | none => none
            | some program => if lengthOk v program.length then some (hrp.map lower, v, program) else none

end Btc.Bech32
