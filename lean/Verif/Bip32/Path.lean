import Verif.Text
/-!
# Derivation paths: key_expression/src/bip32.rs, lines 222-721

Strings are their UTF-8 bytes.  A `str` ends with the character `'` or `h` exactly when its last byte is that
character's, so `chars().last()` and the slice `inp[0..inp.len() - 1]` are the last byte and the rest.
-/
namespace Btc
deriving instance DecidableEq for Except

namespace Bip32

/-- key_expression/src/bip32.rs:222. -/
def HARDENED_FLAG : UInt32 := (1 : UInt32) <<< (31 : UInt32)

/-- key_expression/src/bip32.rs:225. -/
def MAX_CHILD_INDEX : UInt32 := HARDENED_FLAG - 1

/-- key_expression/src/bip32.rs:231-232. -/
structure ChildNumber where
  raw : UInt32
deriving DecidableEq, Repr

/-- key_expression/src/bip32.rs: `IndexOutOfRangeError`. -/
structure IndexOutOfRange where
  index : UInt32
deriving DecidableEq, Repr

namespace ChildNumber

/-- key_expression/src/bip32.rs:236. -/
def ZERO_NORMAL : ChildNumber := ⟨0⟩
/-- key_expression/src/bip32.rs:242. -/
def ZERO_HARDENED : ChildNumber := ⟨HARDENED_FLAG⟩

/-- key_expression/src/bip32.rs:252-258. -/
def fromNormalIdx (index : UInt32) : Except IndexOutOfRange ChildNumber :=
  if index ≤ MAX_CHILD_INDEX then .ok ⟨index⟩ else .error ⟨index⟩

/-- key_expression/src/bip32.rs:265-271. -/
def fromHardenedIdx (index : UInt32) : Except IndexOutOfRange ChildNumber :=
  if index ≤ MAX_CHILD_INDEX then .ok ⟨index ||| HARDENED_FLAG⟩ else .error ⟨index⟩

/-- key_expression/src/bip32.rs:277. -/
def fromRaw (raw : UInt32) : ChildNumber := ⟨raw⟩

/-- key_expression/src/bip32.rs:283. -/
def toRaw (c : ChildNumber) : UInt32 := c.raw

/-- key_expression/src/bip32.rs:286. -/
def index (c : ChildNumber) : UInt32 := c.raw &&& MAX_CHILD_INDEX

/-- key_expression/src/bip32.rs:292. -/
def isHardened (c : ChildNumber) : Bool := c.raw &&& HARDENED_FLAG != 0

/-- key_expression/src/bip32.rs:289. -/
def isNormal (c : ChildNumber) : Bool := !c.isHardened

/-- key_expression/src/bip32.rs:299-307. -/
def increment (c : ChildNumber) : Except IndexOutOfRange ChildNumber :=
  if c.index.toNat + 1 < 2 ^ 32 then
    if c.isHardened then fromHardenedIdx (c.index + 1) else fromNormalIdx (c.index + 1)
  else .error ⟨c.index⟩

/-- key_expression/src/bip32.rs:317-349, `Display`; `alt` is the `#` flag.  Width and fill are not modelled. -/
def display (alt : Bool) (c : ChildNumber) : Bytes :=
  if c.isHardened then decBytes c.index.toNat ++ [if alt then 104 else 39] else decBytes c.index.toNat

end ChildNumber

/-- key_expression/src/bip32.rs: `ParseChildNumberError`. -/
inductive ParseChildErr where
  | parseInt (e : IntErr)
  | indexOutOfRange (e : IndexOutOfRange)
deriving DecidableEq, Repr

/-- `<u32 as FromStr>`. -/
def parseU32 (s : Bytes) : Except ParseChildErr UInt32 :=
  match parseUInt (2 ^ 32 - 1) 10 s with
  | .ok n => .ok (UInt32.ofNat n)
  | .error e => .error (.parseInt e)

/-- key_expression/src/bip32.rs:375-390. -/
def ChildNumber.parse (inp : Bytes) : Except ParseChildErr ChildNumber :=
  if inp.getLast?.any (fun l => l == 39 || l == 104) then
    match parseU32 inp.dropLast with
    | .error e => .error e
    | .ok i => (ChildNumber.fromHardenedIdx i).mapError .indexOutOfRange
  else
    match parseU32 inp with
    | .error e => .error e
    | .ok i => (ChildNumber.fromNormalIdx i).mapError .indexOutOfRange

/-- `str::split('/')`. -/
def splitSlash : Bytes → List Bytes
  | [] => [[]]
  | b :: bs =>
    if b = 47 then [] :: splitSlash bs
    else match splitSlash bs with
      | [] => [[b]]
      | p :: ps => (b :: p) :: ps

/-- key_expression/src/bip32.rs:417-418: a relative path is a list of child numbers. -/
abbrev RelPath := List ChildNumber

/-- key_expression/src/bip32.rs: `ParseRelativeDerivationPathError` and `ParseAbsoluteDerivationPathError`. -/
inductive PathErr where
  | unexpectedMasterPrefix
  | missingMasterPrefix
  | emptyChild
  | child (e : ParseChildErr)
deriving DecidableEq, Repr

/-- key_expression/src/bip32.rs:477-483 and 550-556: the loop over the parts. -/
def parseParts : List Bytes → RelPath → Except PathErr RelPath
  | [], ret => .ok ret
  | part :: parts, ret =>
    if part = [] then .error .emptyChild
    else match ChildNumber.parse part with
      | .error e => .error (.child e)
      | .ok c => parseParts parts (ret ++ [c])

/-- key_expression/src/bip32.rs:465-486. -/
def RelPath.parse (path : Bytes) : Except PathErr RelPath :=
  if path = [] then .ok []
  else if path = [109] ∨ [109, 47] <+: path then .error .unexpectedMasterPrefix
  else parseParts (splitSlash path) []

/-- key_expression/src/bip32.rs:499-500. -/
structure AbsPath where
  rel : RelPath
deriving DecidableEq

/-- key_expression/src/bip32.rs:507. -/
def AbsPath.master : AbsPath := ⟨[]⟩

/-- key_expression/src/bip32.rs:536-559. -/
def AbsPath.parse (path : Bytes) : Except PathErr AbsPath :=
  if path = [109] then .ok AbsPath.master
  else if [109, 47] <+: path then
    if path.drop 2 = [] then .error .emptyChild
    else match parseParts (splitSlash (path.drop 2)) [] with
      | .error e => .error e
      | .ok r => .ok ⟨r⟩
  else .error .missingMasterPrefix

/-- key_expression/src/bip32.rs:711-718: the rest of the elements, each after a slash. -/
def displayRest (alt : Bool) : RelPath → Bytes
  | [] => []
  | c :: cs => 47 :: c.display alt ++ displayRest alt cs

/-- key_expression/src/bip32.rs:701-721. -/
def RelPath.display (alt : Bool) : RelPath → Bytes
  | [] => []
  | c :: cs => c.display alt ++ displayRest alt cs

/-- key_expression/src/bip32.rs:561-574. -/
def AbsPath.display (alt : Bool) (p : AbsPath) : Bytes :=
  if p.rel = [] then [109] else [109] ++ [47] ++ RelPath.display alt p.rel

/-- key_expression/src/bip32.rs:622-626. -/
def RelPath.child (p : RelPath) (c : ChildNumber) : RelPath := p ++ [c]

/-- key_expression/src/bip32.rs:668-672. -/
def RelPath.join (p : RelPath) (q : List ChildNumber) : RelPath := p ++ q

/-- key_expression/src/bip32.rs:618. -/
def RelPath.containsHardenedChild (p : RelPath) : Bool := p.any ChildNumber.isHardened

/-- key_expression/src/bip32.rs:685. -/
def RelPath.toU32Vec (p : RelPath) : List UInt32 := p.map ChildNumber.toRaw

/-- key_expression/src/bip32.rs:696-698. -/
def RelPath.fromU32Slice (l : List UInt32) : RelPath := l.map ChildNumber.fromRaw

/-- key_expression/src/bip32.rs:588-598. -/
structure PathIter where
  base : RelPath
  nextChild : Option ChildNumber

/-- key_expression/src/bip32.rs:638-650. -/
def RelPath.childrenFrom (p : RelPath) (c : ChildNumber) : PathIter := ⟨p, some c⟩

/-- key_expression/src/bip32.rs:603-607. -/
def PathIter.next (it : PathIter) : Option RelPath × PathIter :=
  match it.nextChild with
  | none => (none, it)
  | some ret => (some (it.base.child ret), ⟨it.base, ret.increment.toOption⟩)

end Bip32
end Btc
