import Verif.Primitives.HexText
/-!
# The text of hash types

Model of `impl_hex_string_traits!` and `hash_newtype!` (hashes/src/macros.rs), of `hash_types/generic.rs` of `primitives`
and of the declarations that use them.  The macros of the external `hex` crate are modelled without options of the formatter.
-/
namespace Btc
namespace HashText
open HexText

/-- The hash types of the `hashes` crate. -/
inductive Inner where
  | sha1 | ripemd160 | hash160 | sha256 | sha256d | sha256t | sha384 | sha512 | sha512_256 | sha3_256 | siphash24 | muhash
deriving DecidableEq, Repr

/-- The lengths in the declarations (`sha1/mod.rs` 14-18 and the like). -/
def Inner.len : Inner → Nat
  | .sha1 | .ripemd160 | .hash160 => 20
  | .sha256 | .sha256d | .sha256t | .sha512_256 | .sha3_256 => 32
  | .sha384 => 48
  | .sha512 => 64
  | .siphash24 => 8
  | .muhash => 384

/-- `DISPLAY_BACKWARD` in the declarations: `true` in `sha256d/mod.rs` 11 only. -/
def Inner.backward : Inner → Bool
  | .sha256d => true
  | _ => false

/-- An attribute in a `hash_newtype!` declaration: one of the direction attributes, an unknown `hash_newtype` attribute, or
another one with the number of token trees in its brackets. -/
inductive Attr where
  | forward | backward | unknown
  | other (tokens : Nat)
deriving DecidableEq, Repr

/-- The token trees in the brackets: `hash_newtype(forward)` has two. -/
def Attr.tokens : Attr → Nat
  | .other n => n
  | _ => 2

/-- `hash_newtype_forbid_direction!` (macros.rs 422-433); `none` is a compiler error.  `$(others:tt)*` in the second and
third rule lacks a `$`, so these match only at the end of the list; `$(#[$others:tt])*` in the last rule matches attributes
of one token tree. -/
def forbidDirection : List Attr → Option Unit
  | [] => some ()
  | [.forward] => none
  | [.backward] => none
  | _ :: rest => if rest.all (fun a => a.tokens == 1) then forbidDirection rest else none

/-- `hash_newtype_get_direction!` (410-415). -/
def getDirection (inner : Inner) : List Attr → Option Bool
  | [] => some inner.backward
  | .forward :: rest => (forbidDirection rest).map fun _ => false
  | .backward :: rest => (forbidDirection rest).map fun _ => true
  | _ :: rest => getDirection inner rest

/-- `hash_newtype!` (132-176) with `hash_newtype_known_attrs!` (442-447). -/
def newtypeDirection (inner : Inner) (attrs : List Attr) : Option Bool :=
  if attrs.any (· == .unknown) then none else getDirection inner attrs

/-- The named hash types of the library. -/
inductive Named where
  | blockHash | ntxid | txid | wtxid | txMerkleNode | witnessMerkleNode | witnessCommitment | scriptHash | wscriptHash
  | pubkeyHash | wpubkeyHash | tapLeafHash | tapNodeHash | tapTweakHash | xkeyIdentifier
  | legacySighash | segwitV0Sighash | tapSighash | filterHash | filterHeader
deriving DecidableEq, Repr

/-- The wrapped types: `type Inner` in `primitives/src/hash_types/*.rs`, and the `hash_newtype!` declarations (crypto/src/key.rs 880,
taproot_primitives/src/lib.rs 78, 132, 154, key_expression/src/bip32.rs 70, bitcoin/src/crypto/sighash.rs 63, 114,
p2p/src/message_filter.rs 29). -/
def Named.inner : Named → Inner
  | .blockHash | .ntxid | .txid | .wtxid | .txMerkleNode | .witnessMerkleNode | .witnessCommitment => .sha256d
  | .scriptHash => .hash160
  | .wscriptHash => .sha256
  | .pubkeyHash | .wpubkeyHash | .xkeyIdentifier => .hash160
  | .tapLeafHash | .tapNodeHash | .tapTweakHash | .tapSighash => .sha256t
  | .legacySighash | .segwitV0Sighash => .sha256d
  | .filterHash | .filterHeader => .sha256d

/-- The attributes of the declarations; a documentation comment is an attribute of three token trees (`doc = "..."`). -/
def Named.attrs : Named → List Attr
  | .pubkeyHash | .wpubkeyHash | .xkeyIdentifier | .filterHash | .filterHeader => [.other 3]
  | .tapLeafHash | .tapTweakHash | .tapSighash => [.other 3, .other 3, .other 3]
  | .tapNodeHash => [.other 3, .other 3, .other 3, .other 2]
  | .legacySighash | .segwitV0Sighash => [.other 3, .forward]
  | _ => []

/-- Whether a type reads and writes backwards: `REVERSE` (generic.rs 12) for the types of `primitives`, which is what the macro
makes of no attribute; `DISPLAY_BACKWARD` of the macro for the others. -/
def Named.backward (t : Named) : Option Bool := newtypeDirection t.inner t.attrs

/-- `LowerHex`, `UpperHex` (macros.rs 286-307; generic.rs 32-39 forwards) and `Display` (309-314; 42-44). -/
def format (rev : Bool) (c : Case) (b : Bytes) : List Char :=
  if rev then b.reverse.flatMap fun x => [(pair c x).1, (pair c x).2] else b.flatMap fun x => [(pair c x).1, (pair c x).2]
def display (rev : Bool) (b : Bytes) : List Char := format rev .lower b

/-- `FromStr` (macros.rs 276-282, generic.rs 50-57) with `decode_to_array` of the `hex` crate; errors are merged. -/
def parse (rev : Bool) (n : Nat) (s : List Char) : Option Bytes :=
  match hexDecode s with
  | none => none
  | some b => if b.length = n then some (if rev then b.reverse else b) else none

end HashText
end Btc
