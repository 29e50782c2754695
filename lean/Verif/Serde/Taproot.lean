import Verif.Serde.Impls
/-!
# `Serialize` and `Deserialize` of taproot trees, merkle branches, x-only keys and control blocks

The values of the crate `secp256k1` inside them (`Codec`) are written and read by that crate.
-/
namespace Btc.Serde
open Taproot

/-- An implementation in another crate, with what it promises. -/
structure Codec (α : Type) where
  ser : Fmt → α → SVal
  de : Fmt → SVal → R α
  law : ∀ F x, de F (ser F x) = .ok x

/-! ### The derived implementations for structs and enums -/

/-- The derived `visit_seq` of a struct with `n` fields, or of a variant with `n` values; `visit_map` of a struct.  The values come in the
order of the declaration. -/
def deStruct (names : List Bytes) (F : Fmt) (v : SVal) : R (List SVal) :=
  match F.visit (.struct names) v with
  | some (.seq _ vs) => if vs.length < names.length then .error .refused else .ok (vs.take names.length)
  | some (.map fs) => readNames fs names
  | _ => .error .refused
where
  readNames (fs : List (Bytes × SVal)) : List Bytes → R (List SVal)
    | [] => .ok []
    | n :: ns =>
      match field fs n with
      | .error e => .error e
      | .ok v =>
        match readNames fs ns with
        | .error e => .error e
        | .ok vs => .ok (v :: vs)

/-! ### Leaves and trees (bitcoin/src/taproot/mod.rs) -/

/-- The names of the variants of `TapLeaf` (861-866), as ASCII: "Script", "Hidden". -/
def scriptName : Bytes := [83, 99, 114, 105, 112, 116]
def hiddenName : Bytes := [72, 105, 100, 100, 101, 110]

/-- The derived `Serialize for TapLeaf` (860). -/
def serTapLeaf (F : Fmt) : TapLeaf → SVal
  | .script s v => .tupleVariant 0 scriptName [serScript F s, serLeafVersion v]
  | .hidden h => .newtypeVariant 1 hiddenName (serHash false F h)

/-- The derived `Deserialize for TapLeaf` (860). -/
def deTapLeaf (F : Fmt) (v : SVal) : R TapLeaf :=
  match F.visit (.enum [scriptName, hiddenName]) v with
  | some (.enum n c) =>
    if n = scriptName then
      match c with
      | .tuple (a :: b :: _) =>
        match deScriptBuf F a with
        | .error e => .error e
        | .ok s =>
          match deLeafVersion F b with
          | .error e => .error e
          | .ok l => .ok (.script s l)
      | _ => .error .refused
    else if n = hiddenName then
      match c with
      | .newtype a =>
        match deHash false 32 F a with
        | .error e => .error e
        | .ok h => .ok (.hidden h)
      | _ => .error .refused
    else .error .refused
  | _ => .error .refused

/-- An error of the builder, or its panic. -/
def ofBuilder {α : Type} : Except BErr α → R α
  | .ok x => .ok x
  | .error .panic => .error .panic
  | .error _ => .error .refused

/-- `Serialize for NodeInfo` (787-800): the length of the merkle branch, a `usize`, goes out as a `u64`. -/
def serNodeInfo (F : Fmt) (n : NodeInfo) : SVal :=
  .seq (n.leaves.flatMap fun l => [.uint 64 l.branch.length, serTapLeaf F l.leaf])

/-- The loop of `visit_seq` (827-848); `depth` is the `u8` that `add_leaf_with_ver` and `add_hidden_node` take. -/
def nodeLoop (H : Bytes → Hash) (F : Fmt) : Builder → List SVal → R Builder
  | st, [] => .ok st
  | st, d :: vs =>
    match deU8 F d with
    | .error e => .error e
    | .ok depth =>
      match vs with
      | [] => .error .refused
      | l :: rest =>
        match deTapLeaf F l with
        | .error e => .error e
        | .ok leaf =>
          match ofBuilder (addLeaf H st depth.toNat leaf) with
          | .error e => .error e
          | .ok st' => nodeLoop H F st' rest

/-- `Deserialize for NodeInfo` (803-856); the capacity (819-825) is at most 128. -/
def deNodeInfo (H : Bytes → Hash) (F : Fmt) (v : SVal) : R NodeInfo :=
  match F.visit .seq v with
  | some (.seq _ vs) =>
    match nodeLoop H F [] vs with
    | .error e => .error e
    | .ok st => ofBuilder (tryIntoNodeInfo st)
  | _ => .error .refused

/-- `TapTree` through `serde(into)` and `serde(try_from)` (579-582) with `TryFrom<NodeInfo>` (620-634). -/
def serTapTree (F : Fmt) (n : NodeInfo) : SVal := serNodeInfo F n
def deTapTree (H : Bytes → Hash) (F : Fmt) (v : SVal) : R NodeInfo :=
  match deNodeInfo H F v with
  | .error e => .error e
  | .ok n => if n.hasHidden then .error .refused else .ok n

/-! ### Branches, keys, control blocks -/

/-- `TaprootMerkleBranchBuf` through `Vec<TapNodeHash>` (merkle_branch/buf.rs 17-20) with `from_collection` (63-71). -/
def serBranch (F : Fmt) (b : List Hash) : SVal := .seq (b.map (serHash false F))
def deBranch (F : Fmt) (v : SVal) : R (List Hash) :=
  match deVec (deHash false 32 F) F v with
  | .error e => .error e
  | .ok b => if b.length > maxNodes then .error .refused else .ok b

/-- `Serialize` and `Deserialize for XOnlyPublicKey` (crypto/src/key.rs 1321-1341), also `TweakedPublicKey`, which is `serde(transparent)`
(230-232). -/
def serXOnly {S : Secp} (K : Codec S.Key) (F : Fmt) (k : XOnly S) : SVal := K.ser F k.inner
def deXOnly {S : Secp} (K : Codec S.Key) (F : Fmt) (v : SVal) : R (XOnly S) :=
  match K.de F v with
  | .error e => .error e
  | .ok k => .ok ⟨k, false⟩

/-- The names of the fields of `ControlBlock` (989-1001), as ASCII: "leaf_version", "output_key_parity", "internal_key", "merkle_branch". -/
def leafVersionField : Bytes := [108, 101, 97, 102, 95, 118, 101, 114, 115, 105, 111, 110]
def parityField : Bytes := [111, 117, 116, 112, 117, 116, 95, 107, 101, 121, 95, 112, 97, 114, 105, 116, 121]
def internalKeyField : Bytes := [105, 110, 116, 101, 114, 110, 97, 108, 95, 107, 101, 121]
def branchField : Bytes := [109, 101, 114, 107, 108, 101, 95, 98, 114, 97, 110, 99, 104]

/-- The derived implementations of `ControlBlock` (988); `P` is `secp256k1::Parity`. -/
def serControl {S : Secp} (P : Codec Bool) (K : Codec S.Key) (F : Fmt) (cb : ControlBlock S) : SVal :=
  .struct [(leafVersionField, serLeafVersion cb.leafVersion), (parityField, P.ser F cb.parity),
    (internalKeyField, serXOnly K F cb.internalKey), (branchField, serBranch F cb.branch)]
def deControl {S : Secp} (P : Codec Bool) (K : Codec S.Key) (F : Fmt) (v : SVal) : R (ControlBlock S) :=
  match deStruct [leafVersionField, parityField, internalKeyField, branchField] F v with
  | .ok [a, b, c, d] =>
    match deLeafVersion F a with
    | .error e => .error e
    | .ok ver =>
      match P.de F b with
      | .error e => .error e
      | .ok p =>
        match deXOnly K F c with
        | .error e => .error e
        | .ok k =>
          match deBranch F d with
          | .error e => .error e
          | .ok br => .ok ⟨ver, p, k, br⟩
  | .ok _ => .error .refused
  | .error e => .error e

end Btc.Serde
