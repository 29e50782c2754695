import Verif.Codec.Combinators
/-!
# Taproot script trees

Model of `bitcoin/src/taproot/mod.rs`, `bitcoin/src/taproot/merkle_branch/*` and the parts of
`taproot_primitives/src/lib.rs` they use.  SHA-256 is a parameter `H`; the tagged hash engines compute
`tagged H tag` (proved for the engines themselves in `C49_tagged`).  The secp256k1 operations are a parameter
`Secp` with the laws the library documents.
-/
namespace Btc.Taproot

abbrev Hash := Arr 32

/-- The tagged hash of BIP-340 (hashes/src/sha256t/mod.rs). -/
def tagged (H : Bytes → Hash) (tag msg : Bytes) : Hash := H ((H tag).1 ++ (H tag).1 ++ msg)

/-- The tags (taproot_primitives/src/lib.rs 75, 129, 151), as ASCII. -/
def leafTag : Bytes := [0x54, 0x61, 0x70, 0x4c, 0x65, 0x61, 0x66]
def branchTag : Bytes := [0x54, 0x61, 0x70, 0x42, 0x72, 0x61, 0x6e, 0x63, 0x68]
def tweakTag : Bytes := [0x54, 0x61, 0x70, 0x54, 0x77, 0x65, 0x61, 0x6b]

/-- `TAPROOT_CONTROL_MAX_NODE_COUNT` (taproot_primitives/src/lib.rs 49). -/
def maxNodes : Nat := 128

/-- `LeafVersion` (taproot_primitives/src/lib.rs 201-207); `FutureLeafVersion` (315) has a private field that only
`from_consensus` fills, hence the subtype. -/
inductive LeafVersion where
  | tapScript
  | future (v : { v : UInt8 // v &&& 0xfe = v ∧ v ≠ 0x50 ∧ v ≠ 0xc0 })
deriving DecidableEq

/-- `LeafVersion::from_consensus` (216-222) with `FutureLeafVersion::from_consensus` (319-328). -/
def LeafVersion.fromConsensus (v : UInt8) : Except UInt8 LeafVersion :=
  if h1 : v = 0xc0 then .ok .tapScript
  else if h2 : v = 0x50 then .error 0x50
  else if h3 : v &&& 0xfe = v then .ok (.future ⟨v, h3, h2, h1⟩)
  else .error v

/-- `LeafVersion::to_consensus` (225-230). -/
def LeafVersion.toConsensus : LeafVersion → UInt8
  | .tapScript => 0xc0
  | .future v => v.1

/-- `TapLeafHash::from_script` (taproot/mod.rs 69-75): version byte, then the length-prefixed script. -/
def leafHash (H : Bytes → Hash) (script : Bytes) (ver : LeafVersion) : Hash :=
  tagged H leafTag ([ver.toConsensus] ++ (csEncode script.length ++ script))

/-- `Ord for [u8; 32]`: lexicographic. -/
def lexLt : Bytes → Bytes → Bool
  | [], [] => false
  | [], _ :: _ => true
  | _ :: _, [] => false
  | a :: as, b :: bs => if a < b then true else if b < a then false else lexLt as bs

/-- `combine_node_hashes` (109-120): the parent hash, and whether the first argument is the smaller one. -/
def combineHashes (H : Bytes → Hash) (a b : Hash) : Hash × Bool :=
  if lexLt a.1 b.1 then (tagged H branchTag (a.1 ++ b.1), true) else (tagged H branchTag (b.1 ++ a.1), false)

/-- `TapNodeHash::from_node_hashes` (83-85). -/
def fromNodeHashes (H : Bytes → Hash) (a b : Hash) : Hash := (combineHashes H a b).1

/-- `TapLeaf` (861-866). -/
inductive TapLeaf where
  | script (s : Bytes) (v : LeafVersion)
  | hidden (h : Hash)
deriving DecidableEq

/-- `LeafNode` (890-895). -/
structure LeafNode where
  leaf : TapLeaf
  branch : List Hash
deriving DecidableEq

/-- `NodeInfo` (699-706). -/
structure NodeInfo where
  hash : Hash
  leaves : List LeafNode
  hasHidden : Bool
deriving DecidableEq

/-- `TaprootBuilderError`, `IncompleteBuilderError`, and the panics. -/
inductive BErr where
  | depth (n : Nat)
  | notDfs
  | overComplete
  | emptyTree
  | notFinalized
  | hiddenParts
  | panic
deriving DecidableEq

/-- `TaprootMerkleBranchBuf::push` (merkle_branch/buf.rs 91-101). -/
def pushBranch (b : List Hash) (h : Hash) : Except BErr (List Hash) :=
  if b.length ≥ maxNodes then .error (.depth b.length) else .ok (b ++ [h])

/-- `NodeInfo::new_hidden_node` (738-740). -/
def newHidden (h : Hash) : NodeInfo := ⟨h, [], true⟩

/-- `NodeInfo::new_leaf_with_ver` (743-749). -/
def newLeaf (H : Bytes → Hash) (s : Bytes) (v : LeafVersion) : NodeInfo := ⟨leafHash H s v, [⟨.script s v, []⟩], false⟩

/-- The two loops of `NodeInfo::combine` (756-763): push the partner's hash on every leaf's branch. -/
def pushAll (h : Hash) : List LeafNode → Except BErr (List LeafNode)
  | [] => .ok []
  | l :: ls => do
    let b ← pushBranch l.branch h
    let r ← pushAll h ls
    .ok (⟨l.leaf, b⟩ :: r)

/-- `NodeInfo::combine` (752-769). -/
def combine (H : Bytes → Hash) (a b : NodeInfo) : Except BErr NodeInfo := do
  let (hash, leftFirst) := combineHashes H a.hash b.hash
  let (a, b) := if leftFirst then (a, b) else (b, a)
  let la ← pushAll b.hash a.leaves
  let lb ← pushAll a.hash b.leaves
  .ok ⟨hash, la ++ lb, a.hasHidden || b.hasHidden⟩

/-- `TaprootBuilder.branch`, with the last element of the vector first: the entry for depth `d` is `d + 1` from the end. -/
abbrev Builder := List (Option NodeInfo)

/-- The end of `TaprootBuilder::insert` (556-563): pad with `None`, then `branch[depth] = Some(node)`. -/
def place (st : Builder) (node : NodeInfo) (depth : Nat) : Builder :=
  let st := if st.length < depth + 1 then List.replicate (depth + 1 - st.length) none ++ st else st
  st.set (st.length - 1 - depth) (some node)

/-- The loop of `TaprootBuilder::insert` (535-554), then `place`. -/
def insertLoop (H : Bytes → Hash) : Builder → NodeInfo → Nat → Except BErr Builder
  | [], node, depth => .ok (place [] node depth)
  | e :: rest, node, depth =>
    if (e :: rest).length = depth + 1 then
      match e with
      | none => .ok (place (none :: rest) node depth)
      | some child =>
        if depth = 0 then .error .overComplete
        else
          match combine H node child with
          | .error err => .error err
          | .ok node => insertLoop H rest node (depth - 1)
    else .ok (place (e :: rest) node depth)

/-- `TaprootBuilder::insert` (522-564). -/
def insert (H : Bytes → Hash) (st : Builder) (node : NodeInfo) (depth : Nat) : Except BErr Builder :=
  if depth > maxNodes then .error (.depth depth)
  else if depth + 1 < st.length then .error .notDfs
  else insertLoop H st node depth

/-- `add_leaf_with_ver` / `add_hidden_node` (407-444), and the dispatch of `Deserialize for NodeInfo` (831-846). -/
def addLeaf (H : Bytes → Hash) (st : Builder) (depth : Nat) : TapLeaf → Except BErr Builder
  | .script s v => insert H st (newLeaf H s v) depth
  | .hidden h => insert H st (newHidden h) depth

/-- A sequence of `add_leaf…`/`add_hidden_node` calls, each on the result of the previous one. -/
def runCalls (H : Bytes → Hash) : Builder → List (Nat × TapLeaf) → Except BErr Builder
  | st, [] => .ok st
  | st, (d, l) :: cs =>
    match addLeaf H st d l with
    | .error e => .error e
    | .ok st => runCalls H st cs

/-- `is_finalizable` (447). -/
def isFinalizable (st : Builder) : Bool :=
  match st with
  | [some _] => true
  | _ => false

/-- `try_into_node_info` (456-465). -/
def tryIntoNodeInfo (st : Builder) : Except BErr NodeInfo :=
  if st.length ≠ 1 then .error .notFinalized
  else match st with
    | some n :: _ => .ok n
    | _ => .error .panic

/-- `try_into_tap_tree` (484-491). -/
def tryIntoTapTree (st : Builder) : Except BErr NodeInfo :=
  match tryIntoNodeInfo st with
  | .error e => .error e
  | .ok n => if n.hasHidden then .error .hiddenParts else .ok n

/-- `TapTree::try_from(NodeInfo)` (629-635). -/
def tapTreeOf (n : NodeInfo) : Except BErr NodeInfo := if n.hasHidden then .error .hiddenParts else .ok n

/-- `ScriptLeaf` (960-967), `ScriptLeaf::from_leaf_node` (980-983). -/
structure ScriptLeaf where
  version : LeafVersion
  script : Bytes
  branch : List Hash
deriving DecidableEq
def ScriptLeaf.fromLeafNode (l : LeafNode) : Option ScriptLeaf :=
  match l.leaf with
  | .script s v => some ⟨v, s, l.branch⟩
  | .hidden _ => none

/-- `ScriptLeaves::next`, `next_back` and `size_hint` (646-664) on the leaves left of `TapTree::script_leaves` (598-600). -/
def leavesNext : List LeafNode → Option ScriptLeaf × List LeafNode
  | [] => (none, [])
  | l :: ls => (ScriptLeaf.fromLeafNode l, ls)
def leavesNextBack (ls : List LeafNode) : Option ScriptLeaf × List LeafNode :=
  match ls.getLast? with
  | none => (none, ls)
  | some l => (ScriptLeaf.fromLeafNode l, ls.dropLast)
def leavesLeft (ls : List LeafNode) : Nat := ls.length

/-- `LeafNode::depth` (910-913): `none` is its panic. -/
def LeafNode.depth (l : LeafNode) : Option UInt8 := if l.branch.length < 256 then some (UInt8.ofNat l.branch.length) else none

/-- `LeafNode::leaf_hash`, `node_hash` (922-938). -/
def LeafNode.leafHash (H : Bytes → Hash) (l : LeafNode) : Option Hash :=
  match l.leaf with
  | .script s v => some (Taproot.leafHash H s v)
  | .hidden _ => none
def LeafNode.nodeHash (H : Bytes → Hash) (l : LeafNode) : Hash :=
  match l.leaf with
  | .script s v => Taproot.leafHash H s v
  | .hidden h => h

/-- `Serialize for NodeInfo` (787-800), as the list of (depth, leaf) pairs. -/
def serialize (n : NodeInfo) : List (Nat × TapLeaf) := n.leaves.map fun l => (l.branch.length, l.leaf)

/-- `Deserialize for NodeInfo` (803-856). -/
def deserialize (H : Bytes → Hash) (l : List (Nat × TapLeaf)) : Except BErr NodeInfo :=
  match runCalls H [] l with
  | .error e => .error e
  | .ok st => tryIntoNodeInfo st

/-! ## Huffman trees -/

/-- `BinaryHeap::pop` on `(Reverse(weight), NodeInfo)`: an element of least weight; `tie a b` decides whether, between
two elements of the same weight, the first one is taken (`Ord for NodeInfo`, 710-720). -/
def popMin (tie : NodeInfo → NodeInfo → Bool) : (Nat × NodeInfo) → List (Nat × NodeInfo) → (Nat × NodeInfo) × List (Nat × NodeInfo)
  | x, [] => (x, [])
  | x, y :: ys =>
    if y.1 < x.1 ∨ (y.1 = x.1 ∧ tie y.2 x.2) then
      let (m, r) := popMin tie y ys
      (m, x :: r)
    else
      let (m, r) := popMin tie x ys
      (m, y :: r)

/-- The loop of `with_huffman_tree` (382-392); the fuel is the number of elements. -/
def huffmanLoop (H : Bytes → Hash) (tie : NodeInfo → NodeInfo → Bool) : Nat → List (Nat × NodeInfo) → Except BErr NodeInfo
  | _, [] => .error .panic
  | _, [x] => .ok x.2
  | 0, _ :: _ :: _ => .error .panic
  | fuel + 1, x :: y :: r =>
    let (m1, r1) := popMin tie x (y :: r)
    match r1 with
    | [] => .error .panic
    | z :: r2 =>
      let (m2, r3) := popMin tie z r2
      match combine H m1.2 m2.2 with
      | .error e => .error e
      | .ok n => huffmanLoop H tie fuel ((min (m1.1 + m2.1) 0xFFFFFFFF, n) :: r3)

/-- `TaprootBuilder::with_huffman_tree` (370-398): the builder it returns is `vec![Some(node)]`. -/
def withHuffmanTree (H : Bytes → Hash) (tie : NodeInfo → NodeInfo → Bool) (ws : List (Nat × Bytes)) : Except BErr Builder :=
  match ws with
  | [] => .error .emptyTree
  | _ :: _ =>
    match huffmanLoop H tie ws.length (ws.map fun w => (w.1, newLeaf H w.2 .tapScript)) with
    | .error e => .error e
    | .ok n => .ok [some n]

/-! ## Keys, spend info, control blocks -/

/-- The operations of libsecp256k1 the code calls.  `true` is odd parity. -/
structure Secp where
  /-- `secp256k1::XOnlyPublicKey` -/
  Key : Type
  ser : Key → Hash
  parse : Hash → Option Key
  /-- `Scalar::from_be_bytes` succeeds -/
  isScalar : Hash → Bool
  addTweak : Key → Hash → Option (Key × Bool)
  check : Key → Key → Bool → Hash → Bool
  parse_ser : ∀ k, parse (ser k) = some k
  ser_parse : ∀ b k, parse b = some k → ser k = b
  check_iff : ∀ k q p t, isScalar t = true → (check k q p t = true ↔ addTweak k t = some (q, p))

/-- `XOnlyPublicKey` (crypto/src/key.rs 65-68): the secp key with a parity flag. -/
structure XOnly (S : Secp) where
  inner : S.Key
  parity : Bool

/-- `TapTweakHash::from_key_and_merkle_root` (taproot_primitives/src/lib.rs 181-196). -/
def tweakHash (H : Bytes → Hash) {S : Secp} (k : XOnly S) (root : Option Hash) : Hash :=
  tagged H tweakTag ((S.ser k.inner).1 ++ (match root with | some h => h.1 | none => []))

/-- `TapTweakHash::to_scalar` (174-177); `none` is the panic. -/
def toScalar (S : Secp) (h : Hash) : Option Hash := if S.isScalar h then some h else none

/-- `tap_tweak` (403-409) with `XOnlyPublicKey::add_tweak` (key.rs 442-450); `none` is a panic. -/
def tapTweak (H : Bytes → Hash) {S : Secp} (k : XOnly S) (root : Option Hash) : Option (XOnly S) :=
  match toScalar S (tweakHash H k root) with
  | none => none
  | some t =>
    match S.addTweak k.inner t with
    | none => none
    | some (q, p) => some ⟨q, p⟩

abbrev ScriptMap := List ((Bytes × LeafVersion) × List (List Hash))

/-- `TaprootSpendInfo`. -/
structure SpendInfo (S : Secp) where
  internalKey : XOnly S
  merkleRoot : Option Hash
  parity : Bool
  outputKey : XOnly S
  scriptMap : ScriptMap

/-- `TaprootSpendInfo::new_key_spend` (199-212). -/
def newKeySpend (H : Bytes → Hash) {S : Secp} (k : XOnly S) (root : Option Hash) : Option (SpendInfo S) :=
  match tapTweak H k root with
  | none => none
  | some q => some ⟨k, root, q.parity, q, []⟩

/-- `Ord` on merkle branches: lexicographic on the hashes. -/
def branchLt : List Hash → List Hash → Bool
  | [], [] => false
  | [], _ :: _ => true
  | _ :: _, [] => false
  | a :: as, b :: bs => if lexLt a.1 b.1 then true else if lexLt b.1 a.1 then false else branchLt as bs

/-- `BTreeSet::insert`. -/
def setInsert (b : List Hash) : List (List Hash) → List (List Hash)
  | [] => [b]
  | c :: cs => if branchLt b c then b :: c :: cs else if branchLt c b then c :: setInsert b cs else c :: cs

/-- The map update of `from_node_info` (252-261).  The order of the keys is not observable through `control_block`. -/
def mapInsert (k : Bytes × LeafVersion) (b : List Hash) : ScriptMap → ScriptMap
  | [] => [(k, setInsert b [])]
  | (k', s) :: m => if k' = k then (k', setInsert b s) :: m else (k', s) :: mapInsert k b m

/-- The loop of `from_node_info` (244-264). -/
def addLeaves : ScriptMap → List LeafNode → ScriptMap
  | m, [] => m
  | m, l :: ls =>
    match l.leaf with
    | .hidden _ => addLeaves m ls
    | .script s v => addLeaves (mapInsert (s, v) l.branch m) ls

/-- `TaprootSpendInfo::from_node_info` (239-266). -/
def fromNodeInfo (H : Bytes → Hash) {S : Secp} (k : XOnly S) (n : NodeInfo) : Option (SpendInfo S) :=
  match newKeySpend H k (some n.hash) with
  | none => none
  | some info => some { info with scriptMap := addLeaves info.scriptMap n.leaves }

/-- `TaprootBuilder::finalize` (502-517): outer `none` is a panic, `error` hands the builder back. -/
def finalize (H : Bytes → Hash) {S : Secp} (st : Builder) (k : XOnly S) : Option (Except Builder (SpendInfo S)) :=
  match st with
  | [] => (newKeySpend H k none).map .ok
  | [some n] => (fromNodeInfo H k n).map .ok
  | [none] => none
  | _ => some (.error st)

/-- `ControlBlock` (989-1001). -/
structure ControlBlock (S : Secp) where
  leafVersion : LeafVersion
  parity : Bool
  internalKey : XOnly S
  branch : List Hash

/-- `min_by` on lengths (277-279): the first of the shortest. -/
def shortest : List Hash → List (List Hash) → List Hash
  | b, [] => b
  | b, c :: cs => if c.length < b.length then shortest c cs else shortest b cs

/-- `TaprootSpendInfo::control_block` (274-287); an empty set would be the `expect` panic (`some none`). -/
def controlBlock {S : Secp} (info : SpendInfo S) (k : Bytes × LeafVersion) : Option (Option (ControlBlock S)) :=
  match info.scriptMap.lookup k with
  | none => none
  | some [] => some none
  | some (b :: bs) => some (some ⟨k.2, info.parity, info.internalKey, shortest b bs⟩)

/-- `ControlBlock::verify_taproot_commitment` (1111-1128); `none` is the `to_scalar` panic. -/
def ControlBlock.verify (H : Bytes → Hash) {S : Secp} (cb : ControlBlock S) (outputKey : XOnly S) (script : Bytes) : Option Bool :=
  let curr := cb.branch.foldl (fromNodeHashes H) (leafHash H script cb.leafVersion)
  match toScalar S (tweakHash H cb.internalKey (some curr)) with
  | none => none
  | some t => some (S.check cb.internalKey.inner outputKey.inner cb.parity t)

/-- `ControlBlock::size` (1062-1064). -/
def ControlBlock.size {S : Secp} (cb : ControlBlock S) : Nat := 33 + 32 * cb.branch.length

/-- `ControlBlock::serialize` (1101-1105) through `encode_inner` (1086-1093). -/
def ControlBlock.serialize {S : Secp} (cb : ControlBlock S) : Bytes :=
  [(if cb.parity then 1 else 0) ||| cb.leafVersion.toConsensus] ++ (S.ser cb.internalKey.inner).1 ++ (cb.branch.map (·.1)).flatten

/-- `TaprootError` as far as decoding produces it. -/
inductive CErr where
  | size (n : Nat)
  | leafVersion (v : UInt8)
  | branchSize (n : Nat)
  | branchDepth (n : Nat)
  | key
deriving DecidableEq

/-- `<[u8]>::as_chunks::<32>` (merkle_branch/borrowed.rs 85-92): whole chunks and the remainder. -/
def chunks32 : Nat → Bytes → List Hash × Bytes
  | 0, bs => ([], bs)
  | n + 1, bs =>
    if h : 32 ≤ bs.length then
      let (cs, r) := chunks32 n (bs.drop 32)
      (⟨bs.take 32, by simp; omega⟩ :: cs, r)
    else ([], bs)

/-- `TaprootMerkleBranch::decode` (merkle_branch/borrowed.rs 85-92) with `from_hashes` (107-113). -/
def decodeBranch (bs : Bytes) : Except CErr (List Hash) :=
  let (cs, r) := chunks32 bs.length bs
  if r ≠ [] then .error (.branchSize bs.length)
  else if cs.length > maxNodes then .error (.branchDepth cs.length)
  else .ok cs

/-- `ControlBlock::decode` (1016-1026) through `decode_borrowed` (1036-1056). -/
def ControlBlock.decode {S : Secp} (bs : Bytes) : Except CErr (ControlBlock S) :=
  match bs with
  | [] => .error (.size 0)
  | first :: rest =>
    if h : rest.length < 32 then .error (.size bs.length)
    else
      match LeafVersion.fromConsensus (first &&& 0xfe) with
      | .error v => .error (.leafVersion v)
      | .ok ver =>
        match decodeBranch (rest.drop 32) with
        | .error e => .error e
        | .ok br =>
          match S.parse ⟨rest.take 32, by simp; omega⟩ with
          | none => .error .key
          | some k => .ok ⟨ver, first &&& 1 ≠ 0, ⟨k, false⟩, br⟩

end Btc.Taproot
