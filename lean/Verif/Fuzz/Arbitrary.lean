import Verif.P2p.Message
import Verif.P2p.UserAgent
import Verif.Bip32.Xkey
import Verif.Bitcoin.PredictWeight
import Verif.Units.LockTime
/-!
# The `Arbitrary` generators

Models of `impl Arbitrary` (feature `arbitrary`, the source of values of fuzz and property tests).  A generator is a function of the values it
draws from `Unstructured`; those may be anything of their type (`int_in_range` gives anything in the range), and drawing may fail at any
point, in which case there is no value.  `none` is a panic.
-/
namespace Btc
namespace Arb

/-! ### Transactions (primitives/src/transaction.rs 1523-1600) -/

/-- What `TxIn::arbitrary` draws (1563-1572); the witness as the drawn `Vec<Vec<u8>>` (witness.rs 807-812). -/
structure RawIn where
  prev : OutPoint
  scriptSig : Bytes
  sequence : UInt32
  witness : List Bytes

/-- `TxIn::arbitrary` (1563-1572). -/
def txIn (r : RawIn) : Option TxIn := (Wit.fromSlice r.witness).map fun w => ⟨r.prev, r.scriptSig, r.sequence, w⟩

/-- `Vec::<TxIn>::arbitrary`. -/
def txIns : List RawIn → Option (List TxIn)
  | [] => some []
  | r :: t => match txIn r, txIns t with
    | some i, some l => some (i :: l)
    | _, _ => none

/-- `inputs.retain(|input| seen.insert(input.previous_output))` (1532-1533). -/
def retainNew (seen : List OutPoint) : List TxIn → List TxIn
  | [] => []
  | i :: t => if i.prev ∈ seen then retainNew seen t else i :: retainNew (i.prev :: seen) t

/-- 1535-1537. -/
def dropNull (l : List TxIn) : List TxIn := if l.length > 1 then l.filter (fun i => i.prev ≠ OutPoint.null) else l

/-- 1539-1544. -/
def fixCoinbase : List TxIn → List TxIn
  | [i] => if i.prev = OutPoint.null ∧ (i.scriptSig.length < 2 ∨ i.scriptSig.length > 100) then [{ i with scriptSig := [0, 0] }] else [i]
  | l => l

/-- 1546-1548: `extra` is the output drawn if there is none. -/
def needOutput (outs : List TxOut) (extra : TxOut) : List TxOut := if outs.isEmpty then [extra] else outs

/-- The loop of 1550-1555, with its `expect` and its subtraction. -/
def capOutputs (remaining : Nat) : List TxOut → Option (List TxOut)
  | [] => some []
  | o :: t =>
    let capped := min o.amount.1 remaining
    if h : capped ≤ MAX_MONEY then
      if remaining < capped then none
      else (capOutputs (remaining - capped) t).map (⟨⟨capped, h⟩, o.spk⟩ :: ·)
    else none

/-- `Transaction::arbitrary` (1525-1559). -/
def tx (version lockTime : UInt32) (ins : List RawIn) (outs : List TxOut) (extra : TxOut) : Option Tx :=
  match txIns ins, capOutputs MAX_MONEY (needOutput outs extra) with
  | some ins, some outs => some ⟨version, lockTime, fixCoinbase (dropNull (retainNew [] ins)), outs⟩
  | _, _ => none

/-- Everything `Transaction::arbitrary` draws. -/
structure Draws where
  version : UInt32
  lockTime : UInt32
  ins : List RawIn
  outs : List TxOut
  extra : TxOut

def Draws.tx (d : Draws) : Option Tx := Arb.tx d.version d.lockTime d.ins d.outs d.extra

/-- `Vec::<Transaction>::arbitrary`. -/
def txs : List Draws → Option (List Tx)
  | [] => some []
  | d :: t => match d.tx, txs t with
    | some x, some l => some (x :: l)
    | _, _ => none

/-- `Block::arbitrary` (primitives/src/block.rs 931-937). -/
def block (h : Header) (l : List Draws) : Option Block := (txs l).map fun l => ⟨h, l⟩

/-! ### Messages -/

/-- `AddrV2::arbitrary` (p2p/src/address.rs 1025-1056): `choice` is drawn from `0..=5`, `network` from `7..=255`. -/
def addrV2 (choice : Nat) (a4 : Arr 4) (s : P2p.Segs) (a32 : Arr 32) (network : UInt8) (b : Bytes) : P2p.AddrV2 :=
  match choice with
  | 0 => .ipv4 a4
  | 1 => if s.1.take 3 = P2p.ONION ∨ s.1.take 6 = P2p.IPV4_EMBEDDED_IPV6
      then .ipv6 ⟨s.1.set 0 (s.1.headD 0 ^^^ 1), by rw [List.length_set]; exact s.2⟩ else .ipv6 s
  | 2 => .torV3 a32
  | 3 => .i2p a32
  | 4 => .cjdns ⟨s.1.set 0 (0xFC00 ||| (s.1.headD 0 &&& 0x00FF)), by rw [List.length_set]; exact s.2⟩
  | _ => .unknown network (b.take 512)

/-- The loop of `CommandString::arbitrary` (p2p/src/message.rs 2250-2262) on the drawn bytes: it stops at the end of the buffer or at the first
draw that is a multiple of 128. -/
def cmdLoop : Nat → List UInt8 → Bytes
  | 0, _ => []
  | _ + 1, [] => []
  | n + 1, x :: t => if x % 128 = 0 then [] else (x % 128) :: cmdLoop n t

/-- `CommandString::arbitrary`: the rest of the buffer stays zero. -/
def cmd (draws : List UInt8) : Bytes := let b := cmdLoop 12 draws; b ++ List.replicate (12 - b.length) 0

/-- `FeeFilter::arbitrary` (p2p/src/message.rs 491-500); the rate in sat per million vB as in `feeFilterDec`; `FeeRate::MIN` 0,
`BROADCAST_MIN` 1 sat/vB, `DUST` 3 sat/vB (units/src/fee_rate/mod.rs 57-68). -/
def feeFilter (choice : Nat) (kvb : UInt32) : UInt64 :=
  match choice with
  | 0 => 0
  | 1 => 1000000
  | 2 => 3000000
  | _ => UInt64.ofNat (kvb.toNat * 1000)

/-- `Inventory::arbitrary` (p2p/src/message_blockdata.rs 457-470). -/
def inventory (choice : Nat) (ty : UInt32) (h : Arr 32) : P2p.Inventory :=
  match choice with
  | 0 => .error h
  | 1 => .transaction h
  | 2 => .block h
  | 3 => .compactBlock h
  | 4 => .wtx h
  | 5 => .witnessTransaction h
  | 6 => .witnessBlock h
  | _ => .unknown ty h

/-- `PartialMerkleTree::arbitrary` (p2p/src/merkle_tree.rs 649-661): zero bits up to a multiple of eight. -/
def pmt (bits : List Bool) (num : UInt32) (hashes : List (Arr 32)) : Pmt.Tree (Arr 32) :=
  ⟨num.toNat, bits ++ List.replicate ((8 - bits.length % 8) % 8) false, hashes⟩

/-- `BlockTransactionsRequest::arbitrary` (p2p/src/bip152.rs 822-831): offsets are any `usize` (64 bits). -/
def request (h : Arr 32) (offsets : List UInt64) : Bip152.Request := ⟨h, offsets.map (·.toNat)⟩

/-- The last arm of `NetworkMessage::arbitrary` (p2p/src/message.rs 2316). -/
def unknownMsg (c : P2p.Cmd) (b : Bytes) : P2p.Msg := .unknown c b

/-- Bytes of a character in UTF-8. -/
def utf8Len (c : Char) : Nat := c.utf8Size

/-- `String::truncate` (Rust alloc): nothing if the text is no longer; panics (`none`) if the new length splits a character. -/
def truncate : Nat → P2p.Str → Option P2p.Str
  | _, [] => some []
  | n, c :: t => if n = 0 then some [] else if n < utf8Len c then none else (truncate (n - utf8Len c) t).map (c :: ·)

/-- `UserAgent::arbitrary` (p2p/src/message_network.rs 764-780); the version without comments (757-761). -/
def userAgent (v : P2p.SwVersion) (name : P2p.Str) : Option P2p.UserAgent :=
  let name := name.filter fun c => !(c = '/' || c = '(' || c = ')' || c = ':')
  let overhead := 3 + (P2p.UaVersion.new v).text.length
  if P2p.MAX_USER_AGENT_LEN < overhead then none
  else match truncate (P2p.MAX_USER_AGENT_LEN - overhead) name with
    | none => none
    | some n => (P2p.UserAgent.new n (P2p.UaVersion.new v)).toOption

/-! ### Keys, predictions, lock times -/

/-- `Xpub::arbitrary` (key_expression/src/bip32.rs 1675-1686). -/
def xpub {S : Crypto.Secp} (network : Crypto.NetworkKind) (depth : UInt8) (fp : Arr 4) (c : UInt32) (k : S.Point) (cc : Arr 32) : Bip32.Xpub S :=
  ⟨network, depth, fp, .fromRaw c, k, cc⟩

/-- `Xpriv::arbitrary` (key_expression/src/bip32.rs 1689-1706). -/
def xpriv (network : Crypto.NetworkKind) (depth : UInt8) (fp : Arr 4) (c : UInt32) (k : Crypto.SecretKey) (cc : Arr 32) : Bip32.Xpriv :=
  if depth = 0 then ⟨network, depth, ⟨[0, 0, 0, 0], rfl⟩, .fromRaw 0, k, cc⟩ else ⟨network, depth, fp, .fromRaw c, k, cc⟩

/-- The last two arms of `InputWeightPrediction::arbitrary` (bitcoin/src/blockdata/transaction.rs 1119-1140): any `usize`s. -/
def prediction (choice : Nat) (scriptLen : UInt64) (elems : List UInt64) : Option InputPrediction :=
  if choice = 6 then InputPrediction.new scriptLen.toNat (elems.map (·.toNat))
  else some (InputPrediction.fromSlice scriptLen.toNat (elems.map (·.toNat)))

end Arb
end Btc
