import Verif.P2p.Pmt
import Verif.P2p.Bip152
import Verif.Units.Amount
/-!
# Payloads of the network messages

Model of `p2p/src/{lib,address,message_blockdata,message_bloom,message_compact_blocks,message_erlay,
message_filter,message_network,bip434}.rs` and of the payload types in `p2p/src/message.rs`.  The numbers of
the leaf errors are arbitrary.  A Rust `String` is the byte string of its UTF-8 form.
-/
namespace Btc
namespace P2p

/-- `String::from_utf8(b).is_ok()` (Rust std), given by Lean's own definition of UTF-8. -/
def validUtf8 (b : Bytes) : Bool := ByteArray.validateUTF8 ⟨b.toArray⟩
/-- A Rust `String`. -/
abbrev Utf8 := { b : Bytes // validUtf8 b = true }

/-- One byte read through `ArrayDecoder<1>`. -/
def u8Dec : Dec UInt8 := (arrayDec 1).mapE (fun b => .ok (UInt8.ofNat (leNat b))) id
/-- `u64` read through `ArrayDecoder<8>` and `u64::from_le_bytes`. -/
def u64Dec : Dec UInt64 := (arrayDec 8).mapE (fun b => .ok (UInt64.ofNat (leNat b))) id
/-- `u16::to_be_bytes`, and reading it through `ArrayDecoder<2>` and `u16::from_be_bytes`. -/
def u16be (x : UInt16) : Bytes := beBytes 2 x.toNat
def u16beDec : Dec UInt16 := (arrayDec 2).mapE (fun b => .ok (UInt16.ofNat (beNat b))) id
/-- `[u8; n]` read through `ArrayDecoder<n>`. -/
def arrDec (n : Nat) : Dec (Arr n) :=
  (arrayDec n).mapE (fun b => if h : b.length = n then .ok ⟨b, h⟩ else .error .panic) id

/-! ### Addresses (address.rs) -/

/-- `[u16; 8]`; also the value of an `Ipv6Addr` (`Ipv6Addr::new`, `segments`). -/
abbrev Segs := { l : List UInt16 // l.length = 8 }
/-- The loop of `Address::encoder` (address.rs 138-143); also `Ipv6Addr::octets`. -/
def segBytes (l : List UInt16) : Bytes := l.flatMap u16be
/-- `address_from_u8` (80-91), `AddrV2Decoder::be_bytes_to_segments` (519-530). -/
def segsOf : Bytes → List UInt16
  | a :: b :: t => UInt16.ofNat (beNat [a, b]) :: segsOf t
  | _ => []
/-- The same as an array; the `else` branch is unreachable (the argument has 16 bytes). -/
def segsArr (b : Bytes) : Except DErr Segs :=
  if h : (segsOf b).length = 8 then .ok ⟨segsOf b, h⟩ else .error .panic

/-- `Address` (32-39); `ServiceFlags` is a `u64` (lib.rs 159). -/
structure NetAddr where
  services : UInt64
  address : Segs
  port : UInt16

/-- `Encode for Address` (131-153), decoder (155-173). -/
def netAddrEnc : Enc := encN [bytesEnc, bytesEnc, bytesEnc]
def NetAddr.encoder (a : NetAddr) : netAddrEnc.S := (0, u64le a.services, segBytes a.address.1, u16be a.port, ())
def netAddrDec : Dec NetAddr :=
  (dec3 u64Dec (arrayDec 16) u16beDec).mapE (fun x =>
    match segsArr x.2.1 with
    | .ok s => .ok ⟨x.1, s, x.2.2⟩
    | .error e => .error e) id

/-- `AddrV1Message` (181-186), encoder (194-203), decoder (205-219). -/
structure AddrV1 where
  time : UInt32
  address : NetAddr
def addrV1Enc : Enc := encN [bytesEnc, netAddrEnc]
def AddrV1.encoder (a : AddrV1) : addrV1Enc.S := (0, u32le a.time, a.address.encoder, ())
def addrV1Dec : Dec AddrV1 := (dec2 u32Dec netAddrDec).mapE (fun x => .ok ⟨x.1, x.2⟩) id

/-- `AddrV2` (227-240). -/
inductive AddrV2 where
  | ipv4 (a : Arr 4)
  | ipv6 (a : Segs)
  | torV3 (a : Arr 32)
  | i2p (a : Arr 32)
  | cjdns (a : Segs)
  | unknown (network : UInt8) (b : Bytes)

/-- `AddrV2Encoder` (306-313). -/
structure AddrV2St where
  network : Option Bytes := none
  size : Option Bytes := none
  bytes4 : Option Bytes := none
  bytes16 : Option Bytes := none
  bytes32 : Option Bytes := none
  nbytes : Option Bytes := none

/-- `AddrV2Encoder::new` (325-374). -/
def AddrV2.encoder : AddrV2 → AddrV2St
  | .ipv4 a => { network := some [1], size := some (csEncode 4), bytes4 := some a.1 }
  | .ipv6 a => { network := some [2], size := some (csEncode 16), bytes16 := some (segBytes a.1) }
  | .torV3 a => { network := some [4], size := some (csEncode 32), bytes32 := some a.1 }
  | .i2p a => { network := some [5], size := some (csEncode 32), bytes32 := some a.1 }
  | .cjdns a => { network := some [6], size := some (csEncode 16), bytes16 := some (segBytes a.1) }
  | .unknown n b => { network := some [n], size := some (csEncode b.length), nbytes := some b }

/-- `Encoder for AddrV2Encoder` (377-427).  All fields are one-chunk encoders, so `advance` on a present field
always finishes it. -/
def addrV2Enc : Enc where
  S := AddrV2St
  cur s := ((s.network <|> s.size <|> s.bytes4 <|> s.bytes16 <|> s.bytes32 <|> s.nbytes).getD [])
  adv s :=
    if s.network.isSome then ({ s with network := none }, true)
    else if s.size.isSome then ({ s with size := none }, true)
    else if s.bytes4.isSome then ({ s with bytes4 := none }, false)
    else if s.bytes16.isSome then ({ s with bytes16 := none }, false)
    else if s.bytes32.isSome then ({ s with bytes32 := none }, false)
    else if s.nbytes.isSome then ({ s with nbytes := none }, false)
    else (s, true)

/-- `ONION`, `IPV4_EMBEDDED_IPV6` (41-42). -/
def ONION : List UInt16 := [0xFD87, 0xD87E, 0xEB43]
def IPV4_EMBEDDED_IPV6 : List UInt16 := [0, 0, 0, 0, 0, 0xFFFF]

/-- `to_fixed_size_slice` (547-554). -/
def fixedSize (n : Nat) (b : Bytes) : Except DErr (Arr n) :=
  if h : b.length = n then .ok ⟨b, h⟩ else .error (.custom 40 b.length)

/-- `AddrV2Decoder::end` (471-514). -/
def addrV2End (net : UInt8) (b : Bytes) : Except DErr AddrV2 :=
  if b.length > 512 then .error (.custom 40 b.length)
  else if net = 1 then (fixedSize 4 b).map .ipv4
  else if net = 2 then
    match fixedSize 16 b with
    | .error e => .error e
    | .ok a => match segsArr a.1 with
      | .error e => .error e
      | .ok s =>
        if s.1.take 3 = ONION then .error (.custom 41 0)
        else if s.1.take 6 = IPV4_EMBEDDED_IPV6 then .error (.custom 42 0)
        else .ok (.ipv6 s)
  else if net = 4 then (fixedSize 32 b).map .torV3
  else if net = 5 then (fixedSize 32 b).map .i2p
  else if net = 6 then
    match fixedSize 16 b with
    | .error e => .error e
    | .ok a =>
      if a.1.head? ≠ some 0xFC then .error (.custom 43 0)
      else match segsArr a.1 with
        | .error e => .error e
        | .ok s => .ok (.cjdns s)
  else .ok (.unknown net b)

/-- `AddrV2Decoder` (460-515). -/
def addrV2Dec : Dec AddrV2 := (dec2 u8Dec (byteVecDec MAX_VEC_SIZE)).mapE (fun x => addrV2End x.1 x.2) id

/-- `AddrV2Message` (563-572), encoder (608-619), decoder (621-641). -/
structure AddrV2Msg where
  time : UInt32
  services : UInt64
  addr : AddrV2
  port : UInt16
def addrV2MsgEnc : Enc := encN [bytesEnc, bytesEnc, addrV2Enc, bytesEnc]
def AddrV2Msg.encoder (a : AddrV2Msg) : addrV2MsgEnc.S :=
  (0, u32le a.time, csEncode a.services.toNat, a.addr.encoder, u16be a.port, ())
def addrV2MsgDec : Dec AddrV2Msg :=
  (dec4 u32Dec csU64Dec addrV2Dec u16beDec).mapE (fun x => .ok ⟨x.1, UInt64.ofNat x.2.1, x.2.2.1, x.2.2.2⟩) id

/-! ### Inventory and locators (message_blockdata.rs) -/

/-- `Inventory` (31-54). -/
inductive Inventory where
  | error (h : Arr 32)
  | transaction (h : Arr 32)
  | block (h : Arr 32)
  | compactBlock (h : Arr 32)
  | wtx (h : Arr 32)
  | witnessTransaction (h : Arr 32)
  | witnessBlock (h : Arr 32)
  | unknown (ty : UInt32) (h : Arr 32)

/-- The `match` of `Inventory::encoder` (84-93). -/
def Inventory.parts : Inventory → UInt32 × Arr 32
  | .error h => (0, h)
  | .transaction h => (1, h)
  | .block h => (2, h)
  | .compactBlock h => (4, h)
  | .wtx h => (5, h)
  | .witnessTransaction h => (0x40000001, h)
  | .witnessBlock h => (0x40000002, h)
  | .unknown t h => (t, h)

/-- The `match` of `InventoryDecoder::end` (113-122). -/
def Inventory.ofParts (t : UInt32) (h : Arr 32) : Inventory :=
  if t = 0 then .error h
  else if t = 1 then .transaction h
  else if t = 2 then .block h
  else if t = 4 then .compactBlock h
  else if t = 5 then .wtx h
  else if t = 0x40000001 then .witnessTransaction h
  else if t = 0x40000002 then .witnessBlock h
  else .unknown t h

/-- `Encode for Inventory` (80-99), decoder (101-124). -/
def invEnc : Enc := encN [bytesEnc, bytesEnc]
def Inventory.encoder (i : Inventory) : invEnc.S := (0, u32le i.parts.1, i.parts.2.1, ())
def invDec : Dec Inventory := (dec2 u32Dec hash32Dec).mapE (fun x => .ok (.ofParts x.1 x.2)) id

/-- `GetBlocksMessage`, `GetHeadersMessage` (223-241); `ProtocolVersion` is a `u32` (lib.rs 92), `BlockLocator`
a list of hashes (138). -/
structure Locator where
  version : UInt32
  hashes : List (Arr 32)
  stop : Arr 32
/-- Encoders (258-286; 182-196 for the locator), decoders (288-317; 198-213). -/
def locatorEnc : Enc := encN [bytesEnc, prefixedSliceEnc bytesEnc, bytesEnc]
def Locator.encoder (l : Locator) : locatorEnc.S :=
  (0, u32le l.version, prefixedSlice bytesEnc (l.hashes.map (·.1)), l.stop.1, ())
def locatorDec : Dec Locator :=
  (dec3 u32Dec (vecDec hash32Dec MAX_VEC_SIZE) hash32Dec).mapE (fun x => .ok ⟨x.1, x.2.1, x.2.2⟩) id

/-! ### Bloom filters (message_bloom.rs) -/

/-- `BloomFlags` (92-99). -/
inductive BloomFlags where
  | none
  | all
  | pubkeyOnly

/-- `Encode for BloomFlags` (107-117). -/
def BloomFlags.byte : BloomFlags → UInt8
  | .none => 0
  | .all => 1
  | .pubkeyOnly => 2

/-- `BloomFlagsDecoder` (119-142). -/
def bloomDec : Dec BloomFlags :=
  u8Dec.mapE (fun b => if b = 0 then .ok .none else if b = 1 then .ok .all else if b = 2 then .ok .pubkeyOnly
    else .error (.custom 44 b.toNat)) id

/-- `FilterLoad` (21-30), encoder (47-60), decoder (62-84). -/
structure FilterLoad where
  filter : Bytes
  hashFuncs : UInt32
  tweak : UInt32
  flags : BloomFlags
def filterLoadEnc : Enc := encN [prefixedBytesEnc, encN [bytesEnc, bytesEnc, bytesEnc]]
def FilterLoad.encoder (f : FilterLoad) : filterLoadEnc.S :=
  (0, prefixedBytes f.filter,
    ((0, u32le f.hashFuncs, u32le f.tweak, [f.flags.byte], ()) : (encN [bytesEnc, bytesEnc, bytesEnc]).S), ())
def filterLoadDec : Dec FilterLoad :=
  (dec4 (byteVecDec MAX_VEC_SIZE) u32Dec u32Dec bloomDec).mapE (fun x => .ok ⟨x.1, x.2.1, x.2.2.1, x.2.2.2⟩) id

/-! ### Compact filters (message_filter.rs) -/

/-- `GetCFilters` (130-137), `GetCFHeaders` (235-242); `BlockHeight` is a `u32`. -/
structure GetCF where
  filterType : UInt8
  start : UInt32
  stop : Arr 32
/-- Encoders (145-155, 250-260), decoders (157-170, 262-275). -/
def getCFEnc : Enc := encN [bytesEnc, bytesEnc, bytesEnc]
def GetCF.encoder (g : GetCF) : getCFEnc.S := (0, [g.filterType], u32le g.start, g.stop.1, ())
def getCFDec : Dec GetCF := (dec3 u8Dec u32Dec hash32Dec).mapE (fun x => .ok ⟨x.1, x.2.1, x.2.2⟩) id

/-- `CFilter` (178-185), encoder (199-212), decoder (214-227). -/
structure CFilter where
  filterType : UInt8
  blockHash : Arr 32
  filter : Bytes
def cFilterEnc : Enc := encN [bytesEnc, bytesEnc, prefixedBytesEnc]
def CFilter.encoder (c : CFilter) : cFilterEnc.S := (0, [c.filterType], c.blockHash.1, prefixedBytes c.filter, ())
def cFilterDec : Dec CFilter :=
  (dec3 u8Dec hash32Dec (byteVecDec MAX_VEC_SIZE)).mapE (fun x => .ok ⟨x.1, x.2.1, x.2.2⟩) id

/-- `CFHeaders` (283-292), encoder (307-318), decoder (320-343). -/
structure CFHeaders where
  filterType : UInt8
  stop : Arr 32
  previous : Arr 32
  hashes : List (Arr 32)
def cfHeadersEnc : Enc := encN [bytesEnc, bytesEnc, bytesEnc, prefixedSliceEnc bytesEnc]
def CFHeaders.encoder (c : CFHeaders) : cfHeadersEnc.S :=
  (0, [c.filterType], c.stop.1, c.previous.1, prefixedSlice bytesEnc (c.hashes.map (·.1)), ())
def cfHeadersDec : Dec CFHeaders :=
  (dec4 u8Dec hash32Dec hash32Dec (vecDec hash32Dec MAX_VEC_SIZE)).mapE (fun x => .ok ⟨x.1, x.2.1, x.2.2.1, x.2.2.2⟩) id

/-- `GetCFCheckpt` (351-356), encoder (364-373), decoder (375-388). -/
structure GetCFCheckpt where
  filterType : UInt8
  stop : Arr 32
def getCFCheckptEnc : Enc := encN [bytesEnc, bytesEnc]
def GetCFCheckpt.encoder (c : GetCFCheckpt) : getCFCheckptEnc.S := (0, [c.filterType], c.stop.1, ())
def getCFCheckptDec : Dec GetCFCheckpt := (dec2 u8Dec hash32Dec).mapE (fun x => .ok ⟨x.1, x.2⟩) id

/-- `CFCheckpt` (396-403), encoder (417-430), decoder (432-450). -/
structure CFCheckpt where
  filterType : UInt8
  stop : Arr 32
  headers : List (Arr 32)
def cfCheckptEnc : Enc := encN [bytesEnc, bytesEnc, prefixedSliceEnc bytesEnc]
def CFCheckpt.encoder (c : CFCheckpt) : cfCheckptEnc.S :=
  (0, [c.filterType], c.stop.1, prefixedSlice bytesEnc (c.headers.map (·.1)), ())
def cfCheckptDec : Dec CFCheckpt :=
  (dec3 u8Dec hash32Dec (vecDec hash32Dec MAX_VEC_SIZE)).mapE (fun x => .ok ⟨x.1, x.2.1, x.2.2⟩) id

/-! ### Small messages -/

/-- `SendCmpct` (message_compact_blocks.rs 16-21), encoder (29-38), decoder (40-63). -/
structure SendCmpct where
  sendCompact : Bool
  version : UInt64
def sendCmpctEnc : Enc := encN [bytesEnc, bytesEnc]
def SendCmpct.encoder (s : SendCmpct) : sendCmpctEnc.S := (0, [if s.sendCompact then 1 else 0], u64le s.version, ())
def sendCmpctDec : Dec SendCmpct :=
  (dec2 u8Dec u64Dec).mapE (fun x => if x.1 = 1 ∨ x.1 = 0 then .ok ⟨x.1 != 0, x.2⟩ else .error (.custom 45 0)) id

/-- `SendTxRcnCl` (message_erlay.rs 14-19), encoder (38-50), decoder (52-63). -/
structure SendTxRcnCl where
  version : UInt32
  salt : UInt64
def sendTxRcnClEnc : Enc := encN [bytesEnc, bytesEnc]
def SendTxRcnCl.encoder (s : SendTxRcnCl) : sendTxRcnClEnc.S := (0, u32le s.version, u64le s.salt, ())
def sendTxRcnClDec : Dec SendTxRcnCl := (dec2 u32Dec u64Dec).mapE (fun x => .ok ⟨x.1, x.2⟩) id

/-- `FeeFilter(FeeRate)` (message.rs 416): encoder (440-448) and decoder (450-484).  A `FeeRate` is a `u64`
(satoshi per million virtual bytes); `FeeRate::from_sat_per_kvb(1).checked_mul(kvb)` is `1000 * kvb`, `none`
(here `panic`) when it does not fit. -/
def feeFilterBytes (rate : UInt64) : Bytes := leBytes 8 (Amt.kvbCeil rate.toNat)
def MAX_MONEY_SAT : Nat := 2100000000000000
def feeFilterDec : Dec UInt64 :=
  (arrayDec 8).mapE (fun b =>
    let kvb := leNat b
    if kvb > MAX_MONEY_SAT then .error (.custom 46 kvb)
    else if 1000 * kvb < 2 ^ 64 then .ok (UInt64.ofNat (1000 * kvb))
    else .error .panic) id

/-- `NetworkHeader` (message.rs 1537-1542), encoder (1555-1564), decoder (1566-1579). -/
structure NetHeader where
  header : Header
  length : UInt8
def netHeaderEnc : Enc := encN [headerEnc, bytesEnc]
def NetHeader.encoder (h : NetHeader) : netHeaderEnc.S := (0, h.header.encoder, [h.length], ())
def netHeaderDec : Dec NetHeader := (dec2 headerDec u8Dec).mapE (fun x => .ok ⟨x.1, x.2⟩) id

/-- `RejectReason` (message_network.rs 384-401). -/
inductive RejectReason where
  | malformed | invalid | obsolete | duplicate | nonStandard | dust | fee | checkpoint

/-- `Encode for RejectReason` (409-415). -/
def RejectReason.byte : RejectReason → UInt8
  | .malformed => 0x01
  | .invalid => 0x10
  | .obsolete => 0x11
  | .duplicate => 0x12
  | .nonStandard => 0x40
  | .dust => 0x41
  | .fee => 0x42
  | .checkpoint => 0x43

/-- `RejectReasonDecoder` (417-443). -/
def rejectReasonDec : Dec RejectReason :=
  u8Dec.mapE (fun b =>
    if b = 0x01 then .ok .malformed
    else if b = 0x10 then .ok .invalid
    else if b = 0x11 then .ok .obsolete
    else if b = 0x12 then .ok .duplicate
    else if b = 0x40 then .ok .nonStandard
    else if b = 0x41 then .ok .dust
    else if b = 0x42 then .ok .fee
    else if b = 0x43 then .ok .checkpoint
    else .error (.custom 47 b.toNat)) id

/-- `String::from_utf8(bytes)` with the error of the caller. -/
def fromUtf8 (b : Bytes) (e : DErr) : Except DErr Utf8 :=
  if h : validUtf8 b = true then .ok ⟨b, h⟩ else .error e

/-- `Reject` (453-462), encoder (477-488), decoder (490-518). -/
structure Reject where
  message : Utf8
  ccode : RejectReason
  reason : Utf8
  hash : Arr 32
def rejectEnc : Enc := encN [prefixedBytesEnc, bytesEnc, prefixedBytesEnc, bytesEnc]
def Reject.encoder (r : Reject) : rejectEnc.S :=
  (0, prefixedBytes r.message.1, [r.ccode.byte], prefixedBytes r.reason.1, r.hash.1, ())
def rejectDec : Dec Reject :=
  (dec4 (byteVecDec MAX_VEC_SIZE) rejectReasonDec (byteVecDec MAX_VEC_SIZE) hash32Dec).mapE
    (fun x => match fromUtf8 x.1 (.custom 48 0) with
      | .error e => .error e
      | .ok m => match fromUtf8 x.2.2.1 (.custom 48 0) with
        | .error e => .error e
        | .ok r => .ok ⟨m, x.2.1, r, x.2.2.2⟩) id

/-- `FeatureId` (bip434.rs 23-26; always 4 to 80 ASCII characters), decoder (70-98) with `FromStr` (33-45).
`String::from_utf8` followed by `is_ascii` is `is_ascii` on the bytes, with the same error. -/
def isAscii (b : Bytes) : Bool := b.all (· < 128)
def FeatureIdOk (b : Bytes) : Prop := isAscii b = true ∧ 4 ≤ b.length ∧ b.length ≤ 80
instance (b : Bytes) : Decidable (FeatureIdOk b) := inferInstanceAs (Decidable (_ ∧ _ ∧ _))
def featureIdDec : Dec { b : Bytes // FeatureIdOk b } :=
  (byteVecDec 80).mapE (fun b => if h : FeatureIdOk b then .ok ⟨b, h⟩ else .error (.custom 49 b.length)) id
/-- `FeatureData` (106-108; at most 512 bytes), decoder (149-175). -/
def featureDataDec : Dec { b : Bytes // b.length ≤ 512 } :=
  (byteVecDec 512).mapE (fun b => if h : b.length ≤ 512 then .ok ⟨b, h⟩ else .error .panic) id
/-- `Feature` (185-190), encoder (198-206), decoder (208-221). -/
structure Feature where
  id : { b : Bytes // FeatureIdOk b }
  data : { b : Bytes // b.length ≤ 512 }
def featureEnc : Enc := encN [prefixedBytesEnc, prefixedBytesEnc]
def Feature.encoder (f : Feature) : featureEnc.S := (0, prefixedBytes f.id.1, prefixedBytes f.data.1, ())
def featureDec : Dec Feature := (dec2 featureIdDec featureDataDec).mapE (fun x => .ok ⟨x.1, x.2⟩) id

/-! ### The version message (message_network.rs) -/

/-- `VersionMessage` (34-62). -/
structure VersionMsg where
  version : UInt32
  services : UInt64
  timestamp : Int64
  receiver : NetAddr
  sender : NetAddr
  nonce : UInt64
  userAgent : Utf8
  startHeight : Int32
  relay : Bool

/-- `UserAgentDecoder` (212-231). -/
def userAgentDec : Dec Utf8 := (byteVecDec MAX_VEC_SIZE).mapE (fun b => fromUtf8 b (.custom 48 1)) id

/-- `Encode for VersionMessage` (113-137), decoder (143-186). -/
def versionTail : List Enc := [netAddrEnc, netAddrEnc, bytesEnc, prefixedBytesEnc, bytesEnc, bytesEnc]
def versionEnc : Enc := encN [encN [bytesEnc, bytesEnc, bytesEnc], encN versionTail]
def VersionMsg.encoder (v : VersionMsg) : versionEnc.S :=
  (0, ((0, u32le v.version, u64le v.services, u64le v.timestamp.toUInt64, ()) : (encN [bytesEnc, bytesEnc, bytesEnc]).S),
    ((0, v.receiver.encoder, v.sender.encoder, u64le v.nonce, prefixedBytes v.userAgent.1,
      u32le v.startHeight.toUInt32, [if v.relay then 1 else 0], ()) : (encN versionTail).S), ())
def versionInnerDec :=
  dec2 (dec3 u32Dec u64Dec u64Dec) (dec6 netAddrDec netAddrDec u64Dec userAgentDec u32Dec u8Dec)
def versionDec : Dec VersionMsg :=
  versionInnerDec.mapE (fun x => .ok
    { version := x.1.1, services := x.1.2.1, timestamp := x.1.2.2.toInt64, receiver := x.2.1, sender := x.2.2.1,
      nonce := x.2.2.2.1, userAgent := x.2.2.2.2.1, startHeight := x.2.2.2.2.2.1.toInt32,
      relay := x.2.2.2.2.2.2 != 0 }) id

end P2p
end Btc
