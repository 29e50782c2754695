import Verif.P2p.PayloadLaws
import Verif.Codec.Then
/-!
# Network messages: commands, the v1 and v2 framing

Model of `p2p/src/message.rs`.  A Rust `str` is the byte string of its UTF-8 form.  The checksum hash is a
parameter `H` (double SHA-256 in the code, see `Verif/Hashes`).
-/
namespace Btc
namespace P2p

/-- `MAX_MSG_SIZE` (50). -/
def MAX_MSG_SIZE : Nat := 5000000

/-- The bytes of a string literal (all literals here are ASCII). -/
def ascii (s : String) : Bytes := s.toList.map fun c => UInt8.ofNat c.toNat

/-! ### CommandString -/

/-- `CommandString::contains_interior_null` (61-63). -/
def interiorNull (b : Bytes) : Bool := (b.dropWhile (· != 0)).any (· != 0)

/-- `CommandString` (54).  The field is private; both ways to make one (`try_from_stringly`, the decoder) check
these conditions. -/
abbrev Cmd := { b : Bytes // b.length = 12 ∧ isAscii b = true ∧ interiorNull b = false }

/-- `CommandString::try_from_stringly` (76-89). -/
def Cmd.tryFrom (s : Bytes) : Option Cmd :=
  if isAscii s = false ∨ s.length > 12 then none
  else
    let buf := s ++ List.replicate (12 - s.length) 0
    if h : buf.length = 12 ∧ isAscii buf = true ∧ interiorNull buf = false then some ⟨buf, h⟩ else none

/-- `AsRef<str>`: `trim_end_matches('\0')` (116-121). -/
def Cmd.asRef (c : Cmd) : Bytes := (c.1.reverse.dropWhile (· == 0)).reverse

/-- `CommandStringDecoder` (156-174). -/
def cmdDec : Dec Cmd :=
  (arrayDec 12).mapE (fun b =>
    if h : b.length = 12 ∧ isAscii b = true ∧ interiorNull b = false then .ok ⟨b, h⟩ else .error (.custom 50 0)) id

/-! ### Messages -/

/-- The variants of `NetworkMessage` (591-675) with a payload. -/
inductive Kind where
  | version | addr | inv | getData | notFound | getBlocks | getHeaders | tx | block | headers | ping | pong
  | merkleBlock | filterLoad | filterAdd | getCFilters | cFilter | getCFHeaders | cfHeaders | getCFCheckpt
  | cfCheckpt | sendCmpct | cmpctBlock | getBlockTxn | blockTxn | alert | reject | feeFilter | addrV2
  | sendTxRcnCl | feature
  deriving DecidableEq

/-- The variants without a payload. -/
inductive EKind where
  | verack | memPool | sendHeaders | getAddr | filterClear | wtxidRelay | sendAddrV2
  deriving DecidableEq

/-- Payload types of `NetworkMessage` (591-675); newtypes around vectors and integers are unfolded. -/
def Kind.Payload : Kind → Type
  | .version => VersionMsg
  | .addr => List AddrV1
  | .inv | .getData | .notFound => List Inventory
  | .getBlocks | .getHeaders => Locator
  | .tx => Tx
  | .block => Block
  | .headers => List NetHeader
  | .ping | .pong => UInt64
  | .merkleBlock => Pmt.MerkleBlock
  | .filterLoad => FilterLoad
  | .filterAdd => Bytes
  | .getCFilters | .getCFHeaders => GetCF
  | .cFilter => CFilter
  | .cfHeaders => CFHeaders
  | .getCFCheckpt => GetCFCheckpt
  | .cfCheckpt => CFCheckpt
  | .sendCmpct => SendCmpct
  | .cmpctBlock => Bip152.Compact
  | .getBlockTxn => Bip152.Request
  | .blockTxn => Bip152.BlockTxs
  | .alert => Bytes
  | .reject => Reject
  | .feeFilter => UInt64
  | .addrV2 => List AddrV2Msg
  | .sendTxRcnCl => SendTxRcnCl
  | .feature => Feature

/-- `NetworkMessage` (591-675). -/
inductive Msg where
  | known (k : Kind) (p : k.Payload)
  | empty (e : EKind)
  | unknown (command : Cmd) (payload : Bytes)

/-- `NetworkMessage::cmd` (683-725). -/
def Kind.cmd : Kind → String
  | .version => "version"
  | .addr => "addr"
  | .inv => "inv"
  | .getData => "getdata"
  | .notFound => "notfound"
  | .getBlocks => "getblocks"
  | .getHeaders => "getheaders"
  | .tx => "tx"
  | .block => "block"
  | .headers => "headers"
  | .ping => "ping"
  | .pong => "pong"
  | .merkleBlock => "merkleblock"
  | .filterLoad => "filterload"
  | .filterAdd => "filteradd"
  | .getCFilters => "getcfilters"
  | .cFilter => "cfilter"
  | .getCFHeaders => "getcfheaders"
  | .cfHeaders => "cfheaders"
  | .getCFCheckpt => "getcfcheckpt"
  | .cfCheckpt => "cfcheckpt"
  | .sendCmpct => "sendcmpct"
  | .cmpctBlock => "cmpctblock"
  | .getBlockTxn => "getblocktxn"
  | .blockTxn => "blocktxn"
  | .alert => "alert"
  | .reject => "reject"
  | .feeFilter => "feefilter"
  | .addrV2 => "addrv2"
  | .sendTxRcnCl => "sendtxrcncl"
  | .feature => "feature"
def EKind.cmd : EKind → String
  | .verack => "verack"
  | .memPool => "mempool"
  | .sendHeaders => "sendheaders"
  | .getAddr => "getaddr"
  | .filterClear => "filterclear"
  | .wtxidRelay => "wtxidrelay"
  | .sendAddrV2 => "sendaddrv2"

/-- `NetworkMessage::command` (732-737); `none` is the panic of `expect`. -/
def Msg.command : Msg → Option Cmd
  | .known k _ => Cmd.tryFrom (ascii k.cmd)
  | .empty e => Cmd.tryFrom (ascii e.cmd)
  | .unknown c _ => some c

/-! ### Payload encoders -/

/-- The encoder type of each payload (`NetworkMessageEncoder`, 809-877). -/
def Kind.enc : Kind → Enc
  | .version => versionEnc
  | .addr => prefixedSliceEnc addrV1Enc
  | .inv | .getData | .notFound => prefixedSliceEnc invEnc
  | .getBlocks | .getHeaders => locatorEnc
  | .tx => txEnc
  | .block => blockEnc
  | .headers => prefixedSliceEnc netHeaderEnc
  | .ping | .pong => bytesEnc
  | .merkleBlock => Pmt.mbEnc
  | .filterLoad => filterLoadEnc
  | .filterAdd => prefixedBytesEnc
  | .getCFilters | .getCFHeaders => getCFEnc
  | .cFilter => cFilterEnc
  | .cfHeaders => cfHeadersEnc
  | .getCFCheckpt => getCFCheckptEnc
  | .cfCheckpt => cfCheckptEnc
  | .sendCmpct => sendCmpctEnc
  | .cmpctBlock => Bip152.compactEnc
  | .getBlockTxn => Bip152.requestEnc
  | .blockTxn => Bip152.blockTxsEnc
  | .alert => prefixedBytesEnc
  | .reject => rejectEnc
  | .feeFilter => bytesEnc
  | .addrV2 => prefixedSliceEnc addrV2MsgEnc
  | .sendTxRcnCl => sendTxRcnClEnc
  | .feature => featureEnc

/-- `NetworkMessageEncoder::new` (880-926) on a message with payload.  `Ping`/`Pong` (518-527, 562-571) are a `u64`
in little endian; the vector payloads (305-316, 344-352, 380-391, 1610-1618) are length-prefixed slices; `FilterAdd`
(message_bloom.rs 161-167) and `Alert` (message_network.rs 562-566) length-prefixed bytes. -/
def Kind.start : (k : Kind) → k.Payload → k.enc.S
  | .version, (p : VersionMsg) => p.encoder
  | .addr, (p : List AddrV1) => prefixedSlice addrV1Enc (p.map AddrV1.encoder)
  | .inv, (p : List Inventory) => prefixedSlice invEnc (p.map Inventory.encoder)
  | .getData, (p : List Inventory) => prefixedSlice invEnc (p.map Inventory.encoder)
  | .notFound, (p : List Inventory) => prefixedSlice invEnc (p.map Inventory.encoder)
  | .getBlocks, (p : Locator) => p.encoder
  | .getHeaders, (p : Locator) => p.encoder
  | .tx, (p : Tx) => p.encoder
  | .block, (p : Block) => p.encoder
  | .headers, (p : List NetHeader) => prefixedSlice netHeaderEnc (p.map NetHeader.encoder)
  | .ping, (p : UInt64) => u64le p
  | .pong, (p : UInt64) => u64le p
  | .merkleBlock, (p : Pmt.MerkleBlock) => p.encoder
  | .filterLoad, (p : FilterLoad) => p.encoder
  | .filterAdd, (p : Bytes) => prefixedBytes p
  | .getCFilters, (p : GetCF) => p.encoder
  | .cFilter, (p : CFilter) => p.encoder
  | .getCFHeaders, (p : GetCF) => p.encoder
  | .cfHeaders, (p : CFHeaders) => p.encoder
  | .getCFCheckpt, (p : GetCFCheckpt) => p.encoder
  | .cfCheckpt, (p : CFCheckpt) => p.encoder
  | .sendCmpct, (p : SendCmpct) => p.encoder
  | .cmpctBlock, (p : Bip152.Compact) => p.encoder
  | .getBlockTxn, (p : Bip152.Request) => p.encoder
  | .blockTxn, (p : Bip152.BlockTxs) => p.encoder
  | .alert, (p : Bytes) => prefixedBytes p
  | .reject, (p : Reject) => p.encoder
  | .feeFilter, (p : UInt64) => feeFilterBytes p
  | .addrV2, (p : List AddrV2Msg) => prefixedSlice addrV2MsgEnc (p.map AddrV2Msg.encoder)
  | .sendTxRcnCl, (p : SendTxRcnCl) => p.encoder
  | .feature, (p : Feature) => p.encoder

/-- `NetworkMessageEncoder` (809-877). -/
inductive MsgSt where
  | known (k : Kind) (s : k.enc.S)
  | empty
  | unknown (b : Bytes)

/-- `NetworkMessageEncoder::new` (880-926). -/
def Msg.encoder : Msg → MsgSt
  | .known k p => .known k (k.start p)
  | .empty _ => .empty
  | .unknown _ b => .unknown b

/-- `Encoder for NetworkMessageEncoder` (928-1000). -/
def msgEnc : Enc where
  S := MsgSt
  cur
    | .known k s => k.enc.cur s
    | .empty => []
    | .unknown b => bytesEnc.cur b
  adv
    | .known k s => (.known k (k.enc.adv s).1, (k.enc.adv s).2)
    | .empty => (.empty, false)
    | .unknown b => (.unknown (bytesEnc.adv b).1, (bytesEnc.adv b).2)

/-! ### Payload decoders -/

/-- The decoder of each payload (`NetworkMessageDecoderInner`, 1025-1066).  `Ping`/`Pong` 529-543, 573-587; vectors
318-328, 354-364, 393-403, 1620-1631; `FilterAdd` message_bloom.rs 171-182, `Alert` message_network.rs 570-580. -/
def Kind.dec : (k : Kind) → Dec k.Payload
  | .version => versionDec
  | .addr => vecDec addrV1Dec MAX_VEC_SIZE
  | .inv => vecDec invDec MAX_VEC_SIZE
  | .getData => vecDec invDec MAX_VEC_SIZE
  | .notFound => vecDec invDec MAX_VEC_SIZE
  | .getBlocks => locatorDec
  | .getHeaders => locatorDec
  | .tx => txDec
  | .block => blockDec
  | .headers => vecDec netHeaderDec MAX_VEC_SIZE
  | .ping => u64Dec
  | .pong => u64Dec
  | .merkleBlock => Pmt.mbDec
  | .filterLoad => filterLoadDec
  | .filterAdd => byteVecDec MAX_VEC_SIZE
  | .getCFilters => getCFDec
  | .cFilter => cFilterDec
  | .getCFHeaders => getCFDec
  | .cfHeaders => cfHeadersDec
  | .getCFCheckpt => getCFCheckptDec
  | .cfCheckpt => cfCheckptDec
  | .sendCmpct => sendCmpctDec
  | .cmpctBlock => Bip152.compactDec
  | .getBlockTxn => Bip152.requestDec
  | .blockTxn => Bip152.blockTxsDec
  | .alert => byteVecDec MAX_VEC_SIZE
  | .reject => rejectDec
  | .feeFilter => feeFilterDec
  | .addrV2 => vecDec addrV2MsgDec MAX_VEC_SIZE
  | .sendTxRcnCl => sendTxRcnClDec
  | .feature => featureDec

/-- The states a `NetworkMessageDecoderInner` starts in: a typed decoder, `Empty(command)`, or
`Unknown { command, remaining, buffer: [] }`. -/
inductive Sel where
  | kind (k : Kind)
  | empty (c : Cmd)
  | unknown (c : Cmd) (remaining : Nat)

/-- The arms of `NetworkMessageDecoderInner::new` (1069-1109): command string and decoder (`none` for `Empty`). -/
def v1Arms : List (String × Option Kind) :=
  [("version", some .version),
   ("verack", none), ("sendheaders", none), ("mempool", none), ("getaddr", none), ("wtxidrelay", none),
   ("filterclear", none), ("sendaddrv2", none),
   ("addr", some .addr), ("inv", some .inv), ("getdata", some .getData), ("notfound", some .notFound),
   ("getblocks", some .getBlocks), ("getheaders", some .getHeaders), ("tx", some .tx), ("block", some .block),
   ("headers", some .headers), ("ping", some .ping), ("pong", some .pong), ("merkleblock", some .merkleBlock),
   ("filterload", some .filterLoad), ("filteradd", some .filterAdd), ("getcfilters", some .getCFilters),
   ("cfilter", some .cFilter), ("getcfheaders", some .getCFHeaders), ("cfheaders", some .cfHeaders),
   ("getcfcheckpt", some .getCFCheckpt), ("cfcheckpt", some .cfCheckpt), ("sendcmpct", some .sendCmpct),
   ("cmpctblock", some .cmpctBlock), ("getblocktxn", some .getBlockTxn), ("blocktxn", some .blockTxn),
   ("alert", some .alert), ("reject", some .reject), ("feefilter", some .feeFilter),
   ("sendtxrcncl", some .sendTxRcnCl), ("addrv2", some .addrV2), ("feature", some .feature)]

/-- First arm whose pattern is the command. -/
def lookupArm (arms : List (String × Option Kind)) (name : Bytes) : Option (Option Kind) :=
  (arms.find? fun a => ascii a.1 == name).map (·.2)

/-- `NetworkMessageDecoderInner::new` (1069-1109). -/
def v1Sel (c : Cmd) (len : Nat) : Sel :=
  match lookupArm v1Arms c.asRef with
  | some (some k) => .kind k
  | some none => .empty c
  | none => .unknown c len

/-- The `match` on the command of `Empty` in `end` (1203-1212). -/
def emptyArms : List (String × EKind) :=
  [("verack", .verack), ("mempool", .memPool), ("sendheaders", .sendHeaders), ("getaddr", .getAddr),
   ("wtxidrelay", .wtxidRelay), ("filterclear", .filterClear), ("sendaddrv2", .sendAddrV2)]
def emptyOf (name : Bytes) : Option EKind := (emptyArms.find? fun a => ascii a.1 == name).map (·.2)

/-- `V1NetworkMessageDecoderErrorInner::Payload`. -/
def payloadErr : DErr := .custom 51 0

/-- `Empty` in `push_bytes` (1151), `end` (1203-1212), `read_limit` (1254). -/
def emptyDec (c : Cmd) : Dec Msg where
  S := Unit
  init := ()
  push _ bs := .ok ((), bs, .ready)
  fin _ := match emptyOf c.asRef with
    | some e => .ok (.empty e)
    | none => .error payloadErr
  limit _ := 0

/-- `Unknown` in `push_bytes` (1152-1163), `end` (1213-1218), `read_limit` (1255).  State: remaining and buffer. -/
def unknownDec (c : Cmd) (remaining : Nat) : Dec Msg where
  S := Nat × Bytes
  init := (remaining, [])
  push s bs :=
    let n := min bs.length s.1
    .ok ((s.1 - n, s.2 ++ bs.take n), bs.drop n, if s.1 - n > 0 then .needsMore else .ready)
  fin s := if s.1 ≠ 0 then .error payloadErr else .ok (.unknown c s.2)
  limit s := s.1

/-- `Decoder for NetworkMessageDecoderInner` (1114-1257): every error of a typed decoder becomes `Payload`. -/
def innerDec : Sel → Dec Msg
  | .kind k => k.dec.mapE (fun p => .ok (.known k p)) (fun _ => payloadErr)
  | .empty c => emptyDec c
  | .unknown c n => unknownDec c n

/-! ### The v1 header -/

/-- `V1MessageHeader` (194-203); `Magic` is 4 bytes (lib.rs 339). -/
structure V1Header where
  magic : Arr 4
  command : Cmd
  length : UInt32
  checksum : Arr 4

/-- Encoder (225-242). -/
def v1HeaderEnc : Enc := encN [bytesEnc, bytesEnc, bytesEnc, bytesEnc]
def V1Header.encoder (h : V1Header) : v1HeaderEnc.S := (0, h.magic.1, h.command.1, u32le h.length, h.checksum.1, ())
/-- Decoder (256-283). -/
def v1HeaderDec : Dec V1Header :=
  (dec4 (arrDec 4) cmdDec u32Dec (arrDec 4)).mapE (fun x => .ok ⟨x.1, x.2.1, x.2.2.1, x.2.2.2⟩) id

/-- First four bytes of a hash (1417-1418, 1844). -/
def first4 (h : Arr 32) : Arr 4 := ⟨h.1.take 4, by simp [h.2]⟩

/-- `V1NetworkMessage` (742-745). -/
structure V1Msg where
  header : V1Header
  payload : Msg

/-- `V1MessageHeader::new` with `sha2_checksum` (217-222, 1838-1847) applied to `w`, the bytes the payload encoder
yields; `none` is the panic for `2 ^ 32` bytes and more. -/
def headerNew (H : Bytes → Arr 32) (magic : Arr 4) (w : Bytes) (c : Cmd) : Option V1Header :=
  if w.length < 2 ^ 32 then some ⟨magic, c, UInt32.ofNat w.length, first4 (H w)⟩ else none

/-- `V1NetworkMessage::new` (753-757), relationally: `w` is what draining the payload encoder yields. -/
def V1New (H : Bytes → Arr 32) (magic : Arr 4) (p : Msg) (m : V1Msg) : Prop :=
  ∃ n w c h, msgEnc.drain n p.encoder = some w ∧ p.command = some c ∧ headerNew H magic w c = some h ∧ m = ⟨h, p⟩

/-- `V1NetworkMessageEncoder` (1002-1022). -/
def v1Enc : Enc := encN [v1HeaderEnc, msgEnc]
def V1Msg.encoder (m : V1Msg) : v1Enc.S := (0, m.header.encoder, m.payload.encoder, ())

/-- Byte form of each payload.  `payload_drains` proves that this is what its encoder yields; it makes `headerNew`
computable in the decoder below. -/
def Kind.bytes : (k : Kind) → k.Payload → Bytes
  | .version, (p : VersionMsg) => versionBytes p
  | .addr, (p : List AddrV1) => csEncode p.length ++ (p.map addrV1Bytes).flatten
  | .inv, (p : List Inventory) => csEncode p.length ++ (p.map invBytes).flatten
  | .getData, (p : List Inventory) => csEncode p.length ++ (p.map invBytes).flatten
  | .notFound, (p : List Inventory) => csEncode p.length ++ (p.map invBytes).flatten
  | .getBlocks, (p : Locator) => locatorBytes p
  | .getHeaders, (p : Locator) => locatorBytes p
  | .tx, (p : Tx) => txBytes p.usesSegwit p
  | .block, (p : Block) => blockBytes p
  | .headers, (p : List NetHeader) => csEncode p.length ++ (p.map netHeaderBytes).flatten
  | .ping, (p : UInt64) => u64le p
  | .pong, (p : UInt64) => u64le p
  | .merkleBlock, (p : Pmt.MerkleBlock) => merkleBlockBytes p
  | .filterLoad, (p : FilterLoad) => filterLoadBytes p
  | .filterAdd, (p : Bytes) => csEncode p.length ++ p
  | .getCFilters, (p : GetCF) => getCFBytes p
  | .cFilter, (p : CFilter) => cFilterBytes p
  | .getCFHeaders, (p : GetCF) => getCFBytes p
  | .cfHeaders, (p : CFHeaders) => cfHeadersBytes p
  | .getCFCheckpt, (p : GetCFCheckpt) => getCFCheckptBytes p
  | .cfCheckpt, (p : CFCheckpt) => cfCheckptBytes p
  | .sendCmpct, (p : SendCmpct) => sendCmpctBytes p
  | .cmpctBlock, (p : Bip152.Compact) => Bip152.compactBytes p
  | .getBlockTxn, (p : Bip152.Request) => Bip152.requestBytes p
  | .blockTxn, (p : Bip152.BlockTxs) => Bip152.blockTxsBytes p
  | .alert, (p : Bytes) => csEncode p.length ++ p
  | .reject, (p : Reject) => rejectBytes p
  | .feeFilter, (p : UInt64) => feeFilterBytes p
  | .addrV2, (p : List AddrV2Msg) => csEncode p.length ++ (p.map addrV2MsgBytes).flatten
  | .sendTxRcnCl, (p : SendTxRcnCl) => sendTxRcnClBytes p
  | .feature, (p : Feature) => featureBytes p

/-- Byte form of a message payload. -/
def Msg.bytes : Msg → Bytes
  | .known k p => k.bytes p
  | .empty _ => []
  | .unknown _ b => b

/-! ### The v1 decoder -/

/-- `V1NetworkMessageDecoder` (1319-1333).  `consumed` is `NetworkMessageDecoder::bytes_consumed`; the checksum
engine is modelled by the bytes put into it. -/
inductive V1St where
  | header (s : v1HeaderDec.S)
  | payload (h : V1Header) (sel : Sel) (s : (innerDec sel).S) (consumed : Nat) (hashed : Bytes)

/-- `push_bytes` in `ReadingPayload` (1386-1392) with `NetworkMessageDecoder::push_bytes` (1286-1291). -/
def v1PushPayload (h : V1Header) (sel : Sel) (s : (innerDec sel).S) (consumed : Nat) (hashed : Bytes) (bs : Bytes) :
    Except DErr (V1St × Bytes × Status) :=
  match (innerDec sel).push s bs with
  | .error e => .error e
  | .ok (s', rest, st) =>
      let n := bs.length - rest.length
      .ok (.payload h sel s' (consumed + n) (hashed ++ bs.take n), rest, st)

/-- The step from the header to the payload (1359-1382); the code pushes the remaining bytes at once, even if
there are none. -/
def v1AfterHeader (h : V1Header) (rest : Bytes) : Except DErr (V1St × Bytes × Status) :=
  if h.length.toNat > MAX_MSG_SIZE then .error (.custom 52 h.length.toNat)
  else v1PushPayload h (v1Sel h.command h.length.toNat) (innerDec (v1Sel h.command h.length.toNat)).init 0 [] rest

/-- End of the payload (1403-1423) with `NetworkMessageDecoder::end` (1293-1305). -/
def v1EndPayload (H : Bytes → Arr 32) (h : V1Header) (sel : Sel) (s : (innerDec sel).S) (consumed : Nat)
    (hashed : Bytes) : Except DErr V1Msg :=
  if consumed ≠ h.length.toNat then .error (.custom 53 consumed)
  else match (innerDec sel).fin s with
    | .error e => .error e
    | .ok p =>
        if first4 (H hashed) ≠ h.checksum then .error (.custom 54 0)
        else match p.command with
          | none => .error .panic
          | some c => match headerNew H h.magic p.bytes c with
            | none => .error .panic
            | some h' => .ok ⟨h', p⟩

/-- `Decoder for V1NetworkMessageDecoder` (1348-1433); `read_limit` with 1308-1314. -/
def v1Dec (H : Bytes → Arr 32) : Dec V1Msg where
  S := V1St
  init := .header v1HeaderDec.init
  push
    | .header s, bs => v1HeaderDec.pushThen s bs (DErr.tag 50) .header v1AfterHeader
    | .payload h sel s n hashed, bs => v1PushPayload h sel s n hashed bs
  fin
    | .header s => match v1HeaderDec.fin s with
      | .error e => .error (.tag 50 e)
      | .ok _ => .error .panic
    | .payload h sel s n hashed => v1EndPayload H h sel s n hashed
  limit
    | .header s => v1HeaderDec.limit s
    | .payload h sel s n _ => min ((innerDec sel).limit s) (h.length.toNat - n)

/-! ### Version 2 -/

/-- `V2NetworkMessageEncoder::v2_command_byte` (1490-1532). -/
def Kind.shortId : Kind → UInt8
  | .version => 0
  | .addr => 1
  | .block => 2
  | .blockTxn => 3
  | .cmpctBlock => 4
  | .feeFilter => 5
  | .filterAdd => 6
  | .filterLoad => 8
  | .getBlocks => 9
  | .getBlockTxn => 10
  | .getData => 11
  | .getHeaders => 12
  | .headers => 13
  | .inv => 14
  | .merkleBlock => 16
  | .notFound => 17
  | .ping => 18
  | .pong => 19
  | .sendCmpct => 20
  | .tx => 21
  | .getCFilters => 22
  | .cFilter => 23
  | .getCFHeaders => 24
  | .cfHeaders => 25
  | .getCFCheckpt => 26
  | .cfCheckpt => 27
  | .addrV2 => 28
  | .feature => 37
  | .alert => 0
  | .reject => 0
  | .sendTxRcnCl => 0
def EKind.shortId : EKind → UInt8
  | .filterClear => 7
  | .memPool => 15
  | _ => 0
def Msg.shortId : Msg → UInt8
  | .known k _ => k.shortId
  | .empty e => e.shortId
  | .unknown _ _ => 0

/-- `V2NetworkMessageEncoder` (1443-1451): `ShortId(Encoder2<[u8; 1], payload>)` or
`FullCommand(Encoder2<[u8; 1], Encoder2<command, payload>>)`. -/
def v2ShortEnc : Enc := encN [bytesEnc, msgEnc]
def v2FullEnc : Enc := encN [bytesEnc, encN [bytesEnc, msgEnc]]
inductive V2EncSt where
  | shortId (s : v2ShortEnc.S)
  | full (s : v2FullEnc.S)
/-- 1453-1467. -/
def v2Enc : Enc where
  S := V2EncSt
  cur
    | .shortId s => v2ShortEnc.cur s
    | .full s => v2FullEnc.cur s
  adv
    | .shortId s => (.shortId (v2ShortEnc.adv s).1, (v2ShortEnc.adv s).2)
    | .full s => (.full (v2FullEnc.adv s).1, (v2FullEnc.adv s).2)

/-- `Encode for V2NetworkMessage` (1472-1486); `none` is the panic of `command()`. -/
def Msg.v2Encoder (m : Msg) : Option V2EncSt :=
  if m.shortId = 0 then m.command.map fun c => .full (0, [m.shortId], (0, c.1, m.encoder, ()), ())
  else some (.shortId (0, [m.shortId], m.encoder, ()))

/-- The arms of `payload_decoder_from_short_id` (1679-1709); a string is `Empty` with that command. -/
def v2ShortArms : List (UInt8 × (Kind ⊕ String)) :=
  [(1, .inl .addr), (2, .inl .block), (3, .inl .blockTxn), (4, .inl .cmpctBlock), (5, .inl .feeFilter),
   (6, .inl .filterAdd), (7, .inr "filterclear"), (8, .inl .filterLoad), (9, .inl .getBlocks),
   (10, .inl .getBlockTxn), (11, .inl .getData), (12, .inl .getHeaders), (13, .inl .headers), (14, .inl .inv),
   (15, .inr "mempool"), (16, .inl .merkleBlock), (17, .inl .notFound), (18, .inl .ping), (19, .inl .pong),
   (20, .inl .sendCmpct), (21, .inl .tx), (22, .inl .getCFilters), (23, .inl .cFilter), (24, .inl .getCFHeaders),
   (25, .inl .cfHeaders), (26, .inl .getCFCheckpt), (27, .inl .cfCheckpt), (28, .inl .addrV2), (37, .inl .feature)]

/-- `payload_decoder_from_short_id` (1670-1712). -/
def v2ShortSel (id : UInt8) : Except DErr Sel :=
  match (v2ShortArms.find? fun (a : UInt8 × (Kind ⊕ String)) => a.1 == id).map Prod.snd with
  | some (.inl k) => .ok (.kind k)
  | some (.inr s) => match Cmd.tryFrom (ascii s) with
    | some c => .ok (.empty c)
    | none => .error payloadErr
  | none => .error (.custom 55 id.toNat)

/-- The arms of `payload_decoder_from_command` (1719-1724). -/
def v2Arms : List (String × Option Kind) :=
  [("version", some .version), ("verack", none), ("sendheaders", none), ("getaddr", none), ("wtxidrelay", none),
   ("sendaddrv2", none), ("alert", some .alert), ("reject", some .reject), ("sendtxrcncl", some .sendTxRcnCl)]

/-- `payload_decoder_from_command` (1715-1731): any other command is `Unknown` with `remaining: 0`. -/
def v2CmdSel (c : Cmd) : Sel :=
  match lookupArm v2Arms c.asRef with
  | some (some k) => .kind k
  | some none => .empty c
  | none => .unknown c 0

/-- `V2NetworkMessageDecoderState` (1640-1651).  `Errored` is left out: it is only entered together with an error,
after which the drivers do not use the decoder again. -/
inductive V2St where
  | short (s : (arrayDec 1).S)
  | command (s : cmdDec.S)
  | payload (sel : Sel) (s : (innerDec sel).S)

/-- `Payload` in `push_bytes` (1789-1794); `payload_len` is `None` (1276-1278, 1711), so nothing is counted. -/
def v2PushPayload (sel : Sel) (s : (innerDec sel).S) (bs : Bytes) : Except DErr (V2St × Bytes × Status) :=
  match (innerDec sel).push s bs with
  | .error e => .error e
  | .ok (s', rest, st) => .ok (.payload sel s', rest, st)

/-- `CommandString` in `push_bytes` (1770-1788) and the next turns of the loop. -/
def v2PushCommand (s : cmdDec.S) (bs : Bytes) : Except DErr (V2St × Bytes × Status) :=
  cmdDec.pushThen s bs (DErr.tag 52) V2St.command fun c rest =>
    v2PushPayload (v2CmdSel c) (innerDec (v2CmdSel c)).init rest

/-- `ShortId` in `push_bytes` (1741-1769) and the next turns of the loop. -/
def v2PushShort (s : (arrayDec 1).S) (bs : Bytes) : Except DErr (V2St × Bytes × Status) :=
  (arrayDec 1).pushThen s bs (DErr.tag 51) V2St.short fun b rest =>
    let id := b.headD 0
    if id = 0 then v2PushCommand cmdDec.init rest
    else match v2ShortSel id with
      | .error e => .error e
      | .ok sel => v2PushPayload sel (innerDec sel).init rest

/-- `Decoder for V2NetworkMessageDecoder` (1734-1831). -/
def v2Dec : Dec Msg where
  S := V2St
  init := .short (arrayDec 1).init
  push
    | .short s, bs => v2PushShort s bs
    | .command s, bs => v2PushCommand s bs
    | .payload sel s, bs => v2PushPayload sel s bs
  fin
    | .short s => match (arrayDec 1).fin s with
      | .error e => .error (.tag 51 e)
      | .ok _ => .error .panic
    | .command s => match cmdDec.fin s with
      | .error e => .error (.tag 52 e)
      | .ok _ => .error .panic
    | .payload sel s => (innerDec sel).fin s
  limit
    | .short s => (arrayDec 1).limit s
    | .command s => cmdDec.limit s
    | .payload sel s => (innerDec sel).limit s
end P2p
end Btc
