import Verif.P2p.Message
import Verif.P2p.Socket
import Verif.Addresses.Network
import Verif.Bitcoin.Genesis
import Verif.Bitcoin.TaprootErrors
/-!
# The texts of the errors of the peer to peer crate and of network names

The `Display` implementations (with `std`, where `write_err!` leaves the source out), and the functions with their error values where the
model of the codecs keeps only a code.
-/
namespace Btc
namespace P2p
namespace Errs

/-- The UTF-8 bytes of a text. -/
def utf8 (s : String) : Bytes := s.toUTF8.data.toList

/-- Lower case hex digits of bytes (`hex::fmt_hex_exact!`, and `{:02x}` for every byte). -/
def hexText : Bytes → String
  | [] => ""
  | b :: bs => Sighash.Msg.hex02 b ++ hexText bs

/-! ## Commands (p2p/src/message.rs) -/

/-- `CommandString::try_from_stringly` (76-89) with its error, which is the text. -/
def commandOf (s : String) : Except String Cmd :=
  match Cmd.tryFrom (utf8 s) with
  | some c => .ok c
  | none => .error s

/-- `Display for CommandStringError` (1894-1904). -/
def commandMsg (s : String) : String :=
  "the command string '" ++ s ++ "' has length " ++ toString (utf8 s).length ++ " which is larger than 12"

/-- `Display for UnexpectedEofError` (consensus_encoding/src/error.rs 314-318). -/
def eofMsg (missing : Nat) : String := "not enough bytes for decoder, " ++ toString missing ++ " more bytes required"

/-- `Display for CommandStringDecoderError` (1868-1875); the decoder has no other errors. -/
def cmdDecMsg : DErr → String
  | .eof n => "unexpected end of data: " ++ eofMsg n
  | _ => "command string must be ASCII"

/-! ## Version 1 messages (p2p/src/message.rs) -/

/-- `V1NetworkMessageDecoderErrorInner` (2086-2097) without the header errors; `panic` is the panic of `V1MessageHeader::new` and
`command()`. -/
inductive V1Err where
  | tooLarge
  | payload
  | checksum (expected actual : Arr 4)
  | mismatch (expected actual : Nat)
  | panic

/-- The step from the header to the payload (1359-1382). -/
def v1Begin (h : V1Header) (rest : Bytes) : Except V1Err (V1St × Bytes × Status) :=
  if h.length.toNat > MAX_MSG_SIZE then .error .tooLarge
  else match v1PushPayload h (v1Sel h.command h.length.toNat) (innerDec (v1Sel h.command h.length.toNat)).init 0 [] rest with
    | .error _ => .error .payload
    | .ok r => .ok r

/-- The end of the payload (1403-1423) with `NetworkMessageDecoder::end` (1293-1305). -/
def v1Finish (H : Bytes → Arr 32) (h : V1Header) (sel : Sel) (s : (innerDec sel).S) (consumed : Nat) (hashed : Bytes) :
    Except V1Err V1Msg :=
  if consumed ≠ h.length.toNat then .error (.mismatch h.length.toNat consumed)
  else match (innerDec sel).fin s with
    | .error _ => .error .payload
    | .ok p =>
        if first4 (H hashed) ≠ h.checksum then .error (.checksum (first4 (H hashed)) h.checksum)
        else match p.command with
          | none => .error .panic
          | some c => match headerNew H h.magic p.bytes c with
            | none => .error .panic
            | some h' => .ok ⟨h', p⟩

/-- `Display for V1NetworkMessageDecoderError` (2100-2121). -/
def v1Msg : V1Err → String
  | .tooLarge => "payload length exceeds maximum allowed message size"
  | .payload => "error decoding message payload"
  | .checksum e a => "invalid checksum: expected " ++ hexText e.1 ++ ", actual " ++ hexText a.1
  | .mismatch e a => "payload length mismatch: expected " ++ toString e ++ " bytes, decoded " ++ toString a
  | .panic => "panic"

/-- `Display for V2NetworkMessageDecoderError::UnknownShortId` (2163-2165). -/
def shortIdMsg (id : UInt8) : String := "unknown V2 message short ID: " ++ toString id.toNat

/-! ## Addresses (p2p/src/address.rs) -/

/-- `AddrV2DecoderError` (702-721) without the errors of the inner decoder. -/
inductive AddrErr where
  | length (expected got : Nat)
  | notCjdns
  | onionCat
  | wrappedIpv4
deriving DecidableEq, Repr

/-- `to_fixed_size_slice` (547-554). -/
def fixedSlice (n : Nat) (b : Bytes) : Except AddrErr (Arr n) :=
  if h : b.length = n then .ok ⟨b, h⟩ else .error (.length n b.length)

/-- `AddrV2Decoder::end` (471-514). -/
def addrEnd (net : UInt8) (b : Bytes) : Except AddrErr AddrV2 :=
  if b.length > 512 then .error (.length 512 b.length)
  else if net = 1 then (fixedSlice 4 b).map .ipv4
  else if net = 2 then
    match fixedSlice 16 b with
    | .error e => .error e
    | .ok a => match segsArr a.1 with
      | .error _ => .error (.length 16 a.1.length)
      | .ok s =>
        if s.1.take 3 = ONION then .error .onionCat
        else if s.1.take 6 = IPV4_EMBEDDED_IPV6 then .error .wrappedIpv4
        else .ok (.ipv6 s)
  else if net = 4 then (fixedSlice 32 b).map .torV3
  else if net = 5 then (fixedSlice 32 b).map .i2p
  else if net = 6 then
    match fixedSlice 16 b with
    | .error e => .error e
    | .ok a =>
      if a.1.head? ≠ some 0xFC then .error .notCjdns
      else match segsArr a.1 with
        | .error _ => .error (.length 16 a.1.length)
        | .ok s => .ok (.cjdns s)
  else .ok (.unknown net b)

/-- `Display for AddrV2DecoderError` (727-738). -/
def addrMsg : AddrErr → String
  | .length e g => "invalid length. expected " ++ toString e ++ ", got " ++ toString g
  | .notCjdns => "CJDNS address must start with a reserved byte."
  | .onionCat => "OnionCat address sent as IPv6 is invalid."
  | .wrappedIpv4 => "wrapped IPv4 sent as IPv6 is invalid."

/-- `Display for UnroutableAddressError` (794-805). -/
def routeMsg : Unroutable → String
  | .torV2 => "Tor v2 addresses cannot be converted to IP addresses"
  | .torV3 => "Tor v3 addresses cannot be converted to IP addresses"
  | .i2p => "I2P addresses cannot be converted to IP addresses"
  | .cjdns => "CJDNS addresses cannot be converted to IP addresses"
  | .unknown => "unknown address type cannot be converted to IP addresses"

/-- `Display for AddrV2ToIpv4AddrError` (898-908). -/
def toV4Msg : ToIpErr → String
  | .otherIp => "Ipv6 addresses cannot be converted to Ipv4Addr"
  | .torV3 => "TorV3 addresses cannot be converted to Ipv4Addr"
  | .i2p => "I2P addresses cannot be converted to Ipv4Addr"
  | .cjdns => "Cjdns addresses cannot be converted to Ipv4Addr"
  | .unknown => "Unknown address type cannot be converted to Ipv4Addr"

/-- `Display for AddrV2ToIpv6AddrError` (958-968). -/
def toV6Msg : ToIpErr → String
  | .otherIp => "Ipv4 addresses cannot be converted to Ipv6Addr"
  | .torV3 => "TorV3 addresses cannot be converted to Ipv6Addr"
  | .i2p => "I2P addresses cannot be converted to Ipv6Addr"
  | .cjdns => "Cjdns addresses cannot be converted to Ipv6Addr"
  | .unknown => "Unknown address type cannot be converted to Ipv6Addr"

/-! ## Values of one field -/

/-- `Display` of `FeeFilterDecoderError` (message.rs 2064-2069), `RejectReasonDecoderError` (message_network.rs 667-673),
`BloomFlagsDecoderError` (message_bloom.rs 233-239) and `PrefilledTransactionDecoderError` (bip152.rs 644-650) for the errors that carry a
value; the errors of the inner decoders print a heading only. -/
def fieldMsg : DErr → String
  | .custom 30 n => "index overflowed u16 " ++ toString n
  | .custom 44 n => "unknown bloomflag " ++ toString n
  | .custom 46 n => "invalid fee rate value " ++ toString n
  | .custom 47 n => "unknown reject code " ++ toString n
  | _ => "error"

/-- `FeatureIdError` (bip434.rs 239-246). -/
inductive FeatureIdErr where
  | notAscii
  | length (n : Nat)
deriving DecidableEq, Repr

/-- `FromStr for FeatureId` (33-45). -/
def featureIdOf (s : String) : Except FeatureIdErr { b : Bytes // FeatureIdOk b } :=
  if ha : isAscii (utf8 s) = true then
    if hl : 4 ≤ (utf8 s).length ∧ (utf8 s).length ≤ 80 then .ok ⟨utf8 s, ha, hl⟩ else .error (.length (utf8 s).length)
  else .error .notAscii

/-- `Display for FeatureIdError` (250-258). -/
def featureIdMsg : FeatureIdErr → String
  | .length n => "expected string between 4 and 80 bytes, got " ++ toString n ++ "."
  | .notAscii => "feature id must contain only valid ascii."

/-- `FeatureData::new` (116-121); the error is `too_long`. -/
def featureDataNew (b : Bytes) : Except Nat { b : Bytes // b.length ≤ 512 } :=
  if h : b.length > 512 then .error b.length else .ok ⟨b, by omega⟩

/-- `Display for FeatureDataError` (282-286). -/
def featureDataMsg (n : Nat) : String := "feature data must be no more than 512 bytes, got " ++ toString n

/-- The text of a `SendCmpctDecoderError` given the text of its source: `write_err!(f, "sendcmpct error"; self)`
(message_compact_blocks.rs 110-114) without `std`, where `write_err!` (internals/src/error/mod.rs 26-29) appends the source. -/
def sendCmpctNoStd (source : String) : String := "sendcmpct error" ++ ": " ++ source

/-! ## Networks -/

/-- `FromStr for Network` (network/src/lib.rs 165-175) with its error. -/
def networkOf (s : String) : Except String Pow.Network :=
  match Net.parse (utf8 s) with
  | some n => .ok n
  | none => .error s

/-- `Display for ParseNetworkError` (310-315). -/
def networkMsg (s : String) : String := "failed to parse '" ++ s ++ "' as network"

/-- `FromStr for Magic` (p2p/src/lib.rs 367-372) with its error. -/
def magicOf (s : String) : Except String (Arr 4) :=
  match Genesis.magicParse (utf8 s) with
  | some m => .ok m
  | none => .error s

/-- `Display for ParseMagicError` (p2p/src/error.rs 87-91). -/
def magicMsg (s : String) : String := "failed to parse " ++ s ++ " as network magic"

/-- `TryFrom<Magic> for Network` (p2p/src/lib.rs 393-402) with its error and `Display for UnknownMagicError` (error.rs 103-107). -/
def networkOfMagic (m : Arr 4) : Except (Arr 4) Pow.Network :=
  match Genesis.fromMagic m with
  | some n => .ok n
  | none => .error m
def unknownMagicMsg (m : Arr 4) : String := "unknown network magic " ++ hexText m.1

/-- `TryFrom<ChainHash> for Network` (bitcoin/src/network/mod.rs 108-121) with its error and `Display for UnknownChainHashError` (94-98). -/
def networkOfChainHash (c : Arr 32) : Except (Arr 32) Pow.Network :=
  match Genesis.fromChainHash c with
  | some n => .ok n
  | none => .error c
def unknownChainHashMsg (c : Arr 32) : String := "unknown chain hash: " ++ hexText c.1

end Errs
end P2p
end Btc
