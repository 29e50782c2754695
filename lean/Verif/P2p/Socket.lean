import Verif.P2p.PayloadDrains
/-!
# Network addresses and sockets

Model of the conversions between `Address`, `AddrV2`, `AddrV2Message` of `p2p/src/address.rs` and the socket and IP
address types of Rust's standard library.  An `Ipv4Addr` is its 4 octets, an `Ipv6Addr` its 8 segments.  The four
standard library functions used are modelled from their documentation and marked `std`.
-/
namespace Btc
namespace P2p

/-- `std::net::IpAddr`. -/
inductive Ip where
  | v4 (ip : Arr 4)
  | v6 (ip : Segs)

/-- `std::net::SocketAddr`; a `SocketAddrV6` also carries flow information and a scope id. -/
inductive Sock where
  | v4 (ip : Arr 4) (port : UInt16)
  | v6 (ip : Segs) (port : UInt16) (flow scope : UInt32)

/-- `UnroutableAddressError` (address.rs 781-793). -/
inductive Unroutable where
  | torV2 | torV3 | i2p | cjdns | unknown
  deriving DecidableEq
/-- `AddrV2ToIpv4AddrError`, `AddrV2ToIpv6AddrError` (875-887, 932-944); the other IP version is `otherIp`. -/
inductive ToIpErr where
  | otherIp | torV3 | i2p | cjdns | unknown
  deriving DecidableEq

/-- std `Ipv4Addr::to_ipv6_mapped().segments()`: `::ffff:a.b.c.d`. -/
def mapped : Arr 4 → Segs
  | ⟨[a, b, c, d], _⟩ => ⟨[0, 0, 0, 0, 0, 0xFFFF, UInt16.ofNat (beNat [a, b]), UInt16.ofNat (beNat [c, d])], rfl⟩

/-- std `Ipv6Addr::to_ipv4`: both `::a.b.c.d` and `::ffff:a.b.c.d` are converted. -/
def toIpv4 : Segs → Option (Arr 4)
  | ⟨[s0, s1, s2, s3, s4, s5, ab, cd], _⟩ =>
    if s0 = 0 ∧ s1 = 0 ∧ s2 = 0 ∧ s3 = 0 ∧ s4 = 0 ∧ (s5 = 0 ∨ s5 = 0xFFFF) then
      some ⟨u16be ab ++ u16be cd, by simp [u16be_length]⟩
    else none

/-- `Address::new` (46-52). -/
def NetAddr.new (s : Sock) (services : UInt64) : NetAddr :=
  match s with
  | .v4 ip port => ⟨services, mapped ip, port⟩
  | .v6 ip port _ _ => ⟨services, ip, port⟩

/-- `Address::useless` (56-58). -/
def NetAddr.useless : NetAddr := ⟨0, ⟨[0, 0, 0, 0, 0, 0, 0, 0], rfl⟩, 0⟩

/-- `Address::socket_addr` (65-77); `to_socket_addrs` (112-119) yields the one address it returns. -/
def NetAddr.socketAddr (a : NetAddr) : Except Unroutable Sock :=
  if a.address.1.take 3 = ONION then .error .torV2
  else match toIpv4 a.address with
    | some ip => .ok (.v4 ip a.port)
    | none => .ok (.v6 a.address a.port 0 0)

/-- `TryFrom<AddrV2> for IpAddr` (242-255). -/
def AddrV2.toIp : AddrV2 → Except Unroutable Ip
  | .ipv4 ip => .ok (.v4 ip)
  | .ipv6 ip => .ok (.v6 ip)
  | .cjdns _ => .error .cjdns
  | .torV3 _ => .error .torV3
  | .i2p _ => .error .i2p
  | .unknown _ _ => .error .unknown
/-- `TryFrom<AddrV2> for Ipv4Addr` (257-270). -/
def AddrV2.toV4 : AddrV2 → Except ToIpErr (Arr 4)
  | .ipv4 ip => .ok ip
  | .ipv6 _ => .error .otherIp
  | .cjdns _ => .error .cjdns
  | .torV3 _ => .error .torV3
  | .i2p _ => .error .i2p
  | .unknown _ _ => .error .unknown
/-- `TryFrom<AddrV2> for Ipv6Addr` (272-285). -/
def AddrV2.toV6 : AddrV2 → Except ToIpErr Segs
  | .ipv6 ip => .ok ip
  | .cjdns _ => .error .cjdns
  | .ipv4 _ => .error .otherIp
  | .torV3 _ => .error .torV3
  | .i2p _ => .error .i2p
  | .unknown _ _ => .error .unknown
/-- `From<IpAddr>`, `From<Ipv4Addr>`, `From<Ipv6Addr> for AddrV2` (287-302). -/
def AddrV2.ofIp : Ip → AddrV2
  | .v4 ip => .ipv4 ip
  | .v6 ip => .ipv6 ip

/-- `AddrV2Message::socket_addr` (581-590); `to_socket_addrs` (592-599) yields the one address it returns. -/
def AddrV2Msg.socketAddr (m : AddrV2Msg) : Except Unroutable Sock :=
  match m.addr with
  | .ipv4 ip => .ok (.v4 ip m.port)
  | .ipv6 ip => .ok (.v6 ip m.port 0 0)
  | .torV3 _ => .error .torV3
  | .i2p _ => .error .i2p
  | .cjdns _ => .error .cjdns
  | .unknown _ _ => .error .unknown

end P2p
end Btc
