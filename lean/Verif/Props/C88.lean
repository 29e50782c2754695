import Verif.P2p.Socket
/-!
# C88 — Peer addresses and sockets

A socket address survives the trip through the addresses of the peer-to-peer protocol: what a node announces is
the same IP address and port that its peers connect to, and only addresses that are not sockets are refused.
The claims speak of the 16 octets on the wire.
-/
namespace Btc
namespace P2p

/-- The 16 octets that stand for an IP address in the protocol: `::ffff:a.b.c.d` for IPv4. -/
def Sock.octets : Sock → Bytes
  | .v4 ip _ => [0, 0, 0, 0, 0, 0, 0, 0, 0, 0, 0xFF, 0xFF] ++ ip.1
  | .v6 ip _ _ _ => segBytes ip.1
def Sock.port : Sock → UInt16
  | .v4 _ p => p
  | .v6 _ p _ _ => p

/-- `fd87:d87e:eb43::/48`, the range that stands for version 2 onion addresses. -/
def OnionCat (o : Bytes) : Prop := [0xFD, 0x87, 0xD8, 0x7E, 0xEB, 0x43] <+: o
/-- `::ffff:0:0/96`. -/
def Mapped (o : Bytes) : Prop := [0, 0, 0, 0, 0, 0, 0, 0, 0, 0, 0xFF, 0xFF] <+: o
/-- `::/96`: the unspecified address, the loopback address `::1` and the deprecated IPv4-compatible addresses. -/
def Compat (o : Bytes) : Prop := [0, 0, 0, 0, 0, 0, 0, 0, 0, 0, 0, 0] <+: o

instance (o : Bytes) : Decidable (OnionCat o) := inferInstanceAs (Decidable (_ <+: o))
instance (o : Bytes) : Decidable (Mapped o) := inferInstanceAs (Decidable (_ <+: o))
instance (o : Bytes) : Decidable (Compat o) := inferInstanceAs (Decidable (_ <+: o))

theorem u16be_inj {x y : UInt16} (h : u16be x = u16be y) : x = y := by
  rw [← beNat_u16be x, h, beNat_u16be]

theorem segBytes_inj {x y : List UInt16} (h : segBytes x = segBytes y) : x = y := by
  rw [← segsOf_segBytes x, h, segsOf_segBytes]

theorem segBytes_append (x y : List UInt16) : segBytes (x ++ y) = segBytes x ++ segBytes y := by
  simp [segBytes]

theorem segs_prefix (p : List UInt16) (l : List UInt16) :
    l.take p.length = p ↔ segBytes p <+: segBytes l := by
  constructor
  · intro h
    rw [← List.take_append_drop p.length l, h, segBytes_append]
    exact List.prefix_append _ _
  · intro h
    have hl := h.length_le
    rw [segBytes_length, segBytes_length] at hl
    rw [← List.take_append_drop p.length l, segBytes_append] at h
    have h2 : segBytes p <+: segBytes (l.take p.length) := by
      refine List.prefix_of_prefix_length_le h (List.prefix_append _ _) ?_
      simp only [segBytes_length, List.length_take]; omega
    have h3 := h2.eq_of_length (by simp only [segBytes_length, List.length_take]; omega)
    exact (segBytes_inj h3).symm

theorem onion_iff (l : List UInt16) : l.take 3 = ONION ↔ OnionCat (segBytes l) := by
  have h : segBytes ONION = [0xFD, 0x87, 0xD8, 0x7E, 0xEB, 0x43] := by decide
  unfold OnionCat; rw [← h]; exact segs_prefix ONION l

theorem mapped_iff (l : List UInt16) : l.take 6 = IPV4_EMBEDDED_IPV6 ↔ Mapped (segBytes l) := by
  have h : segBytes IPV4_EMBEDDED_IPV6 = [0, 0, 0, 0, 0, 0, 0, 0, 0, 0, 0xFF, 0xFF] := by decide
  unfold Mapped; rw [← h]; exact segs_prefix IPV4_EMBEDDED_IPV6 l

theorem compat_iff (l : List UInt16) : l.take 6 = [0, 0, 0, 0, 0, 0] ↔ Compat (segBytes l) := by
  have h : segBytes [0, 0, 0, 0, 0, 0] = [0, 0, 0, 0, 0, 0, 0, 0, 0, 0, 0, 0] := by decide
  unfold Compat; rw [← h]; exact segs_prefix [0, 0, 0, 0, 0, 0] l

theorem mapped_octets (ip : Arr 4) :
    segBytes (mapped ip).1 = [0, 0, 0, 0, 0, 0, 0, 0, 0, 0, 0xFF, 0xFF] ++ ip.1 := by
  match ip with
  | ⟨[a, b, c, d], _⟩ =>
    have h1 := u16be_beNat [a, b] rfl
    have h2 := u16be_beNat [c, d] rfl
    have h3 : segBytes [0, 0, 0, 0, 0, 0xFFFF] = [0, 0, 0, 0, 0, 0, 0, 0, 0, 0, 0xFF, 0xFF] := by decide
    show segBytes ([0, 0, 0, 0, 0, 0xFFFF] ++ [_, _]) = _
    rw [segBytes_append, h3]
    simp only [segBytes, List.flatMap_cons, List.flatMap_nil, h1, h2]
    rfl

theorem toIpv4_eq (s : Segs) :
    toIpv4 s = if Compat (segBytes s.1) ∨ Mapped (segBytes s.1) then
      some ⟨(segBytes s.1).drop 12, by simp [segs_len]⟩ else none := by
  have h1 := compat_iff s.1
  have h2 := mapped_iff s.1
  match s with
  | ⟨[s0, s1, s2, s3, s4, s5, ab, cd], hs⟩ =>
    have hd : (segBytes [s0, s1, s2, s3, s4, s5, ab, cd]).drop 12 = u16be ab ++ u16be cd := by
      have e : segBytes [s0, s1, s2, s3, s4, s5, ab, cd] = segBytes [s0, s1, s2, s3, s4, s5] ++ (u16be ab ++ u16be cd) := by
        simp [segBytes]
      rw [e]
      exact List.drop_left' (by rw [segBytes_length]; rfl)
    simp only [List.take_succ_cons, List.take_zero, IPV4_EMBEDDED_IPV6, List.cons.injEq, and_true] at h1 h2
    simp only [toIpv4]
    by_cases h : s0 = 0 ∧ s1 = 0 ∧ s2 = 0 ∧ s3 = 0 ∧ s4 = 0 ∧ (s5 = 0 ∨ s5 = 0xFFFF)
    · rw [if_pos h, if_pos (by rw [← h1, ← h2]; grind)]
      simp only [hd]
    · rw [if_neg h, if_neg (by rw [← h1, ← h2]; grind)]

/-- `Address::new` keeps the services, the port and the IP address. -/
theorem C88_new (s : Sock) (services : UInt64) :
    (NetAddr.new s services).services = services ∧ (NetAddr.new s services).port = s.port
      ∧ segBytes (NetAddr.new s services).address.1 = s.octets := by
  cases s with
  | v4 ip p => exact ⟨rfl, rfl, mapped_octets ip⟩
  | v6 ip p f c => exact ⟨rfl, rfl, rfl⟩

example : segBytes (NetAddr.new (.v4 ⟨[127, 0, 0, 1], rfl⟩ 8333) 1).address.1
    = [0, 0, 0, 0, 0, 0, 0, 0, 0, 0, 0xFF, 0xFF, 127, 0, 0, 1] := by decide

/-- What `Address::socket_addr` returns, from the 16 octets alone: an error exactly for the onion range; an IPv4
socket for `::ffff:0:0/96` and for `::/96`; else the IPv6 socket with these octets.  The port is the address's. -/
theorem C88_socket_addr (a : NetAddr) (o : Bytes) (ho : segBytes a.address.1 = o) :
    (OnionCat o → a.socketAddr = .error .torV2)
    ∧ (¬OnionCat o → (Mapped o ∨ Compat o) → ∃ ip, ip.1 = o.drop 12 ∧ a.socketAddr = .ok (.v4 ip a.port))
    ∧ (¬OnionCat o → ¬Mapped o → ¬Compat o →
        ∃ ip : Segs, segBytes ip.1 = o ∧ a.socketAddr = .ok (.v6 ip a.port 0 0)) := by
  subst ho
  unfold NetAddr.socketAddr
  refine ⟨?_, ?_, ?_⟩
  · intro h
    rw [if_pos ((onion_iff _).2 h)]
  · intro h h2
    rw [if_neg (fun h3 => h ((onion_iff _).1 h3)), toIpv4_eq, if_pos h2.symm]
    exact ⟨_, rfl, rfl⟩
  · intro h h2 h3
    rw [if_neg (fun h3 => h ((onion_iff _).1 h3)), toIpv4_eq, if_neg (by grind)]
    exact ⟨_, rfl, rfl⟩

example : ∃ s : Segs, OnionCat (segBytes s.1) := ⟨⟨[0xFD87, 0xD87E, 0xEB43, 1, 2, 3, 4, 5], rfl⟩, by decide⟩
example : ∃ s : Segs, ¬OnionCat (segBytes s.1) ∧ ¬Mapped (segBytes s.1) ∧ ¬Compat (segBytes s.1) :=
  ⟨⟨[0x2001, 0xdb8, 0, 0, 0, 0, 0, 1], rfl⟩, by decide⟩

theorem not_onion_of_mapped {o : Bytes} (h : Mapped o ∨ Compat o) : ¬OnionCat o := by
  rintro ⟨t, rfl⟩
  rcases h with ⟨u, hu⟩ | ⟨u, hu⟩ <;> simp at hu

/-- An IPv4 socket address comes back as it was. -/
theorem C88_v4 (ip : Arr 4) (port : UInt16) (services : UInt64) :
    (NetAddr.new (.v4 ip port) services).socketAddr = .ok (.v4 ip port) := by
  have ho := mapped_octets ip
  have hm : Mapped ([0, 0, 0, 0, 0, 0, 0, 0, 0, 0, 0xFF, 0xFF] ++ ip.1) := List.prefix_append _ _
  obtain ⟨_, h, _⟩ := C88_socket_addr (NetAddr.new (.v4 ip port) services) _ ho
  obtain ⟨ip', h1, h2⟩ := h (not_onion_of_mapped (.inl hm)) (.inl hm)
  rw [h2]
  have : ip' = ip := Subtype.ext (by rw [h1]; rfl)
  rw [this]; rfl

example : (NetAddr.new (.v4 ⟨[10, 1, 2, 3], rfl⟩ 8333) 9).socketAddr = .ok (.v4 ⟨[10, 1, 2, 3], rfl⟩ 8333) := C88_v4 _ _ _

/-- The sockets that should survive the trip: every IPv4 socket, and every IPv6 socket without flow information
and scope whose address is neither an onion address nor an IPv4 address in IPv6 form. -/
def Plain : Sock → Prop
  | .v4 _ _ => True
  | .v6 ip _ f c => f = 0 ∧ c = 0 ∧ ¬OnionCat (segBytes ip.1) ∧ ¬Mapped (segBytes ip.1)

/-- **Partial.** The full claim is `Plain s → (new s services).socketAddr = .ok s`; it fails in `::/96`
(`C88_loopback_refuted`), the range excluded here. -/
theorem C88_round_partial (s : Sock) (services : UInt64) (h : Plain s)
    (hc : ∀ ip p f c, s = .v6 ip p f c → ¬Compat (segBytes ip.1)) :
    (NetAddr.new s services).socketAddr = .ok s := by
  cases s with
  | v4 ip p => exact C88_v4 ip p services
  | v6 ip p f c =>
    obtain ⟨rfl, rfl, h1, h2⟩ := h
    obtain ⟨_, _, h3⟩ := C88_socket_addr (NetAddr.new (.v6 ip p 0 0) services) _ rfl
    obtain ⟨ip', h4, h5⟩ := h3 h1 h2 (hc _ _ _ _ rfl)
    rw [h5, show ip' = ip from Subtype.ext (segBytes_inj h4)]
    rfl

example : Plain (.v6 ⟨[0x2001, 0xdb8, 0, 0, 0, 0, 0, 1], rfl⟩ 8333 0 0) ∧ ¬Compat (segBytes [0x2001, 0xdb8, 0, 0, 0, 0, 0, 1]) := by
  refine ⟨⟨rfl, rfl, ?_, ?_⟩, ?_⟩ <;> decide

/-- The IPv6 loopback socket `[::1]:8333` comes back as the IPv4 socket `0.0.0.1:8333`. -/
theorem C88_loopback_refuted :
    Plain (.v6 ⟨[0, 0, 0, 0, 0, 0, 0, 1], rfl⟩ 8333 0 0)
    ∧ (NetAddr.new (.v6 ⟨[0, 0, 0, 0, 0, 0, 0, 1], rfl⟩ 8333 0 0) 1).socketAddr
        = .ok (.v4 ⟨[0, 0, 0, 1], rfl⟩ 8333) :=
  ⟨by refine ⟨rfl, rfl, ?_, ?_⟩ <;> decide, rfl⟩

/-- Announcing the socket of an address gives the address back, services included, outside `::/96`. -/
theorem C88_back (a : NetAddr) (s : Sock) (h : a.socketAddr = .ok s) (hc : ¬Compat (segBytes a.address.1)) :
    NetAddr.new s a.services = a := by
  obtain ⟨h1, h2, h3⟩ := C88_socket_addr a _ rfl
  by_cases ho : OnionCat (segBytes a.address.1)
  · rw [h1 ho] at h; cases h
  obtain ⟨hs, hp, hq⟩ := C88_new s a.services
  have key : s.port = a.port ∧ s.octets = segBytes a.address.1 := by
    by_cases hm : Mapped (segBytes a.address.1)
    · obtain ⟨ip, e1, e2⟩ := h2 ho (.inl hm)
      rw [e2] at h; cases h
      refine ⟨rfl, ?_⟩
      obtain ⟨t, ht⟩ := hm
      rw [Sock.octets, e1, ← ht]; rfl
    · obtain ⟨ip, e1, e2⟩ := h3 ho hm hc
      rw [e2] at h; cases h
      exact ⟨rfl, e1⟩
  rw [key.1] at hp
  rw [key.2] at hq
  have hq' := Subtype.ext (segBytes_inj hq)
  generalize NetAddr.new s a.services = b at *
  cases a; cases b; simp_all

example : ∃ a s, NetAddr.socketAddr a = .ok s ∧ ¬Compat (segBytes a.address.1) :=
  ⟨.new (.v4 ⟨[10, 1, 2, 3], rfl⟩ 8333) 9, _, C88_v4 _ _ _, by decide⟩

/-- From node to node: the bytes a node sends for a socket are decoded by its peer to an address whose socket is
that socket (outside `::/96`). -/
theorem C88_wire (s : Sock) (services : UInt64) (w : Bytes) (h : Plain s)
    (hc : ∀ ip p f c, s = .v6 ip p f c → ¬Compat (segBytes ip.1))
    (hw : Drains netAddrEnc (NetAddr.new s services).encoder w) :
    ∃ a, netAddrDec.decodeSlice w = .ok a ∧ a.services = services ∧ a.socketAddr = .ok s
      ∧ w = u64le services ++ s.octets ++ u16be s.port := by
  have e := hw.det (netAddr_drains _)
  obtain ⟨P, hl, hw'⟩ := netAddr_dw
  obtain ⟨n1, n2, n3⟩ := C88_new s services
  refine ⟨NetAddr.new s services, ((Wire.dec hl hw').1 _ _).2 ⟨trivial, e⟩, n1, C88_round_partial s services h hc, ?_⟩
  rw [e, netAddrBytes, n1, n2, n3]

example : Drains netAddrEnc (NetAddr.new (.v4 ⟨[10, 1, 2, 3], rfl⟩ 8333) 9).encoder
    (netAddrBytes (NetAddr.new (.v4 ⟨[10, 1, 2, 3], rfl⟩ 8333) 9)) := netAddr_drains _

/-- The useless address is the unspecified one: `0.0.0.0:0`, no services. -/
theorem C88_useless : netAddrBytes NetAddr.useless = List.replicate 26 0
    ∧ NetAddr.useless.socketAddr = .ok (.v4 ⟨[0, 0, 0, 0], rfl⟩ 0) := ⟨by decide, rfl⟩

/-- BIP155 addresses: the conversions from and to IP addresses are inverse to each other, and the narrower ones
agree with them. -/
theorem C88_v2_ip (a : AddrV2) :
    (∀ ip, a.toIp = .ok ip ↔ AddrV2.ofIp ip = a)
    ∧ (∀ ip, a.toV4 = .ok ip ↔ a.toIp = .ok (.v4 ip))
    ∧ (∀ ip, a.toV6 = .ok ip ↔ a.toIp = .ok (.v6 ip)) := by
  refine ⟨fun ip => ?_, fun ip => ?_, fun ip => ?_⟩
  · cases a <;> cases ip <;> simp [AddrV2.toIp, AddrV2.ofIp, eq_comm]
  · cases a <;> simp [AddrV2.toIp, AddrV2.toV4]
  · cases a <;> simp [AddrV2.toIp, AddrV2.toV6]

example : (AddrV2.ofIp (.v4 ⟨[1, 2, 3, 4], rfl⟩)).toV4 = .ok ⟨[1, 2, 3, 4], rfl⟩ := rfl

/-- The error names the network of the address: Tor v3 (network 4), I2P (5), CJDNS (6), anything else unknown. -/
theorem C88_v2_error (a : AddrV2) :
    (a.toIp = .error .torV3 ↔ ∃ x, a = .torV3 x) ∧ (a.toIp = .error .i2p ↔ ∃ x, a = .i2p x)
    ∧ (a.toIp = .error .cjdns ↔ ∃ x, a = .cjdns x) ∧ (a.toIp = .error .unknown ↔ ∃ n b, a = .unknown n b)
    ∧ a.toIp ≠ .error .torV2
    ∧ (a.toV4 = .error .torV3 ↔ ∃ x, a = .torV3 x) ∧ (a.toV4 = .error .i2p ↔ ∃ x, a = .i2p x)
    ∧ (a.toV4 = .error .cjdns ↔ ∃ x, a = .cjdns x) ∧ (a.toV4 = .error .unknown ↔ ∃ n b, a = .unknown n b)
    ∧ (a.toV4 = .error .otherIp ↔ ∃ x, a = .ipv6 x)
    ∧ (a.toV6 = .error .torV3 ↔ ∃ x, a = .torV3 x) ∧ (a.toV6 = .error .i2p ↔ ∃ x, a = .i2p x)
    ∧ (a.toV6 = .error .cjdns ↔ ∃ x, a = .cjdns x) ∧ (a.toV6 = .error .unknown ↔ ∃ n b, a = .unknown n b)
    ∧ (a.toV6 = .error .otherIp ↔ ∃ x, a = .ipv4 x) := by
  cases a <;> simp [AddrV2.toIp, AddrV2.toV4, AddrV2.toV6]

/-- The socket of an `AddrV2Message`: the IP address and port, or the error of the conversion to an IP address. -/
theorem C88_v2_socket (m : AddrV2Msg) :
    (∀ s, m.socketAddr = .ok s ↔ s.port = m.port ∧
      ((∃ ip, m.addr.toIp = .ok (.v4 ip) ∧ s = .v4 ip m.port) ∨ ∃ ip, m.addr.toIp = .ok (.v6 ip) ∧ s = .v6 ip m.port 0 0))
    ∧ ∀ e, m.socketAddr = .error e ↔ m.addr.toIp = .error e := by
  obtain ⟨t, sv, a, p⟩ := m
  refine ⟨fun s => ?_, fun e => ?_⟩
  · cases a <;> simp [AddrV2Msg.socketAddr, AddrV2.toIp]
    · constructor
      · rintro rfl; exact ⟨rfl, rfl⟩
      · rintro ⟨_, rfl⟩; rfl
    · constructor
      · rintro rfl; exact ⟨rfl, rfl⟩
      · rintro ⟨_, rfl⟩; rfl
  · cases a <;> simp [AddrV2Msg.socketAddr, AddrV2.toIp]

theorem cs_prefix {x y : Nat} {a b : Bytes} (hx : x < 2 ^ 64) (hy : y < 2 ^ 64)
    (h : csEncode x ++ a = csEncode y ++ b) : x = y ∧ a = b := by
  obtain ⟨P, hl, hw⟩ := csU64_dw
  have h1 := ((Wire.dec hl hw).2 (csEncode x ++ a) x a).2 ⟨hx, rfl⟩
  have h2 := ((Wire.dec hl hw).2 (csEncode x ++ a) y b).2 ⟨hy, h⟩
  rw [h1] at h2
  cases h2
  exact ⟨rfl, rfl⟩

theorem addrV2Msg_ip_inj {m : AddrV2Msg} {t : UInt32} {services : UInt64} {ip : Ip} {port : UInt16}
    (hm : AddrV2Ok m.addr) (h : addrV2MsgBytes ⟨t, services, .ofIp ip, port⟩ = addrV2MsgBytes m) :
    m.services = services ∧ m.addr = .ofIp ip ∧ m.port = port := by
  obtain ⟨mt, ms, ma, mp⟩ := m
  unfold addrV2MsgBytes at h
  simp only [List.append_assoc] at h
  obtain ⟨_, h⟩ := List.append_inj h (by simp [u32le])
  obtain ⟨h1, h⟩ := cs_prefix (UInt64.toNat_lt _) (UInt64.toNat_lt _) h
  unfold addrV2Bytes at h
  simp only [List.append_assoc, List.cons_append, List.nil_append, List.cons.injEq] at h
  obtain ⟨hn, h⟩ := h
  have hl1 : (AddrV2.ofIp ip).data.length < 2 ^ 64 := by
    cases ip <;> simp [AddrV2.ofIp, AddrV2.data, segs_len, arr_len]
  have hl2 : ma.data.length < 2 ^ 64 := by
    have := AddrV2Ok.len hm
    simp only [MAX_VEC_SIZE] at this; omega
  obtain ⟨h2, h⟩ := cs_prefix hl1 hl2 h
  obtain ⟨h3, h4⟩ := List.append_inj h h2
  refine ⟨(UInt64.toNat_inj.1 h1).symm, ?_, (u16be_inj h4).symm⟩
  cases ip with
  | v4 x =>
    cases ma with
    | ipv4 y => exact congrArg AddrV2.ipv4 (Subtype.ext h3).symm
    | unknown n b => exact absurd hn.symm hm.1
    | _ => simp [AddrV2.ofIp, AddrV2.net] at hn
  | v6 x =>
    cases ma with
    | ipv6 y => exact congrArg AddrV2.ipv6 (Subtype.ext (segBytes_inj h3)).symm
    | unknown n b => exact absurd hn.symm hm.2.1
    | _ => simp [AddrV2.ofIp, AddrV2.net] at hn

/-- From node to node with BIP155: the bytes of an `AddrV2Message` for an IP address are accepted by the peer
exactly when the address is not an onion or IPv4 address in IPv6 form, and then give the same socket. -/
theorem C88_v2_wire (t : UInt32) (services : UInt64) (ip : Ip) (port : UInt16) (w : Bytes)
    (hw : Drains addrV2MsgEnc (AddrV2Msg.encoder ⟨t, services, .ofIp ip, port⟩) w) :
    ((∃ m, addrV2MsgDec.decodeSlice w = .ok m) ↔
      ∀ x, ip = .v6 x → ¬OnionCat (segBytes x.1) ∧ ¬Mapped (segBytes x.1))
    ∧ ∀ m, addrV2MsgDec.decodeSlice w = .ok m → m.services = services ∧
        m.socketAddr = .ok (match ip with | .v4 x => .v4 x port | .v6 x => .v6 x port 0 0) := by
  have e := hw.det (addrV2Msg_drains _)
  obtain ⟨P, hl, hw'⟩ := addrV2Msg_dw
  have hd := (Wire.dec hl hw').1
  have hok : AddrV2Ok (.ofIp ip) ↔ ∀ x, ip = .v6 x → ¬OnionCat (segBytes x.1) ∧ ¬Mapped (segBytes x.1) := by
    cases ip with
    | v4 x => simp [AddrV2.ofIp, AddrV2Ok]
    | v6 x => simp [AddrV2.ofIp, AddrV2Ok, ← onion_iff, ← mapped_iff]
  refine ⟨⟨?_, ?_⟩, ?_⟩
  · rintro ⟨m, hm⟩
    obtain ⟨h1, h2⟩ := (hd _ _).1 hm
    obtain ⟨_, h3, _⟩ := addrV2Msg_ip_inj h1 (e.symm.trans h2)
    exact hok.1 (h3 ▸ h1)
  · intro h
    exact ⟨_, (hd _ _).2 ⟨hok.2 h, e⟩⟩
  · intro m hm
    obtain ⟨h1, h2⟩ := (hd _ _).1 hm
    obtain ⟨h3, h4, h5⟩ := addrV2Msg_ip_inj h1 (e.symm.trans h2)
    refine ⟨h3, ?_⟩
    unfold AddrV2Msg.socketAddr
    rw [h4, h5]
    cases ip <;> rfl

example : Drains addrV2MsgEnc (AddrV2Msg.encoder ⟨7, 9, .ofIp (.v4 ⟨[10, 1, 2, 3], rfl⟩), 8333⟩)
    (addrV2MsgBytes ⟨7, 9, .ofIp (.v4 ⟨[10, 1, 2, 3], rfl⟩), 8333⟩) := addrV2Msg_drains _

end P2p
end Btc
