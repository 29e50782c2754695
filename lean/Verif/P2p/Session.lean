import Verif.P2p.Message
/-!
# Conversations

The two programs of p2p/examples: `handshake.rs` and `ping-pong.rs`. Each writes its `version` message, then reads v1 messages from a
buffered stream with `decode_from_read` and answers them. Between two reads of the socket the state of a program is that of the
decoder of the message in progress (the buffer is then used up). Printing, the time and the socket itself are left out; writes
succeed; the socket delivers what was written to it, in order, in pieces of any size.
-/
namespace Btc
namespace P2p

/-- What a program does with a message: write messages and go on, leave the loop, panic. -/
inductive Reaction where
  | send (ps : List Msg)
  | stop
  | panic

/-- The loop body of `handshake.rs` (p2p/examples/handshake.rs 48-70). -/
def handshakeReact : Msg → Reaction
  | .known .version _ => .send [.empty .verack]
  | .empty .verack => .stop
  | _ => .stop

/-- The loop body of `ping-pong.rs` (p2p/examples/ping-pong.rs 53-70), with `Pong::from_ping` (p2p/src/message.rs 550-553). -/
def pingPongReact : Msg → Reaction
  | .known .ping n => .send [.known .pong n]
  | .known .sendCmpct _ => .send []
  | .empty .verack => .send []
  | .known .version _ => .send [.empty .verack]
  | .known .feeFilter _ => .send []
  | _ => .panic

/-- `encode_to_writer(&V1NetworkMessage::new(magic, p))` (p2p/src/message.rs 753-757, 1002-1022); `none` is a panic of `new`. -/
def sendV1 (H : Bytes → Arr 32) (magic : Arr 4) (p : Msg) : Option Bytes :=
  match p.command with
  | none => none
  | some c => match headerNew H magic p.bytes c with
    | none => none
    | some h => some (h.magic.1 ++ h.command.1 ++ u32le h.length ++ h.checksum.1 ++ p.bytes)

/-- Several of them. -/
def sendAll (H : Bytes → Arr 32) (magic : Arr 4) : List Msg → Option Bytes
  | [] => some []
  | p :: ps => match sendV1 H magic p, sendAll H magic ps with
    | some w, some r => some (w ++ r)
    | _, _ => none

/-- A program: reading (with the state of the decoder), done, or ended by a panic. -/
inductive Run (S : Type) where
  | reading (s : S)
  | stopped
  | failed

/-- What one delivery of bytes leads to. -/
structure Served (S : Type) where
  run : Run S
  received : List V1Msg
  written : Bytes

/-- The loop of both programs (handshake.rs 43-71, ping-pong.rs 49-71) over the bytes `bs` delivered while the decoder is in state `s`.
The test on the lengths is for termination: the decoder takes at least one byte (it is a theorem that the other branch is not taken). -/
def serve (H : Bytes → Arr 32) (magic : Arr 4) (react : Msg → Reaction) (s : (v1Dec H).S) (bs : Bytes) : Served (v1Dec H).S :=
  match (v1Dec H).feed s bs with
  | .needsMore s' => ⟨.reading s', [], []⟩
  | .err _ => ⟨.failed, [], []⟩
  | .stuck => ⟨.failed, [], []⟩
  | .ready s' rest =>
    match (v1Dec H).fin s' with
    | .error _ => ⟨.failed, [], []⟩
    | .ok m =>
      match react m.payload with
      | .stop => ⟨.stopped, [m], []⟩
      | .panic => ⟨.failed, [m], []⟩
      | .send ps =>
        match sendAll H magic ps with
        | none => ⟨.failed, [m], []⟩
        | some w =>
          if rest.length < bs.length then
            let r := serve H magic react (v1Dec H).init rest
            ⟨r.run, m :: r.received, w ++ r.written⟩
          else ⟨.failed, [m], w⟩
termination_by bs.length

/-- A program with what it has received so far. -/
structure Node (S : Type) where
  run : Run S
  received : List V1Msg

/-- A delivery of bytes to a program: the program afterwards and what it writes. -/
def Node.recv (H : Bytes → Arr 32) (magic : Arr 4) (react : Msg → Reaction) (n : Node (v1Dec H).S) (c : Bytes) : Node (v1Dec H).S × Bytes :=
  match n.run with
  | .reading s => let r := serve H magic react s c; (⟨r.run, n.received ++ r.received⟩, r.written)
  | _ => (n, [])

/-- Deliveries one after the other. -/
def Node.recvAll (H : Bytes → Arr 32) (magic : Arr 4) (react : Msg → Reaction) (n : Node (v1Dec H).S) : List Bytes → Node (v1Dec H).S × Bytes
  | [] => (n, [])
  | c :: cs =>
    let r := n.recv H magic react c
    let r' := r.1.recvAll H magic react cs
    (r'.1, r.2 ++ r'.2)

/-- A program that has connected (handshake.rs 37-42, ping-pong.rs 44-48). -/
def Node.start (H : Bytes → Arr 32) : Node (v1Dec H).S := ⟨.reading (v1Dec H).init, []⟩

/-- Two programs connected to each other; `toA` and `toB` are the bytes under way. -/
structure Link (S : Type) where
  a : Node S
  b : Node S
  toA : Bytes
  toB : Bytes

/-- Two handshake programs that have connected and written their `version` messages (handshake.rs 37-42). -/
def Link.start (H : Bytes → Arr 32) (magicA magicB : Arr 4) (vA vB : VersionMsg) : Option (Link (v1Dec H).S) :=
  match sendV1 H magicA (.known .version vA), sendV1 H magicB (.known .version vB) with
  | some wA, some wB => some ⟨.start H, .start H, wB, wA⟩
  | _, _ => none

/-- One of the two programs, still reading, gets some of the bytes under way to it. -/
inductive Link.Step (H : Bytes → Arr 32) (magicA magicB : Arr 4) (react : Msg → Reaction) : Link (v1Dec H).S → Link (v1Dec H).S → Prop
  | a (l : Link (v1Dec H).S) (s : (v1Dec H).S) (c rest : Bytes) : l.a.run = .reading s → c ≠ [] → l.toA = c ++ rest →
      Link.Step H magicA magicB react l ⟨(l.a.recv H magicA react c).1, l.b, rest, l.toB ++ (l.a.recv H magicA react c).2⟩
  | b (l : Link (v1Dec H).S) (s : (v1Dec H).S) (c rest : Bytes) : l.b.run = .reading s → c ≠ [] → l.toB = c ++ rest →
      Link.Step H magicA magicB react l ⟨l.a, (l.b.recv H magicB react c).1, l.toA ++ (l.b.recv H magicB react c).2, rest⟩

/-- An execution of `n` steps. -/
inductive Link.Steps (H : Bytes → Arr 32) (magicA magicB : Arr 4) (react : Msg → Reaction) (l0 : Link (v1Dec H).S) : Nat → Link (v1Dec H).S → Prop
  | zero : Link.Steps H magicA magicB react l0 0 l0
  | step {n : Nat} {l l' : Link (v1Dec H).S} : Link.Steps H magicA magicB react l0 n l → Link.Step H magicA magicB react l l' →
      Link.Steps H magicA magicB react l0 (n + 1) l'

end P2p
end Btc
