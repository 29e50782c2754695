import Verif.Io.Io
/-!
# io/src/bridge.rs and the conversions of io/src/error.rs

Streams of the standard library, the errors they report, and the wrappers `FromStd` and `ToStd`.  The standard library is modelled by its
interface: an error has a kind and is a code of the operating system, a bare kind, a static message, or has a payload.
-/
namespace Btc
namespace Io

/-- `ErrorKind` (io/src/error.rs 166-204). -/
inductive ErrKind where
  | notFound | permissionDenied | connectionRefused | connectionReset | connectionAborted | notConnected | addrInUse
  | addrNotAvailable | brokenPipe | alreadyExists | wouldBlock | invalidInput | invalidData | timedOut | writeZero | interrupted
  | unexpectedEof | other
deriving DecidableEq, Repr

/-- `std::io::ErrorKind`: the variants of the same names, and those the crate does not list. -/
inductive StdKind where
  | notFound | permissionDenied | connectionRefused | connectionReset | connectionAborted | notConnected | addrInUse
  | addrNotAvailable | brokenPipe | alreadyExists | wouldBlock | invalidInput | invalidData | timedOut | writeZero | interrupted
  | unexpectedEof | other
  | unlisted (n : Nat)
deriving DecidableEq, Repr

/-- `ErrorKind::to_std`, `from_std` (149-161). -/
def ErrKind.toStd : ErrKind → StdKind
  | .notFound => .notFound | .permissionDenied => .permissionDenied | .connectionRefused => .connectionRefused
  | .connectionReset => .connectionReset | .connectionAborted => .connectionAborted | .notConnected => .notConnected
  | .addrInUse => .addrInUse | .addrNotAvailable => .addrNotAvailable | .brokenPipe => .brokenPipe | .alreadyExists => .alreadyExists
  | .wouldBlock => .wouldBlock | .invalidInput => .invalidInput | .invalidData => .invalidData | .timedOut => .timedOut
  | .writeZero => .writeZero | .interrupted => .interrupted | .unexpectedEof => .unexpectedEof | .other => .other
def ErrKind.fromStd : StdKind → ErrKind
  | .notFound => .notFound | .permissionDenied => .permissionDenied | .connectionRefused => .connectionRefused
  | .connectionReset => .connectionReset | .connectionAborted => .connectionAborted | .notConnected => .notConnected
  | .addrInUse => .addrInUse | .addrNotAvailable => .addrNotAvailable | .brokenPipe => .brokenPipe | .alreadyExists => .alreadyExists
  | .wouldBlock => .wouldBlock | .invalidInput => .invalidInput | .invalidData => .invalidData | .timedOut => .timedOut
  | .writeZero => .writeZero | .interrupted => .interrupted | .unexpectedEof => .unexpectedEof | .other => .other
  | .unlisted _ => .other

/-- `Error` (13-28) with a payload of any type. -/
structure IoErr (P : Type) where
  kind : ErrKind
  payload : Option P
deriving DecidableEq

/-- `std::io::Error`; the kind of a code of the operating system is given with it. -/
inductive StdErr (P : Type) where
  | os (code : Int) (k : StdKind)
  | simple (k : StdKind)
  | message (k : StdKind) (m : Nat)
  | custom (k : StdKind) (p : P)
deriving DecidableEq

/-- `std::io::Error::kind`, `into_inner`. -/
def StdErr.kind {P : Type} : StdErr P → StdKind
  | .os _ k | .simple k | .message k _ | .custom k _ => k
def StdErr.intoInner {P : Type} : StdErr P → Option P
  | .custom _ p => some p
  | _ => none

/-- `From<std::io::Error> for Error` (94-102), `From<Error> for std::io::Error` (105-113). -/
def IoErr.fromStd {P : Type} (o : StdErr P) : IoErr P := ⟨ErrKind.fromStd o.kind, o.intoInner⟩
def IoErr.toStd {P : Type} (o : IoErr P) : StdErr P :=
  match o.payload with
  | some p => .custom o.kind.toStd p
  | none => .simple o.kind.toStd

/-- Streams with errors of a type, as `std::io::Read`, `BufRead` and `Write`, or those of the crate, are. -/
structure Stream (E σ : Type) where
  read : σ → Nat → σ × Except E Bytes
  fill : σ → σ × Except E Bytes
  consume : σ → Nat → Option σ
  write : σ → Bytes → σ × Except E Nat
  flush : σ → σ × Except E Unit

/-- `map_err`. -/
def mapErr {E E' α : Type} (f : E → E') : Except E α → Except E' α
  | .ok a => .ok a
  | .error e => .error (f e)

/-- `Read`, `BufRead`, `Write` for `FromStd` (bridge.rs 48-81); `impl_our!` (209-256) is the same for the types of `std`. -/
def FromStd {P σ : Type} (S : Stream (StdErr P) σ) : Stream (IoErr P) σ where
  read s n := let (s', r) := S.read s n; (s', mapErr IoErr.fromStd r)
  fill s := let (s', r) := S.fill s; (s', mapErr IoErr.fromStd r)
  consume := S.consume
  write s b := let (s', r) := S.write s b; (s', mapErr IoErr.fromStd r)
  flush s := let (s', r) := S.flush s; (s', mapErr IoErr.fromStd r)

/-- `std::io::Read`, `BufRead`, `Write` for `ToStd` (145-178). -/
def ToStd {P σ : Type} (S : Stream (IoErr P) σ) : Stream (StdErr P) σ where
  read s n := let (s', r) := S.read s n; (s', mapErr IoErr.toStd r)
  fill s := let (s', r) := S.fill s; (s', mapErr IoErr.toStd r)
  consume := S.consume
  write s b := let (s', r) := S.write s b; (s', mapErr IoErr.toStd r)
  flush s := let (s', r) := S.flush s; (s', mapErr IoErr.toStd r)

/-- The kind as Io.lean has it. -/
def ErrKind.toKind : ErrKind → Kind
  | .interrupted => .interrupted
  | .unexpectedEof => .unexpectedEof
  | .notFound => .other 0 | .permissionDenied => .other 1 | .connectionRefused => .other 2 | .connectionReset => .other 3
  | .connectionAborted => .other 4 | .notConnected => .other 5 | .addrInUse => .other 6 | .addrNotAvailable => .other 7
  | .brokenPipe => .other 8 | .alreadyExists => .other 9 | .wouldBlock => .other 10 | .invalidInput => .other 11
  | .invalidData => .other 12 | .timedOut => .other 13 | .writeZero => .other 14 | .other => .other 15

/-- A stream of the crate as the functions of Io.lean see it. -/
def Stream.reader {P σ : Type} (S : Stream (IoErr P) σ) : BufReader σ where
  read s n := let (s', r) := S.read s n; (s', mapErr (fun e => e.kind.toKind) r)
  fill s := let (s', r) := S.fill s; (s', mapErr (fun e => e.kind.toKind) r)
  consume := S.consume

end Io
end Btc
