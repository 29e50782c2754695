import Verif.P2p.Payloads
/-!
# User agents

Model of the construction of BIP14 user agents, `p2p/src/message_network.rs` 194-381.  A Rust string is the list of
its characters.  A failed assertion is the error value.
-/
namespace Btc
namespace P2p

abbrev Str := List Char

/-- The two assertions (242-254). -/
inductive UaPanic where
  | invalidChars | maxLen
  deriving DecidableEq

/-- `panic_invalid_chars` (242-247). -/
def panicInvalidChars (s : Str) : Except UaPanic Unit :=
  if s.any (fun c => c = '/' || c = '(' || c = ')' || c = ':') then .error .invalidChars else .ok ()
/-- `MAX_USER_AGENT_LEN` (240). -/
def MAX_USER_AGENT_LEN : Nat := 256
/-- `panic_max_len` (249-254). -/
def panicMaxLen (s : Str) : Except UaPanic Unit :=
  if s.length ≤ MAX_USER_AGENT_LEN then .ok () else .error .maxLen

/-- `ClientSoftwareVersion` (352-371). -/
inductive SwVersion where
  | semVer (major minor revision : UInt16)
  | date (yyyy : UInt16) (mm dd : UInt8)
  deriving DecidableEq

/-- `{n}` for an unsigned integer (Rust core). -/
def decStr (n : Nat) : Str := Nat.toDigits 10 n
/-- `{n:02}` (Rust core). -/
def decStr2 (n : Nat) : Str := List.replicate (2 - (decStr n).length) '0' ++ decStr n

/-- `Display for ClientSoftwareVersion` (373-380); without width or precision. -/
def SwVersion.text : SwVersion → Str
  | .date y m d => decStr y.toNat ++ decStr2 m.toNat ++ decStr2 d.toNat
  | .semVer a b c => decStr a.toNat ++ ['.'] ++ decStr b.toNat ++ ['.'] ++ decStr c.toNat

/-- `UserAgentVersion` (304-307). -/
structure UaVersion where
  version : SwVersion
  comments : Option Str
/-- `UserAgentVersion::new` (311-313). -/
def UaVersion.new (v : SwVersion) : UaVersion := ⟨v, none⟩
/-- `push_comment` (324-336). -/
def UaVersion.pushComment (v : UaVersion) (c : Str) : Except UaPanic UaVersion :=
  match panicInvalidChars c with
  | .error e => .error e
  | .ok () => match v.comments with
    | some old => .ok ⟨v.version, some (old ++ ([';', ' '] ++ c))⟩
    | none => .ok ⟨v.version, some c⟩
/-- `Display for UserAgentVersion` (339-348). -/
def UaVersion.text (v : UaVersion) : Str :=
  match v.comments with
  | some c => v.version.text ++ (['('] ++ c ++ [')'])
  | none => v.version.text

/-- `UserAgent` (194-196). -/
structure UserAgent where
  userAgent : Str
/-- `UserAgent::new` (261-267). -/
def UserAgent.new (name : Str) (v : UaVersion) : Except UaPanic UserAgent :=
  match panicInvalidChars name with
  | .error e => .error e
  | .ok () =>
    let agent := ['/'] ++ name ++ [':'] ++ v.text ++ ['/']
    match panicMaxLen agent with
    | .error e => .error e
    | .ok () => .ok ⟨agent⟩
/-- `UserAgent::from_nonstandard` (270-272). -/
def UserAgent.fromNonstandard (s : Str) : UserAgent := ⟨s⟩
/-- `UserAgent::add_client` (280-291). -/
def UserAgent.addClient (ua : UserAgent) (name : Str) (v : UaVersion) : Except UaPanic UserAgent :=
  match panicInvalidChars name with
  | .error e => .error e
  | .ok () =>
    let s := ua.userAgent ++ (name ++ [':'] ++ v.text ++ ['/'])
    match panicMaxLen s with
    | .error e => .error e
    | .ok () => .ok ⟨s⟩
/-- `Display for UserAgent` (294-296), `From<UserAgent> for String` (298-300). -/
def UserAgent.text (ua : UserAgent) : Str := ua.userAgent

/-- What a program does with this interface: one client software, described by its name, version and comments. -/
structure Client where
  name : Str
  version : SwVersion
  comments : List Str

/-- `UserAgentVersion::new(version).push_comment(c₁).push_comment(c₂)…` -/
def pushAll : UaVersion → List Str → Except UaPanic UaVersion
  | v, [] => .ok v
  | v, c :: cs => match v.pushComment c with
    | .error e => .error e
    | .ok v => pushAll v cs
def addAll : UserAgent → List Client → Except UaPanic UserAgent
  | ua, [] => .ok ua
  | ua, c :: cs => match pushAll (.new c.version) c.comments with
    | .error e => .error e
    | .ok v => match ua.addClient c.name v with
      | .error e => .error e
      | .ok ua => addAll ua cs
/-- `UserAgent::new(..).add_client(..).add_client(..)…` -/
def buildAgent (c : Client) (cs : List Client) : Except UaPanic UserAgent :=
  match pushAll (.new c.version) c.comments with
  | .error e => .error e
  | .ok v => match UserAgent.new c.name v with
    | .error e => .error e
    | .ok ua => addAll ua cs

end P2p
end Btc
