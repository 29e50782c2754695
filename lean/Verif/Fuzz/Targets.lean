import Verif.Primitives.OutPointText
import Verif.Primitives.Transaction
import Verif.Units.AmountText
import Verif.Units.HexInt
import Verif.Script.Script
import Verif.Addresses.Address
import Verif.P2p.Socket
/-!
# Fuzz targets on text and scripts

What the targets of `fuzz/fuzz_targets` assert about one input, as a proposition: every `assert!` reached holds and no `panic!` or `unwrap` is
reached in vain.  Where a target first turns its input into a string, any bytes are allowed here.
-/
namespace Btc
namespace Fuzz

/-- The lower-casing of `bitcoin/parse_outpoint.rs` (12-24). -/
def lowerHexLetters (data : Bytes) : Bytes := data.map fun c => if 65 ≤ c.toNat ∧ c.toNat ≤ 70 then c + 32 else c

/-- `bitcoin/parse_outpoint.rs` (11-48). -/
def parseOutPointTarget (data : Bytes) : Prop :=
  match parseOutPoint (lowerHexLetters data) with
  | .ok op => op.display = lowerHexLetters data
  | .error _ =>
    match outPointDec.decodeSlice data with
    | .ok o => Drains outPointEnc o.encoder data ∧ parseOutPoint o.display = .ok o
    | .error _ => True

/-- `units/parse_amount.rs` (8-36). -/
def parseAmountTarget (alpha : Bytes → Option Nat) (s : Bytes) : Prop :=
  match Amt.sFromStrAmt alpha s with
  | .error _ => True
  | .ok samt =>
    match (Amt.sToStringWithDenom samt .btc).map (Amt.sFromStrAmt alpha) with
    | none => False
    | some (.error _) => True
    | some (.ok r) => samt = r ∧
      match Amt.fromStrAmt alpha s with
      | .error _ => True
      | .ok amt =>
        match Amt.fromStrAmt alpha (Amt.display amt) with
        | .error _ => True
        | .ok r => amt = r

/-- The assertions of `units/parse_int.rs` (24-42), for one width. -/
def parseIntTarget (bits : Nat) (s : Bytes) : Prop :=
  ((HexInt.prefixed bits s).isOk → (HexInt.any bits s).isOk ∧ ¬ (HexInt.unprefixed bits s).isOk) ∧
  ((HexInt.unprefixed bits s).isOk → (HexInt.any bits s).isOk ∧ ¬ (HexInt.prefixed bits s).isOk)

/-- The loop of `bitcoin/arbitrary_script.rs` (27-46): `none` if an instruction is an error (the target returns). -/
def rebuild (builder : Bytes) : List (Except Scr.ScrErr Scr.Instr) → Option Bytes
  | [] => some builder
  | .error _ :: _ => none
  | .ok (.op o) :: t => rebuild (Scr.pushOpcode builder o) t
  | .ok (.push b) :: t => rebuild (Scr.pushSliceNonMinimal builder b) t

/-- The assertions of `bitcoin/arbitrary_script.rs` (47-53). -/
def scriptTarget (s : Bytes) : Prop :=
  match rebuild [] (Scr.instructionsMinimal s) with
  | none => True
  | some t => t = s ∧ match Addr.Address.fromScript s .bitcoin with
    | .error _ => True
    | .ok a => a.scriptPubkey = s

/-- `p2p/arbitrary_addrv2.rs` (12-27). -/
def addrV2Target (a : P2p.AddrV2) : Prop :=
  (match a.toIp with | .error _ => True | .ok ip => a = .ofIp ip) ∧
  (match a.toV4 with | .error _ => True | .ok ip => a = .ofIp (.v4 ip)) ∧
  (match a.toV6 with | .error _ => True | .ok ip => a = .ofIp (.v6 ip))

/-- `bitcoin/parse_address.rs` (9-16). -/
def parseAddressTarget (D : Bytes → Arr 32) (s : Bytes) : Prop :=
  match Addr.Address.parse D s with
  | .error _ => True
  | .ok a => a.display D false = some s

end Fuzz
end Btc
