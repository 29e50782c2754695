import Verif.Bytes
/-!
# Signature hash types (`crypto/src/sighash.rs`)
-/
namespace Btc
namespace Crypto

/-- `EcdsaSighashType` (sighash.rs 105-122). -/
inductive Ecdsa where
  | all | none | single | allAcp | noneAcp | singleAcp
  deriving DecidableEq, Repr

/-- `TapSighashType` (sighash.rs 23-42). -/
inductive Tap where
  | default | all | none | single | allAcp | noneAcp | singleAcp
  deriving DecidableEq, Repr

/-- The discriminants (107-121) read by `to_u32` (221); `self as u8` (ecdsa.rs 82, 96) is `(toU32 t).toUInt8`. -/
def Ecdsa.toU32 : Ecdsa → UInt32
  | .all => 0x01 | .none => 0x02 | .single => 0x03 | .allAcp => 0x81 | .noneAcp => 0x82 | .singleAcp => 0x83

/-- The discriminants of `TapSighashType` (26-41), `self as u8`. -/
def Tap.toU8 : Tap → UInt8
  | .default => 0x00 | .all => 0x01 | .none => 0x02 | .single => 0x03
  | .allAcp => 0x81 | .noneAcp => 0x82 | .singleAcp => 0x83

/-- `Display for EcdsaSighashType` (126-139). -/
def Ecdsa.display : Ecdsa → String
  | .all => "SIGHASH_ALL"
  | .none => "SIGHASH_NONE"
  | .single => "SIGHASH_SINGLE"
  | .allAcp => "SIGHASH_ALL|SIGHASH_ANYONECANPAY"
  | .noneAcp => "SIGHASH_NONE|SIGHASH_ANYONECANPAY"
  | .singleAcp => "SIGHASH_SINGLE|SIGHASH_ANYONECANPAY"

/-- `FromStr for EcdsaSighashType` (141-156); the error carries the string. -/
def Ecdsa.parse (s : String) : Except String Ecdsa :=
  match s with
  | "SIGHASH_ALL" => .ok .all
  | "SIGHASH_NONE" => .ok .none
  | "SIGHASH_SINGLE" => .ok .single
  | "SIGHASH_ALL|SIGHASH_ANYONECANPAY" => .ok .allAcp
  | "SIGHASH_NONE|SIGHASH_ANYONECANPAY" => .ok .noneAcp
  | "SIGHASH_SINGLE|SIGHASH_ANYONECANPAY" => .ok .singleAcp
  | s => .error s

/-- `Display for TapSighashType` (46-60). -/
def Tap.display : Tap → String
  | .default => "SIGHASH_DEFAULT"
  | .all => "SIGHASH_ALL"
  | .none => "SIGHASH_NONE"
  | .single => "SIGHASH_SINGLE"
  | .allAcp => "SIGHASH_ALL|SIGHASH_ANYONECANPAY"
  | .noneAcp => "SIGHASH_NONE|SIGHASH_ANYONECANPAY"
  | .singleAcp => "SIGHASH_SINGLE|SIGHASH_ANYONECANPAY"

/-- `FromStr for TapSighashType` (62-78). -/
def Tap.parse (s : String) : Except String Tap :=
  match s with
  | "SIGHASH_DEFAULT" => .ok .default
  | "SIGHASH_ALL" => .ok .all
  | "SIGHASH_NONE" => .ok .none
  | "SIGHASH_SINGLE" => .ok .single
  | "SIGHASH_ALL|SIGHASH_ANYONECANPAY" => .ok .allAcp
  | "SIGHASH_NONE|SIGHASH_ANYONECANPAY" => .ok .noneAcp
  | "SIGHASH_SINGLE|SIGHASH_ANYONECANPAY" => .ok .singleAcp
  | s => .error s

/-- `EcdsaSighashType::is_single` (166). -/
def Ecdsa.isSingle : Ecdsa → Bool
  | .single | .singleAcp => true
  | _ => false

/-- `EcdsaSighashType::from_consensus` (178-196). -/
def Ecdsa.fromConsensus (n : UInt32) : Ecdsa :=
  let mask : UInt32 := 0x1f ||| 0x80
  let x := n &&& mask
  if x = 0x01 then .all
  else if x = 0x02 then .none
  else if x = 0x03 then .single
  else if x = 0x81 then .allAcp
  else if x = 0x82 then .noneAcp
  else if x = 0x83 then .singleAcp
  else if x &&& 0x80 = 0x80 then .allAcp
  else .all

/-- `EcdsaSighashType::from_standard` (204-215); the error carries the number. -/
def Ecdsa.fromStandard (n : UInt32) : Except UInt32 Ecdsa :=
  if n = 0x01 then .ok .all
  else if n = 0x02 then .ok .none
  else if n = 0x03 then .ok .single
  else if n = 0x81 then .ok .allAcp
  else if n = 0x82 then .ok .noneAcp
  else if n = 0x83 then .ok .singleAcp
  else .error n

/-- `TapSighashType::from_consensus_u8` (87-98). -/
def Tap.fromConsensusU8 (b : UInt8) : Except UInt32 Tap :=
  if b = 0x00 then .ok .default
  else if b = 0x01 then .ok .all
  else if b = 0x02 then .ok .none
  else if b = 0x03 then .ok .single
  else if b = 0x81 then .ok .allAcp
  else if b = 0x82 then .ok .noneAcp
  else if b = 0x83 then .ok .singleAcp
  else .error b.toUInt32

/-- `From<EcdsaSighashType> for TapSighashType` (224-236). -/
def Tap.ofEcdsa : Ecdsa → Tap
  | .all => .all | .none => .none | .single => .single
  | .allAcp => .allAcp | .noneAcp => .noneAcp | .singleAcp => .singleAcp

/-- `split_anyonecanpay_flag` of `EcdsaSighashType` (bitcoin/src/crypto/sighash.rs 300-313). -/
def Ecdsa.splitAcp : Ecdsa → Ecdsa × Bool
  | .all => (.all, false) | .none => (.none, false) | .single => (.single, false)
  | .allAcp => (.all, true) | .noneAcp => (.none, true) | .singleAcp => (.single, true)

/-- `split_anyonecanpay_flag` of `TapSighashType` (bitcoin/src/crypto/sighash.rs 315-329). -/
def Tap.splitAcp : Tap → Tap × Bool
  | .default => (.default, false)
  | .all => (.all, false) | .none => (.none, false) | .single => (.single, false)
  | .allAcp => (.all, true) | .noneAcp => (.none, true) | .singleAcp => (.single, true)

end Crypto
end Btc
