import Verif.Units.U256
import Verif.Primitives.Block
/-!
# Model of proof of work (units/src/pow.rs, bitcoin/src/pow.rs, bitcoin/src/network/params.rs)

`Target` and `Work` are their `U256`; `u32` values of local computations are `Nat`.  Bitwise operations
on `u32` are the bitwise operations on `Nat`.
-/
namespace Btc
namespace Pow

/-- `Target::from_compact` (units pow.rs 175-200). -/
def fromCompact (c : UInt32) : U256 :=
  let bits := c.toNat
  let unshiftedExpt := bits >>> 24
  let mant := if unshiftedExpt ≤ 3 then (bits &&& 0xFFFFFF) >>> (8 * (3 - unshiftedExpt)) else bits &&& 0xFFFFFF
  let expt := if unshiftedExpt ≤ 3 then 0 else 8 * (bits >>> 24 - 3)
  let overflow := mant ≠ 0 ∧
    (unshiftedExpt > 34 ∨ (mant > 0xFF ∧ unshiftedExpt > 33) ∨ (mant > 0xFFFF ∧ unshiftedExpt > 32))
  if mant > 0x7FFFFF ∨ overflow then U256.zero
  else U256.shl (U256.ofU128 (BitVec.ofNat 128 mant)) expt

/-- `Target::to_compact_lossy` (units pow.rs 206-221). -/
def toCompactLossy (t : U256) : UInt32 :=
  let size := (t.bits + 7) / 8
  let compact :=
    if size ≤ 3 then ((U256.lowU64 t).toNat <<< (8 * (3 - size))) % 2 ^ 64 % 2 ^ 32
    else (U256.lowU32 (U256.shr t (8 * (size - 3)))).toNat
  if compact &&& 0x00800000 ≠ 0 then UInt32.ofNat ((compact >>> 8) ||| ((size + 1) <<< 24))
  else UInt32.ofNat (compact ||| (size <<< 24))

/-- `Target::to_work` and `Work::to_target` (units pow.rs 103, 228). -/
def toWork (t : U256) : Option U256 := t.inverse
def toTarget (w : U256) : Option U256 := w.inverse

/-- `Target::is_met_by` (bitcoin pow.rs 55-58). -/
def isMetBy (t : U256) (hash : Arr 32) : Bool := U256.le (U256.ofLeBytes hash) t

/-- `difficulty_with_max` (bitcoin pow.rs 86-94). -/
def difficultyWithMax (t max : U256) : Option Nat :=
  if t = U256.zero then none
  else (U256.div max t).map fun d => d.saturatingToU128.toNat

/-- The fields of `Params` used here (params.rs 78-117). -/
structure Params where
  enforceBip94 : Bool
  maxAttainable : U256
  spacing : Nat
  timespan : Nat
  allowMinDifficulty : Bool
  noRetargeting : Bool

/-- `Target::MAX_ATTAINABLE_*` (units pow.rs 155-170). -/
def maxMainnet : U256 := ⟨BitVec.ofNat 128 (0xFFFF * 2 ^ 80), 0⟩
def maxTestnet : U256 := ⟨BitVec.ofNat 128 (0xFFFF * 2 ^ 80), 0⟩
def maxRegtest : U256 := ⟨BitVec.ofNat 128 (0x7FFFFF00 * 2 ^ 96), 0⟩
def maxSignet : U256 := ⟨BitVec.ofNat 128 (0x0377ae00 * 2 ^ 80), 0⟩

/-- `Network` with its parameters (params.rs 143-262). -/
inductive Network where
  | bitcoin | testnet3 | testnet4 | signet | regtest
deriving DecidableEq, Repr

def Network.params : Network → Params
  | .bitcoin => ⟨false, maxMainnet, 600, 1209600, false, false⟩
  | .testnet3 => ⟨false, maxTestnet, 600, 1209600, true, false⟩
  | .testnet4 => ⟨true, maxTestnet, 600, 1209600, true, false⟩
  | .signet => ⟨false, maxSignet, 600, 1209600, false, false⟩
  | .regtest => ⟨false, maxRegtest, 600, 1209600, true, true⟩

/-- `min_transition_threshold` (bitcoin pow.rs 167-169). -/
def minThreshold (t : U256) : U256 := U256.shr t 2

/-- `max_transition_threshold_unchecked` (196-198). -/
def maxThresholdUnchecked (t : U256) : U256 := U256.shl t 2

/-- `max_transition_threshold` (179-182); `cmp::min` returns the first of equal values. -/
def maxThreshold (t : U256) (p : Params) : U256 :=
  if U256.le (maxThresholdUnchecked t) p.maxAttainable then maxThresholdUnchecked t else p.maxAttainable

/-- `i64::clamp`; `none` is the panic for `min > max`. -/
def clamp (x lo hi : Int) : Option Int :=
  if lo > hi then none else some (if x < lo then lo else if x > hi then hi else x)

/-- `CompactTarget::from_next_work_required` (bitcoin pow.rs 306-330); `none` is a panic (clamp, division
by zero).  `<< 2` on `u32` drops high bits. -/
def fromNextWorkRequired (last : UInt32) (timespan : Int) (p : Params) : Option UInt32 :=
  if p.noRetargeting then some last
  else
    match clamp timespan (p.timespan >>> 2 : Nat) (p.timespan <<< 2 % 2 ^ 32 : Nat) with
    | none => none
    | some actual =>
      let prev := fromCompact last
      let maxR := maxThreshold prev p
      let r := (U256.mulU64 prev (BitVec.ofNat 64 actual.toNat)).1
      match U256.div r (U256.ofU128 (BitVec.ofNat 128 p.timespan)) with
      | none => none
      | some r => some (if U256.le maxR r then toCompactLossy maxR else toCompactLossy r)

/-- `from_header_difficulty_adjustment` (350-367). -/
def fromHeaders (first current : Header) (p : Params) : Option UInt32 :=
  fromNextWorkRequired (if p.enforceBip94 then first.bits else current.bits)
    ((current.time.toNat : Int) - (first.time.toNat : Int)) p

/-- `is_retarget_height` (275-277); `none` is the division by zero. -/
def isRetarget (height interval : Nat) : Option Bool :=
  if interval = 0 then none else some (height % interval = 0)

/-- `BlockHash::GENESIS_PREVIOUS_BLOCK_HASH`: all zeros. -/
def genesisPrev : Arr 32 := ⟨List.replicate 32 0, List.length_replicate⟩

/-- The loop of 251-258; `fuel = height` is enough because height zero is a retarget height. -/
def walkBack {ε : Type} (get : Nat → Except ε Header) (interval : Nat) (limit : UInt32) :
    Nat → Header → Nat → Option (Except ε UInt32)
  | fuel, header, height =>
    if header.prev ≠ genesisPrev then
      match isRetarget height interval with
      | none => none
      | some r =>
        if r = false ∧ header.bits = limit then
          match fuel with
          | 0 => none
          | fuel + 1 =>
            match get (height - 1) with
            | .error e => some (.error e)
            | .ok header => walkBack get interval limit fuel header (height - 1)
        else some (.ok header.bits)
    else some (.ok header.bits)

/-- `next_target_after` (221-272).  The caller's closure is a function of the height.  `none` is a panic
(missing timestamp, `u32` overflow of `time + spacing * 2`, division by zero). -/
def nextTargetAfter {ε : Type} (current : Header) (height : Nat) (p : Params) (newTime : Option UInt32)
    (get : Nat → Except ε Header) : Option (Except ε UInt32) :=
  if p.spacing = 0 then none
  else
    let interval := p.timespan / p.spacing
    match isRetarget (min (height + 1) (2 ^ 32 - 1)) interval with
    | none => none
    | some false =>
      if p.allowMinDifficulty then
        match newTime with
        | none => none
        | some t =>
          let limit := toCompactLossy p.maxAttainable
          if p.spacing * 2 ≥ 2 ^ 32 then none
          else if current.time.toNat + p.spacing * 2 ≥ 2 ^ 32 then none
          else if t.toNat > current.time.toNat + p.spacing * 2 then some (.ok limit)
          else walkBack get interval limit height current height
      else some (.ok current.bits)
    | some true =>
      match get (height - (interval - 1)) with
      | .error e => some (.error e)
      | .ok first => (fromHeaders first current p).map .ok

/-- `Version::is_signalling_soft_fork` (primitives/src/block.rs 687-700); the version as its 32 bits. -/
def isSignalling (v : BitVec 32) (bit : Nat) : Bool :=
  if bit > 28 then false
  else if v &&& ~~~(0x1FFFFFFF : BitVec 32) ≠ (0x20000000 : BitVec 32) then false
  else decide ((v &&& 0x1FFFFFFF) &&& ((1 : BitVec 32) <<< bit) > 0)

end Pow
end Btc
