import Verif.Bytes
import Verif.Text
/-!
# Model of lock times and sequence numbers

`units/src/locktime/absolute/mod.rs`, `units/src/locktime/relative/mod.rs`, `units/src/sequence.rs`,
`units/src/block.rs` (height, MTP and interval arithmetic).  serde and `Arbitrary` are not modelled.
-/
namespace Btc
namespace Lock

/-! ### Absolute lock times -/

/-- `LOCK_TIME_THRESHOLD` (absolute/mod.rs 44). -/
def THRESHOLD : UInt32 := 500000000

/-- `is_block_height`, `is_block_time` (778-782). -/
def isBlockHeight (n : UInt32) : Bool := n < THRESHOLD
def isBlockTime (n : UInt32) : Bool := n ≥ THRESHOLD

/-- `Height` (504-505) and `MedianTimePast` (631-632): newtypes over `u32`. -/
structure Height where
  n : UInt32
deriving DecidableEq, Repr
structure Mtp where
  n : UInt32
deriving DecidableEq, Repr

/-- `Height::from_u32` (559-565), `MedianTimePast::from_u32` (703-709). -/
def Height.fromU32 (n : UInt32) : Option Height := if isBlockHeight n then some ⟨n⟩ else none
def Mtp.fromU32 (n : UInt32) : Option Mtp := if isBlockTime n then some ⟨n⟩ else none

/-- `Height::is_satisfied_by` (584-589): in `u64`, hence no overflow. -/
def Height.isSatisfiedBy (self height : Height) : Bool := self.n.toNat < height.n.toNat + 1
/-- `MedianTimePast::is_satisfied_by` (729). -/
def Mtp.isSatisfiedBy (self time : Mtp) : Bool := self.n < time.n

/-- `LockTime` (80-108). -/
inductive LockTime where
  | blocks (h : Height)
  | seconds (t : Mtp)
deriving DecidableEq, Repr

/-- `from_consensus` (179-185); `none` is the panic of `expect`. -/
def LockTime.fromConsensus (n : UInt32) : Option LockTime :=
  if isBlockHeight n then (Height.fromU32 n).map .blocks else (Mtp.fromU32 n).map .seconds

/-- `from_height` (210), `from_mtp` (241). -/
def LockTime.fromHeight (n : UInt32) : Option LockTime := (Height.fromU32 n).map .blocks
def LockTime.fromMtp (n : UInt32) : Option LockTime := (Mtp.fromU32 n).map .seconds

/-- `to_consensus_u32` (396-401). -/
def LockTime.toConsensus : LockTime → UInt32
  | .blocks h => h.n
  | .seconds t => t.n

/-- `is_same_unit` (248-253). -/
def LockTime.isSameUnit : LockTime → LockTime → Bool
  | .blocks _, .blocks _ => true
  | .seconds _, .seconds _ => true
  | _, _ => false

/-- `is_satisfied_by` (296-301). -/
def LockTime.isSatisfiedBy (self : LockTime) (height : Height) (mtp : Mtp) : Bool :=
  match self with
  | .blocks b => b.isSatisfiedBy height
  | .seconds t => t.isSatisfiedBy mtp

/-- `is_satisfied_by_height` (312-318), `is_satisfied_by_time` (326-331). -/
def LockTime.isSatisfiedByHeight (self : LockTime) (height : Height) : Option Bool :=
  match self with
  | .blocks b => some (b.isSatisfiedBy height)
  | .seconds _ => none
def LockTime.isSatisfiedByTime (self : LockTime) (mtp : Mtp) : Option Bool :=
  match self with
  | .seconds t => some (t.isSatisfiedBy mtp)
  | .blocks _ => none

/-- `is_implied_by` (359-365). -/
def LockTime.isImpliedBy (self other : LockTime) : Bool :=
  match self, other with
  | .blocks this, .blocks other => this.n ≤ other.n
  | .seconds this, .seconds other => this.n ≤ other.n
  | _, _ => false

/-- `encoder` (410-414) and the decoder's `end` (438-442). -/
def LockTime.encode (l : LockTime) : Bytes := leBytes 4 l.toConsensus.toNat
def LockTime.decode (bs : Arr 4) : Option LockTime := LockTime.fromConsensus (UInt32.ofNat (leNat bs.1))

/-- `FromStr for LockTime` (404): `u32::from_str`, then `from_consensus`; outer `none` is the panic. -/
def LockTime.fromStr (s : Bytes) : Option (Except IntErr LockTime) :=
  match parseUInt (2 ^ 32 - 1) 10 s with
  | .error e => some (.error e)
  | .ok n => (LockTime.fromConsensus (UInt32.ofNat n)).map .ok

/-- `Display` without `#` (473-476). -/
def LockTime.display (l : LockTime) : Bytes := decBytes l.toConsensus.toNat

/-- `BlockMtp::new` (block.rs 354-357): the sixth of the sorted eleven timestamps.  `sort_unstable` is any
sorting function; here merge sort. -/
def blockMtpNew (ts : List UInt32) : Option UInt32 := (ts.mergeSort (· ≤ ·))[5]?

/-- `MedianTimePast::new` (655-657). -/
def Mtp.new (ts : List UInt32) : Option (Option Mtp) := (blockMtpNew ts).map Mtp.fromU32

/-! ### Sequence numbers -/

/-- `Sequence` (sequence.rs 34-36). -/
structure Seq where
  n : UInt32
deriving DecidableEq, Repr

/-- `MAX`, `MIN_NO_RBF` (42, 72), masks (75-78). -/
def Seq.MAX : Seq := ⟨0xFFFFFFFF⟩
def Seq.MIN_NO_RBF : Seq := ⟨0xFFFFFFFE⟩
def DISABLE_MASK : UInt32 := 0x80000000
def TYPE_MASK : UInt32 := 0x00400000

/-- `enables_absolute_lock_time` (82), `is_final` (104), `is_rbf` (111). -/
def Seq.enablesAbsolute (s : Seq) : Bool := s ≠ Seq.MAX
def Seq.isFinal (s : Seq) : Bool := !s.enablesAbsolute
def Seq.isRbf (s : Seq) : Bool := s.n < Seq.MIN_NO_RBF.n

/-- `is_relative_lock_time` (115), `is_height_locked` (119-121), `is_time_locked` (125-127). -/
def Seq.isRelative (s : Seq) : Bool := s.n &&& DISABLE_MASK == 0
def Seq.isHeightLocked (s : Seq) : Bool := s.isRelative && (s.n &&& TYPE_MASK == 0)
def Seq.isTimeLocked (s : Seq) : Bool := s.isRelative && (s.n &&& TYPE_MASK > 0)

/-- `low_u16` (226). -/
def Seq.lowU16 (s : Seq) : UInt16 := s.n.toUInt16

/-- `from_height` (155), `from_512_second_intervals` (162-164). -/
def Seq.fromHeight (h : UInt16) : Seq := ⟨h.toUInt32⟩
def Seq.from512 (i : UInt16) : Seq := ⟨i.toUInt32 ||| TYPE_MASK⟩

/-! ### Relative lock times -/

/-- `relative::LockTime` (relative/mod.rs 50-56) over `NumberOfBlocks` and `NumberOf512Seconds`. -/
inductive RelLock where
  | blocks (n : UInt16)
  | time (n : UInt16)
deriving DecidableEq, Repr

/-- `Sequence::to_relative_lock_time` (sequence.rs 206-220). -/
def Seq.toRelative (s : Seq) : Option RelLock :=
  if !s.isRelative then none
  else if s.isTimeLocked then some (.time s.lowU16) else some (.blocks s.lowU16)

/-- `from_consensus` (relative/mod.rs 97-100), `from_sequence` (139-141). -/
def RelLock.fromConsensus (n : UInt32) : Option RelLock := (Seq.mk n).toRelative
def RelLock.fromSequence (s : Seq) : Option RelLock := RelLock.fromConsensus s.n

/-- `to_consensus_u32` (110-115), `to_sequence` (145). -/
def RelLock.toConsensus : RelLock → UInt32
  | .blocks h => h.toUInt32
  | .time t => TYPE_MASK ||| t.toUInt32
def RelLock.toSequence (l : RelLock) : Seq := ⟨l.toConsensus⟩

/-- `NumberOf512Seconds::from_seconds_floor` (559-566). -/
def secondsFloor (s : UInt32) : Option UInt16 :=
  let interval := s / 512
  if interval ≤ 65535 then some interval.toUInt16 else none

/-- `from_seconds_ceil` (576-583); `div_ceil` as quotient plus one if there is a remainder. -/
def secondsCeil (s : UInt32) : Option UInt16 :=
  if s ≤ 65535 * 512 then
    let q := s / 512
    some (if s % 512 > 0 then q + 1 else q).toUInt16
  else none

/-- `to_seconds` (587). -/
def toSeconds (n : UInt16) : UInt32 := n.toUInt32 * 512

/-- `u32::checked_sub` and `checked_add`. -/
def checkedSub32 (a b : UInt32) : Option UInt32 := if b ≤ a then some (a - b) else none
def checkedAdd32 (a b : UInt32) : Option UInt32 :=
  if a.toNat + b.toNat < 2 ^ 32 then some (a + b) else none

/-- `NumberOfBlocks::is_satisfied_by` (471-490); `none` is `InvalidHeightError`. -/
def blocksSatisfied (n : UInt16) (tip : UInt32) (mined : Option UInt32) : Option Bool :=
  match mined with
  | some m => (checkedSub32 tip m).map fun diff => n.toNat - 1 ≤ diff.toNat
  | none => some (n == 0)

/-- `NumberOf512Seconds::is_satisfied_by` (623-641). -/
def timeSatisfied (n : UInt16) (tip : UInt32) (mined : Option UInt32) : Option Bool :=
  match mined with
  | some m => (checkedSub32 tip m).map fun diff => toSeconds n ≤ diff
  | none => some (n == 0)

/-- `LockTime::is_satisfied_by` (219-234). -/
def RelLock.isSatisfiedBy (l : RelLock) (tipH tipT : UInt32) (minedH minedT : Option UInt32) : Option Bool :=
  match l with
  | .blocks n => blocksSatisfied n tipH minedH
  | .time n => timeSatisfied n tipT minedT

/-- `is_implied_by` (317-323), `is_implied_by_sequence` (346-348). -/
def RelLock.isImpliedBy (self other : RelLock) : Bool :=
  match self, other with
  | .blocks this, .blocks other => this ≤ other
  | .time this, .time other => this ≤ other
  | _, _ => false
def RelLock.isImpliedBySequence (self : RelLock) (other : Seq) : Bool :=
  match RelLock.fromSequence other with
  | some o => self.isImpliedBy o
  | none => false

/-- `Sequence::from_seconds_floor`, `from_seconds_ceil` (sequence.rs 176-194). -/
def Seq.fromSecondsFloor (s : UInt32) : Option Seq := (secondsFloor s).map Seq.from512
def Seq.fromSecondsCeil (s : UInt32) : Option Seq := (secondsCeil s).map Seq.from512

/-! ### Heights and intervals (block.rs) -/

/-- `BlockHeight::saturating_add`, `saturating_sub` (171-182). -/
def heightSatAdd (a b : UInt32) : UInt32 := if a.toNat + b.toNat < 2 ^ 32 then a + b else 0xFFFFFFFF
def heightSatSub (a b : UInt32) : UInt32 := if b ≤ a then a - b else 0

/-- `TryFrom<BlockHeightInterval> for NumberOfBlocks` (301-314). -/
def intervalToBlocks (h : UInt32) : Option UInt16 := if h ≤ 65535 then some h.toUInt16 else none

end Lock
end Btc
