import Verif.TextRadix
import Verif.Addresses.Network
/-!
# Service flags

Model of `ServiceFlags` in `p2p/src/lib.rs` (158-300).  The wire form is in `P2p/Payloads.lean`.
-/
namespace Btc
namespace P2p
namespace Flags

/-- The constants (163-195). -/
def NONE : UInt64 := 0
def NETWORK : UInt64 := (1 : UInt64) <<< 0
def GETUTXO : UInt64 := (1 : UInt64) <<< 1
def BLOOM : UInt64 := (1 : UInt64) <<< 2
def WITNESS : UInt64 := (1 : UInt64) <<< 3
def COMPACT_FILTERS : UInt64 := (1 : UInt64) <<< 6
def NETWORK_LIMITED : UInt64 := (1 : UInt64) <<< 10
def P2P_V2 : UInt64 := (1 : UInt64) <<< 11

/-- `add` (203-206), also `|` and `|=` (282-290). -/
def add (f g : UInt64) : UInt64 := f ||| g

/-- `remove` (212-215). -/
def remove (f g : UInt64) : UInt64 := f &&& ~~~g

/-- `bitxor`, `bitxor_assign` (292-300). -/
def bitxor (f g : UInt64) : UInt64 := remove f g

/-- `has` (218). -/
def has (f g : UInt64) : Bool := (f ||| g) == f

/-- What `Display` has done so far: the flags left, the flag `first`, the text. -/
structure St where
  flags : UInt64
  first : Bool
  out : Bytes

/-- `write_flag!` (243-254). -/
def writeFlag (s : St) (flag : UInt64) (name : Bytes) : St :=
  if has s.flags flag then
    { flags := remove s.flags flag, first := false, out := (if !s.first then s.out ++ Net.str "|" else s.out) ++ name }
  else s

/-- `Display` (236-272). -/
def display (f : UInt64) : Bytes :=
  if f == NONE then Net.str "ServiceFlags(NONE)"
  else
    let s : St := { flags := f, first := true, out := Net.str "ServiceFlags(" }
    let s := writeFlag s NETWORK (Net.str "NETWORK")
    let s := writeFlag s GETUTXO (Net.str "GETUTXO")
    let s := writeFlag s BLOOM (Net.str "BLOOM")
    let s := writeFlag s WITNESS (Net.str "WITNESS")
    let s := writeFlag s COMPACT_FILTERS (Net.str "COMPACT_FILTERS")
    let s := writeFlag s NETWORK_LIMITED (Net.str "NETWORK_LIMITED")
    let s := writeFlag s P2P_V2 (Net.str "P2P_V2")
    let out := if s.flags != NONE then
        (if !s.first then s.out ++ Net.str "|" else s.out) ++ Net.str "0x" ++ radixBytes 16 s.flags.toNat
      else s.out
    out ++ Net.str ")"

end Flags
end P2p
end Btc
