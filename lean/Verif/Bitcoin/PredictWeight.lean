import Verif.Primitives.Block
/-!
# Weight prediction (bitcoin/src/blockdata/transaction.rs 649-738, 745-973)

Arithmetic in `u32` panics on overflow here (`none`), as in builds with overflow checks; `usize` sums do
not overflow (they count bytes held in memory).
-/
namespace Btc

/-- `InputWeightPrediction` (745-749). -/
structure InputPrediction where
  scriptSize : Nat
  witnessSize : Nat
deriving DecidableEq, Repr

namespace InputPrediction

def u32Max : Nat := 2 ^ 32 - 1

/-- `saturate_to_u32` (811-817). -/
def sat (x : Nat) : Nat := if x > u32Max then u32Max else x

/-- `encoded_size` (819-826). -/
def encSize (v : Nat) : Nat :=
  if v ≤ 0xFC then 1 else if v ≤ 0xFFFF then 3 else if v ≤ 0xFFFFFFFF then 5 else 9

/-- `u32::saturating_add`. -/
def satAdd (a b : Nat) : Nat := if a + b > u32Max then u32Max else a + b

/-- `u32` addition. -/
def addU32 (a b : Nat) : Option Nat := if a + b > u32Max then none else some (a + b)

/-- `InputWeightPrediction::new` (891-910). -/
def new (scriptLen : Nat) (elems : List Nat) : Option InputPrediction :=
  let (count, total) := elems.foldl
    (fun (st : Nat × Nat) n => (st.1 + 1, satAdd st.2 (satAdd (sat n) (encSize n)))) (0, 0)
  match (if count > 0 then addU32 total (encSize count) else some 0),
    addU32 (sat scriptLen) (encSize scriptLen) with
  | some w, some s => some ⟨s, w⟩
  | _, _ => none

/-- The loop of `from_slice` (921-927). -/
def sliceLoop (elems : List Nat) (fuel i total : Nat) : Nat :=
  match fuel with
  | 0 => total
  | fuel + 1 =>
    match elems[i]? with
    | none => total
    | some n => sliceLoop elems fuel (i + 1) (satAdd total (satAdd (sat n) (encSize n)))

/-- `InputWeightPrediction::from_slice` (917-937). -/
def fromSlice (scriptLen : Nat) (elems : List Nat) : InputPrediction :=
  { witnessSize := if elems.isEmpty then 0
      else satAdd (sliceLoop elems elems.length 0 0) (encSize elems.length)
    scriptSize := satAdd (sat scriptLen) (encSize scriptLen) }

/-- `witness_weight` (968-972). -/
def witnessWeight (p : InputPrediction) : Option Nat :=
  if p.scriptSize * 4 > u32Max then none else addU32 (p.scriptSize * 4) p.witnessSize

/-- `total_weight` (954-959); `TX_IN_BASE_WEIGHT` is 40 vbytes (85-86). -/
def totalWeight (p : InputPrediction) : Option Nat := p.witnessWeight.map (160 + ·)

end InputPrediction

/-- `predict_weight_internal` (677-697). -/
def predictInternal (inputCount inputWeight withWitness outputCount scriptsSize : Nat) : Nat :=
  let outputSize := 8 * outputCount + scriptsSize
  let nonInput := 4 + csSize inputCount + csSize outputCount + outputSize + 4
  if withWitness = 0 then nonInput * 4 + inputWeight
  else nonInput * 4 + inputWeight + inputCount - withWitness + 2

/-- `predict_weight` (649-675). -/
def predictWeight (inputs : List InputPrediction) (outputLens : List Nat) : Option Nat :=
  let ins := inputs.foldl (fun (st : Option (Nat × Nat × Nat)) p =>
    st.bind fun (count, weight, w) =>
      p.totalWeight.map fun t => (count + 1, weight + t, w + if p.witnessSize > 0 then 1 else 0))
    (some (0, 0, 0))
  let outs := outputLens.foldl (fun (st : Nat × Nat) n => (st.1 + 1, st.2 + n + csSize n)) (0, 0)
  ins.map fun (count, weight, w) => predictInternal count weight w outs.1 outs.2

/-- The loops of `predict_weight_from_slices` (714-729). -/
def predictInLoop (inputs : List InputPrediction) (fuel i weight w : Nat) : Option (Nat × Nat) :=
  match fuel with
  | 0 => some (weight, w)
  | fuel + 1 =>
    match inputs[i]? with
    | none => some (weight, w)
    | some p => p.totalWeight.bind fun t =>
      predictInLoop inputs fuel (i + 1) (weight + t) (w + if p.witnessSize > 0 then 1 else 0)

def predictOutLoop (lens : List Nat) (fuel i size : Nat) : Nat :=
  match fuel with
  | 0 => size
  | fuel + 1 =>
    match lens[i]? with
    | none => size
    | some n => predictOutLoop lens fuel (i + 1) (size + (n + csSize n))

/-- `predict_weight_from_slices` (706-738). -/
def predictWeightFromSlices (inputs : List InputPrediction) (lens : List Nat) : Option Nat :=
  (predictInLoop inputs inputs.length 0 0 0).map fun (weight, w) =>
    predictInternal inputs.length weight w lens.length (predictOutLoop lens lens.length 0 0)

end Btc
