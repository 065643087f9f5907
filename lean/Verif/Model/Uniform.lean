import Verif.Model.Axis
/-!
# Uniform axes (axis/uniform.rs, axis/uniformnoflow.rs, axis/uniformcyclic.rs)
-/
namespace NdHist
open POrd RNum

/-- `struct Uniform` (axis/uniform.rs:33-38). The accessors `low()` and `high()` (axis/uniform.rs:91-99) are the fields. -/
structure Uniform (T : Type) where
  num : Nat
  low : T
  high : T
  step : T
deriving DecidableEq

namespace Uniform
variable {T : Type} [Cfg] [RNum T]

/-- `Uniform::new` (axis/uniform.rs:48-66); in Rust restricted to `T: Float`. -/
def new (num : Nat) (low high : T) : Res (Except AxisError (Uniform T)) := do
  if num = 0 then
    return .error .InvalidNumberOfBins
  if POrd.eq low high then
    return .error .InvalidAxisRange
  let (low, high) := if POrd.gt low high then (high, low) else (low, high)
  let range ← sub high low
  match ofUsize num with
  | none => return .error .InvalidNumberOfBins
  | some n =>
    let step ← div range n
    return .ok { num, low, high, step }

/-- `Uniform::with_step_size` (axis/uniform.rs:72-87). Note the order: the product is computed before
`num` and `step` are checked. -/
def withStepSize (num : Nat) (low step : T) : Res (Except AxisError (Uniform T)) := do
  match (ofUsize num : Option T) with
  | none => return .error .InvalidNumberOfBins
  | some n =>
    let prod ← mul n step
    let high ← add prod low
    if num = 0 then
      return .error .InvalidNumberOfBins
    if POrd.le step (zero : T) then
      return .error .InvalidStepSize
    let (low, high) := if POrd.gt low high then (high, low) else (low, high)
    return .ok { num, low, high, step }

/-- `Axis::index` (axis/uniform.rs:108-117) -/
def index (a : Uniform T) (c : T) : Res (Option Nat) := do
  if POrd.lt c a.low then
    return some 0
  if POrd.ge c a.high then
    let i ← uadd a.num 1
    return some i
  let d ← sub c a.low
  let steps ← div d a.step
  let i ← uadd ((toUsize steps).getD a.num) 1
  return some i

/-- `Axis::num_bins` (axis/uniform.rs:119-121) -/
def numBins (a : Uniform T) : Res Nat := uadd a.num 2

/-- `low + T::from(k)? * (high - low) / T::from(num)?` (axis/uniform.rs:132 and 133). -/
def edge (a : Uniform T) (k : Nat) : Res (Option T) := do
  match (ofUsize k : Option T) with
  | none => return none
  | some kt =>
    let range ← sub a.high a.low
    let prod ← mul kt range
    match (ofUsize a.num : Option T) with
    | none => return none
    | some nt =>
      let q ← div prod nt
      let e ← add a.low q
      return some e

/-- `Axis::bin` (axis/uniform.rs:123-135) -/
def bin (a : Uniform T) (i : Nat) : Res (Option (BinInterval T)) := do
  if i = 0 then
    return some (.underflow a.low)
  let n1 ← uadd a.num 1
  if i = n1 then
    return some (.overflow a.high)
  else if i > n1 then
    return none
  match ← edge a (i - 1) with
  | none => return none
  | some start =>
    match ← edge a i with
    | none => return none
    | some stop => return some (.new start stop)

/-- `impl Axis for Uniform` (axis/uniform.rs:103-140) -/
instance : Axis (Uniform T) where
  Coordinate := T
  Interval := BinInterval T
  index := index
  numBins := numBins
  bin := bin

end Uniform

/-- `struct UniformNoFlow` (axis/uniformnoflow.rs:30-32) -/
structure UniformNoFlow (T : Type) where
  axis : Uniform T
deriving DecidableEq

namespace UniformNoFlow
variable {T : Type} [Cfg] [RNum T]

/-- axis/uniformnoflow.rs:41-48 -/
def new (num : Nat) (low high : T) : Res (Except AxisError (UniformNoFlow T)) := do
  match ← Uniform.new num low high with
  | .error e => return .error e
  | .ok axis => return .ok { axis }

/-- axis/uniformnoflow.rs:53-60 -/
def withStepSize (num : Nat) (low step : T) : Res (Except AxisError (UniformNoFlow T)) := do
  match ← Uniform.withStepSize num low step with
  | .error e => return .error e
  | .ok axis => return .ok { axis }

/-- axis/uniformnoflow.rs:65-67 -/
def low (a : UniformNoFlow T) : T := a.axis.low
/-- axis/uniformnoflow.rs:70-72 -/
def high (a : UniformNoFlow T) : T := a.axis.high

/-- axis/uniformnoflow.rs:83-89 -/
def index (a : UniformNoFlow T) (c : T) : Res (Option Nat) := do
  match ← a.axis.index c with
  | none => return none
  | some index =>
    if index = 0 then
      return none
    let i1 ← uadd index 1
    let n ← a.axis.numBins
    if i1 = n then
      return none
    let r ← usub index 1
    return some r

/-- axis/uniformnoflow.rs:91-93 -/
def numBins (a : UniformNoFlow T) : Res Nat := do
  let n ← a.axis.numBins
  usub n 2

/-- axis/uniformnoflow.rs:95-102 -/
def bin (a : UniformNoFlow T) (i : Nat) : Res (Option (BinInterval T)) := do
  let i1 ← uadd i 1
  match ← a.axis.bin i1 with
  | none => return none
  | some (.Underflow _) => return none
  | some (.Overflow _) => return none
  | some (.Bin s e) => return some (.Bin s e)

/-- `impl Axis for UniformNoFlow` (axis/uniformnoflow.rs:75-103) -/
instance : Axis (UniformNoFlow T) where
  Coordinate := T
  Interval := BinInterval T
  index := index
  numBins := numBins
  bin := bin

end UniformNoFlow

/-- The wrap-around shared by the two cyclic axes
(axis/uniformcyclic.rs:103-109 and axis/variablecyclic.rs:71-77). -/
def wrapAround {T : Type} [Cfg] [RNum T] (lo hi x : T) : Res T := do
  let range ← sub hi lo
  let d ← sub x lo
  let r ← rem d range
  let r ← if POrd.lt r (zero : T) then add range r else pure r
  add r lo

/-- `struct UniformCyclic` (axis/uniformcyclic.rs:50-53) -/
structure UniformCyclic (T : Type) where
  axis : UniformNoFlow T
deriving DecidableEq

namespace UniformCyclic
variable {T : Type} [Cfg] [RNum T]

/-- axis/uniformcyclic.rs:66-73 -/
def new (num : Nat) (low high : T) : Res (Except AxisError (UniformCyclic T)) := do
  match ← UniformNoFlow.new num low high with
  | .error e => return .error e
  | .ok axis => return .ok { axis }

/-- axis/uniformcyclic.rs:77-81 -/
def withStepSize (num : Nat) (low step : T) : Res (Except AxisError (UniformCyclic T)) := do
  match ← UniformNoFlow.withStepSize num low step with
  | .error e => return .error e
  | .ok axis => return .ok { axis }

/-- axis/uniformcyclic.rs:87-89 -/
def low (a : UniformCyclic T) : T := a.axis.low
/-- axis/uniformcyclic.rs:92-94 -/
def high (a : UniformCyclic T) : T := a.axis.high

/-- axis/uniformcyclic.rs:102-111 -/
def index (a : UniformCyclic T) (c : T) : Res (Option Nat) := do
  let x ← wrapAround a.axis.low a.axis.high c
  a.axis.index x

/-- axis/uniformcyclic.rs:114-116 -/
def numBins (a : UniformCyclic T) : Res Nat := a.axis.numBins

/-- axis/uniformcyclic.rs:119-121 -/
def bin (a : UniformCyclic T) (i : Nat) : Res (Option (BinInterval T)) := a.axis.bin i

/-- `impl Axis for UniformCyclic` (axis/uniformcyclic.rs:97-122) -/
instance : Axis (UniformCyclic T) where
  Coordinate := T
  Interval := BinInterval T
  index := index
  numBins := numBins
  bin := bin

end UniformCyclic
end NdHist
