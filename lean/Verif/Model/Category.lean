import Verif.Model.Axis
import Verif.Model.Std
/-!
# Category axes (axis/category.rs, axis/categorynoflow.rs)

`Value` (axis/category.rs:8-9) is `Eq + Hash + Clone`: modelled by `DecidableEq`.
-/
namespace NdHist

/-- `struct Category` (axis/category.rs:29-35) -/
structure Category (T : Type) where
  mapTToIndex : HMap T Nat
  mapIndexToT : HMap Nat T

namespace Category
variable {T : Type} [DecidableEq T] [Cfg]

/-- axis/category.rs:38-43 -/
def insert (a : Category T) (value : T) : Category T :=
  let index := a.mapIndexToT.len
  { mapIndexToT := a.mapIndexToT.insert index value
    mapTToIndex := a.mapTToIndex.insert value index }

/-- axis/category.rs:45-47 -/
def getIndex (a : Category T) (value : T) : Option Nat := a.mapTToIndex.get value

/-- axis/category.rs:49-51 -/
def getValue (a : Category T) (index : Nat) : Option T := a.mapIndexToT.get index

/-- axis/category.rs:53-55 -/
def len (a : Category T) : Nat := a.mapIndexToT.len

/-- `new` / `constructor` (axis/category.rs:57-73) -/
def new (values : List T) : Category T :=
  values.foldl insert { mapTToIndex := HMap.empty, mapIndexToT := HMap.empty }

/-- axis/category.rs:82-84 -/
def index (a : Category T) (c : T) : Res (Option Nat) :=
  return (a.getIndex c).or (some a.len)

/-- axis/category.rs:86-88 -/
def numBins (a : Category T) : Res Nat := uadd a.len 1

/-- axis/category.rs:90-102 -/
def bin (a : Category T) (i : Nat) : Res (Option (SingleValueBinInterval T)) :=
  return match a.getValue i with
    | some value => some (.new value)
    | none => if i = a.len then some .overflow else none

/-- `impl Axis for Category` (axis/category.rs:76-103) -/
instance : Axis (Category T) where
  Coordinate := T
  Interval := SingleValueBinInterval T
  index := index
  numBins := numBins
  bin := bin

end Category

/-- `struct CategoryNoFlow` (axis/categorynoflow.rs:21-26) -/
structure CategoryNoFlow (T : Type) where
  axis : Category T

namespace CategoryNoFlow
variable {T : Type} [DecidableEq T] [Cfg]

/-- axis/categorynoflow.rs:33-37 -/
def new (values : List T) : CategoryNoFlow T := { axis := Category.new values }

/-- axis/categorynoflow.rs:44-50 -/
def index (a : CategoryNoFlow T) (c : T) : Res (Option Nat) := do
  match ← a.axis.index c with
  | none => return none
  | some index =>
    let n ← a.axis.numBins
    let last ← usub n 1
    if index = last then
      return none
    return some index

/-- axis/categorynoflow.rs:52-54 -/
def numBins (a : CategoryNoFlow T) : Res Nat := do
  let n ← a.axis.numBins
  usub n 1

/-- axis/categorynoflow.rs:56-62 -/
def bin (a : CategoryNoFlow T) (i : Nat) : Res (Option (SingleValueBinInterval T)) := do
  match ← a.axis.bin i with
  | none => return none
  | some .Overflow => return none
  | some (.Bin value) => return some (.Bin value)

/-- `impl Axis for CategoryNoFlow` (axis/categorynoflow.rs:40-63) -/
instance : Axis (CategoryNoFlow T) where
  Coordinate := T
  Interval := SingleValueBinInterval T
  index := index
  numBins := numBins
  bin := bin

end CategoryNoFlow
end NdHist
