import Verif.Model.Uniform
import Verif.Model.Std
/-!
# Variable-width axes (axis/variable.rs, axis/variablenoflow.rs, axis/variablecyclic.rs)
-/
namespace NdHist
open POrd RNum

/-- `struct Variable` (axis/variable.rs:35-37) -/
structure Variable (T : Type) where
  binEdges : List T
deriving DecidableEq

namespace Variable
variable {T : Type} [Cfg] [POrd T] [StdLib]

/-- The comparator closure of `Variable::new` (axis/variable.rs:53-58) as seen by the sort: the answer, and
whether `sort_failed` is set by this call. -/
def sortCmp (edges : List T) (i j : Nat) : Ordering × Bool :=
  match edges[i]?, edges[j]? with
  | some a, some b =>
    match pcmp a b with
    | some o => (o, false)
    | none => (.lt, true)
  | _, _ => (.lt, false)  -- the sort never asks for positions out of range (`SortAlg.wf`)

/-- `bin_edges.sort_by(..)` (axis/variable.rs:52-58): the final arrangement and the flag
`sort_failed`; `none` if the sort panicked. -/
def sortBy (edges : List T) : Option (List T × Bool) :=
  let tree := StdLib.sort.tree edges.length
  let cmp := fun i j => (sortCmp edges i j).1
  match tree.run cmp with
  | none => none
  | some order =>
    some (order.filterMap (edges[·]?), (tree.asked cmp).any fun ij => (sortCmp edges ij.1 ij.2).2)

/-- `Variable::new` (axis/variable.rs:47-63) -/
def new (edges : List T) : Res (Except AxisError (Variable T)) := do
  if edges.length < 2 then
    return .error .InvalidNumberOfBinEdges
  match sortBy edges with
  | none => throw .sortOrder
  | some (sorted, sortFailed) =>
    if sortFailed then
      return .error .FailedToSortBinEdges
    return .ok { binEdges := sorted }

/-- axis/variable.rs:66-70 -/
def low (a : Variable T) : Res T := expect a.binEdges.head?
/-- axis/variable.rs:73-77 -/
def high (a : Variable T) : Res T := expect a.binEdges.getLast?

/-- The comparator closure of `Variable::index` (axis/variable.rs:89-93): `probe` is the `i`-th edge. -/
def probeCmp (a : Variable T) (c : T) (i : Nat) : Ordering :=
  match a.binEdges[i]? with
  | some probe => (pcmp probe c).getD .lt
  | none => .gt  -- never asked for

/-- `Axis::index` (axis/variable.rs:88-98) -/
def index (a : Variable T) (c : T) : Res (Option Nat) := do
  match StdLib.search.run a.binEdges.length (probeCmp a c) with
  | .ok index =>
    let i ← uadd index 1
    return some i
  | .err index => return some index

/-- `Axis::num_bins` (axis/variable.rs:100-102) -/
def numBins (a : Variable T) : Res Nat := uadd a.binEdges.length 1

/-- `Axis::bin` (axis/variable.rs:104-117) -/
def bin (a : Variable T) (i : Nat) : Res (Option (BinInterval T)) := do
  if i = 0 then
    let l ← a.low
    return some (.underflow l)
  else if i = a.binEdges.length then
    let h ← a.high
    return some (.overflow h)
  else if i < a.binEdges.length then
    let s ← indexSlice a.binEdges (i - 1)
    let e ← indexSlice a.binEdges i
    return some (.new s e)
  else
    return none

/-- `impl Axis for Variable` (axis/variable.rs:80-118) -/
instance : Axis (Variable T) where
  Coordinate := T
  Interval := BinInterval T
  index := index
  numBins := numBins
  bin := bin

end Variable

/-- `struct VariableNoFlow` (axis/variablenoflow.rs:32-34) -/
structure VariableNoFlow (T : Type) where
  axis : Variable T
deriving DecidableEq

namespace VariableNoFlow
variable {T : Type} [Cfg] [POrd T] [StdLib]

/-- axis/variablenoflow.rs:41-45 -/
def new (edges : List T) : Res (Except AxisError (VariableNoFlow T)) := do
  match ← Variable.new edges with
  | .error e => return .error e
  | .ok axis => return .ok { axis }

/-- axis/variablenoflow.rs:48-50 -/
def low (a : VariableNoFlow T) : Res T := a.axis.low
/-- axis/variablenoflow.rs:53-55 -/
def high (a : VariableNoFlow T) : Res T := a.axis.high

/-- axis/variablenoflow.rs:63-69 -/
def index (a : VariableNoFlow T) (c : T) : Res (Option Nat) := do
  match ← a.axis.index c with
  | none => return none
  | some index =>
    if index = 0 then
      return none
    let i1 ← uadd index 1
    let n ← a.axis.numBins
    if i1 = n then
      return none
    let r ← usub index 1
    return some r

/-- axis/variablenoflow.rs:71-73 -/
def numBins (a : VariableNoFlow T) : Res Nat := do
  let n ← a.axis.numBins
  usub n 2

/-- axis/variablenoflow.rs:75-82 -/
def bin (a : VariableNoFlow T) (i : Nat) : Res (Option (BinInterval T)) := do
  let i1 ← uadd i 1
  match ← a.axis.bin i1 with
  | none => return none
  | some (.Underflow _) => return none
  | some (.Overflow _) => return none
  | some (.Bin s e) => return some (.Bin s e)

/-- `impl Axis for VariableNoFlow` (axis/variablenoflow.rs:58-83) -/
instance : Axis (VariableNoFlow T) where
  Coordinate := T
  Interval := BinInterval T
  index := index
  numBins := numBins
  bin := bin

end VariableNoFlow

/-- `struct VariableCyclic` (axis/variablecyclic.rs:30-33) -/
structure VariableCyclic (T : Type) where
  axis : VariableNoFlow T
deriving DecidableEq

namespace VariableCyclic
variable {T : Type} [Cfg] [StdLib]

/-- axis/variablecyclic.rs:43-47 -/
def new [POrd T] (edges : List T) : Res (Except AxisError (VariableCyclic T)) := do
  match ← VariableNoFlow.new edges with
  | .error e => return .error e
  | .ok axis => return .ok { axis }

/-- axis/variablecyclic.rs:51-53 -/
def low [POrd T] (a : VariableCyclic T) : Res T := a.axis.low
/-- axis/variablecyclic.rs:57-59 -/
def high [POrd T] (a : VariableCyclic T) : Res T := a.axis.high

variable [RNum T]

/-- axis/variablecyclic.rs:70-79 -/
def index (a : VariableCyclic T) (c : T) : Res (Option Nat) := do
  let hi ← a.axis.high
  let lo ← a.axis.low
  let x ← wrapAround lo hi c
  a.axis.index x

/-- axis/variablecyclic.rs:82-84 -/
def numBins (a : VariableCyclic T) : Res Nat := a.axis.numBins

/-- axis/variablecyclic.rs:87-89 -/
def bin (a : VariableCyclic T) (i : Nat) : Res (Option (BinInterval T)) := a.axis.bin i

/-- `impl Axis for VariableCyclic` (axis/variablecyclic.rs:62-90) -/
instance : Axis (VariableCyclic T) where
  Coordinate := T
  Interval := BinInterval T
  index := index
  numBins := numBins
  bin := bin

end VariableCyclic
end NdHist
