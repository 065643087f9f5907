import Verif.Model.Hist
import Verif.Model.Float
import Verif.Model.Variable
import Verif.Model.Category
/-!
# Text output (`Display` of axes, bins and histograms)

Formatting of coordinates and of `f64` numbers belongs to std (or the user's type) and is a parameter. Text sinks that fail are modelled for the dense histogram
only, one `write!` at a time.
-/
namespace NdHist

/-- `Display` of a type, with the precision of the format specification (`{:.2}`; `none` for `{}`). -/
class Disp (B : Type) where
  fmt : Option Nat → B → String

/-- Display of bin intervals (axis/bininterval/bininterval.rs:127-157); the end points are printed with the same formatter, so with the
same precision. -/
instance {T : Type} [Disp T] : Disp (BinInterval T) where
  fmt p
    | .Underflow e => "(-inf, " ++ Disp.fmt p e ++ ")"
    | .Overflow s => "[" ++ Disp.fmt p s ++ ", inf)"
    | .Bin s e => "[" ++ Disp.fmt p s ++ ", " ++ Disp.fmt p e ++ ")"

/-- Display of category bins (axis/bininterval/singlevaluebininterval.rs:40-47); a fresh `write!`, so the precision is not passed on. -/
instance {T : Type} [Disp T] : Disp (SingleValueBinInterval T) where
  fmt _
    | .Overflow => "{overflow}"
    | .Bin v => "{" ++ Disp.fmt none v ++ "}"

/-- `{:>16}`: right-aligned in 16 columns (std counts `char`s) -/
def padLeft16 (s : String) : String := String.ofList (List.replicate (16 - s.length) ' ') ++ s

/-- `"#".repeat(n)`: std allocates the whole string first, which panics for more than `isize::MAX` bytes. Running out of memory is not modelled. -/
def hashes [Cfg] (n : Nat) : Res String :=
  if n < usizeSize / 2 then .ok (String.ofList (List.replicate n '#')) else .error .capacityOverflow

/-- `Iterator::max_by` of std (not in the repository): the later of two elements is kept unless the comparison says `Greater`. -/
def maxBy {α : Type} (cmp : α → α → Ordering) : List α → Option α
  | [] => none
  | x :: xs => some (xs.foldl (fun x y => match cmp x y with | .gt => x | _ => y) x)

namespace VecHistogram
variable {A V : Type} [Cfg] [Axis A]

/-- the sum in the header (vechistogram.rs:110-116); `into` is `Into<f64>` -/
def displaySum (into : V → F64) (h : VecHistogram A V) : F64 :=
  (h.valuesIter.map into).foldl (fun it value => Flt.add it value) (Flt.zero false)

/-- `self.iter().take(50).map(..).collect()` (vechistogram.rs:124-133). The iterator is lazy: only the first 50 items are computed. -/
def displayItems (into : V → F64) (h : VecHistogram A V) : Res (List (Axis.Interval A × F64)) := do
  let is ← Axis.indices h.axes
  (is.take 50).mapM fun index => do
    let b ← Axis.bin h.axes index
    let b ← expect b
    let value ← expect (h.valueAtIndex index)
    return (b, into value)

/-- the largest displayed value (vechistogram.rs:134-138) -/
def displayScale {B : Type} (values : List (B × F64)) : F64 :=
  match maxBy (fun l r => (Flt.pcmp l.2 r.2).getD .lt) values with
  | some it => it.2
  | none => .inf false

/-- one row of text (vechistogram.rs:141-143) -/
def displayRow {B : Type} [Disp B] (precision : Nat) (scale : F64) (item : B × F64) : Res String := do
  let bin := Disp.fmt (some precision) item.1
  let bar ← hashes (Flt.asUsize (Flt.mul (f64 50) (Flt.div item.2 scale)))
  return "\n" ++ padLeft16 bin ++ " | " ++ bar

/-- the header (vechistogram.rs:117-123) -/
def displayHeader [Disp F64] (into : V → F64) (h : VecHistogram A V) : Res String := do
  let n ← Axis.numBins h.axes
  return "VecHistogram" ++ toString (Axis.numDim h.axes) ++ "D(" ++ toString n ++ " bins, sum=" ++ Disp.fmt none (displaySum into h) ++ ")"

/-- `Display for VecHistogram` (vechistogram.rs:102-148): the text written, `write!` by `write!`, and the `fmt::Result` (`true` for `Ok`). `ok k` tells whether
the `k`-th `write!` succeeds; the header's result is returned to the caller (`?`), those of the rows are only counted. -/
def display [Disp (Axis.Interval A)] [Disp F64] (into : V → F64) (ok : Nat → Bool) (precision : Option Nat) (h : VecHistogram A V) :
    Res (List String × Bool) := do
  let precision := precision.getD 2
  let header ← displayHeader into h
  if !ok 0 then
    return ([], false)
  let values ← displayItems into h
  let scale := displayScale values
  let rows ← values.mapM (displayRow precision scale)
  return (header :: (rows.zipIdx 1).filterMap (fun r => if ok r.2 then some r.1 else none), true)

end VecHistogram

namespace HashHistogram
variable {A V : Type} [Cfg] [Axis A]

/-- `Display for HashHistogram` (hashhistogram.rs:211-235); `vals` are the values in the order in which the map yields them. -/
def display [Disp F64] (into : V → F64) (axes : A) (vals : List V) : Res String := do
  let n ← Axis.numBins axes
  return "HashHistogram" ++ toString (Axis.numDim axes) ++ "D(" ++ toString n ++ " bins, sum=" ++
    Disp.fmt none ((vals.map into).foldl (fun it value => Flt.add it value) (Flt.zero false)) ++ ")"

end HashHistogram

/-! ## Axes -/

/-- the common text of the numeric axes -/
def axisText {T : Type} [Disp T] (bins : Nat) (low high : T) (cls : String) : String :=
  "Axis{# bins=" ++ toString bins ++ ", range=[" ++ Disp.fmt none low ++ ", " ++ Disp.fmt none high ++ "), class=" ++ cls ++ "}"

section
variable {T : Type} [Cfg] [Disp T]

/-- axis/uniform.rs:142-153 -/
def Uniform.display (a : Uniform T) : String := axisText a.num a.low a.high "Uniform"

/-- axis/uniformnoflow.rs:117-131 -/
def UniformNoFlow.display [RNum T] (a : UniformNoFlow T) : Res String := do
  let n ← a.numBins
  return axisText n a.axis.low a.axis.high "UniformNoFlow"

/-- axis/uniformcyclic.rs:124-138 -/
def UniformCyclic.display [RNum T] (a : UniformCyclic T) : Res String := do
  let n ← a.axis.numBins
  return axisText n a.axis.low a.axis.high "UniformCyclic"

/-- axis/variable.rs:120-131 -/
def Variable.display [POrd T] (a : Variable T) : Res String := do
  let n ← usub a.binEdges.length 1
  let lo ← a.low
  let hi ← a.high
  return axisText n lo hi "Variable"

/-- axis/variablenoflow.rs:94-107 -/
def VariableNoFlow.display [POrd T] (a : VariableNoFlow T) : Res String := do
  let n ← a.numBins
  let lo ← a.axis.low
  let hi ← a.axis.high
  return axisText n lo hi "VariableNoFlow"

/-- axis/variablecyclic.rs:92-105 -/
def VariableCyclic.display [POrd T] (a : VariableCyclic T) : Res String := do
  let n ← a.axis.numBins
  let lo ← a.axis.low
  let hi ← a.axis.high
  return axisText n lo hi "VariableCyclic"

end

/-- axis/category.rs:105-115: the first ten bins (the iterator is lazy) -/
def Category.display {T : Type} [DecidableEq T] [Cfg] [Disp T] (a : Category T) : Res String := do
  let is ← Axis.indices a
  let l ← (is.take 10).mapM fun it => do
    let b ← a.bin it
    let b ← expect b
    return Disp.fmt none b
  return "{" ++ ", ".intercalate l ++ "}"

/-- axis/categorynoflow.rs:74-78: prints the inner `Category`, overflow bin included -/
def CategoryNoFlow.display {T : Type} [DecidableEq T] [Cfg] [Disp T] (a : CategoryNoFlow T) : Res String :=
  a.axis.display

end NdHist
