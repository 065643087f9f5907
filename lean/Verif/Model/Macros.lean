import Verif.Model.Hist
import Verif.Model.Axes
import Verif.Model.Float
/-!
# The macros `ndhistogram!` and `sparsehistogram!` (macros.rs)

Both collect the axes in a tuple, convert it to `AxesTuple` and call `new`. Without a type after the semicolon the bins are `f64`: `V` is `F64` there.
-/
namespace NdHist
variable [Cfg]

/-- `ndhistogram!(x; V)`, `ndhistogram!(x)` (macros.rs:49-73), one axis -/
def ndhistogram1 {X : Type} [Axis X] (V : Type) [RDefault V] (x : X) : Res (VecHistogram (AxesTuple1 X) V) := do
  let axes ← AxesTuple1.fromTuple x
  VecHistogram.new axes

/-- `ndhistogram!(x, y, ...; V)`, `ndhistogram!(x, y, ...)` (macros.rs:49-73), two or more axes -/
def ndhistogram {t₀ t₁ : AxTy} {ts : List AxTy} (V : Type) [RDefault V] (item : Tup (t₀ :: t₁ :: ts)) : Res (VecHistogram (AxesTuple t₀ t₁ ts) V) := do
  let axes ← AxesTuple.fromTuple item
  VecHistogram.new axes

/-- `sparsehistogram!(x; V)`, `sparsehistogram!(x)` (macros.rs:123-147), one axis -/
def sparsehistogram1 {X : Type} [Axis X] (V : Type) (x : X) : Res (HashHistogram (AxesTuple1 X) V) := do
  let axes ← AxesTuple1.fromTuple x
  return HashHistogram.new axes

/-- `sparsehistogram!(x, y, ...; V)`, `sparsehistogram!(x, y, ...)` (macros.rs:123-147), two or more axes -/
def sparsehistogram {t₀ t₁ : AxTy} {ts : List AxTy} (V : Type) (item : Tup (t₀ :: t₁ :: ts)) : Res (HashHistogram (AxesTuple t₀ t₁ ts) V) := do
  let axes ← AxesTuple.fromTuple item
  return HashHistogram.new axes

end NdHist
