import Verif.Model.Num
import Verif.Model.BinInterval
/-!
# The `Axis` trait (axis/mod.rs)
-/
namespace NdHist

/-- `trait Axis` (axis/mod.rs:86-133): the required methods, and `num_dim` which has a default.
`index`, `num_bins` and `bin` may panic (arithmetic overflow), hence `Res`. -/
class Axis (A : Type) [Cfg] where
  /-- `type Coordinate` -/
  Coordinate : Type
  /-- `type BinInterval` -/
  Interval : Type
  index : A → Coordinate → Res (Option Nat)
  numBins : A → Res Nat
  bin : A → Nat → Res (Option Interval)
  /-- axis/mod.rs:130-132 -/
  numDim : A → Nat := fun _ => 1

namespace Axis
variable {A : Type} [Cfg] [Axis A]

/-- `Axis::indices` (axis/mod.rs:103-105), collected. -/
def indices (a : A) : Res (List Nat) := do
  let n ← numBins a
  return List.range n

/-- `Axis::iter` (axis/mod.rs:108-116), collected: each `bin(it)` is unwrapped with `expect`.
`into_iter` of a reference to an axis is this function (axis/uniform.rs:155-165, axis/uniformnoflow.rs:105-115, axis/uniformcyclic.rs:140-149,
axis/variable.rs:133-143, axis/variablenoflow.rs:85-92, axis/variablecyclic.rs:108-117, axis/category.rs:117-124, axis/categorynoflow.rs:65-72, axes.rs). -/
def iter (a : A) : Res (List (Nat × Interval A)) := do
  let is ← indices a
  is.mapM fun it => do
    let b ← bin a it
    let b ← expect b
    return (it, b)

/-- `Axis::bins` (axis/mod.rs:119-124), collected. -/
def bins (a : A) : Res (List (Interval A)) := do
  let is ← indices a
  is.mapM fun it => do
    let b ← bin a it
    expect b

end Axis
end NdHist
