import Verif.Props.CyclicNear
import Verif.Examples.FloatGrid
/-!
# Concrete cases of the theorems in `Props/CyclicNear.lean`
-/
namespace NdHist.Examples
open NdHist
section
attribute [local instance] dbg64 stdNew

/-- ten bins around the interval [0, 0.7): neither the range nor the width is a binary fraction -/
def exTenth : UniformCyclic F64 := ⟨⟨⟨10, f64 0, f64 0.7, Flt.div (f64 0.7) (f64 10)⟩⟩⟩
theorem exTenth_new : UniformCyclic.new 10 (f64 0) (f64 0.7) = .ok (.ok exTenth) := by decide +kernel
/-- a coordinate many turns away -/
example := C77_uniform_cyclic exTenth_new (by decide +kernel) (by decide +kernel) (by decide) (by decide) (by decide +kernel) (by decide +kernel) (f64 (-123456.7)) (by decide +kernel)
  (by decide +kernel)
/-- the error in question is tiny, so the second claim applies to it -/
example : seamError FFmt.f64 22 exTenth.low.val exTenth.high.val (f64 (-123456.7)).val < 1 / 10 ^ 10 := by decide +kernel
example : exTenth.index (f64 (-123456.7)) = .ok (some 2) := by
  refine (C77_uniform_cyclic exTenth_new (by decide +kernel) (by decide +kernel) (by decide) (by decide) (by decide +kernel) (by decide +kernel) (f64 (-123456.7)) (by decide +kernel)
    (by decide +kernel)).2 (-176367) 2 (exTenth.axis.axis.fedge 2) (exTenth.axis.axis.fedge 3) (by decide) ?_ ?_ ?_ <;> decide +kernel
/-- a coordinate that is lost: a very small negative one -/
example : exTenth.index (f64 (-1/10^20)) = .ok none := by decide +kernel

def exVar : VariableCyclic F64 := ⟨⟨⟨[f64 0.1, f64 0.3, f64 0.7]⟩⟩⟩
example : exVar.index (f64 1000.13) = .ok (some 1) := by
  refine (C77_variable_cyclic (a := exVar) (edges := [f64 0.3, f64 0.1, f64 0.7]) (by decide +kernel) (by decide) (by decide +kernel) (by decide +kernel) (f64 0.1) (f64 0.7)
    (by decide +kernel) (by decide +kernel) (by decide +kernel) (f64 1000.13) (by decide +kernel) (by decide +kernel)).2 1666 1 (f64 0.3) (f64 0.7) ?_ ?_ ?_ ?_ <;> decide +kernel
end
end NdHist.Examples
