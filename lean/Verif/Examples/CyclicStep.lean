import Verif.Props.CyclicStep
import Verif.Examples.Near
/-!
# Concrete cases of the theorems in `Props/CyclicStep.lean`
-/
namespace NdHist.Examples
open NdHist
section
attribute [local instance] dbg64 stdNew

/-- ten bins of width 0.1 from 0.3 on, around the circle -/
def exTurn : UniformCyclic F64 := ⟨⟨⟨10, f64 0.3, Flt.add (Flt.mul (f64 10) (f64 0.1)) (f64 0.3), f64 0.1⟩⟩⟩
theorem exTurn_new : UniformCyclic.withStepSize 10 (f64 0.3) (f64 0.1) = .ok (.ok exTurn) := by decide +kernel
example : exTurn.index (f64 (-12345.678)) = .ok (some 0) := by
  refine (C77_uniform_cyclic_step exTurn_new (by decide +kernel) (by decide +kernel) (by decide +kernel) (by decide) (by decide) (by decide +kernel) (by decide +kernel)
    (by decide +kernel) (f64 (-12345.678)) (by decide +kernel) (by decide +kernel)).2 (-12346) 0 (exTurn.axis.axis.fedge 0) (exTurn.axis.axis.fedge 1) (by decide) ?_ ?_ ?_ <;> decide +kernel
example := C78_uniform_cyclic_step exTurn_new (by decide +kernel) (by decide +kernel) (by decide +kernel) (by decide) (by decide) (by decide +kernel) (by decide +kernel) (by decide +kernel)

example := C78_weights_float exRough_rough (exRoughHist_new (V := F64)) [(f64 0.15, some (f64 0.7)), (f64 0.16, none), (f64 (-3), some (f64 1.5))]
  (by decide +kernel) (by
    intro cw hcw w hw
    simp only [List.mem_cons, List.not_mem_nil, or_false] at hcw
    rcases hcw with rfl | rfl | rfl <;> cases hw <;> decide +kernel) (by decide +kernel) (by decide +kernel) (by decide +kernel)
end
end NdHist.Examples
