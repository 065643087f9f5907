import Verif.Props.SparseMore
import Verif.Examples.Ratio
import Verif.Examples.Snapshots
import Verif.Examples.WrapOps
/-!
# Concrete cases of the theorems in `Props/SparseMore.lean`
-/
namespace NdHist.Examples
open NdHist
section
attribute [local instance] dbg64

/-- in "a" 0.1 and 0.3 of 0.1, 0.2, 0.3; in "b" nothing of an infinite weight -/
example := C86_weighted_sparse (F := .f64) exAxis_faithful rfl exAllW exPassedW
  (.cons_cons _ (.cons _ (.cons _ (.cons_cons _ .slnil)))) (fun _ _ => trivial) (by
    intro cw hcw w hw
    simp only [exAllW, List.mem_cons, List.not_mem_nil, or_false] at hcw
    rcases hcw with rfl | rfl | rfl | rfl <;> cases hw <;> decide +kernel)
example := C94_float_sparse exGrid_e exAxis_faithful (by decide) (exGridHist.take 1) (exGridHist.drop 1) (fun _ _ => trivial) (by rw [List.take_append_drop]; exact exGridHist_fin)
  (by rw [List.take_append_drop]; exact exGridHist_grid)
example := C73_modulo_weighted_sum_sparse (C73_wrapping_ops (τ := .u8)) exAxis_faithful exWrapWHist (fun _ _ => trivial)
end
end NdHist.Examples
