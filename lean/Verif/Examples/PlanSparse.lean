import Verif.Props.PlanSparse
import Verif.Examples.BadWeights
import Verif.Examples.FloatExact
import Verif.Examples.Wrap
/-!
# Concrete cases of the theorems in `Props/PlanSparse.lean`
-/
namespace NdHist.Examples
open NdHist
section
attribute [local instance] dbg64 stdNew numPEq
example := C79_plan_sparse exTen_faithful (by decide +kernel) (.merge (.share exBad) (.merge (.share exBad) (.share []))) (by
  intro cw h; simp only [MergePlan.calls, List.mem_append, List.not_mem_nil, or_false, or_self] at h; exact exBad_dom cw h)
end
section
attribute [local instance] dbg64 stdNew
/-- two threads: whichever form of addition and whichever order the bins are visited in, the items have finite values -/
example : ∀ x, SparseOutcome exAxis exFltPlan.numCalls x → ∃ m : HashHistogram _ F64, x = .ok (.ok m) ∧ ∀ o : m.values.Order, ∃ items, m.iter o = .ok items ∧ ∀ it ∈ items, it.value.isFin := by
  obtain ⟨-, h⟩ := C57_plan_sparse exAxis_faithful (by decide) exFltPlan (fun _ _ => trivial) exFltHist_fin (by decide +kernel)
  intro x hx
  obtain ⟨m, rfl, hm⟩ := h x hx
  refine ⟨m, rfl, fun o => ?_⟩
  obtain ⟨items, h1, -, h3, -⟩ := hm o
  exact ⟨items, h1, fun it hi => (h3 it hi).2.2.2.1⟩
example : ∃ x, SparseOutcome exAxis exFltPlan.numCalls x :=
  (C57_plan_sparse exAxis_faithful (by decide) exFltPlan (fun _ _ => trivial) exFltHist_fin (by decide +kernel)).1
example : ∃ x, SparseOutcome exAxis exGridPlan.numCalls x :=
  (C74_plan_sparse exGrid_e exAxis_faithful (by decide) exGridPlan (fun _ _ => trivial) exGridHist_fin exGridHist_grid).1
example : ∃ x, SparseOutcome exAxis exWrapPlan.numCalls x :=
  (C73_modulo_plan_sparse (C73_wrapping (τ := .u8)) exAxis_faithful (by decide) exWrapPlan (fun _ _ => trivial)).1
end
end NdHist.Examples
