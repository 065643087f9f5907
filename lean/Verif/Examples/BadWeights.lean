import Verif.Props.BadWeights
import Verif.Examples.FloatGrid
import Verif.Examples.Near
/-!
# Concrete cases of the theorems in `Props/BadWeights.lean`
-/
namespace NdHist.Examples
open NdHist
section
attribute [local instance] dbg64 stdNew numPEq

/-- NaN and infinite weights in some bins, good ones in others -/
def exBad : List (F64 × Option F64) := [(f64 15, some .nan), (f64 25, some (.inf false)), (f64 15, none), (f64 25, some (f64 (-3))), (f64 35, some (f64 0.5)),
  (f64 45, some (.inf true)), (f64 45, some (.inf false)), (.inf true, some (f64 7)), (f64 38, none)]
theorem exBad_dom : ∀ cw ∈ exBad, GridCoord 0 (f64 0) (f64 100) cw.1 := by
  simp only [exBad, List.forall_mem_cons]
  exact ⟨⟨by decide +kernel, fun _ _ => ⟨15, by decide +kernel⟩⟩, ⟨by decide +kernel, fun _ _ => ⟨25, by decide +kernel⟩⟩, ⟨by decide +kernel, fun _ _ => ⟨15, by decide +kernel⟩⟩, ⟨by decide +kernel, fun _ _ => ⟨25, by decide +kernel⟩⟩, ⟨by decide +kernel, fun _ _ => ⟨35, by decide +kernel⟩⟩, ⟨by decide +kernel, fun _ _ => ⟨45, by decide +kernel⟩⟩, ⟨by decide +kernel, fun _ _ => ⟨45, by decide +kernel⟩⟩, ⟨by decide +kernel, fun h => absurd h (by decide +kernel)⟩, ⟨by decide +kernel, fun _ _ => ⟨38, by decide +kernel⟩⟩, by simp⟩
def exBadHist {V : Type} [RDefault V] : VecHistogram (Uniform F64) V := ⟨exGridTen, List.replicate 12 RDefault.dflt⟩
theorem exBadHist_new {V : Type} [RDefault V] : VecHistogram.new exGridTen = .ok (exBadHist : VecHistogram (Uniform F64) V) := rfl
example := C79_dense exTen_faithful (exBadHist_new (V := F64)) exBad exBad_dom
example := C79_sparse exTen_faithful exBad exBad_dom
example := C79_plan exTen_faithful (by decide +kernel) (exBadHist_new (V := F64)) (.merge (.share exBad) (.merge (.share exBad) (.share []))) (by
  intro cw h; simp only [MergePlan.calls, List.mem_append, List.not_mem_nil, or_false, or_self] at h; exact exBad_dom cw h)
example := C79_weighted_sum exTen_faithful exBadHist_new exBad exBad_dom
/-- bin 2, which got the NaN, is NaN; bin 4 is not -/
example : ((exBadHist (V := F64)).callAll (numCalls exBad)).1.valueAtIndex 2 = some .nan ∧
    ((exBadHist (V := F64)).callAll (numCalls exBad)).1.valueAtIndex 3 = some (.inf false) ∧
    ((exBadHist (V := F64)).callAll (numCalls exBad)).1.valueAtIndex 4 = some (f64 1.5) := by decide +kernel
example := C79_mean (τ := .u32) [f64 1, .inf true, f64 2] (by decide) (by decide) (by decide)
example : (1 + FFmt.f64.u) ^ (3 - 1) * ([f64 1, .inf true, f64 2].map fun x => |x.val|).sum ≤ FFmt.f64.maxFin := by decide +kernel
end
end NdHist.Examples
