import Verif.Examples.Interchange
import Verif.Props.RebinCyclic
/-!
Concrete cases of the cyclic parts of C82 and C83.
-/
set_option linter.unusedSectionVars false
namespace NdHist.Examples
open NdHist
section
attribute [local instance] dbg64 stdNew

example : Coarser (VariableCyclic.mk ⟨exFineV⟩) 4 (BinInterval.CoversTurns (τ := .i32) (50 - 0)) (VariableCyclic.mk ⟨exCoarseV⟩) 2 (BinInterval.CoversTurns (τ := .i32) (50 - 0)) id
    (fun c : MInt .i32 => IntTy.min .i32 ≤ c.val - 0 ∧ c.val - 0 ≤ IntTy.max .i32) (fun i => mergeEdges exFine exCoarseE (i + 1) - 1) :=
  C82_variable_cyclic_int (edges := exFine) (edges' := exCoarseE) (lo := .lit 0) (hi := .lit 50) (by decide +kernel) (by decide +kernel) (by decide) (by decide) (by decide) (by decide) (by decide)
    ⟨by decide, by decide⟩ ⟨by decide, by decide⟩ (by decide)
/-- -38 is 12 after a turn: in the third fine bin and the first coarse bin -/
example : (VariableCyclic.mk ⟨exFineV⟩).index (.lit (-38)) = .ok (some 2) ∧ (VariableCyclic.mk ⟨exCoarseV⟩).index (.lit (-38)) = .ok (some 0) ∧
    mergeEdges exFine exCoarseE (2 + 1) - 1 = 0 := by decide +kernel

/-- the quadrants, and the half turns among them; one of the zeros is a negative zero -/
def exQuad : List F64 := [f64 0, f64 90, f64 180, f64 270, f64 360]
def exHalf : List F64 := [f64 360, f64 180, F64.negZero]
where F64.negZero : F64 := .fin true 0 (by decide +kernel)
example : Coarser (VariableCyclic.mk ⟨⟨exQuad⟩⟩) 4 (BinInterval.CoversTurnsF ((360 : ℕ) * pow2 0)) (VariableCyclic.mk ⟨⟨exHalf.reverse⟩⟩) 2 (BinInterval.CoversTurnsF ((360 : ℕ) * pow2 0)) id
    (GridTurns 0 exHalf.F64.negZero) (fun i => mergeEdges exQuad exHalf (i + 1) - 1) :=
  C82_variable_cyclic_float (edges := exQuad) (edges' := exHalf) (z := 0) (lo := exHalf.F64.negZero) (hi := f64 360) (by decide +kernel) (by decide +kernel) (by decide) (by decide) (by decide +kernel)
    (by decide +kernel) (by decide +kernel) (by decide +kernel) (by decide +kernel) ⟨by decide +kernel, by decide +kernel⟩ ⟨by decide +kernel, by decide +kernel⟩ (by decide) (by decide)
    (by decide +kernel) (by decide +kernel) (by decide) (by decide) (by decide)
example : (List.range 4).map (fun i => mergeEdges exQuad exHalf (i + 1) - 1) = [0, 0, 1, 1] := by decide +kernel
example : Coarser (UniformNoFlow.mk exGridTen) 10 BinInterval.Covers (VariableNoFlow.mk ⟨exTenEdges⟩) 10 BinInterval.Covers id (GridCoord 0 (f64 0) (f64 100)) id :=
  C83_uniform_variable_noflow_float (num := 10) exTen_fits (by decide +kernel) (by decide +kernel) (by decide +kernel) (by decide +kernel) (by decide) (by decide +kernel) (edges := exTenEdges)
    (by decide +kernel) (by decide +kernel) (by decide +kernel)
example : Coarser exDeg 4 (BinInterval.CoversTurnsF ((4 : ℕ) * ((90 : ℕ) * pow2 0))) (VariableCyclic.mk ⟨⟨exQuad⟩⟩) 4 (BinInterval.CoversTurnsF ((4 : ℕ) * ((90 : ℕ) * pow2 0))) id (GridTurns 0 (f64 0)) id :=
  C83_uniform_variable_cyclic_float (num := 4) (high := f64 360) exDeg_fits (by decide +kernel) (by decide +kernel) (by decide +kernel) (by decide +kernel) (by decide) (by decide +kernel) (edges := exQuad)
    (by decide +kernel) (by decide +kernel) (by decide +kernel)
example : exDeg.index (f64 (-1)) = .ok (some 3) ∧ (VariableCyclic.mk ⟨⟨exQuad⟩⟩).index (f64 (-1)) = .ok (some 3) := by decide +kernel
end
end NdHist.Examples
