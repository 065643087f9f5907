import Verif.Props.FloatGrid
import Verif.Props.Macros
/-!
# Concrete cases of the theorems in `Props/FloatGrid.lean`
-/
namespace NdHist.Examples
open NdHist
section
attribute [local instance] dbg64 stdNew numPEq

/-- ten bins from 0 to 100, and four quarters of a circle in degrees -/
theorem exTen_fits : GridFits FFmt.f64 0 0 10 10 := ⟨by decide, by decide, by decide, by decide, by decide, by decide, by decide⟩
theorem exDeg_fits : GridFits FFmt.f64 0 0 90 4 := ⟨by decide, by decide, by decide, by decide, by decide, by decide, by decide⟩
/-- five bins of width 3/4 from -2 -/
theorem exThird_fits : GridFits FFmt.f64 (-2) (-8) 3 5 := ⟨by decide, by decide, by decide, by decide, by decide, by decide, by decide⟩

def exGridTen : Uniform F64 := ⟨10, f64 0, f64 100, f64 10⟩
theorem exGridTen_new : Uniform.new 10 (f64 0) (f64 100) = .ok (.ok exGridTen) := by decide +kernel
theorem exTen_faithful : FaithfulAxis exGridTen 12 BinInterval.Covers (GridCoord 0 (f64 0) (f64 100)) :=
  (C76_uniform_new exTen_fits (by decide +kernel) (by decide +kernel) (by decide +kernel) (by decide +kernel) (by decide) exGridTen_new).1
/-- 70 is in the bin `[70, 80)`, although 10 is no power of two; 29.999 is not on the grid, -0.3 need not be -/
example : GridCoord 0 (f64 0) (f64 100) (f64 70) ∧ GridCoord 0 (f64 0) (f64 100) (f64 (-3/10)) ∧ exGridTen.index (f64 70) = .ok (some 8) := by
  refine ⟨⟨by decide +kernel, fun _ _ => ⟨70, by decide +kernel⟩⟩, ⟨by decide +kernel, fun h => ?_⟩, by decide +kernel⟩
  exact absurd h (by decide +kernel)
example : ∃ s t : F64, exGridTen.bin 8 = .ok (some (.Bin s t)) ∧ s.val = 70 ∧ t.val = 80 := by
  obtain ⟨s, t, h1, -, -, h2, h3⟩ := (C76_uniform_new exTen_fits (by decide +kernel) (by decide +kernel) (by decide +kernel) (by decide +kernel) (by decide) exGridTen_new).2
    7 (by decide)
  refine ⟨s, t, h1, ?_, ?_⟩
  · rw [h2, pow2_zero]; norm_num
  · rw [h3, pow2_zero]; norm_num

def exThird : Uniform F64 := ⟨5, f64 (-2), f64 1.75, f64 0.75⟩
theorem exThird_new : Uniform.withStepSize 5 (f64 (-2)) (f64 0.75) = .ok (.ok exThird) := by decide +kernel
example : FaithfulAxis exThird 7 BinInterval.Covers (GridCoord (-2) (f64 (-2)) (f64 1.75)) :=
  (C76_uniform_step exThird_fits (by decide +kernel) (by decide +kernel) (by decide +kernel) (by decide +kernel) (by decide) exThird_new).2.2.2.1
example : FaithfulAxis (UniformNoFlow.mk exThird) 5 BinInterval.Covers (GridCoord (-2) (f64 (-2)) (f64 1.75)) :=
  (C76_uniform_noflow (a := ⟨exThird⟩) exThird_fits (by decide +kernel) (by decide +kernel) (by decide)
    (.inr ⟨f64 0.75, by decide +kernel, by decide +kernel, by decide +kernel⟩)).2.2

/-- the example of the documentation: degrees around a circle -/
def exDeg : UniformCyclic F64 := ⟨⟨⟨4, f64 0, f64 360, f64 90⟩⟩⟩
theorem exDeg_faithful : FaithfulAxis exDeg 4 (BinInterval.CoversTurnsF ((4 : ℕ) * ((90 : ℕ) * pow2 0))) (GridTurns 0 (f64 0)) ∧
    ∀ c, GridTurns 0 (f64 0) c → ∃ i, i < 4 ∧ exDeg.index c = .ok (some i) :=
  C76_uniform_cyclic exDeg_fits (by decide +kernel) (by decide +kernel) (by decide)
    (.inl ⟨f64 360, by decide +kernel, by decide +kernel, by decide +kernel⟩)
/-- -1 degree, and 45 degrees after a hundred turns backwards -/
example : GridTurns 0 (f64 0) (f64 (-1)) ∧ GridTurns 0 (f64 0) (f64 (45 - 36000)) ∧ exDeg.index (f64 (-1)) = .ok (some 3) ∧ exDeg.index (f64 (45 - 36000)) = .ok (some 0) := by
  refine ⟨⟨by decide +kernel, ⟨-1, by decide +kernel⟩, by decide +kernel⟩, ⟨by decide +kernel, ⟨45 - 36000, by decide +kernel⟩, by decide +kernel⟩, ?_, ?_⟩ <;> decide +kernel

def exVDeg : VariableCyclic F64 := ⟨⟨⟨[f64 0, f64 0.1, f64 90, f64 360]⟩⟩⟩
example : FaithfulAxis exVDeg 3 (BinInterval.CoversTurnsF ((360 : ℕ) * pow2 0)) (GridTurns 0 (f64 0)) ∧
    ∀ c, GridTurns 0 (f64 0) c → ∃ i, i < 3 ∧ exVDeg.index c = .ok (some i) :=
  C76_variable_cyclic (edges := [f64 90, f64 0, f64 360, f64 0.1]) (z := 0) (by decide +kernel) (by decide) (by decide +kernel) (by decide +kernel) (by decide) (by decide)
    (f64 0) (f64 360) (by decide +kernel) (by decide +kernel) (by decide +kernel) (by decide +kernel) (by decide) (by decide) (by decide)
example : exVDeg.index (f64 (-1)) = .ok (some 2) := by decide +kernel

/-- a whole histogram over whole degrees: each bin counts exactly the fills in it -/
example (degrees : List F64) (hd : ∀ c ∈ degrees, GridTurns 0 (f64 0) c) {h : VecHistogram (UniformCyclic F64) F64} (hnew : VecHistogram.new exDeg = .ok h) :
    ∃ h' items, h.callAll (degrees.map .fill) = (h', none) ∧ h'.iter = .ok items ∧ items.length = 4 := by
  obtain ⟨h', items, h1, h2, h3, -⟩ := C74_counts exDeg_faithful.1 hnew degrees hd
  exact ⟨h', items, h1, h2, h3⟩
end
end NdHist.Examples
