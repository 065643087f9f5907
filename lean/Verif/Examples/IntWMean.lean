import Verif.Props.IntWMean
import Verif.Examples.IntMean
import Verif.Examples.SparseFill
import Verif.Examples.WrapOps
/-!
# Examples for C99
-/
namespace NdHist.Examples
open NdHist

section
attribute [local instance] dbg64 stdNew
def exWPosHist : List (String × MInt .i32 × MInt .i32) := [("a", .lit 17, .lit 2), ("b", .lit (-7), .lit 1), ("a", .lit 18, .lit 1), ("b", .lit 9, .lit 0), ("b", .lit (-7), .lit 3)]
theorem exWPos_dom : ∀ cx ∈ exWPosHist, True := fun _ _ => trivial
theorem exWPos_nonneg : ∀ cx ∈ exWPosHist, 0 ≤ cx.2.2.val := by decide
example : ∃ items, (exWMeanNew.callAll (weightedMeanFills exWPosHist)).1.iter = .ok items ∧ items.length = 2 := by
  obtain ⟨items, h1, h2, -⟩ := C99_weighted (F := .f64) rfl (by decide) (by decide) (by decide) (by decide) exAxis_faithful (h := exWMeanNew) rfl exWPosHist exWPos_dom exWPos_nonneg
    (Prod.ext rfl (by decide +kernel) : exWMeanNew.callAll (weightedMeanFills exWPosHist) = (_, none))
  exact ⟨items, h1, h2⟩
/-- "a" has variance 2/9, "b" variance 0: the sample 9 has no weight -/
example : (exWMeanNew.callAll (weightedMeanFills exWPosHist)).1.valuesIter[1]?.map WeightedMean.varianceOfSamples = some (.ok (f64 0)) := by decide +kernel
example (o : (exWMeanSparse.callAll (weightedMeanFills exWPosHist)).1.values.Order) :
    ∃ items, (exWMeanSparse.callAll (weightedMeanFills exWPosHist)).1.iter o = .ok items ∧ ∃ it ∈ items, it.index = 1 ∧ it.bin = .Bin "b" := by
  obtain ⟨items, h1, -, -, h2⟩ := C99_weighted_sparse (F := .f64) rfl (by decide) (by decide) (by decide) (by decide) exAxis_faithful exWPosHist exWPos_dom exWPos_nonneg
    (Prod.ext rfl (by decide +kernel) : exWMeanSparse.callAll (weightedMeanFills exWPosHist) = (_, none)) o
  exact ⟨items, h1, h2 1 (.Bin "b") (by decide) rfl ⟨("b", .lit (-7), .lit 1), by simp [exWPosHist], rfl⟩⟩
example : ∃ items, (exMeanNew.callAll (meanFills exMeanHist)).1.iter = .ok items ∧ items.length = 2 := by
  obtain ⟨items, h1, h2, -⟩ := C99_mean (F := .f64) rfl (by decide) (by decide) (by decide) (by decide) exAxis_faithful (h := exMeanNew) rfl exMeanHist (fun _ _ => trivial) exMean_run
  exact ⟨items, h1, h2⟩
/-- the type conditions hold for 32 bits with `f64` and for 16 bits with `f32` -/
example : (-2 ^ FFmt.f64.p ≤ 32 * IntTy.u32.min ∧ 32 * IntTy.u32.max ≤ 2 ^ FFmt.f64.p) ∧ (-2 ^ FFmt.f32.p ≤ 32 * (IntTy.mk true 16 (by decide)).min ∧ 32 * (IntTy.mk true 16 (by decide)).max ≤ 2 ^ FFmt.f32.p) ∧
    FFmt.f32.emin + 3 * FFmt.f32.p + 2 ≤ 0 ∧ 2 * FFmt.f32.p ≤ FFmt.f32.emax := by decide
end

section
attribute [local instance] rel64 stdNew
/-- the weighted sum of "a" is on the way larger than an i32 -/
def exWBig : List (String × MInt .i32 × MInt .i32) := [("a", .lit (2 ^ 30), .lit 3), ("b", .lit 3, .lit 1), ("a", .lit (-(2 ^ 30)), .lit 3), ("a", .lit 5, .lit 1)]
example : ∃ h' items, exWMeanNew.callAll (weightedMeanFills exWBig) = (h', none) ∧ h'.iter = .ok items ∧ items.length = 2 := by
  obtain ⟨h', items, h1, h2, h3, -⟩ := C99_weighted_release (F := .f64) rfl (by decide) (by decide) (by decide) (by decide) exAxis_faithful_rel (h := exWMeanNew) rfl exWBig (fun _ _ => trivial)
  exact ⟨h', items, h1, h2, h3⟩
end
end NdHist.Examples
