import Verif.Examples.Float
import Verif.Props.IntMean
/-!
# Concrete cases of the theorems in `Props/IntMean.lean`
-/
namespace NdHist.Examples
open NdHist
section
attribute [local instance] dbg64 stdNew

/-- "a": 1, 2, 4; "b": -7, -7 -/
def exMeanHist : List (String × MInt .i32) := [("a", .lit 1), ("b", .lit (-7)), ("a", .lit 2), ("b", .lit (-7)), ("a", .lit 4)]
def exMeanNew : VecHistogram (CategoryNoFlow String) (Mean (MInt .i32) F64 (MInt .u32)) := ⟨exAxis, [RDefault.dflt, RDefault.dflt]⟩
theorem exMean_run : exMeanNew.callAll (meanFills exMeanHist) = ((exMeanNew.callAll (meanFills exMeanHist)).1, none) := by
  refine Prod.ext rfl ?_
  decide +kernel

example : (exMeanNew.callAll (meanFills exMeanHist)).2 = none ↔ ∀ (i : Nat) (b : SingleValueBinInterval String), i < 2 → @Axis.bin _ dbg64 _ exAxis i = .ok (some b) →
    (∀ q, q <+: samplesIn (SingleValueBinInterval.Covers ["a", "b"]) b exMeanHist → InRange .i32 q.sum) ∧
      InRange .i32 ((samplesIn (SingleValueBinInterval.Covers ["a", "b"]) b exMeanHist).map fun x => x ^ 2).sum ∧
      InRange .u32 (samplesIn (SingleValueBinInterval.Covers ["a", "b"]) b exMeanHist).length :=
  C75_panics rfl exAxis_faithful (h := exMeanNew) rfl exMeanHist (fun _ _ => trivial)
/-- 50000² is not an i32 -/
example : (exMeanNew.callAll (meanFills [("a", .lit 50000)])).2 = some .overflow := by decide +kernel
example : ∃ items, (exMeanNew.callAll (meanFills exMeanHist)).1.iter = .ok items ∧ items.length = 2 := by
  obtain ⟨items, h1, h2, -⟩ := C75_means (F := .f64) rfl (by decide) (by decide) (by decide) (by decide) exAxis_faithful (h := exMeanNew) rfl exMeanHist (fun _ _ => trivial) exMean_run
  exact ⟨items, h1, h2⟩
/-- the mean of 1, 2, 4 is the float nearest to 7/3; the variance of -7, -7 is zero -/
example : (exMeanNew.callAll (meanFills exMeanHist)).1.valuesIter.map Mean.get = [.ok (Flt.ofRat (7/3)), .ok (Flt.ofRat (-7))] := by decide +kernel
example : (exMeanNew.callAll (meanFills exMeanHist)).1.valuesIter[1]?.map Mean.varianceOfSamples = some (.ok (f64 0)) := by decide +kernel

def exWMeanHist : List (String × MInt .i32 × MInt .i32) := [("a", .lit 1, .lit 2), ("b", .lit (-7), .lit 1), ("a", .lit 2, .lit (-1)), ("b", .lit 5, .lit (-1))]
def exWMeanNew : VecHistogram (CategoryNoFlow String) (WeightedMean (MInt .i32) (MInt .i32) F64 (MInt .u32)) := ⟨exAxis, [RDefault.dflt, RDefault.dflt]⟩
example : ∃ items, (exWMeanNew.callAll (weightedMeanFills exWMeanHist)).1.iter = .ok items ∧ items.length = 2 := by
  obtain ⟨items, h1, h2, -⟩ := C75_weighted_means (F := .f64) rfl (by decide) exAxis_faithful (h := exWMeanNew) rfl exWMeanHist (fun _ _ => trivial)
    (Prod.ext rfl (by decide +kernel) : exWMeanNew.callAll (weightedMeanFills exWMeanHist) = (_, none))
  exact ⟨items, h1, h2⟩

def exWholeSamples : List F64 := [f64 3, f64 (-2), f64 7]
example : ∃ (m : Mean F64 F64 (MInt .u32)) (q : F64), fillSeq (meanCalls exWholeSamples) RDefault.dflt = (m, none) ∧ m.get = .ok q ∧ Closest (8 / 3) q := by
  obtain ⟨m, q, -, -, h1, -, h2, h3, -⟩ := C75_float_samples (κ := .u32) (F := .f64) (by decide) (by decide) exWholeSamples (by decide) (by
    intro x hx
    simp only [exWholeSamples, List.mem_cons, List.not_mem_nil, or_false] at hx
    rcases hx with rfl | rfl | rfl <;> decide +kernel) (by
    intro x hx
    simp only [exWholeSamples, List.mem_cons, List.not_mem_nil, or_false] at hx
    rcases hx with rfl | rfl | rfl
    · exact ⟨3, by decide +kernel⟩
    · exact ⟨-2, by decide +kernel⟩
    · exact ⟨7, by decide +kernel⟩) (by decide) (by decide) (by decide +kernel) (by decide +kernel)
  refine ⟨m, q, h1, h2, ?_⟩
  have e : (exWholeSamples.map Flt.val).sum / ((exWholeSamples.length : ℕ) : ℚ) = 8 / 3 := by decide +kernel
  rwa [e] at h3
end
end NdHist.Examples
