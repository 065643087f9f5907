import Verif.Examples.Float
import Verif.Props.FloatSqrt
/-!
# Concrete cases of the theorems in `Props/FloatSqrt.lean`
-/
namespace NdHist.Examples
open NdHist
section
attribute [local instance] dbg64 stdNew

theorem f64_normal_roots : 2 * FFmt.f64.emin ≤ FFmt.f64.qmin := by decide
theorem f32_normal_roots : 2 * FFmt.f32.emin ≤ FFmt.f32.qmin := by decide

/-- the square root of 2 in `f64` is 6369051672525773 / 2^52 -/
example : ((⟨f64 2⟩ : Sum F64).standardDeviation F64) = f64 (6369051672525773 / 2 ^ 52) := by decide +kernel
example : IsRoot (f64 2) ((⟨f64 2⟩ : Sum F64).standardDeviation F64) := (C72_roots (τ := .u32)).1 ⟨f64 2⟩
example : IsRoot (F := .f64) (Flt.ofRat 7) ((⟨MInt.lit 7⟩ : Sum (MInt .i32)).standardDeviation F64) := C72_roots.2.1 ⟨MInt.lit 7⟩
example : NearestTo √((2 : ℚ) : ℝ) (f64 (6369051672525773 / 2 ^ 52)) := by
  have h := (C72_roots (F := .f64) (τ := .u32)).1 ⟨f64 2⟩
  have e : ((⟨f64 2⟩ : Sum F64).standardDeviation F64) = f64 (6369051672525773 / 2 ^ 52) := by decide +kernel
  have e2 : (⟨f64 2⟩ : Sum F64).variance = f64 2 := rfl
  rw [e, e2] at h
  have v2 : (f64 2).val = 2 := by decide +kernel
  generalize f64 (6369051672525773 / 2 ^ 52) = y at h
  generalize f64 2 = x at h v2
  cases h with
  | bad h =>
    rcases h with h | h | h
    · rw [h] at v2; exact absurd v2 (by decide)
    · rw [h] at v2; exact absurd v2 (by decide)
    · rw [v2] at h; exact absurd h.2 (by decide)
  | inf => exact absurd v2 (by decide)
  | zero neg => cases neg <;> exact absurd v2 (by decide)
  | pos _ _ _ h => rwa [v2] at h
/-- a `Mean` filled three times with 1.7, whose exact variance is 0 -/
example : ∃ v sd : F64, (⟨f64 5.1, f64 8.67, MInt.lit 3⟩ : Mean F64 F64 (MInt .u32)).varianceOfSamples = .ok v ∧
    (⟨f64 5.1, f64 8.67, MInt.lit 3⟩ : Mean F64 F64 (MInt .u32)).standardDeviationOfSamples = .ok sd ∧ 0 ≤ v.val := by
  obtain ⟨v, sd, h1, h2, -, h3, -⟩ := C72_mean_no_negative (⟨f64 5.1, f64 8.67, MInt.lit 3⟩ : Mean F64 F64 (MInt .u32))
  exact ⟨v, sd, h1, h2, h3⟩
example : POrd.le ((⟨f64 3, f64 2⟩ : WeightedSum F64).standardDeviation F64) ((⟨f64 3, f64 2.5⟩ : WeightedSum F64).standardDeviation F64) = true :=
  C72_monotone _ _ (by decide +kernel) (by decide +kernel)
example : |(((⟨f64 3, f64 2⟩ : WeightedSum F64).standardDeviation F64).val : ℝ) - √(((f64 2).val : ℚ) : ℝ)| ≤ FFmt.f64.u * √(((f64 2).val : ℚ) : ℝ) :=
  (C72_relative f64_normal_roots (⟨f64 3, f64 2⟩ : WeightedSum F64) (by decide +kernel) (by decide +kernel)).2
example : ∃ h' items, exWsNew.callAll (wsCalls (exFltHist ++ [("b", some .nan), ("a", some (.inf true))])) = (h', none) ∧ h'.iter = .ok items ∧ items.length = 2 := by
  obtain ⟨h', items, h1, h2, h3, -⟩ := C72_weighted_sum_nan exAxis_faithful (h := exWsNew) rfl (exFltHist ++ [("b", some .nan), ("a", some (.inf true))]) (fun _ _ => trivial)
  exact ⟨h', items, h1, h2, h3⟩
example : ∃ h' items, exWsNew.callAll (wsCalls exFltHist) = (h', none) ∧ h'.iter = .ok items ∧ items.length = 2 ∧
    ∀ (i : Nat) (it : Item (Axis.Interval (CategoryNoFlow String)) (WeightedSum F64)), items[i]? = some it → (it.value.standardDeviation F64).isFin := by
  obtain ⟨h', items, h1, h2, h3, h4⟩ := C72_weighted_sum f64_normal_roots exAxis_faithful (h := exWsNew) rfl exFltHist (fun _ _ => trivial) exFltHist_fin exFltHist_range (by decide +kernel)
  exact ⟨h', items, h1, h2, h3, fun i it hi => (h4 i it hi).2.2.1⟩
example : ∃ (m : Mean F64 F64 (MInt .u32)) (sd : F64), fillSeq (meanCalls exSamples) RDefault.dflt = (m, none) ∧ m.standardDeviationOfSamples = .ok sd ∧ sd.isFin := by
  obtain ⟨m, sd, -, h1, h2, h4, -⟩ := C72_mean (τ := .u32) f64_normal_roots exSamples (by decide) (fun x h => (exSamples_fin x h).1) (by decide) (by decide)
    (B := 100000002) (by decide) (fun x h => (exSamples_fin x h).2) (by decide +kernel) (by decide +kernel)
  exact ⟨m, sd, h1, h2, h4⟩
/-- samples that do vary -/
def exSpread : List (F64 × F64) := [(f64 1.7, f64 3), (f64 (-0.4), f64 0.7), (f64 1.1, f64 2.3)]
theorem exSpread_fin : ∀ x ∈ exSpread, (x.1.isFin ∧ x.2.isFin) ∧ |x.1.val| ≤ 2 ∧ 0 ≤ x.2.val := by
  intro x hx
  simp only [exSpread, List.mem_cons, List.not_mem_nil, or_false] at hx
  rcases hx with rfl | rfl | rfl <;> refine ⟨⟨?_, ?_⟩, ?_, ?_⟩ <;> decide +kernel
example : ∃ (m : WeightedMean F64 F64 F64 (MInt .u32)) (sd : F64), fillSeq (wmCalls exSpread) RDefault.dflt = (m, none) ∧ m.standardDeviationOfSamples = .ok sd ∧ sd.isFin := by
  obtain ⟨m, sd, h1, h2, h3, -⟩ := C72_weighted_mean (τ := .u32) f64_normal_roots exSpread (fun x h => (exSpread_fin x h).1) (by decide) (by decide +kernel) (B := 2) (by decide)
    (fun x h => (exSpread_fin x h).2.1) (fun x h => (exSpread_fin x h).2.2) rfl (by decide +kernel) rfl (by decide +kernel) (by decide +kernel) (by decide +kernel) (by decide +kernel)
    (by decide +kernel) (by decide +kernel) (by decide +kernel)
  exact ⟨m, sd, h1, h2, h3⟩
def exSumNew : VecHistogram (CategoryNoFlow String) (Sum F64) := ⟨exAxis, [RDefault.dflt, RDefault.dflt]⟩
example : ∃ h' items, exSumNew.callAll (["a", "b", "a", "zz", "a", "a"].map .fill) = (h', none) ∧ h'.iter = .ok items ∧
    ∀ (i : Nat) (it : Item (Axis.Interval (CategoryNoFlow String)) (Sum F64)), items[i]? = some it → (it.value.standardDeviation F64).isFin := by
  obtain ⟨h', items, h1, h2, h3, h4⟩ := C72_counts exAxis_faithful (h := exSumNew) rfl ["a", "b", "a", "zz", "a", "a"] (fun _ _ => trivial)
  exact ⟨h', items, h1, h2, fun i it hi => (h4 i it hi).2.2.1.1⟩
/-- four entries: the error is exactly 2 -/
example : ((exSumNew.callAll (["a", "b", "a", "zz", "a", "a"].map .fill)).1.valueAtIndex 0).map (fun s => s.standardDeviation F64) = some (f64 2) := by decide +kernel
end
end NdHist.Examples
