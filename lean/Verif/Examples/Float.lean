import Verif.Examples.Content
import Verif.Props.CyclicFloat
import Verif.Props.FloatVar
/-!
# Concrete cases of the theorems in `Props/CyclicFloat.lean`, `FloatSum.lean`, `FloatValue.lean` and `FloatVar.lean`

`exFC` is `UniformCyclic::new(100, 0.0, 25.0)` over `f64`, `exVF` is `VariableCyclic::new([0.0, 90.0, 360.0])`.
-/
namespace NdHist.Examples
open NdHist
section
attribute [local instance] dbg64 stdNew

def exFC : UniformCyclic F64 := ⟨⟨⟨100, f64 0, f64 25, f64 (1/4)⟩⟩⟩
theorem exFC_new : UniformCyclic.new 100 (f64 0) (f64 25) = .ok (.ok exFC) := by decide +kernel
theorem fin0 : (f64 0).isFin := by decide +kernel
theorem fin25 : (f64 25).isFin := by decide +kernel
theorem fin51 : (f64 51).isFin := by decide +kernel
/-- an axis whose lower end is not zero: `UniformCyclic::new(3, 0.1, 0.4)` -/
def exFC' : UniformCyclic F64 := ⟨⟨⟨3, f64 0.1, f64 0.4, f64 0.1⟩⟩⟩

example : ∃ x : F64, exFC'.index (f64 7.3) = exFC'.axis.index x := by
  obtain ⟨x, h, -⟩ := C09_wrap_partial exFC' (f64 7.3) (by decide +kernel) (by decide +kernel) (by decide +kernel) (by decide +kernel) (by decide +kernel) (by decide +kernel) (by decide +kernel)
  exact ⟨x, h⟩
/-- 51.0 = 2 * 25.0 + 1.0 -/
example : exFC.index (f64 51) = exFC.axis.index (f64 1) :=
  (C09_zero_low_partial exFC fin0 (by decide +kernel) fin25 (by decide +kernel) (f64 51) fin51).1 (f64 1) 2 (by decide +kernel) (by decide +kernel) (by decide +kernel) (by decide +kernel)
example : exFC.index (f64 51) = exFC.index (f64 101) :=
  C09_zero_low_turns_partial exFC fin0 (by decide +kernel) fin25 (by decide +kernel) (f64 51) (f64 101) fin51 (by decide +kernel) (by decide +kernel) 2 (by decide +kernel)
example : ∃ i, i < 100 ∧ exFC.index (f64 51) = .ok (some i) := by
  obtain ⟨-, -, i, -, -, -, -, -, h, h', -⟩ := C09_exact_partial (e := -2) exFC_new fin0 (by decide +kernel) fin25 (by decide +kernel) (by decide) (by decide) (by decide) (by decide +kernel)
    (f64 51) fin51 (by decide +kernel)
  exact ⟨i, h, h'⟩

def exVFe : List F64 := [f64 0, f64 90, f64 360]
def exVF : VariableCyclic F64 := ⟨⟨⟨exVFe⟩⟩⟩
theorem exVF_new : VariableCyclic.new exVFe = .ok (.ok exVF) := by decide +kernel
example : exVF.index .nan = .ok none := (C15_float_nan exVF_new (by decide)).1
example : ∃ x : F64, exVF.index (f64 (-7.3)) = exVF.axis.index x := by
  obtain ⟨x, h, -⟩ := C15_float_wrap_partial exVF (f64 0) (f64 360) (f64 (-7.3)) rfl rfl fin0 (by decide +kernel) (by decide +kernel) (by decide +kernel) (by decide +kernel) (by decide +kernel) (by decide +kernel)
  exact ⟨x, h⟩
example : ∃ k, k + 1 < 3 ∧ exVF.index (f64 400) = .ok (some k) := by
  obtain ⟨-, -, k, -, -, -, -, -, -, h, h', -⟩ := C15_float_zero_low_partial exVF_new (by decide) (by decide +kernel) (f64 0) (f64 360) rfl rfl fin0 (by decide +kernel) (by decide +kernel)
    (f64 400) (by decide +kernel) (by decide +kernel)
  exact ⟨k, h, h'⟩

/-! ## Sums of floating-point weights -/

theorem exAxis_faithful : FaithfulAxis exAxis 2 (SingleValueBinInterval.Covers ["a", "b"]) (fun _ => True) := C51_category_noflow ["a", "b"] (by decide) (by decide)
theorem exFltHist_fin : ∀ cw ∈ exFltHist, ∀ w, cw.2 = some w → w.isFin := by
  intro cw hc w hw
  simp only [exFltHist, List.mem_cons, List.not_mem_nil, or_false] at hc
  rcases hc with rfl | rfl | rfl | rfl <;> cases hw <;> decide +kernel
theorem exFltHist_range : (1 + FFmt.f64.u) ^ exFltHist.length * (exFltHist.map fun cw => |fltWeight cw|).sum ≤ FFmt.f64.maxFin := by decide +kernel
def exFltNew : VecHistogram (CategoryNoFlow String) F64 := ⟨exAxis, [RDefault.dflt, RDefault.dflt]⟩
theorem exFltNew_new : VecHistogram.new exAxis = .ok exFltNew := rfl
example : ∃ h' items, exFltNew.callAll (numCalls exFltHist) = (h', none) ∧ h'.iter = .ok items ∧ items.length = 2 := by
  obtain ⟨h', items, h1, h2, h3, -⟩ := C57_dense exAxis_faithful exFltNew_new exFltHist (fun _ _ => trivial) exFltHist_fin exFltHist_range
  exact ⟨h', items, h1, h2, h3⟩
example : ∃ h', (HashHistogram.new exAxis : HashHistogram _ F64).callAll (numCalls exFltHist) = (h', none) := by
  obtain ⟨h', h1, -⟩ := C57_sparse exAxis_faithful exFltHist (fun _ _ => trivial) exFltHist_fin exFltHist_range
  exact ⟨h', h1⟩
/-- two threads, two of the fills each -/
def exFltPlan : MergePlan (String × Option F64) := .merge (.share (exFltHist.take 2)) (.share (exFltHist.drop 2))
example : ∃ m items, exFltPlan.numCalls.run exFltNew = .ok (.ok m) ∧ m.iter = .ok items ∧ items.length = 2 := by
  obtain ⟨m, items, h1, h2, h3, -⟩ := C57_plan (plan := exFltPlan) exAxis_faithful (by decide) exFltNew_new (fun _ _ => trivial) exFltHist_fin (by decide +kernel)
  exact ⟨m, items, h1, h2, h3⟩
example : ∃ v v', (exFltNew.callAllCaught (numCalls (exFltHist.take 2))).valueAtIndex 0 = some v ∧
    (exFltNew.callAllCaught (numCalls (exFltHist.take 2 ++ exFltHist.drop 2))).valueAtIndex 0 = some v' ∧ POrd.ge v' v = true := by
  obtain ⟨v, v', h1, h2, -, h4⟩ := C57_monotone exAxis_lawful exFltNew_new (exFltHist.take 2) (exFltHist.drop 2) (by
    intro cw hc w hw
    replace hc : cw ∈ exFltHist := hc
    simp only [exFltHist, List.mem_cons, List.not_mem_nil, or_false] at hc
    rcases hc with rfl | rfl | rfl | rfl <;> cases hw <;> decide +kernel) 0 (by decide)
  exact ⟨v, v', h1, h2, h4⟩
def exWsNew : VecHistogram (CategoryNoFlow String) (WeightedSum F64) := ⟨exAxis, [RDefault.dflt, RDefault.dflt]⟩
example : ∃ h' items, exWsNew.callAll (wsCalls exFltHist) = (h', none) ∧ h'.iter = .ok items ∧ items.length = 2 := by
  obtain ⟨h', items, h1, h2, h3, -⟩ := C58_weighted_sum exAxis_faithful (h := exWsNew) rfl exFltHist (fun _ _ => trivial) exFltHist_fin exFltHist_range (by decide +kernel)
  exact ⟨h', items, h1, h2, h3⟩
theorem exSamples_fin : ∀ x ∈ exSamples, x.isFin ∧ |x.val| ≤ 100000002 := by
  intro x hx
  simp only [exSamples, List.mem_cons, List.not_mem_nil, or_false] at hx
  rcases hx with rfl | rfl | rfl <;> constructor <;> decide +kernel
example : ∃ (m : Mean F64 F64 (MInt .u32)) (q : F64), fillSeq (meanCalls exSamples) RDefault.dflt = (m, none) ∧ m.get = .ok q ∧ q.isFin := by
  obtain ⟨m, q, h1, -, h3, h4, -⟩ := C58_mean (τ := .u32) exSamples (by decide) (fun x h => (exSamples_fin x h).1) (by decide) (by decide) (by decide +kernel)
  exact ⟨m, q, h1, h3, h4⟩
example : ∃ (m : Mean F64 F64 (MInt .u32)) (v : F64), fillSeq (meanCalls exSamples) RDefault.dflt = (m, none) ∧ m.varianceOfSamples = .ok v ∧ 0 ≤ v.val := by
  obtain ⟨m, v, -, h1, h2, -, h4, -⟩ := C58_mean_variance (τ := .u32) exSamples (by decide) (fun x h => (exSamples_fin x h).1) (by decide) (by decide)
    (B := 100000002) (by decide) (fun x h => (exSamples_fin x h).2) (by decide +kernel) (by decide +kernel)
  exact ⟨m, v, h1, h2, h4⟩
theorem exWeighted_fin : ∀ x ∈ exWeighted, (x.1.isFin ∧ x.2.isFin) ∧ |x.1.val| ≤ 2 ∧ 0 ≤ x.2.val := by
  intro x hx
  simp only [exWeighted, List.mem_cons, List.not_mem_nil, or_false] at hx
  rcases hx with rfl | rfl | rfl <;> refine ⟨⟨?_, ?_⟩, ?_, ?_⟩ <;> decide +kernel
example : ∃ (m : WeightedMean F64 F64 F64 (MInt .u32)) (q : F64), fillSeq (wmCalls exWeighted) RDefault.dflt = (m, none) ∧ m.get = .ok q ∧ q.isFin := by
  obtain ⟨m, q, h1, -, h3, h4, -⟩ := C58_weighted_mean (τ := .u32) exWeighted (fun x h => (exWeighted_fin x h).1) (by decide) (by decide +kernel) (B := 2)
    (fun x h => (exWeighted_fin x h).2.1) (fun x h => (exWeighted_fin x h).2.2) rfl (by decide +kernel) (by decide +kernel) (by decide +kernel) (by decide +kernel)
  exact ⟨m, q, h1, h3, h4⟩
example : ∃ (m : WeightedMean F64 F64 F64 (MInt .u32)) (v : F64), fillSeq (wmCalls exWeighted) RDefault.dflt = (m, none) ∧ m.varianceOfSamples = .ok v ∧ v.isFin := by
  obtain ⟨m, v, -, h1, h2, h3, -⟩ := C58_weighted_mean_variance (τ := .u32) exWeighted (fun x h => (exWeighted_fin x h).1) (by decide) (by decide +kernel) (B := 2) (by decide)
    (fun x h => (exWeighted_fin x h).2.1) (fun x h => (exWeighted_fin x h).2.2) rfl (by decide +kernel) rfl (by decide +kernel) (by decide +kernel) (by decide +kernel) (by decide +kernel)
    (by decide +kernel) (by decide +kernel)
  exact ⟨m, v, h1, h2, h3⟩
end
end NdHist.Examples
