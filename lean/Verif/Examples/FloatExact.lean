import Verif.Examples.Float
import Verif.Props.FloatExact
/-!
# Concrete cases of the theorems in `Props/FloatExact.lean`
-/
namespace NdHist.Examples
open NdHist
section
attribute [local instance] dbg64 stdNew numPEq

/-- quarters: 2.75 + 1 - 0.5 in "a", 1000000.25 in "b" -/
def exGridHist : List (String × Option F64) := [("a", some (f64 2.75)), ("b", some (f64 1000000.25)), ("a", none), ("a", some (f64 (-0.5)))]
theorem exGridHist_fin : ∀ cw ∈ exGridHist, ∀ w, cw.2 = some w → w.isFin := by
  intro cw hc w hw
  simp only [exGridHist, List.mem_cons, List.not_mem_nil, or_false] at hc
  rcases hc with rfl | rfl | rfl | rfl <;> cases hw <;> decide +kernel
theorem exGridHist_grid : ∀ cw ∈ exGridHist, OnGrid (-2) (fltWeight cw) := by
  intro cw hc
  simp only [exGridHist, List.mem_cons, List.not_mem_nil, or_false] at hc
  rcases hc with rfl | rfl | rfl | rfl
  · exact ⟨11, by decide +kernel⟩
  · exact ⟨4000001, by decide +kernel⟩
  · exact ⟨4, by decide +kernel⟩
  · exact ⟨-2, by decide +kernel⟩
theorem exGridHist_abs (b : SingleValueBinInterval String) : fltAbsIn (SingleValueBinInterval.Covers ["a", "b"]) b exGridHist ≤ (2 : ℚ) ^ ((-2 : ℤ) + FFmt.f64.p) := by
  unfold fltAbsIn
  have h : ∀ l l' : List (String × Option F64), l.Sublist l' → (l.map fun cw => |fltWeight cw|).sum ≤ (l'.map fun cw => |fltWeight cw|).sum :=
    fun l l' h => (h.map _).sum_le_sum (fun x hx => by obtain ⟨_, _, rfl⟩ := List.mem_map.1 hx; exact abs_nonneg _)
  exact (h _ _ List.filter_sublist).trans (by decide +kernel)
theorem exGrid_e : FFmt.f64.qmin ≤ -2 ∧ -2 + (FFmt.f64.p : ℤ) ≤ FFmt.f64.emax := by decide

example : ∃ h' items, exFltNew.callAll (numCalls exGridHist) = (h', none) ∧ h'.iter = .ok items ∧ items.length = 2 ∧
    ∀ (i : Nat) (it : Item (SingleValueBinInterval String) F64), items[i]? = some it → it.value.isFin ∧ it.value.val = fltTotalIn (SingleValueBinInterval.Covers ["a", "b"]) it.bin exGridHist := by
  obtain ⟨h', items, h1, h2, h3, h4⟩ := C74_dense exGrid_e exAxis_faithful exFltNew_new exGridHist (fun _ _ => trivial) exGridHist_fin exGridHist_grid
  exact ⟨h', items, h1, h2, h3, fun i it hi => (h4 i it hi).2.2 (exGridHist_abs _)⟩
example : (exFltNew.callAll (numCalls exGridHist)).1.valuesIter = [f64 3.25, f64 1000000.25] := by decide +kernel
example : ∃ h', (HashHistogram.new exAxis : HashHistogram _ F64).callAll (numCalls exGridHist) = (h', none) := by
  obtain ⟨h', h1, -⟩ := C74_sparse exGrid_e exAxis_faithful exGridHist (fun _ _ => trivial) exGridHist_fin exGridHist_grid
  exact ⟨h', h1⟩
/-- one thread, or two threads that divide the calls differently -/
def exGridPlan : MergePlan (String × Option F64) := .merge (.share (exGridHist.take 1)) (.share (exGridHist.drop 1))
def exGridPlan' : MergePlan (String × Option F64) := .share (exGridHist.drop 1 ++ exGridHist.take 1)
example : ∃ m items, exGridPlan.numCalls.run exFltNew = .ok (.ok m) ∧ m.iter = .ok items ∧ items.length = 2 := by
  obtain ⟨m, items, h1, h2, h3, -⟩ := C74_plan exGrid_e exAxis_faithful (by decide) exFltNew_new exGridPlan (fun _ _ => trivial) exGridHist_fin exGridHist_grid
  exact ⟨m, items, h1, h2, h3⟩
example : ∃ m m', exGridPlan.numCalls.run exFltNew = .ok (.ok m) ∧ exGridPlan'.numCalls.run exFltNew = .ok (.ok m') ∧ m.beq m' = true :=
  C74_order exGrid_e exAxis_faithful (by decide) exFltNew_new exGridPlan exGridPlan' (List.perm_append_comm (l₁ := exGridHist.take 1) (l₂ := exGridHist.drop 1)) (fun _ _ => trivial)
    exGridHist_fin exGridHist_grid (fun _ b _ _ => exGridHist_abs b)
example : ∃ h' items, exWsNew.callAll (wsCalls exGridHist) = (h', none) ∧ h'.iter = .ok items ∧ items.length = 2 := by
  obtain ⟨h', items, h1, h2, h3, -⟩ := C74_weighted_sum exGrid_e (by decide) exAxis_faithful (h := exWsNew) rfl exGridHist (fun _ _ => trivial) exGridHist_fin exGridHist_grid
  exact ⟨h', items, h1, h2, h3⟩
example : ∃ h' items, exFltNew.callAll (["b", "a", "b"].map .fill) = (h', none) ∧ h'.iter = .ok items ∧ items.length = 2 := by
  obtain ⟨h', items, h1, h2, h3, -⟩ := C74_counts exAxis_faithful exFltNew_new ["b", "a", "b"] (fun _ _ => trivial)
  exact ⟨h', items, h1, h2, h3⟩
end
end NdHist.Examples
