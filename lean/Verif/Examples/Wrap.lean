import Verif.Examples.Float
import Verif.Props.Wrap
/-!
# Concrete cases of the theorems in `Props/Wrap.lean`

Histograms over the categories "a" and "b", filled past the range of `u8`.
-/
namespace NdHist.Examples
open NdHist
section
attribute [local instance] dbg64 stdNew

abbrev exW (n : Int) (h : IntTy.u8.min ≤ n ∧ n ≤ IntTy.u8.max := by decide) : WInt .u8 := ⟨.lit n h⟩
/-- 255 + 1 in "a", 7 in "b" -/
def exWrapHist : List (String × Option (WInt .u8)) := [("a", some (exW 255)), ("b", some (exW 7)), ("a", none)]
def exWrapNew : VecHistogram (CategoryNoFlow String) (WInt .u8) := ⟨exAxis, [exW 0, exW 0]⟩

example : AddsModulo (WInt.val : WInt .u8 → ℤ) (2 ^ 8) := C73_wrapping (τ := .u8)
example : ∃ h' items, exWrapNew.callAll (numCalls exWrapHist) = (h', none) ∧ h'.iter = .ok items ∧ items.length = 2 := by
  obtain ⟨h', items, h1, h2, h3, -⟩ := C73_modulo_dense (C73_wrapping (τ := .u8)) exAxis_faithful (h := exWrapNew) rfl exWrapHist (fun _ _ => trivial)
  exact ⟨h', items, h1, h2, h3⟩
/-- bin "a" has wrapped around to 0 -/
example : (exWrapNew.callAll (numCalls exWrapHist)).1.valuesIter = [exW 0, exW 7] := by decide +kernel
example : ∃ h', (HashHistogram.new exAxis : HashHistogram _ (WInt .u8)).callAll (numCalls exWrapHist) = (h', none) := by
  obtain ⟨h', h1, -⟩ := C73_modulo_sparse (C73_wrapping (τ := .u8)) exAxis_faithful exWrapHist (fun _ _ => trivial)
  exact ⟨h', h1⟩
def exWrapPlan : MergePlan (String × Option (WInt .u8)) := .merge (.share (exWrapHist.take 1)) (.share (exWrapHist.drop 1))
example : ∃ m items, exWrapPlan.numCalls.run exWrapNew = .ok (.ok m) ∧ m.iter = .ok items ∧ items.length = 2 := by
  obtain ⟨m, items, h1, h2, h3, -⟩ := C73_modulo_plan (C73_wrapping (τ := .u8)) exAxis_faithful (by decide) (h := exWrapNew) rfl exWrapPlan (fun _ _ => trivial)
  exact ⟨m, items, h1, h2, h3⟩

/-- the same data as `i8`: "a" goes to 100, 130 is out of range -/
def exI8Hist : List (String × Option (MInt .i8)) := [("a", some (.lit 100)), ("b", some (.lit (-7))), ("a", some (.lit 30)), ("a", some (.lit (-30)))]
def exI8New : VecHistogram (CategoryNoFlow String) (MInt .i8) := ⟨exAxis, [.lit 0, .lit 0]⟩
example : ∃ h' p pre items, exI8New.callAll (numCalls exI8Hist) = (h', p) ∧ pre <+: exI8Hist ∧ h'.iter = .ok items ∧ items.length = 2 := by
  obtain ⟨h', p, pre, items, h1, h2, h3, h4, -⟩ := C73_checked rfl exAxis_faithful (h := exI8New) rfl exI8Hist (fun _ _ => trivial)
  exact ⟨h', p, pre, items, h1, h2, h3, h4⟩
/-- it stops at the third call, although the sum of all is in range -/
example : (exI8New.callAll (numCalls exI8Hist)).1.valuesIter = [.lit 100, .lit (-7)] ∧ (exI8New.callAll (numCalls exI8Hist)).2 = some .overflow := by decide +kernel
end

section
attribute [local instance] rel64 stdNew
example : AddsModulo (MInt.val : MInt .i8 → ℤ) (2 ^ 8) := C73_release (τ := .i8) rfl
/-- 100 + 30 wraps around to -126 and back -/
example : (exI8New.callAll (numCalls exI8Hist)).1.valuesIter = [.lit 100, .lit (-7)] ∧ (exI8New.callAll (numCalls exI8Hist)).2 = none := by decide +kernel
example : ∃ h' items, exI8New.callAll (numCalls exI8Hist) = (h', none) ∧ h'.iter = .ok items ∧ items.length = 2 := by
  obtain ⟨h', items, h1, h2, h3, -⟩ := C73_modulo_dense (C73_release (τ := .i8) rfl) (C51_category_noflow ["a", "b"] (by decide) (by decide)) (h := exI8New) rfl exI8Hist (fun _ _ => trivial)
  exact ⟨h', items, h1, h2, h3⟩
end
end NdHist.Examples
