import Verif.Examples.SparseFill
import Verif.Props.WrapOps
/-!
# Concrete cases of the theorems in `Props/WrapOps.lean`
-/
namespace NdHist.Examples
open NdHist
section
attribute [local instance] dbg64 stdNew

example : ∃ c, @RNum.mul _ dbg64 _ (exW 20) (exW 20) = .ok c ∧ c.val ≡ 400 [ZMOD 2 ^ 8] := (C73_wrapping_ops (τ := .u8)).mul (exW 20) (exW 20)
example : @RNum.mul _ dbg64 _ (exW 20) (exW 20) = .ok (exW 144) := by decide +kernel
/-- "a": 20 and 1; "b": 250 and 10 -/
def exWrapWHist : List (String × Option (WInt .u8)) := [("a", some (exW 20)), ("b", some (exW 250)), ("a", none), ("b", some (exW 10))]
def exWrapWNew : VecHistogram (CategoryNoFlow String) (WeightedSum (WInt .u8)) := ⟨exAxis, [RDefault.dflt, RDefault.dflt]⟩
example : ∃ h' items, exWrapWNew.callAll (weightedSumCalls exWrapWHist) = (h', none) ∧ h'.iter = .ok items ∧ items.length = 2 := by
  obtain ⟨h', items, h1, h2, h3, -⟩ := C73_modulo_weighted_sum (C73_wrapping_ops (τ := .u8)) exAxis_faithful (h := exWrapWNew) rfl exWrapWHist (fun _ _ => trivial)
  exact ⟨h', items, h1, h2, h3⟩
/-- 400 + 1 is 145 modulo 256; 250 + 10 is 4, 62500 + 100 is 136 -/
example : (exWrapWNew.callAll (weightedSumCalls exWrapWHist)).1.valuesIter = [⟨exW 21, exW 145⟩, ⟨exW 4, exW 136⟩] := by decide +kernel

def exWrapL : VecHistogram (CategoryNoFlow String) (WInt .u8) := ⟨exAxis, [exW 3, exW 200]⟩
def exWrapR : VecHistogram (CategoryNoFlow String) (WInt .u8) := ⟨exAxis, [exW 5, exW 2]⟩
example : ∃ m, exWrapL.opBorrow .mul exWrapR = .ok (.ok m) ∧ m.axes = exAxis := by
  obtain ⟨m, h1, h2, -⟩ := C73_modulo_operators (C73_wrapping_ops (τ := .u8)) .mul (by decide) (l := exWrapL) (r := exWrapR)
    (n := 2) ⟨exAxis_faithful.lawful, rfl⟩ ⟨exAxis_faithful.lawful, rfl⟩ (by decide)
  exact ⟨m, h1, h2⟩
example : exWrapL.opBorrow .sub exWrapR = .ok (.ok ⟨exAxis, [exW 254, exW 198]⟩) := rfl
end

section
attribute [local instance] rel64 stdNew
theorem exAxis_faithful_rel : FaithfulAxis exAxis 2 (SingleValueBinInterval.Covers ["a", "b"]) (fun _ => True) := C51_category_noflow ["a", "b"] (by decide) (by decide)

example : ∃ c, @RNum.sub _ rel64 _ (.lit (-100) : MInt .i8) (.lit 100) = .ok c ∧ c.val ≡ -200 [ZMOD 2 ^ 8] := (C73_release_ops (τ := .i8) rfl).sub (.lit (-100)) (.lit 100)
/-- 100 + 30 - 30 fits -/
example : ∃ h' items, exI8New.callAll (numCalls exI8Hist) = (h', none) ∧ h'.iter = .ok items ∧ items.length = 2 := by
  obtain ⟨h', items, h1, h2, h3, -⟩ := C73_release_fits rfl exAxis_faithful_rel (h := exI8New) rfl exI8Hist (fun _ _ => trivial)
  exact ⟨h', items, h1, h2, h3⟩

/-- sums up to 2^31 + 4 and back, squares much too large -/
def exMeanBig : List (String × MInt .i32) := [("a", .lit (2 ^ 31 - 1)), ("a", .lit 5), ("b", .lit 3), ("a", .lit (-(2 ^ 31) + 1)), ("b", .lit 4)]
example : ∃ h' items, exMeanNew.callAll (meanFills exMeanBig) = (h', none) ∧ h'.iter = .ok items ∧ items.length = 2 := by
  obtain ⟨h', items, h1, h2, h3, -⟩ := C75_release (F := .f64) rfl (by decide) (by decide) (by decide) (by decide) exAxis_faithful_rel (h := exMeanNew) rfl exMeanBig (fun _ _ => trivial)
  exact ⟨h', items, h1, h2, h3⟩
/-- the mean of "a" is 5/3 to the nearest float all the same -/
example : (exMeanNew.callAll (meanFills exMeanBig)).1.valuesIter.map Mean.get = [.ok (Flt.ofRat (5/3)), .ok (Flt.ofRat (7/2))] := by decide +kernel
end
end NdHist.Examples
