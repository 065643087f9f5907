import Verif.Props.NewValue
import Verif.Props.Default
import Verif.Examples.IntMean
import Verif.Examples.Value
/-!
# Concrete cases of the theorems in `Props/NewValue.lean` and of C48
-/
namespace NdHist.Examples
open NdHist
section
attribute [local instance] dbg64

def exSamples : List (MInt .i32) := [.lit 1, .lit 2, .lit 4]
example := C88_mean (T := MInt .i32) (O := F64) (C := MInt .u32) exAxis_lawful (h := exMeanNew) rfl (c := "b") (i := 1) rfl exSamples
example := C88_mean_sparse (T := MInt .i32) (O := F64) (C := MInt .u32) exAxis_lawful (c := "b") (i := 1) rfl exSamples
/-- three samples, sum 7, squares 21 -/
example : (Mean.new exSamples : Mean (MInt .i32) F64 (MInt .u32) × Option Panic) = (⟨.lit 7, .lit 21, .lit 3⟩, none) := rfl
/-- `Mean::new` panics at the second sample: the sum includes it but not the square -/
example : (Mean.new [.lit 1, .lit 50000, .lit 2] : Mean (MInt .i32) F64 (MInt .u32) × Option Panic) = (⟨.lit 50001, .lit 1, .lit 1⟩, some .overflow) := rfl
example := C88_append (T := MInt .i32) (O := F64) (C := MInt .u32) exSamples [.lit 5] (m := ⟨.lit 7, .lit 21, .lit 3⟩) rfl
example := C88_mean_int (τ := .i32) (κ := .u32) (F := .f64) rfl (by decide) (by decide) (by decide) (by decide) exSamples
example : ∃ q, (Mean.new exSamples : Mean (MInt .i32) F64 (MInt .u32) × Option Panic).1.get = .ok q ∧ Closest (7 / 3) q := by
  obtain ⟨-, h⟩ := C88_mean_int (τ := .i32) (κ := .u32) (F := .f64) rfl (by decide) (by decide) (by decide) (by decide) exSamples
  obtain ⟨q, v, vm, h1, h2, -⟩ := (h rfl).2.2 (by decide)
  exact ⟨q, h1, by rwa [show (((exSamples.map MInt.val).sum : ℤ) : ℚ) / (exSamples.length : ℚ) = 7 / 3 by decide +kernel] at h2⟩

def exWSamples : List (MInt .i32 × MInt .i32) := [(.lit 5, .lit 2), (.lit 1, .lit (-1))]
def exWHist : VecHistogram (CategoryNoFlow String) (WeightedMean (MInt .i32) (MInt .i32) F64 (MInt .u32)) := ⟨exAxis, [RDefault.dflt, RDefault.dflt]⟩
example := C88_weighted_mean exAxis_lawful (h := exWHist) rfl (c := "a") (i := 0) rfl exWSamples
example := C88_weighted_mean_sparse (T := MInt .i32) (W := MInt .i32) (O := F64) (C := MInt .u32) exAxis_lawful (c := "a") (i := 0) rfl exWSamples
/-- sums of w·x, w·x², w, w², count -/
example : (WeightedMean.new exWSamples : WeightedMean (MInt .i32) (MInt .i32) F64 (MInt .u32) × Option Panic) = (⟨.lit 9, .lit 49, .lit 1, .lit 5, .lit 2⟩, none) := rfl
/-- the order of the samples matters if one of them panics -/
example : (WeightedMean.new [(.lit 1, .lit 1), (.lit 50000, .lit 1)] : WeightedMean (MInt .i32) (MInt .i32) F64 (MInt .u32) × Option Panic) ≠
    WeightedMean.new [(.lit 50000, .lit 1), (.lit 1, .lit 1)] := by decide +kernel
example := C88_sums (T := F64) exAxis_lawful

/-! ## C48 -/

example := C48_tuple1 (X := Category String)
/-- one bin, so that the shape `[1]` would be right -/
example (ko) : (RDefault.dflt : HashHistogram (AxesTuple1 (Category String)) (MInt .u8)).opBorrow .add (HashHistogram.new ⟨RDefault.dflt, [1]⟩) ko = .ok (.error .mk) :=
  (C48_counterexample_tuple1_eq (V := MInt .u8) (X := Category String) (a := ⟨RDefault.dflt, [1]⟩) rfl .add).2 ko
/-- three default axes -/
example : (RDefault.dflt : AxesTuple ⟨Uniform (MInt .i32), inferInstance⟩ ⟨Category String, inferInstance⟩ [⟨Uniform (MInt .i32), inferInstance⟩]).index (.lit (-1), "a", .lit 4, ()) = .ok (some 0) :=
  C48_counterexample_tuple_any _ (is := [0, 1]) rfl
end

section
attribute [local instance] dbg64 exactNum exactAbs
local instance (τ : IntTy) : RFrom (MInt τ) ℚ := intFrom τ ℚ
local instance (τ : IntTy) : Faithful (MInt τ) ℚ := int_faithful τ ℚ rfl
local instance (τ : IntTy) : FaithfulMul (MInt τ) (MInt τ) ℚ := ⟨fun a b c h => Faithful.mul a b c h⟩
example := C88_mean_exact (K := ℚ) (C := MInt .u32) exSamples (by decide) (m := ⟨.lit 7, .lit 21, .lit 3⟩) rfl
example := C88_weighted_mean_exact (K := ℚ) (C := MInt .u32) exWSamples (m := ⟨.lit 9, .lit 49, .lit 1, .lit 5, .lit 2⟩) rfl (by decide +kernel)
end
end NdHist.Examples
