import Verif.Conformance.Hist
import Verif.Model.FloatSqrt
import Verif.Lemmas.Float
import Verif.Model.Display
/-!
# The project's own tests of the bin values and of the text of a histogram, run on the model
-/
namespace NdHist.Conformance
open NdHist
attribute [local instance] dbg64 stdNew numPEq

/-! ## tests/test_value_sum.rs, test_value_weightedsum.rs -/

example : (do
    let h ← ndhistogram1 (Sum (MInt .i32)) (← uni 1 0.0 1.0)
    let h ← ran (h.fill (f64 0.0 : F64))
    return (← h.value (f64 0.0 : F64)).map Sum.get) = .ok (some (i32 1)) := by decide +kernel
example : (do
    let h ← ndhistogram1 (Sum F64) (← uni 1 0.0 1.0)
    let h ← ran (h.fill (f64 0.0 : F64))
    let h ← ran (h.fill (f64 0.0 : F64))
    return (← h.value (f64 0.0 : F64)).map fun (v : Sum F64) => (v.get, v.variance, v.standardDeviation F64)) = .ok (some (f64 2, f64 2, Flt.sqrt (f64 2))) := by decide +kernel
example : (do return (← ran (FillWith.fillWith (f64 12345.678) (Sum.new : Sum F64))).get) = .ok (f64 12345.678) := by decide +kernel
example : (do
    let h ← ndhistogram1 (WeightedSum F64) (← uni 1 0.0 1.0)
    let h ← ran (h.fill (f64 0.0 : F64))
    return (← h.value (f64 0.0 : F64)).map WeightedSum.get) = .ok (some (f64 1)) := by decide +kernel
example : (do
    let h ← ndhistogram1 (WeightedSum F64) (← uni 1 0.0 1.0)
    let h ← ran (h.fillWith (f64 0.0 : F64) (f64 2))
    return (← h.value (f64 0.0 : F64)).map fun (v : WeightedSum F64) => (v.get, v.variance, v.standardDeviation F64)) = .ok (some (f64 2, f64 4, f64 2)) := by decide +kernel

/-! ## tests/test_value_mean.rs -/

abbrev u32 (n : Int) (h : IntTy.u32.min ≤ n ∧ n ≤ IntTy.u32.max := by decide) : MInt .u32 := .lit n h
abbrev MF := Mean F64 F64 (MInt .u32)
abbrev MI := Mean (MInt .i32) F64 (MInt .u32)
/-- mean 2, 3 samples, variance 2/3, variance of the mean 2/9 -/
example : (do
    let h ← ndhistogram1 MF (← uni 1 0.0 1.0)
    let h ← ran (h.fillWith (f64 0.0 : F64) (f64 1))
    let h ← ran (h.fillWith (f64 0.0 : F64) (f64 2))
    let h ← ran (h.fillWith (f64 0.0 : F64) (f64 3))
    match ← h.value (f64 0.0 : F64) with
    | none => return false
    | some v => return (near (← v.get) 2 && near (← v.mean) 2 && v.numSamples == u32 3 && near (← v.varianceOfSamples) (2 / 3) && near (← v.standardDeviationOfSamples) (Flt.sqrt (f64 (2 / 3))).val && near (← v.varianceOfMean) (2 / 9) && near (← v.standardErrorOfMean) (Flt.sqrt (f64 (2 / 9))).val)) = .ok true := by decide +kernel
example : (do
    let h ← ndhistogram1 MI (← uni 1 0.0 1.0)
    let h ← ran (h.fillWith (f64 0.0 : F64) (i32 1))
    let h ← ran (h.fillWith (f64 0.0 : F64) (i32 2))
    let h ← ran (h.fillWith (f64 0.0 : F64) (i32 3))
    match ← h.value (f64 0.0 : F64) with
    | none => return false
    | some v => return (near (← v.get) 2 && near (← v.mean) 2 && v.numSamples == u32 3 && near (← v.varianceOfSamples) (2 / 3) && near (← v.standardDeviationOfSamples) (Flt.sqrt (f64 (2 / 3))).val && near (← v.varianceOfMean) (2 / 9) && near (← v.standardErrorOfMean) (Flt.sqrt (f64 (2 / 9))).val)) = .ok true := by decide +kernel

/-! ## tests/test_value_weightedmean.rs -/

abbrev WF := WeightedMean F64 F64 F64 (MInt .u32)
abbrev WI := WeightedMean (MInt .i32) (MInt .i32) F64 (MInt .u32)
example : (do
    let h ← ndhistogram1 WF (← uni 1 0.0 1.0)
    let h ← ran (h.fillWithWeighted (f64 0.0 : F64) (f64 1) (f64 1))
    let h ← ran (h.fillWithWeighted (f64 0.0 : F64) (f64 2) (f64 1))
    let h ← ran (h.fillWithWeighted (f64 0.0 : F64) (f64 3) (f64 1))
    match ← h.value (f64 0.0 : F64) with
    | none => return false
    | some v => return (near (← v.get) 2 && v.numSamples == u32 3 && near (← v.varianceOfSamples) (2 / 3) && near (← v.standardDeviationOfSamples) (Flt.sqrt (f64 (2 / 3))).val && near (← v.varianceOfMean) (2 / 9) && near (← v.standardErrorOfMean) (Flt.sqrt (f64 (2 / 9))).val)) =
    .ok true := by decide +kernel
example : (do
    let h ← ndhistogram1 WI (← uni 1 0.0 1.0)
    let h ← ran (h.fillWithWeighted (f64 0.0 : F64) (i32 1) (i32 1))
    let h ← ran (h.fillWithWeighted (f64 0.0 : F64) (i32 2) (i32 1))
    let h ← ran (h.fillWithWeighted (f64 0.0 : F64) (i32 3) (i32 1))
    match ← h.value (f64 0.0 : F64) with
    | none => return false
    | some v => return (near (← v.get) 2 && v.numSamples == u32 3 && near (← v.varianceOfSamples) (2 / 3) && near (← v.standardDeviationOfSamples) (Flt.sqrt (f64 (2 / 3))).val && near (← v.varianceOfMean) (2 / 9) && near (← v.standardErrorOfMean) (Flt.sqrt (f64 (2 / 9))).val)) =
    .ok true := by decide +kernel
/-- weights 1, 2, 3: mean 14/6, variance 0.5555555555555555, variance of the mean 0.21604938271604893 -/
example : (do
    let h ← ndhistogram1 WF (← uni 1 0.0 1.0)
    let h ← ran (h.fillWithWeighted (f64 0.0 : F64) (f64 1) (f64 1))
    let h ← ran (h.fillWithWeighted (f64 0.0 : F64) (f64 2) (f64 2))
    let h ← ran (h.fillWithWeighted (f64 0.0 : F64) (f64 3) (f64 3))
    match ← h.value (f64 0.0 : F64) with
    | none => return false
    | some v => return (near (← v.get) (14 / 6) && v.numSamples == u32 3 && near (← v.varianceOfSamples) 0.5555555555555555 && near (← v.standardDeviationOfSamples) (Flt.sqrt (f64 0.5555555555555555)).val && near (← v.varianceOfMean) 0.21604938271604893 && near (← v.standardErrorOfMean) (Flt.sqrt (f64 0.21604938271604893)).val)) = .ok true := by decide +kernel
/-- test_hashhistogram.rs, fill_with_weighted (26-33) -/
example : (do
    let h ← sparsehistogram1 WI (← uni 10 0.0 10.0)
    let h ← ran (h.fillWithWeighted (f64 0.5 : F64) (i32 1) (i32 1))
    let h ← ran (h.fillWithWeighted (f64 0.5 : F64) (i32 2) (i32 2))
    let h ← ran (h.fillWithWeighted (f64 0.5 : F64) (i32 3) (i32 3))
    match ← h.value (f64 0.5 : F64) with
    | none => return false
    | some v => return (near (← v.mean) (14 / 6))) = .ok true := by decide +kernel

/-! ## tests/test_ndhistogram_display.rs -/

/-- the text std gives for the numbers of the test -/
local instance dispF : Disp F64 where
  fmt
    | some 2, x => if x = f64 0 then "0.00" else if x = f64 0.5 then "0.50" else if x = f64 1 then "1.00" else if x = f64 1.5 then "1.50" else
        if x = f64 2 then "2.00" else "?"
    | _, x => if x = f64 0 then "0" else if x = f64 162.9 then "162.9" else "?"
local instance dispI : Disp (Axis.Interval (AxesTuple1 (Uniform F64))) := inferInstanceAs (Disp (BinInterval F64))
def text (h : H1 (Uniform F64) F64) : Res String := do
  let (parts, _) ← h.display id (fun _ => true) none
  return String.join parts

/-- blank (3-19) -/
example : (do text (← newU 4 0.0 2.0)) = .ok "VecHistogram1D(6 bins, sum=0)
    (-inf, 0.00) | 
    [0.00, 0.50) | 
    [0.50, 1.00) | 
    [1.00, 1.50) | 
    [1.50, 2.00) | 
     [2.00, inf) | " := by decide +kernel
/-- filled_positive (21-43) -/
example : (do
    let mut h ← newU 4 0.0 2.0
    for (x, w) in ([(-1.0, 2.0), (0.1, 0.9), (0.6, 4.0), (1.1, 6.0), (1.6, 100.0), (2.1, 50.0)] : List (ℚ × ℚ)) do
      h ← fillWU h x w
    text h) = .ok "VecHistogram1D(6 bins, sum=162.9)
    (-inf, 0.00) | #
    [0.00, 0.50) | 
    [0.50, 1.00) | ##
    [1.00, 1.50) | ###
    [1.50, 2.00) | ##################################################
     [2.00, inf) | #########################" := by decide +kernel

end NdHist.Conformance
