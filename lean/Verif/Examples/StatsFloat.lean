import Verif.Props.StatsFloat
import Verif.Examples.Stats
/-!
# Concrete cases of the theorems in `Props/StatsFloat.lean`: `exUni` with `f64` bins
-/
namespace NdHist.Examples
open NdHist
section
attribute [local instance] dbg64 stdNew

def exUniFl : VecHistogram (Uniform (MInt .i32)) F64 := ⟨exUni, List.replicate 12 (f64 0)⟩
theorem exUniFl_new : VecHistogram.new exUni = .ok exUniFl := by decide +kernel
theorem exRebinCoords_few : exRebinCoords.length ≤ 2 ^ FFmt.f64.p := by decide
example := C89_running_float exUni_ascending.faithful.lawful exUniFl_new exRebinCoords exRebinCoords_few 6
example : (runningFloat (exUniFl.callAllCaught (exRebinCoords.map .fill)).valueAtIndex 6) = f64 3 ∧
    (runningFloat ((HashHistogram.new exUni : HashHistogram _ F64).callAllCaught (exRebinCoords.map .fill)).valueAtIndex 6) = f64 3 := by decide +kernel
/-- below 25, the end of bin 5, there are three of the five coordinates 7, 60, 5, 24, 25 -/
example := C89_count_below_float exUni_ascending exUniFl_new exRebinCoords (fun _ _ => trivial) exRebinCoords_few (i := 5) (e := .lit 25) (by decide) exUni_bin5 rfl
/-- the median is 24 -/
example := C89_quantile_float exUni_monotone exUniFl_new exRebinCoords exSorted (fun _ _ => trivial) exRebinCoords_few exSorted_perm (by decide) (k := 2) (x := .lit 24) rfl
example := C89_mean_float exUni_ascending.faithful exUniFl_new exRebinCoords (fun _ _ => trivial) exRebinCoords_few exInner (fun c : MInt .i32 => (c.val : ℚ)) exLo exHi exEdges 5 (by
  intro b hb
  cases b with
  | Bin s e =>
    have : e.val - s.val ≤ 5 := hb
    show (e.val : ℚ) - s.val ≤ 5
    exact_mod_cast this
  | _ => cases hb)
end
end NdHist.Examples
