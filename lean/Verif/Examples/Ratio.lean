import Verif.Props.Ratio
import Verif.Examples.FloatExact
import Verif.Examples.Reduce
/-!
# Concrete cases of the theorems in `Props/Ratio.lean`
-/
namespace NdHist.Examples
open NdHist
section
attribute [local instance] dbg64

/-- two of three in "a", none of the one in "b", one in no bin -/
def exAll : List String := ["a", "b", "a", "x", "a"]
def exPassed : List String := ["a", "x", "a"]
theorem exPassed_sub : exPassed.Sublist exAll := by decide

example := C86_counts (F := .f64) (by decide) exAxis_faithful rfl exFltNew_new exAll exPassed exPassed_sub (fun _ _ => trivial) (by decide)
/-- the ratios are 2/3 and 0 -/
example : (((exFltNew.callAll (exPassed.map .fill)).1.opBorrow .div (exFltNew.callAll (exAll.map .fill)).1).toOption.bind Except.toOption).map (fun m : VecHistogram (CategoryNoFlow String) F64 => m.values) = some [Flt.div (f64 2) (f64 3), f64 0] := by decide +kernel
/-- an empty bin gives NaN -/
example : (((exFltNew.callAll (["a"].map .fill)).1.opBorrow .div (exFltNew.callAll (["a", "a"].map .fill)).1).toOption.bind Except.toOption).map (fun m : VecHistogram (CategoryNoFlow String) F64 => m.values) = some [f64 0.5, Flt.nan] := by decide +kernel
example := C86_counts_sparse (F := .f64) (by decide) exAxis_faithful rfl exAll exPassed exPassed_sub (fun _ _ => trivial) (by decide)

/-- weights 0.1, 0.2, 0.3 in "a", of which 0.1 and 0.3 pass; an infinite one in "b" -/
def exAllW : List (String × Option F64) := [("a", some (f64 0.1)), ("b", some (Flt.inf false)), ("a", some (f64 0.2)), ("a", some (f64 0.3))]
def exPassedW : List (String × Option F64) := [("a", some (f64 0.1)), ("a", some (f64 0.3))]
example := C86_weighted (F := .f64) exAxis_faithful rfl exFltNew_new exAllW exPassedW
  (.cons_cons _ (.cons _ (.cons _ (.cons_cons _ .slnil)))) (fun _ _ => trivial) (by
    intro cw hcw w hw
    simp only [exAllW, List.mem_cons, List.not_mem_nil, or_false] at hcw
    rcases hcw with rfl | rfl | rfl | rfl <;> cases hw <;> decide +kernel)
/-- the ratio in "b" is 0 -/
example : (((exFltNew.callAll (numCalls exPassedW)).1.opBorrow .div (exFltNew.callAll (numCalls exAllW)).1).toOption.bind Except.toOption).map (fun m : VecHistogram (CategoryNoFlow String) F64 => m.values.drop 1) = some [f64 0] := by decide +kernel

example := C86_int exAxis_faithful rfl (h := exCountNew) rfl exAll exPassed exPassed_sub (fun _ _ => trivial) (by decide)
/-- no entries in "b": a panic -/
example : (exCountNew.callAll (["a"].map .fill)).1.opBorrow .div (exCountNew.callAll (["a", "a"].map .fill)).1 = .error .divZero := rfl
example := C86_int_sparse (τ := .u8) exAxis_faithful rfl exAll exPassed exPassed_sub (fun _ _ => trivial) (by decide)
example := C86_normalised (F := .f64) (by decide) exAxis_faithful exFltNew_new exAll (fun _ _ => trivial) (by decide)
/-- the fractions are 3/4 and 1/4 -/
example : ((exFltNew.callAll (exAll.map .fill)).1.opScalar .div (f64 4)).toOption.map VecHistogram.values = some [f64 0.75, f64 0.25] := by decide +kernel
end
end NdHist.Examples
