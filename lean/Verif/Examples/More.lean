import Verif.Examples.Ratio
import Verif.Examples.Batch
import Verif.Props.More
/-!
# Concrete cases of the theorems in `Props/More.lean`
-/
namespace NdHist.Examples
open NdHist
section
attribute [local instance] dbg64

/-- weights 0.1, 0.2, 0.3 in "a" and an infinite one in "b" against 0.1 and 0.25 in "a" -/
def exLessW : List (String × Option F64) := [("a", some (f64 0.1)), ("a", some (f64 0.25))]
theorem exAllW_nonneg : NoNegative exAllW := by
  intro cw hcw w hw
  simp only [exAllW, List.mem_cons, List.not_mem_nil, or_false] at hcw
  rcases hcw with rfl | rfl | rfl | rfl <;> cases hw <;> decide +kernel
theorem exLessW_nonneg : NoNegative exLessW := by
  intro cw hcw w hw
  simp only [exLessW, List.mem_cons, List.not_mem_nil, or_false] at hcw
  rcases hcw with rfl | rfl <;> cases hw <;> decide +kernel
theorem exLessW_sub : Exceeds Heavier exLessW exAllW :=
  .cons ⟨rfl, by decide +kernel⟩ (.cons_right (.cons_right (.cons ⟨rfl, by decide +kernel⟩ .nil)))
theorem exFltNew_nonneg : ∀ i v, exFltNew.valueAtIndex i = some v → POrd.ge v (RNum.zero : F64) = true := by
  intro i v hv
  have hm : v ∈ exFltNew.values := List.mem_of_getElem? hv
  have : exFltNew.values = [f64 0, f64 0] := by decide +kernel
  rw [this] at hm
  simp only [List.mem_cons, List.not_mem_nil, or_false] at hm
  rcases hm with rfl | rfl <;> decide +kernel
theorem exAllW_run : exFltNew.callAll (numCalls exAllW) = ((exFltNew.callAll (numCalls exAllW)).1, none) := Prod.ext rfl (by decide +kernel)
example : ∃ g, exFltNew.callAll (numCalls exLessW) = (g, none) := by
  obtain ⟨g, h1, -⟩ := C110_numbers (C110_float .f64) exLessW_nonneg exAllW_nonneg exLessW_sub exFltNew_nonneg exAllW_run
  exact ⟨g, h1⟩
theorem exMoreSp_run : (HashHistogram.new exAxis : HashHistogram (CategoryNoFlow String) F64).callAll (numCalls exAllW) = (((HashHistogram.new exAxis : HashHistogram (CategoryNoFlow String) F64).callAll (numCalls exAllW)).1, none) :=
  Prod.ext rfl (by decide +kernel)
example := C110_numbers_sparse (C110_float .f64) exLessW_nonneg exAllW_nonneg exLessW_sub exMoreSp_run
example : ∃ v, (exFltNew.callAll (numCalls exAllW)).1.valueAtIndex 0 = some v ∧ POrd.ge v (f64 0.2) = true := by
  obtain ⟨v, hv⟩ : ∃ v, (exFltNew.callAll (numCalls exAllW)).1.valueAtIndex 0 = some v := ⟨_, rfl⟩
  exact ⟨v, hv, C110_each (C110_float .f64) exAllW_nonneg exFltNew_nonneg exAllW_run (cw := ("a", some (f64 0.2))) (by simp [exAllW]) (i := 0) (by decide +kernel) hv⟩

/-- integers: weights 3, 2, 1 against 1 and 1 -/
def exMoreI : List (MInt .i32 × Option (MInt .u8)) := [(.lit 7, some (.lit 3)), (.lit 60, none), (.lit 7, none)]
def exLessI : List (MInt .i32 × Option (MInt .u8)) := [(.lit 7, some (.lit 2)), (.lit 7, none)]
theorem exMoreI_nonneg : NoNegative exMoreI := by
  intro cw hcw w hw
  simp only [exMoreI, List.mem_cons, List.not_mem_nil, or_false] at hcw
  rcases hcw with rfl | rfl | rfl <;> cases hw <;> decide +kernel
theorem exLessI_nonneg : NoNegative exLessI := by
  intro cw hcw w hw
  simp only [exLessI, List.mem_cons, List.not_mem_nil, or_false] at hcw
  rcases hcw with rfl | rfl <;> cases hw <;> decide +kernel
theorem exLessI_sub : Exceeds Heavier exLessI exMoreI := .cons ⟨rfl, by decide +kernel⟩ (.cons_right (.cons ⟨rfl, by decide +kernel⟩ .nil))
theorem exUniNew_nonneg : ∀ i v, exUniNew.valueAtIndex i = some v → POrd.ge v (.lit 0 : MInt .u8) = true := by
  intro i v hv
  have hm : v ∈ exUniNew.values := List.mem_of_getElem? hv
  rw [(List.eq_of_mem_replicate hm : v = .lit 0)]
  decide +kernel
example := C110_numbers (C110_int rfl .u8) exLessI_nonneg exMoreI_nonneg exLessI_sub (fun i v hv => exUniNew_nonneg i v hv) (h := exUniNew) (g' := (exUniNew.callAll (numCalls exMoreI)).1) (Prod.ext rfl (by decide +kernel))
example : (exUniNew.callAll (numCalls exMoreI)).1.valueAtIndex 2 = some (.lit 4) ∧ (exUniNew.callAll (numCalls exLessI)).1.valueAtIndex 2 = some (.lit 3) := by decide +kernel

/-- weighted sums of integers and of floats -/
def exMoreWs : List (MInt .i32 × Option (MInt .i32)) := [(.lit 7, some (.lit 3)), (.lit 60, none), (.lit 7, none)]
def exLessWs : List (MInt .i32 × Option (MInt .i32)) := [(.lit 7, some (.lit 2))]
theorem exMoreWs_nonneg : NoNegative exMoreWs := by
  intro cw hcw w hw
  simp only [exMoreWs, List.mem_cons, List.not_mem_nil, or_false] at hcw
  rcases hcw with rfl | rfl | rfl <;> cases hw <;> decide +kernel
theorem exLessWs_nonneg : NoNegative exLessWs := by
  intro cw hcw w hw
  simp only [exLessWs, List.mem_cons, List.not_mem_nil, or_false] at hcw
  rcases hcw with rfl; cases hw; decide +kernel
theorem exLessWs_sub : Exceeds Heavier exLessWs exMoreWs := .cons ⟨rfl, by decide +kernel⟩ .nil
example := C110_weighted_sum (C110_int rfl .i32) (C110_int_sq rfl .i32) exLessWs_nonneg exMoreWs_nonneg exLessWs_sub (h := exBatchWsNew) (g' := (exBatchWsNew.callAll (weightedSumCalls exMoreWs)).1) (by
    intro i v hv
    have hm : v ∈ exBatchWsNew.values := List.mem_of_getElem? hv
    rw [(List.eq_of_mem_replicate hm : v = ⟨.lit 0, .lit 0⟩)]
    decide +kernel) (Prod.ext rfl (by decide +kernel))
def exMoreF : VecHistogram (CategoryNoFlow String) (WeightedSum F64) := ⟨exAxis, List.replicate 2 ⟨f64 0, f64 0⟩⟩
theorem exMoreF_nonneg : ∀ i v, exMoreF.valueAtIndex i = some v → POrd.ge v.get (RNum.zero : F64) = true ∧ POrd.ge v.variance (RNum.zero : F64) = true := by
  intro i v hv
  have hm : v ∈ exMoreF.values := List.mem_of_getElem? hv
  rw [(List.eq_of_mem_replicate hm : v = ⟨f64 0, f64 0⟩)]
  decide +kernel
example := C110_weighted_sum (C110_float .f64) (C110_float_sq .f64) exLessW_nonneg exAllW_nonneg exLessW_sub (h := exMoreF) (g' := (exMoreF.callAll (weightedSumCalls exAllW)).1) exMoreF_nonneg (Prod.ext rfl (by decide +kernel))
/-- weights of both signs: 1 - 3 and the variance 10; without the fill of weight 1 the variance 9 -/
def exSigned : List (String × Option F64) := [("a", none), ("a", some (f64 (-3)))]
example := C110_variance (hist := [("a", some (f64 (-3)))]) (hist' := exSigned) (by
    intro cw hcw
    simp only [exSigned, List.mem_cons, List.not_mem_nil, or_false] at hcw
    rcases hcw with rfl | rfl
    · simp
    · intro h; exact absurd (Option.some.inj h) (by decide +kernel)) (.cons _ (.refl _)) (h := exMoreF) (g' := (exMoreF.callAll (weightedSumCalls exSigned)).1)
  (fun i v hv => (exMoreF_nonneg i v hv).2) (Prod.ext rfl (by decide +kernel))

/-- any values: the general theorems with the relation of the numbers -/
example := C110_dense (le := numLe) num_coord (num_step (C110_float .f64) exLessW_nonneg) (num_grow (C110_float .f64) exAllW_nonneg) (num_exceeds exLessW_sub) (h := exFltNew) rfl
  (fun i v hi => ⟨v, hi, exFltNew_nonneg i v hi, flt_ge_self (exFltNew_nonneg i v hi)⟩) exAllW_run
example := C110_sparse (le := numLe) num_coord (num_step (C110_float .f64) exLessW_nonneg) (num_grow (C110_float .f64) exAllW_nonneg) (num_exceeds exLessW_sub) ⟨by decide +kernel, by decide +kernel⟩ exMoreSp_run
end
example : True := by
  obtain ⟨v, -⟩ := C110_counterexample_wrap
  trivial
end NdHist.Examples
