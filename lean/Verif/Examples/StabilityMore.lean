import Verif.Props.StabilityMore
import Verif.Examples.Stability
import Verif.Examples.FloatExact
/-! # Examples: C108, continued -/
namespace NdHist.Examples
section
attribute [local instance] dbg64

-- the median moves from bin 5 to bin 6, dense and sparse
example : 5 ≤ 6 := C108_quantile exUni_monotone exUniNew_new MInt.val (fun _ => (1 : ℤ)) exUpAdditive exUpCalls (k := 2) (by decide +kernel) (by decide +kernel)
example : 5 ≤ 6 := C108_quantile_sparse exUni_monotone MInt.val (fun _ => (1 : ℤ)) exUpAdditive exUpCalls (k := 2) (by decide +kernel) (by decide +kernel)

/-- the same axis with `f64` bins -/
def exUniFlt : VecHistogram (Uniform (MInt .i32)) F64 := ⟨exUni, List.replicate 12 RDefault.dflt⟩
theorem exUniFlt_new : VecHistogram.new exUni = .ok exUniFlt := by decide +kernel
/-- weights in quarters -/
def exQuarters : List (MInt .i32 × Option F64) := [(.lit 7, some (f64 1.25)), (.lit 24, none), (.lit 60, some (f64 2.5))]
/-- the second replaced -/
def exQuartersChanged : List (MInt .i32 × Option F64) := [(.lit 7, some (f64 1.25)), (.lit 31, some (f64 0.75)), (.lit 60, some (f64 2.5))]
theorem exQuarters_differ : Differ exQuarters exQuartersChanged [(.lit 7, some (f64 1.25)), (.lit 60, some (f64 2.5))] [(.lit 24, none)] [(.lit 31, some (f64 0.75))] :=
  ⟨by decide +kernel, by decide +kernel⟩
theorem exQuarters_exact : ExactData (-2) exQuarters where
  fin := by
    intro cw hc w hw
    simp only [exQuarters, List.mem_cons, List.not_mem_nil, or_false] at hc
    rcases hc with rfl | rfl | rfl <;> cases hw <;> decide +kernel
  grid := by
    intro cw hc
    simp only [exQuarters, List.mem_cons, List.not_mem_nil, or_false] at hc
    rcases hc with rfl | rfl | rfl
    · exact ⟨5, by decide +kernel⟩
    · exact ⟨4, by decide +kernel⟩
    · exact ⟨10, by decide +kernel⟩
  bound := by decide +kernel
theorem exQuartersChanged_exact : ExactData (-2) exQuartersChanged where
  fin := by
    intro cw hc w hw
    simp only [exQuartersChanged, List.mem_cons, List.not_mem_nil, or_false] at hc
    rcases hc with rfl | rfl | rfl <;> cases hw <;> decide +kernel
  grid := by
    intro cw hc
    simp only [exQuartersChanged, List.mem_cons, List.not_mem_nil, or_false] at hc
    rcases hc with rfl | rfl | rfl
    · exact ⟨5, by decide +kernel⟩
    · exact ⟨3, by decide +kernel⟩
    · exact ⟨10, by decide +kernel⟩
  bound := by decide +kernel
-- 1 left bin 5 and 0.75 came to bin 7: the contents differ by 1.75
example : ∑ i ∈ Finset.range 12, |content Flt.val (exUniFlt.callAllCaught (numCalls exQuarters)).valueAtIndex i - content Flt.val (exUniFlt.callAllCaught (numCalls exQuartersChanged)).valueAtIndex i| = 7 / 4 := by
  decide +kernel
example : ∑ i ∈ Finset.range 12, |content Flt.val (exUniFlt.callAllCaught (numCalls exQuarters)).valueAtIndex i - content Flt.val (exUniFlt.callAllCaught (numCalls exQuartersChanged)).valueAtIndex i| ≤ 7 / 4 :=
  ((C108_float exGrid_e exUni_monotone.lawful exUniFlt_new exQuarters_differ exQuarters_exact exQuartersChanged_exact).1 (Finset.range 12)).trans (by decide +kernel)

/-- 7 → 12, 24 → 26, 60 → 60 -/
def exQuartersUp : List (MInt .i32 × Option F64) := [(.lit 12, some (f64 1.25)), (.lit 26, none), (.lit 60, some (f64 2.5))]
theorem exQuartersUp_exact : ExactData (-2) exQuartersUp where
  fin := by
    intro cw hc w hw
    simp only [exQuartersUp, List.mem_cons, List.not_mem_nil, or_false] at hc
    rcases hc with rfl | rfl | rfl <;> cases hw <;> decide +kernel
  grid := by
    intro cw hc
    simp only [exQuartersUp, List.mem_cons, List.not_mem_nil, or_false] at hc
    rcases hc with rfl | rfl | rfl
    · exact ⟨5, by decide +kernel⟩
    · exact ⟨4, by decide +kernel⟩
    · exact ⟨10, by decide +kernel⟩
  bound := by decide +kernel
theorem exQuartersUp_all : List.Forall₂ (fun x y : MInt .i32 × Option F64 => True ∧ True ∧ exLe x.1 y.1 ∧ (∃ i, Axis.index exUni x.1 = .ok (some i)) ∧ (∃ j, Axis.index exUni y.1 = .ok (some j)) ∧ fltWeight x = fltWeight y ∧ 0 ≤ fltWeight x)
    exQuarters exQuartersUp := by
  refine .cons ?_ (.cons ?_ (.cons ?_ .nil))
  · exact ⟨trivial, trivial, by decide, ⟨2, by decide +kernel⟩, ⟨3, by decide +kernel⟩, rfl, by decide +kernel⟩
  · exact ⟨trivial, trivial, by decide, ⟨5, by decide +kernel⟩, ⟨6, by decide +kernel⟩, rfl, by decide +kernel⟩
  · exact ⟨trivial, trivial, by decide, ⟨11, by decide +kernel⟩, ⟨11, by decide +kernel⟩, rfl, by decide +kernel⟩
-- the quantile at weight 2 moves from bin 5 to bin 6
example : 5 ≤ 6 := (C108_moved_up_float exGrid_e exUni_monotone exUniFlt_new exQuarters_exact exQuartersUp_exact exQuartersUp_all).2 2 5 6 (by decide +kernel) (by decide +kernel)
end
end NdHist.Examples
