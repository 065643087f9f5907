import Verif.Props.ReduceFill
import Verif.Examples.StabilityMore
import Verif.Examples.Near
/-! # Examples: C80, floats -/
namespace NdHist.Examples
section
attribute [local instance] dbg64

/-- the first five bins in one part, the others in two -/
def exSplitFlt : Split F64 :=
  .join (.part ((exUniFlt.callAllCaught (numCalls exQuarters)).parValues.take 5)) (.join (.part (((exUniFlt.callAllCaught (numCalls exQuarters)).parValues.drop 5).take 4)) (.part ((exUniFlt.callAllCaught (numCalls exQuarters)).parValues.drop 9)))
theorem exSplitFlt_items : exSplitFlt.items = (exUniFlt.callAllCaught (numCalls exQuarters)).parValues := by decide +kernel
theorem exQuarters_in : ∀ cw ∈ exQuarters, InSomeBin exUni 12 (BinInterval.Covers (T := MInt .i32)) cw.1 := by
  intro cw hc
  have key : ∃ i, i < 12 ∧ Axis.index exUni cw.1 = .ok (some i) := by
    simp only [exQuarters, List.mem_cons, List.not_mem_nil, or_false] at hc
    rcases hc with rfl | rfl | rfl
    · exact ⟨2, by decide, by decide +kernel⟩
    · exact ⟨5, by decide, by decide +kernel⟩
    · exact ⟨11, by decide, by decide +kernel⟩
  obtain ⟨i, hi, hix⟩ := key
  obtain ⟨b, hb⟩ := exUni_faithful.lawful.bin_some i hi
  exact ⟨i, b, hi, hb, (exUni_faithful.index_iff _ trivial i b hi hb).1 hix⟩
open scoped Classical in
theorem exQuarters_filter : (exQuarters.filter fun cw => InSomeBin exUni 12 (BinInterval.Covers (T := MInt .i32)) cw.1) = exQuarters :=
  List.filter_eq_self.2 fun cw hc => decide_eq_true (exQuarters_in cw hc)
example : ∃ v, exSplitFlt.sum = .ok v ∧ v.isFin ∧ v.val = 19 / 4 := by
  obtain ⟨v, h1, h2, h3⟩ := C80_float_fills exGrid_e exUni_faithful exUniFlt_new (fun _ _ => trivial) exQuarters_exact exSplitFlt exSplitFlt_items
  exact ⟨v, h1, h2, h3.trans ((congrArg (fun l => (List.map fltWeight l).sum) exQuarters_filter).trans (by decide +kernel))⟩
-- sparse: whatever the order of the map
example (o : ((HashHistogram.new exUni : HashHistogram _ F64).callAllCaught (numCalls exQuarters)).values.Order) :
    ∃ v, (Split.join (.part (((HashHistogram.new exUni : HashHistogram _ F64).callAllCaught (numCalls exQuarters)).parValues o)) (.part [])).sum = .ok v ∧ v.isFin ∧ v.val = 19 / 4 := by
  obtain ⟨v, h1, h2, h3⟩ := C80_float_fills_sparse exGrid_e exUni_faithful (fun _ _ => trivial) exQuarters_exact o
    (Split.join (.part (((HashHistogram.new exUni : HashHistogram _ F64).callAllCaught (numCalls exQuarters)).parValues o)) (.part [])) (List.append_nil _)
  exact ⟨v, h1, h2, h3.trans ((congrArg (fun l => (List.map fltWeight l).sum) exQuarters_filter).trans (by decide +kernel))⟩
end
end NdHist.Examples
