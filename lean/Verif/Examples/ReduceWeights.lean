import Verif.Props.ReduceWeights
import Verif.Examples.ReduceFill
/-! # Examples: C80, weights -/
namespace NdHist.Examples
section
attribute [local instance] dbg64

/-- 200 + 1 + 100 does not fit in a `u8`, though every bin does -/
def exHeavy : List (MInt .i32 × Option (MInt .u8)) := [(.lit 7, some (.lit 200)), (.lit 24, none), (.lit 60, some (.lit 100))]
theorem exHeavy_in : ∀ cw ∈ exHeavy, InSomeBin exUni 12 (BinInterval.Covers (T := MInt .i32)) cw.1 := by
  intro cw hc
  have key : ∃ i, i < 12 ∧ Axis.index exUni cw.1 = .ok (some i) := by
    simp only [exHeavy, List.mem_cons, List.not_mem_nil, or_false] at hc
    rcases hc with rfl | rfl | rfl
    · exact ⟨2, by decide, by decide +kernel⟩
    · exact ⟨5, by decide, by decide +kernel⟩
    · exact ⟨11, by decide, by decide +kernel⟩
  obtain ⟨i, hi, hix⟩ := key
  obtain ⟨b, hb⟩ := exUni_faithful.lawful.bin_some i hi
  exact ⟨i, b, hi, hb, (exUni_faithful.index_iff _ trivial i b hi hb).1 hix⟩
open scoped Classical in
theorem exHeavy_filter : (exHeavy.filter fun cw => InSomeBin exUni 12 (BinInterval.Covers (T := MInt .i32)) cw.1) = exHeavy :=
  List.filter_eq_self.2 fun cw hc => decide_eq_true (exHeavy_in cw hc)
theorem exHeavy_nonneg : ∀ cw ∈ exHeavy, 0 ≤ weightOf MInt.val cw := by decide +kernel
-- every division of the work ends in an overflow panic
example (s : Split (MInt .u8)) (hs : s.items = (exUniNew.callAll (numCalls exHeavy)).1.parValues) : s.sum = .error .overflow :=
  ((C80_weights rfl exUni_faithful exUniNew_new exHeavy (fun _ _ => trivial) (Prod.ext rfl (by decide +kernel) : exUniNew.callAll (numCalls exHeavy) = (_, none)) s hs).2 exHeavy_nonneg).2
    ((show (255 : ℤ) < 301 by decide).trans_eq ((show (301 : ℤ) = (exHeavy.map (weightOf MInt.val)).sum by decide +kernel).trans (congrArg (fun l => (List.map (weightOf MInt.val) l).sum) exHeavy_filter.symm)))
example (o : ((HashHistogram.new exUni : HashHistogram _ (MInt .u8)).callAll (numCalls exHeavy)).1.values.Order) (s : Split (MInt .u8))
    (hs : s.items = ((HashHistogram.new exUni : HashHistogram _ (MInt .u8)).callAll (numCalls exHeavy)).1.parValues o) : s.sum = .error .overflow :=
  ((C80_weights_sparse rfl exUni_faithful exHeavy (fun _ _ => trivial) (Prod.ext rfl (by decide +kernel) : (HashHistogram.new exUni : HashHistogram _ (MInt .u8)).callAll (numCalls exHeavy) = (_, none)) o s hs).2 exHeavy_nonneg).2
    ((show (255 : ℤ) < 301 by decide).trans_eq ((show (301 : ℤ) = (exHeavy.map (weightOf MInt.val)).sum by decide +kernel).trans (congrArg (fun l => (List.map (weightOf MInt.val) l).sum) exHeavy_filter.symm)))
end
end NdHist.Examples
