import Verif.Examples.IntMean
import Verif.Examples.Content
import Verif.Examples.Value
import Verif.Props.Between
/-!
# Concrete cases of the theorems in `Props/Between.lean`
-/
namespace NdHist.Examples
open NdHist
section
attribute [local instance] dbg64 exactNum exactAbs
local instance exBetFrom (τ : IntTy) : RFrom (MInt τ) ℚ := intFrom τ ℚ
local instance exBetFaithful (τ : IntTy) : Faithful (MInt τ) ℚ := int_faithful τ ℚ rfl
local instance exBetMul (τ : IntTy) : FaithfulMul (MInt τ) (MInt τ) ℚ := ⟨fun a b c h => Faithful.mul a b c h⟩
/-- -3, 2, 7: between -3 and 7 -/
example : ∃ q : ℚ, exMean.get = .ok q ∧ ∃ x ∈ exXs, (RFrom.conv x : ℚ) ≤ q := by
  obtain ⟨q, h1, h2, -⟩ := C105_exact (K := ℚ) exXs (by decide) exMean_fill
  exact ⟨q, h1, h2⟩
/-- 1 with weight 2, 9 with weight 0 and 4 with weight 1: the mean 2 lies between 1 and 4 -/
def exBetW : List (MInt .i32 × MInt .i32) := [(.lit 1, .lit 2), (.lit 9, .lit 0), (.lit 4, .lit 1)]
example : ∃ (m : WeightedMean (MInt .i32) (MInt .i32) ℚ (MInt .u32)) (q : ℚ),
    fillSeq (exBetW.map fun x => (Call.fillWithWeighted () x.1 x.2 : Call (WeightedMean (MInt .i32) (MInt .i32) ℚ (MInt .u32)) Unit)) RDefault.dflt = (m, none) ∧ m.get = .ok q ∧
      ∃ y ∈ exBetW, (RFrom.conv y.2 : ℚ) ≠ 0 ∧ q ≤ RFrom.conv y.1 := by
  obtain ⟨q, h1, -, h3⟩ := C105_weighted_exact (K := ℚ) exBetW (m := (⟨.lit 6, .lit 18, .lit 3, .lit 5, .lit 3⟩ : WeightedMean (MInt .i32) (MInt .i32) ℚ (MInt .u32))) rfl (by decide +kernel) ⟨_, List.mem_cons_self, by decide +kernel⟩
  exact ⟨_, q, rfl, h1, h3⟩
end

section
attribute [local instance] dbg64 stdNew

example : ∃ items, (exMeanNew.callAll (meanFills exMeanHist)).1.iter = .ok items ∧ items.length = 2 := by
  obtain ⟨items, h1, h2, -⟩ := C105_means (F := .f64) rfl (by decide) (by decide) (by decide) (by decide) exAxis_faithful (h := exMeanNew) rfl exMeanHist (fun _ _ => trivial) exMean_run
  exact ⟨items, h1, h2⟩
def exBetSparse : HashHistogram (CategoryNoFlow String) (Mean (MInt .i32) F64 (MInt .u32)) := HashHistogram.new exAxis
theorem exBetSparse_run : (HashHistogram.new exAxis : HashHistogram (CategoryNoFlow String) (Mean (MInt .i32) F64 (MInt .u32))).callAll (meanFills exMeanHist) = ((exBetSparse.callAll (meanFills exMeanHist)).1, none) :=
  Prod.ext rfl (by decide +kernel)
example (o : (exBetSparse.callAll (meanFills exMeanHist)).1.values.Order) : ∃ items, (exBetSparse.callAll (meanFills exMeanHist)).1.iter o = .ok items := by
  obtain ⟨items, h1, -⟩ := C105_means_sparse (F := .f64) rfl (by decide) (by decide) (by decide) (by decide) exAxis_faithful exMeanHist (fun _ _ => trivial) exBetSparse_run o
  exact ⟨items, h1⟩

def exBetWHist : List (String × MInt .i32 × MInt .i32) := [("a", .lit 1, .lit 2), ("b", .lit (-7), .lit 0), ("a", .lit 2, .lit 1), ("b", .lit 5, .lit 3)]
example : ∃ items, (exWMeanNew.callAll (weightedMeanFills exBetWHist)).1.iter = .ok items ∧ items.length = 2 := by
  obtain ⟨items, h1, h2, -⟩ := C105_weighted_means (F := .f64) rfl (by decide) exAxis_faithful (h := exWMeanNew) rfl exBetWHist (fun _ _ => trivial) (by decide)
    (Prod.ext rfl (by decide +kernel) : exWMeanNew.callAll (weightedMeanFills exBetWHist) = (_, none))
  exact ⟨items, h1, h2⟩
def exBetWSparse : HashHistogram (CategoryNoFlow String) (WeightedMean (MInt .i32) (MInt .i32) F64 (MInt .u32)) := HashHistogram.new exAxis
theorem exBetWSparse_run : (HashHistogram.new exAxis : HashHistogram (CategoryNoFlow String) (WeightedMean (MInt .i32) (MInt .i32) F64 (MInt .u32))).callAll (weightedMeanFills exBetWHist) =
    ((exBetWSparse.callAll (weightedMeanFills exBetWHist)).1, none) :=
  Prod.ext rfl (by decide +kernel)
example (o : (exBetWSparse.callAll (weightedMeanFills exBetWHist)).1.values.Order) : ∃ items, (exBetWSparse.callAll (weightedMeanFills exBetWHist)).1.iter o = .ok items := by
  obtain ⟨items, h1, -⟩ := C105_weighted_means_sparse (F := .f64) rfl (by decide) exAxis_faithful exBetWHist (fun _ _ => trivial) (by decide) exBetWSparse_run o
  exact ⟨items, h1⟩

/-- 1, 2, 2 in [1, 3): the mean is in [1, 3) -/
def exBetCs : List (MInt .i32) := [.lit 1, .lit 2, .lit 9, .lit 2, .lit 0]
def exBetVNew : VecHistogram (Variable (MInt .i32)) (Mean (MInt .i32) F64 (MInt .u32)) := ⟨exV, List.replicate 4 RDefault.dflt⟩
example : ∃ items, (exBetVNew.callAll (meanFills (exBetCs.map fun c => (c, c)))).1.iter = .ok items ∧ items.length = 4 := by
  obtain ⟨items, h1, h2, -⟩ := C105_own_bin_variable (F := .f64) rfl (by decide) (by decide) (by decide) (by decide) exV_new (by decide) exE_distinct (h := exBetVNew) rfl exBetCs
    (Prod.ext rfl (by decide +kernel) : exBetVNew.callAll (meanFills (exBetCs.map fun c => (c, c))) = (_, none))
  exact ⟨items, h1, h2⟩
def exBetUNew : VecHistogram (Uniform (MInt .i32)) (Mean (MInt .i32) F64 (MInt .u32)) := ⟨exU, List.replicate 5 RDefault.dflt⟩
example : ∃ items, (exBetUNew.callAll (meanFills (exBetCs.map fun c => (c, c)))).1.iter = .ok items ∧ items.length = 5 := by
  obtain ⟨items, h1, h2, -⟩ := C105_own_bin_uniform (F := .f64) rfl (by decide) (by decide) (by decide) (by decide) exU_new (by decide) (by decide) (h := exBetUNew) rfl exBetCs
    (Prod.ext rfl (by decide +kernel) : exBetUNew.callAll (meanFills (exBetCs.map fun c => (c, c))) = (_, none))
  exact ⟨items, h1, h2⟩

/-- 0.1 and 0.3, in either order -/
example : ∃ (m : Mean F64 F64 (MInt .u32)) (q : F64), fillSeq (meanCalls [Flt.ofRat (3 / 10), Flt.ofRat (1 / 10)]) RDefault.dflt = (m, none) ∧ m.get = .ok q ∧ q.isFin ∧
    (Flt.ofRat (1 / 10) : F64).val ≤ q.val ∧ q.val ≤ (Flt.ofRat (3 / 10) : F64).val :=
  C105_two (F := .f64) (Flt.ofRat (1 / 10)) (Flt.ofRat (3 / 10)) (by decide +kernel) (by decide +kernel) (by decide +kernel) (by decide) (by decide) (by decide +kernel) _ (.inr rfl)
example : ∃ (m : Mean F64 F64 (MInt .u32)) (q : F64), fillSeq (meanCalls exWholeSamples) RDefault.dflt = (m, none) ∧ m.get = .ok q ∧ q.isFin := by
  obtain ⟨m, q, h1, h2, h3, -⟩ := C105_floats (F := .f64) (τ := .u32) exWholeSamples (by decide) (by
    intro x hx
    simp only [exWholeSamples, List.mem_cons, List.not_mem_nil, or_false] at hx
    rcases hx with rfl | rfl | rfl <;> decide +kernel) (by decide) (by decide) (by decide +kernel)
  exact ⟨m, q, h1, h2, h3⟩
example : ∃ (x : Flt .f64) (m : Mean (Flt .f64) (Flt .f64) (MInt .u32)) (q : Flt .f64), fillSeq (@meanCalls rel64 _ _ [x, x, x]) RDefault.dflt = (m, none) ∧ m.get = .ok q ∧ x.val < q.val := by
  obtain ⟨x, m, q, h1, h2, -, h3⟩ := C105_counterexample_three
  exact ⟨x, m, q, h1, h2, h3⟩
example : True := by
  obtain ⟨m, -, -⟩ := C105_counterexample_negative
  trivial
end
end NdHist.Examples
