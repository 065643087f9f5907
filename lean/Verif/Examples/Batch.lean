import Verif.Props.BatchMean
import Verif.Examples.Content
import Verif.Examples.FloatExact
/-!
# Concrete cases of the theorems in `Props/Batch.lean` and `Props/BatchMean.lean`
-/
namespace NdHist.Examples
open NdHist

section
attribute [local instance] dbg64
/-- three times 7, twice 60, once 7 again -/
def exBatchTable : List (MInt .i32 × MInt .u8) := [(.lit 7, .lit 3), (.lit 60, .lit 2), (.lit 7, .lit 1)]
example : exUniNew.callAll (exBatchTable.map fun b => .fillWith b.1 b.2) = exUniNew.callAll ((oneByOne (exBatchTable.map fun b => (b.1, b.2.val.toNat))).map .fill) :=
  (C90_counts exBatchTable (by decide) exUniNew).2 (by decide +kernel)
example : (exUniNew.callAll (exBatchTable.map fun b => .fillWith b.1 b.2)).1.valueAtIndex 2 = some (.lit 4) := by decide +kernel
example : (HashHistogram.new exUni : HashHistogram _ (MInt .u8)).callAll (exBatchTable.map fun b => .fillWith b.1 b.2) =
    (HashHistogram.new exUni : HashHistogram _ (MInt .u8)).callAll ((oneByOne (exBatchTable.map fun b => (b.1, b.2.val.toNat))).map .fill) :=
  (C90_counts_sparse exBatchTable (by decide) (HashHistogram.new exUni)).2 (by decide +kernel)
example : StandsFor (.fillWith () (MInt.lit 3 : MInt .u8) : Call (MInt .u8) Unit) [.fill (), .fill (), .fill ()] := C90_int_fills () (.lit 3) (by decide)
theorem exBatchWeights : StandsFor (.fillWith () (MInt.lit (-5) : MInt .i8) : Call (MInt .i8) Unit) [.fillWith () (MInt.lit (-2) : MInt .i8), .fillWith () (MInt.lit (-3) : MInt .i8)] :=
  C90_int_weights () (.lit (-5)) [.lit (-2), .lit (-3)] (by decide) (by decide) (fun _ => .inr (by decide))
example : StandsFor (.fillWith () (MInt.lit (-5) : MInt .i8) : Call (Sum (MInt .i8)) Unit) [.fillWith () (MInt.lit (-2) : MInt .i8), .fillWith () (MInt.lit (-3) : MInt .i8)] :=
  C90_sum_weights () (MInt.lit (-5) : MInt .i8) [.lit (-2), .lit (-3)] exBatchWeights
example : StandsFor (.fillWith () (MInt.lit 3 : MInt .u8) : Call (Sum (MInt .u8)) Unit) [.fill (), .fill (), .fill ()] := C90_sum_fills () (MInt.lit 3 : MInt .u8) 3 (C90_int_fills () (.lit 3) (by decide))
example := C90_counterexample_signs (C := Unit) rfl ()
/-- 260 fills of a `Wrapping<u8>` are one of weight 4 -/
example : StandsFor (.fillWith () (⟨.lit 4⟩ : WInt .u8) : Call (WInt .u8) Unit) (List.replicate 260 (.fill ())) := C90_wrapping_fills () ⟨.lit 4⟩ 260 (by decide) (by decide)
example : StandsFor (.fillWith () (⟨.lit 44⟩ : WInt .u8) : Call (WInt .u8) Unit) [.fillWith () (⟨.lit 200⟩ : WInt .u8), .fillWith () (⟨.lit 100⟩ : WInt .u8)] :=
  C90_wrapping_weights () ⟨.lit 44⟩ [⟨.lit 200⟩, ⟨.lit 100⟩] (by decide) (by decide)
/-- a mixed history -/
def exBatches : List (Call (MInt .u8) (MInt .i32) × List (Call (MInt .u8) (MInt .i32))) :=
  [(.fillWith (.lit 7) (MInt.lit 3 : MInt .u8), List.replicate 3 (.fill (.lit 7))), (.fillWith (.lit 60) (MInt.lit 9 : MInt .u8), [.fillWith (.lit 60) (MInt.lit 4 : MInt .u8), .fillWith (.lit 60) (MInt.lit 5 : MInt .u8)])]
theorem exBatches_stand : ∀ b ∈ exBatches, StandsFor b.1 b.2 := by
  intro b hb
  unfold exBatches at hb
  rcases List.mem_cons.1 hb with rfl | hb
  · exact C90_int_fills _ (.lit 3) (by decide)
  · rw [List.mem_singleton.1 hb]
    exact C90_int_weights _ (.lit 9) [.lit 4, .lit 5] (by decide) (by decide) (fun _ => .inl (by decide))
example : exUniNew.callAll (exBatches.map (·.1)) = exUniNew.callAll (exBatches.flatMap (·.2)) := (C90_batch exBatches exBatches_stand exUniNew).2 (by decide +kernel)
example := (C90_batch_sparse exBatches exBatches_stand (HashHistogram.new exUni)).2 (by decide +kernel)
example : exUniNew.fillWith (MInt.lit 7 : MInt .i32) (MInt.lit 0 : MInt .u8) = (exUniNew, none) := C90_zero exUniNew _ _ rfl ⟨some 2, by decide +kernel⟩
example := C90_counterexample_zero_sparse exUni (.lit 7 : MInt .i32) (i := 2) (by decide +kernel) (MInt.lit 0 : MInt .u8)
end

section
attribute [local instance] dbg64
def exFltTable : List ((String × F64) × ℕ) := [(("b", f64 3), 3), (("a", f64 2), 2)]
example := C90_float exAxis_faithful exFltNew_new exFltTable (fun _ _ => trivial) (by decide +kernel)
end

section
attribute [local instance] dbg64 exactNum exactAbs
local instance exBatchFrom (τ : IntTy) : RFrom (MInt τ) ℚ := intFrom τ ℚ
local instance exBatchFaithful (τ : IntTy) : Faithful (MInt τ) ℚ := int_faithful τ ℚ rfl
local instance exBatchMul (τ : IntTy) : FaithfulMul (MInt τ) (MInt τ) ℚ := ⟨fun a b c h => Faithful.mul a b c h⟩
def exWsTable : List ((MInt .i32 × MInt .i32) × ℕ) := [((.lit 7, .lit 3), 3), ((.lit 60, .lit 2), 2), ((.lit 7, .lit 1), 1)]
def exBatchWsNew : VecHistogram (Uniform (MInt .i32)) (WeightedSum (MInt .i32)) := ⟨exUni, List.replicate 12 ⟨.lit 0, .lit 0⟩⟩
/-- bin 2: 4 entries; variance 4 after single fills, 3² + 1² = 10 after weighted ones -/
example := C90_weighted_sum (K := ℚ) exUni_faithful.lawful (h := exBatchWsNew) rfl exWsTable (by intro b hb; fin_cases hb <;> simp [RFrom.conv, MInt.lit]) (by decide +kernel) (by decide +kernel) (i := 2)
  (v := ⟨.lit 4, .lit 4⟩) (v' := ⟨.lit 4, .lit 10⟩) (by decide +kernel) (by decide +kernel)
example := C90_counterexample_weighted_sum (K := ℚ) () (MInt.lit 2 : MInt .i32) (by simp [RFrom.conv, MInt.lit]) (s := ⟨.lit 2, .lit 2⟩) (s' := ⟨.lit 2, .lit 4⟩) rfl rfl
/-- in bin 2 the sample 10 three times and the sample -2 once -/
def exMTable : List ((MInt .i32 × MInt .i32 × MInt .i32) × ℕ) := [((.lit 7, .lit 10, .lit 3), 3), ((.lit 60, .lit 1, .lit 2), 2), ((.lit 7, .lit (-2), .lit 1), 1)]
def exBatchMNew : VecHistogram (Uniform (MInt .i32)) (Mean (MInt .i32) ℚ (MInt .u32)) := ⟨exUni, List.replicate 12 ⟨.lit 0, .lit 0, .lit 0⟩⟩
def exBatchWmNew : VecHistogram (Uniform (MInt .i32)) (WeightedMean (MInt .i32) (MInt .i32) ℚ (MInt .u32)) := ⟨exUni, List.replicate 12 ⟨.lit 0, .lit 0, .lit 0, .lit 0, .lit 0⟩⟩
example := C90_means (K := ℚ) exUni_faithful.lawful (h := exBatchMNew) rfl (h' := exBatchWmNew) rfl exMTable (by intro b hb; fin_cases hb <;> simp [RFrom.conv, MInt.lit]) (by decide +kernel) (by decide +kernel) (i := 2)
  (v := ⟨.lit 28, .lit 304, .lit 4⟩) (v' := ⟨.lit 28, .lit 304, .lit 4, .lit 10, .lit 2⟩) (by decide +kernel) (by decide +kernel) (by decide +kernel)
end
end NdHist.Examples
