import Verif.Examples.Affine
import Verif.Examples.Batch
import Verif.Props.Bounds
/-!
# Concrete cases of the theorems in `Props/Bounds.lean`
-/
namespace NdHist.Examples
open NdHist
section
attribute [local instance] dbg64 exactNum exactAbs
local instance exBndFrom (τ : IntTy) : RFrom (MInt τ) ℚ := intFrom τ ℚ
local instance exBndFaithful (τ : IntTy) : Faithful (MInt τ) ℚ := int_faithful τ ℚ rfl
local instance exBndMul (τ : IntTy) : FaithfulMul (MInt τ) (MInt τ) ℚ := ⟨fun a b c h => Faithful.mul a b c h⟩

/-- weights 2, 3: 25 ≤ 2 · 13 and 13 ≤ 25 -/
example : ((5 : ℚ)) ^ 2 ≤ 2 * 13 ∧ (13 : ℚ) ≤ 5 ^ 2 := by
  have := C109_weighted_sum (K := ℚ) [(.lit 2 : MInt .i32), .lit 3] (s := ⟨.lit 5, .lit 13⟩) rfl
  have e1 : (RFrom.conv (MInt.lit 5 : MInt .i32) : ℚ) = 5 := by decide +kernel
  have e2 : (RFrom.conv (MInt.lit 13 : MInt .i32) : ℚ) = 13 := by decide +kernel
  have g1 := this.1
  have g2 := this.2.2.1 (by decide +kernel)
  simp only [WeightedSum.get, WeightedSum.variance, e1, e2] at g1 g2
  exact ⟨by simpa using g1, g2⟩
/-- samples 2, -3, 7 between -3 and 7: variance 50/3 ≤ 25; of the three samples at most two are 5 or more away from the mean -/
example : ∃ v : ℚ, exMean.varianceOfSamples = .ok v ∧ v ≤ (7 - -3) ^ 2 / 4 := by
  obtain ⟨q, v, e, -, h2, -, -, -, h3, -⟩ := C109_mean (K := ℚ) exXs (by decide) (-3) 7 (by decide +kernel) exMean_fill
  exact ⟨v, h2, h3⟩
/-- sample 1 with weight 2, sample 4 with weight 1 -/
example : ∃ v e : ℚ, exAffM1.varianceOfSamples = .ok v ∧ exAffM1.varianceOfMean = .ok e ∧ v ≤ (4 - 1) ^ 2 / 4 ∧ v ≤ (2 : ℕ) * e ∧ e ≤ v := by
  obtain ⟨q, v, e, -, h2, h3, -, -, h4, h5, h6, -⟩ := C109_weighted_mean (K := ℚ) exAffW1 (by decide +kernel) (by decide +kernel) 1 4 (by decide +kernel) (m := exAffM1) rfl
  exact ⟨v, e, h2, h3, h4, h5, h6⟩
example : exAffM1.varianceOfSamples = .ok (2 : ℚ) ∧ exAffM1.varianceOfMean = .ok (10 / 9 : ℚ) := by decide +kernel

/-- weights 3 and 1 at 7, 2 at 60 -/
def exBndHist : List (MInt .i32 × MInt .i32) := [(.lit 7, .lit 3), (.lit 60, .lit 2), (.lit 7, .lit 1)]
def exBndWs : VecHistogram (Uniform (MInt .i32)) (WeightedSum (MInt .i32)) := (exBatchWsNew.callAll (exBndHist.map fun cw => .fillWith cw.1 cw.2)).1
theorem exBndWs_run : exBatchWsNew.callAll (exBndHist.map fun cw => .fillWith cw.1 cw.2) = (exBndWs, none) := Prod.ext rfl (by decide +kernel)
example : ∃ s, exBndWs.valueAtIndex 2 = some s ∧ (RFrom.conv s.variance : ℚ) ≤ RFrom.conv s.get ^ 2 := by
  obtain ⟨s, h1, -, h2⟩ := C109_bins_weighted_sum (K := ℚ) exUni_faithful.lawful (h := exBatchWsNew) rfl exBndHist exBndWs_run (i := 2) (by decide)
  exact ⟨s, h1, h2 (by decide +kernel)⟩
def exBndSp : HashHistogram (Uniform (MInt .i32)) (WeightedSum (MInt .i32)) := ((HashHistogram.new exUni : HashHistogram _ (WeightedSum (MInt .i32))).callAll (exBndHist.map fun cw => .fillWith cw.1 cw.2)).1
theorem exBndSp_run : (HashHistogram.new exUni : HashHistogram _ (WeightedSum (MInt .i32))).callAll (exBndHist.map fun cw => .fillWith cw.1 cw.2) = (exBndSp, none) := Prod.ext rfl (by decide +kernel)
theorem exBndSp_value : exBndSp.valueAtIndex 2 = some ⟨.lit 4, .lit 10⟩ := by decide +kernel
example := C109_bins_weighted_sum_sparse (K := ℚ) exBndHist exBndSp_run exBndSp_value
def exBndM : VecHistogram (Uniform (MInt .i32)) (Mean (MInt .i32) ℚ (MInt .u32)) := (exBatchMNew.callAll (exBndHist.map fun cw => .fillWith cw.1 cw.2)).1
theorem exBndM_run : exBatchMNew.callAll (exBndHist.map fun cw => .fillWith cw.1 cw.2) = (exBndM, none) := Prod.ext rfl (by decide +kernel)
/-- samples 3 and 1 in bin 2: variance 1 -/
example : ∃ m v, exBndM.valueAtIndex 2 = some m ∧ m.varianceOfSamples = .ok v ∧ v ≤ ((3 : ℚ) - 1) ^ 2 / 4 := by
  obtain ⟨m, q, v, e, h1, -, h2, -, -, -, h3, -⟩ := C109_bins_mean (K := ℚ) exUni_faithful.lawful (h := exBatchMNew) rfl exBndHist exBndM_run (i := 2) (by decide) (by decide +kernel) 1 3 (by decide +kernel)
  exact ⟨m, v, h1, h2, h3⟩
def exBndMs : HashHistogram (Uniform (MInt .i32)) (Mean (MInt .i32) ℚ (MInt .u32)) := ((HashHistogram.new exUni : HashHistogram _ (Mean (MInt .i32) ℚ (MInt .u32))).callAll (exBndHist.map fun cw => .fillWith cw.1 cw.2)).1
theorem exBndMs_run : (HashHistogram.new exUni : HashHistogram _ (Mean (MInt .i32) ℚ (MInt .u32))).callAll (exBndHist.map fun cw => .fillWith cw.1 cw.2) = (exBndMs, none) := Prod.ext rfl (by decide +kernel)
example : ∃ m, exBndMs.valueAtIndex 2 = some m ∧ ∃ v : ℚ, m.varianceOfSamples = .ok v ∧ v ≤ ((3 : ℚ) - 1) ^ 2 / 4 := by
  obtain ⟨m, hm⟩ : ∃ m, exBndMs.valueAtIndex 2 = some m := Option.ne_none_iff_exists'.1 (by decide +kernel)
  obtain ⟨q, v, e, -, h2, -, -, -, h3, -⟩ := C109_bins_mean_sparse (K := ℚ) exBndHist exBndMs_run (i := 2) (by decide +kernel) 1 3 (by decide +kernel) hm
  exact ⟨m, hm, v, h2, h3⟩
example := C109_bins_sparse (D := MInt .i32) (fun c d => Call.fillWith c d) (fun _ _ => rfl) (fun _ _ => rfl) exBndHist exBndSp_run exBndSp_value
example := C109_bins (D := MInt .i32) exUni_faithful.lawful (fun c d => Call.fillWith c d) (fun _ _ => rfl) (fun _ _ => rfl) (h := exBatchWsNew) rfl exBndHist exBndWs_run (i := 2) (by decide)
/-- samples 3 and 1 in bin 2 with weights 1 and 2, one in another bin with a negative weight -/
def exBndWHist : List (MInt .i32 × MInt .i32 × MInt .i32) := [(.lit 7, .lit 3, .lit 1), (.lit 60, .lit 2, .lit (-5)), (.lit 7, .lit 1, .lit 2)]
def exBndWNew : VecHistogram (Uniform (MInt .i32)) (WeightedMean (MInt .i32) (MInt .i32) ℚ (MInt .u32)) := ⟨exUni, List.replicate exBatchMNew.values.length RDefault.dflt⟩
def exBndW : VecHistogram (Uniform (MInt .i32)) (WeightedMean (MInt .i32) (MInt .i32) ℚ (MInt .u32)) := (exBndWNew.callAll (exBndWHist.map fun cw => .fillWithWeighted cw.1 cw.2.1 cw.2.2)).1
theorem exBndW_run : exBndWNew.callAll (exBndWHist.map fun cw => .fillWithWeighted cw.1 cw.2.1 cw.2.2) = (exBndW, none) := Prod.ext rfl (by decide +kernel)
example : ∃ m v, exBndW.valueAtIndex 2 = some m ∧ m.varianceOfSamples = .ok v ∧ v ≤ ((3 : ℚ) - 1) ^ 2 / 4 := by
  obtain ⟨m, q, v, e, h1, -, h2, -, -, -, h3, -⟩ := C109_bins_weighted_mean (K := ℚ) exUni_faithful.lawful (h := exBndWNew) rfl exBndWHist exBndW_run (i := 2) (by decide) (by decide +kernel) (by decide +kernel)
    1 3 (by decide +kernel)
  exact ⟨m, v, h1, h2, h3⟩
end
example : True := by
  obtain ⟨s, -⟩ := C109_counterexample_float
  trivial
end NdHist.Examples
