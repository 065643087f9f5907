import Verif.Props.Value
/-!
# Concrete cases of the theorems in `Props/Value.lean`

Bin values with `u8` and `i32` weights, in a checked build, against the rationals and the reals.
-/
namespace NdHist.Examples
open NdHist
section
attribute [local instance] dbg64 exactNum exactAbs
local instance (τ : IntTy) : RFrom (MInt τ) ℚ := intFrom τ ℚ
local instance (τ : IntTy) : Faithful (MInt τ) ℚ := int_faithful τ ℚ rfl

def exWs : List (MInt .i32) := [.lit 2, .lit (-3)]
example : ∃ s : Sum (MInt .i32), fillSeq (exWs.map fun w => (Call.fillWith () w : Call (Sum (MInt .i32)) Unit)) Sum.new = (s, none) ∧
    (RFrom.conv s.get : ℚ) = (exWs.map fun w => (RFrom.conv w : ℚ)).sum := ⟨_, rfl, (C40_sum_weighted exWs rfl).1⟩
example : ∃ s : Sum (MInt .u8), fillSeq (List.replicate 7 (Call.fill () : Call (Sum (MInt .u8)) Unit)) Sum.new = (s, none) ∧ (RFrom.conv s.get : ℚ) = (7 : Nat) :=
  ⟨_, rfl, (C40_sum_unit 7 rfl).1⟩
example : ∃ s : WeightedSum (MInt .i32), fillSeq (exWs.map fun w => (Call.fillWith () w : Call (WeightedSum (MInt .i32)) Unit)) WeightedSum.new = (s, none) ∧
    (RFrom.conv s.variance : ℚ) = (exWs.map fun w => (RFrom.conv w : ℚ) ^ 2).sum := ⟨_, rfl, (C40_weighted_sum exWs rfl).2.1⟩
example : ∃ s : WeightedSum (MInt .u8), fillSeq (List.replicate 7 (Call.fill () : Call (WeightedSum (MInt .u8)) Unit)) WeightedSum.new = (s, none) ∧
    (RFrom.conv s.variance : ℚ) = (7 : Nat) := ⟨_, rfl, (C40_weighted_sum_unit 7 rfl).2⟩

/-- samples and their mean -/
def exXs : List (MInt .i32) := [.lit 2, .lit (-3), .lit 7]
def exMean : Mean (MInt .i32) ℚ (MInt .u32) := ⟨.lit 6, .lit 62, .lit 3⟩
theorem exMean_fill : fillSeq (exXs.map fun x => (Call.fillWith () x : Call (Mean (MInt .i32) ℚ (MInt .u32)) Unit)) RDefault.dflt = (exMean, none) := rfl
theorem exXs_perm : exXs.Perm [.lit (-3), .lit 2, .lit 7] := List.Perm.swap _ _ _
example : exMean.get = .ok (avg (exXs.map fun x => (RFrom.conv x : ℚ))) := (C41_mean (K := ℚ) exXs (by decide) exMean_fill).1
def exXs' : List (MInt .i32) := [.lit (-3), .lit 2, .lit 7]
theorem exMean_fill' : fillSeq (exXs'.map fun x => (Call.fillWith () x : Call (Mean (MInt .i32) ℚ (MInt .u32)) Unit)) RDefault.dflt = (exMean, none) := rfl
example : exMean.varianceOfSamples = exMean.varianceOfSamples := (C41_order exXs exXs' exXs_perm (by decide) exMean_fill exMean_fill').2.1
example : ∃ m : Mean ℚ ℚ (MInt .u8), fillSeq ([1, 2, 6].map fun x => (Call.fillWith () (x : ℚ) : Call (Mean ℚ ℚ (MInt .u8)) Unit)) RDefault.dflt = (m, none) :=
  C41_no_panic [1, 2, 6] (by decide)
/-- the 256th sample in a `u8` count -/
example : (Call.fillWith () (3 : ℚ) : Call (Mean ℚ ℚ (MInt .u8)) Unit).on ⟨1, 2, .lit 255⟩ = (⟨1 + 3, 2 + 3 * 3, .lit 255⟩, some .overflow) :=
  (C41_count_overflow (⟨1, 2, .lit 255⟩ : Mean ℚ ℚ (MInt .u8)) rfl 3).1 rfl
example : letI := exactFrom ℚ; (RDefault.dflt : Mean ℚ ℚ (MInt .u8)).get = .error .divZero := C41_no_samples

local instance (τ : IntTy) : FaithfulMul (MInt τ) (MInt τ) ℚ := ⟨fun a b c h => Faithful.mul a b c h⟩
/-- weighted samples -/
def exXW : List (MInt .i32 × MInt .i32) := [(.lit 2, .lit 1), (.lit (-3), .lit 4)]
def exWMean : WeightedMean (MInt .i32) (MInt .i32) ℚ (MInt .u32) := ⟨.lit (-10), .lit 40, .lit 5, .lit 17, .lit 2⟩
theorem exWMean_fill : fillSeq (exXW.map fun x => (Call.fillWithWeighted () x.1 x.2 : Call (WeightedMean (MInt .i32) (MInt .i32) ℚ (MInt .u32)) Unit)) RDefault.dflt =
    (exWMean, none) := rfl
example : exWMean.get = .ok (wavg (exXW.map fun x => ((RFrom.conv x.1 : ℚ), (RFrom.conv x.2 : ℚ)))) :=
  (C42_weighted_mean (K := ℚ) exXW exWMean_fill (by decide +kernel)).1
example : ∃ wm : WeightedMean (MInt .i32) (MInt .i32) ℚ (MInt .u32),
    fillSeq ((exXs.map fun x => (x, (@RNum.one (MInt .i32) dbg64 _))).map fun x => (Call.fillWithWeighted () x.1 x.2 : Call (WeightedMean (MInt .i32) (MInt .i32) ℚ (MInt .u32)) Unit)) RDefault.dflt =
      (wm, none) ∧ wm.get = exMean.get := ⟨_, rfl, (C42_unit_weights (K := ℚ) exXs (by decide) exMean_fill rfl).1⟩
end

section
attribute [local instance] dbg64 exactNum exactAbs exactSqrt
noncomputable local instance (τ : IntTy) : RFrom (MInt τ) ℝ := intFrom τ ℝ
local instance (τ : IntTy) : Faithful (MInt τ) ℝ := int_faithful τ ℝ rfl
local instance (τ : IntTy) : FaithfulMul (MInt τ) (MInt τ) ℝ := ⟨fun a b c h => Faithful.mul a b c h⟩

example : (⟨.lit 9⟩ : Sum (MInt .i32)).standardDeviation ℝ = Real.sqrt ((9 : ℤ) : ℝ) := (C40_standard_deviation (⟨.lit 9⟩ : Sum (MInt .i32)) ⟨.lit 1, .lit 2⟩).1
def exMeanR : Mean (MInt .i32) ℝ (MInt .u32) := ⟨.lit 6, .lit 62, .lit 3⟩
example : ∃ sd se : ℝ, exMeanR.standardDeviationOfSamples = .ok sd ∧ exMeanR.standardErrorOfMean = .ok se ∧ se ^ 2 = sd ^ 2 / (3 : Nat) := by
  obtain ⟨sd, se, h1, h2, -, -, -, h⟩ := C41_standard_deviation exXs (by decide) (m := exMeanR) rfl
  exact ⟨sd, se, h1, h2, h⟩
def exWMeanR : WeightedMean (MInt .i32) (MInt .i32) ℝ (MInt .u32) := ⟨.lit (-10), .lit 40, .lit 5, .lit 17, .lit 2⟩
example : ∃ sd se : ℝ, exWMeanR.standardDeviationOfSamples = .ok sd ∧ exWMeanR.standardErrorOfMean = .ok se ∧ 0 ≤ sd ∧ 0 ≤ se := by
  obtain ⟨sd, se, h1, h2, h3, h4, -⟩ := C42_standard_deviation exXW (m := exWMeanR) rfl
    (by simp [exXW, totalWeight, RFrom.conv, MInt.lit]; norm_num) (by simp [exXW, RFrom.conv, MInt.lit])
  exact ⟨sd, se, h1, h2, h3, h4⟩
end
end NdHist.Examples
