import Verif.Examples.Value
import Verif.Props.Affine
/-!
# Concrete cases of the theorems in `Props/Affine.lean`
-/
namespace NdHist.Examples
open NdHist
section
attribute [local instance] dbg64 exactNum exactAbs
local instance exAffFrom (τ : IntTy) : RFrom (MInt τ) ℚ := intFrom τ ℚ
local instance exAffFaithful (τ : IntTy) : Faithful (MInt τ) ℚ := int_faithful τ ℚ rfl
local instance exAffMul (τ : IntTy) : FaithfulMul (MInt τ) (MInt τ) ℚ := ⟨fun a b c h => Faithful.mul a b c h⟩

/-- 2, -3, 7 and `10 x + 1` -/
def exAffYs : List (MInt .i32) := [.lit 21, .lit (-29), .lit 71]
def exAffMean : Mean (MInt .i32) ℚ (MInt .u32) := ⟨.lit 63, .lit 6323, .lit 3⟩
theorem exAffMean_fill : fillSeq (exAffYs.map fun x => (Call.fillWith () x : Call (Mean (MInt .i32) ℚ (MInt .u32)) Unit)) RDefault.dflt = (exAffMean, none) := rfl
example : ∃ q : ℚ, exMean.get = .ok q ∧ exAffMean.get = .ok (10 * q + 1) := by
  obtain ⟨q, _, _, ⟨h1, h2⟩, -⟩ := C106_affine (K := ℚ) 10 1 exXs exAffYs (by decide) (by decide +kernel) exMean_fill exAffMean_fill
  exact ⟨q, h1, h2⟩
example : exMean.get = .ok (2 : ℚ) ∧ exAffMean.get = .ok (21 : ℚ) := by decide +kernel
example : exMean.varianceOfSamples = .ok (50 / 3 : ℚ) ∧ exAffMean.varianceOfSamples = .ok (5000 / 3 : ℚ) := by decide +kernel

/-- 2, -3, 7 in the parts 2 and -3, 7 -/
def exPart1 : Mean (MInt .i32) ℚ (MInt .u32) := ⟨.lit 2, .lit 4, .lit 1⟩
def exPart2 : Mean (MInt .i32) ℚ (MInt .u32) := ⟨.lit 4, .lit 58, .lit 2⟩
example : ∃ q₁ q₂ q : ℚ, exPart1.get = .ok q₁ ∧ exPart2.get = .ok q₂ ∧ exMean.get = .ok q := by
  obtain ⟨q₁, q₂, q, _, _, _, h1, h2, h3, -⟩ := C106_parts (K := ℚ) (C := MInt .u32) [(.lit 2 : MInt .i32)] [.lit (-3), .lit 7] (by decide) (by decide) (m₁ := exPart1) (m₂ := exPart2) (m := exMean) rfl rfl rfl
  exact ⟨q₁, q₂, q, h1, h2, h3⟩

def exAffW1 : List (MInt .i32 × MInt .i32) := [(.lit 1, .lit 2), (.lit 4, .lit 1)]
def exAffW2 : List (MInt .i32 × MInt .i32) := [(.lit (-1), .lit 6), (.lit (-4), .lit 3)]
def exAffM1 : WeightedMean (MInt .i32) (MInt .i32) ℚ (MInt .u32) := ⟨.lit 6, .lit 18, .lit 3, .lit 5, .lit 2⟩
def exAffM2 : WeightedMean (MInt .i32) (MInt .i32) ℚ (MInt .u32) := ⟨.lit (-18), .lit 54, .lit 9, .lit 45, .lit 2⟩
def exAffM12 : WeightedMean (MInt .i32) (MInt .i32) ℚ (MInt .u32) := ⟨.lit (-12), .lit 72, .lit 12, .lit 50, .lit 4⟩
/-- `-x` with three times the weights -/
example : ∃ q : ℚ, exAffM1.get = .ok q ∧ exAffM2.get = .ok (-1 * q + 0) := by
  obtain ⟨q, _, _, ⟨h1, h2⟩, -⟩ := C106_weighted_affine (K := ℚ) (-1) 0 3 (by norm_num) exAffW1 exAffW2 (by decide +kernel) (by decide +kernel) (m := exAffM1) (m' := exAffM2) rfl rfl
  exact ⟨q, h1, h2⟩
example : ∃ q₁ q₂ q : ℚ, exAffM1.get = .ok q₁ ∧ exAffM2.get = .ok q₂ ∧ exAffM12.get = .ok q := by
  obtain ⟨q₁, q₂, q, _, _, _, h1, h2, h3, -⟩ := C106_weighted_parts (K := ℚ) exAffW1 exAffW2 (by decide +kernel) (by decide +kernel) (by decide +kernel) (m₁ := exAffM1) (m₂ := exAffM2) (m := exAffM12) rfl rfl rfl
  exact ⟨q₁, q₂, q, h1, h2, h3⟩
/-- weights 2, -3 and 10, -15 -/
example : ((MInt.lit (-5) : MInt .i32).val : ℚ) = 5 * ((MInt.lit (-1) : MInt .i32).val : ℚ) ∧ ((MInt.lit 325 : MInt .i32).val : ℚ) = 5 ^ 2 * ((MInt.lit 13 : MInt .i32).val : ℚ) :=
  C106_weighted_sum (K := ℚ) 5 exWs [(.lit 10 : MInt .i32), .lit (-15)] (by decide +kernel) (a := ⟨.lit (-1), .lit 13⟩) (b := ⟨.lit (-5), .lit 325⟩) rfl rfl
end
example : True := by
  obtain ⟨m, -, -⟩ := C106_counterexample_float
  trivial
end NdHist.Examples
