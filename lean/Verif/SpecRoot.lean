import Verif.Lemmas.Float
import Mathlib.Analysis.SpecialFunctions.Sqrt
/-!
# Vocabulary for square roots of floats
-/
namespace NdHist
variable {F : FFmt}

/-- `y` is the float nearest to the real number `s`: every float with another value is further away. -/
def NearestTo (s : ℝ) (y : Flt F) : Prop :=
  y.isFin ∧ ∀ z : Flt F, z.isFin → z.val = y.val ∨ |(y.val : ℝ) - s| < |(z.val : ℝ) - s|

/-- The second float is the square root of the first: NaN for NaN and negative numbers, infinity for infinity, the same zero for zero, and the float
nearest to the real root for a positive number. -/
inductive IsRoot : Flt F → Flt F → Prop
  | bad {v : Flt F} (h : v = .nan ∨ v = .inf true ∨ v.isFin ∧ v.val < 0) : IsRoot v .nan
  | inf : IsRoot (.inf false) (.inf false)
  | zero (neg : Bool) : IsRoot (Flt.zero neg) (Flt.zero neg)
  | pos {v y : Flt F} (hv : v.isFin) (h0 : 0 < v.val) (hy : 0 < y.val) (h : NearestTo √(v.val : ℝ) y) : IsRoot v y

end NdHist
