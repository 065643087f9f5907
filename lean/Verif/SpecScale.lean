import Verif.Lemmas.Float
import Verif.Model.Variable
import Verif.Model.Axes
/-!
# Specification vocabulary: floats in units that differ by a power of two
-/
namespace NdHist
variable {F : FFmt}

/-- `x'` is `2^k` times `x`, exactly and with the same sign (also of a zero); NaN and infinities stay what they are. -/
def Flt.Scaled (k : ℤ) : Flt F → Flt F → Prop
  | .nan, .nan => True
  | .inf s, .inf t => s = t
  | .fin s a _, .fin t b _ => s = t ∧ b = a * pow2 k
  | _, _ => False

/-- Where both numbers are finite, the second is `2^k` times the first. -/
def Flt.ScaledFin (k : ℤ) (x x' : Flt F) : Prop := x.isFin → x'.isFin → x.Scaled k x'

/-- the same for the ends of a bin -/
def BinInterval.ScaledFin (k : ℤ) : BinInterval (Flt F) → BinInterval (Flt F) → Prop
  | .Underflow e, .Underflow e' => e.ScaledFin k e'
  | .Overflow s, .Overflow s' => s.ScaledFin k s'
  | .Bin s e, .Bin s' e' => s.ScaledFin k s' ∧ e.ScaledFin k e'
  | _, _ => False

/-- `num` bins of total width `D`, and of total width `2^k D`, are within the range of normal numbers: no bin is narrower than the smallest normal number, the whole is not wider than the
largest number, and the number of bins is an exact float. -/
structure UnitsFit (F : FFmt) (k : ℤ) (num : ℕ) (D : ℚ) : Prop where
  count : num ≤ 2 ^ F.p
  small : num * pow2 F.emin ≤ D
  small' : num * pow2 F.emin ≤ D * pow2 k
  large : D ≤ F.maxFin
  large' : D * pow2 k ≤ F.maxFin

/-- The bounds of a cyclic axis are at most `2^(emax-2)` (for `f64`: `2^1021`), in both units. -/
def CyclicFit (F : FFmt) (k : ℤ) (low high : ℚ) : Prop :=
  |low| ≤ pow2 (F.emax - 2) ∧ |high| ≤ pow2 (F.emax - 2) ∧ |low| * pow2 k ≤ pow2 (F.emax - 2) ∧ |high| * pow2 k ≤ pow2 (F.emax - 2)

/-- the coordinates for which the difference to the lower end does not overflow, in either unit -/
def NoOverflow (low low' : Flt F) (c c' : Flt F) : Prop := c.isFin → |c.val - low.val| ≤ F.maxFin ∧ |c'.val - low'.val| ≤ F.maxFin

/-- Two axes that differ by the unit only: as many bins, a coordinate and `2^k` times the coordinate have the same bin number, and the ends of the bins are in the ratio `2^k`. -/
structure SameInUnits (k : ℤ) (dom : Flt F → Flt F → Prop) (index index' : Flt F → Res (Option ℕ)) (numBins numBins' : Res ℕ) (bin bin' : ℕ → Res (Option (BinInterval (Flt F)))) : Prop where
  index : ∀ c c' : Flt F, c.Scaled k c' → dom c c' → index' c' = index c
  numBins : numBins' = numBins
  bin : ∀ i, (∃ b b', bin i = .ok (some b) ∧ bin' i = .ok (some b') ∧ b.ScaledFin k b') ∨ (bin' i = bin i ∧ ∀ b, bin i ≠ .ok (some b))

/-- the pointwise version for tuples: as many bins in each dimension -/
def TupSameSize [Cfg] : {ts ts' : List AxTy} → Tup ts → Tup ts' → Prop
  | [], [], _, _ => True
  | _ :: _, _ :: _, (a, as), (a', as') => Axis.numBins a' = Axis.numBins a ∧ TupSameSize as as'
  | _, _, _, _ => False

/-- the same bin number in each dimension -/
def TupSameIndex [Cfg] : {ts ts' : List AxTy} → Tup ts → Tup ts' → Coords ts → Coords ts' → Prop
  | [], [], _, _, _, _ => True
  | _ :: _, _ :: _, (a, as), (a', as'), (c, cs), (c', cs') => Axis.index a' c' = Axis.index a c ∧ TupSameIndex as as' cs cs'
  | _, _, _, _, _, _ => False

/-- Two fills with a weight: into the same bin of both axes, the second weight `2^k` times the first. -/
def SameFill [Cfg] {A A' : Type} [Axis A] [Axis A'] (k : ℤ) (axes : A) (axes' : A') (f : Axis.Coordinate A × Flt F) (f' : Axis.Coordinate A' × Flt F) : Prop :=
  Axis.index axes' f'.1 = Axis.index axes f.1 ∧ f.2.Scaled k f'.2

/-- The square of the number, and of `2^k` times the number, does not underflow. -/
def SquareFits (k : ℤ) (w : Flt F) : Prop := w.val = 0 ∨ pow2 F.emin ≤ w.val ^ 2 ∧ pow2 F.emin ≤ (w.val * pow2 k) ^ 2

/-- The product of the numbers, also when one is multiplied by `2^k`, does not underflow. -/
def ProductFits (k : ℤ) (x w : Flt F) : Prop := x.val * w.val = 0 ∨ pow2 F.emin ≤ |x.val * w.val| ∧ pow2 F.emin ≤ |x.val * w.val| * pow2 k
end NdHist
