import Verif.SpecRescale
import Verif.SpecProject
import Verif.SpecContent
/-!
# Specification vocabulary: cyclic axes, wherever they start

A cyclic axis is described by its edges, continued without end in both directions: `E (i + n) = E i + P` for an axis with `n` bins and turns of length `P`.
-/
namespace NdHist

/-- the numbers in bin `i` of a cyclic axis with edges `E` and turns of length `P`: those that some whole number of turns brings between the edges `i` and `i + 1` -/
def turnBins (E : ℤ → ℚ) (P : ℚ) (i : Nat) : Set ℚ := {x | ∃ t : ℤ, E i ≤ x + t * P ∧ x + t * P < E (i + 1)}

/-- the numbers between edges `i` and `i + 1` -/
def edgeBins (E : ℤ → ℚ) (i : Nat) : Set ℚ := {x | E i ≤ x ∧ x < E (i + 1)}

/-- bin number `i` of `n`, `d` bins further round the circle -/
def roundBy (n : Nat) (d : ℤ) (i : Nat) : Nat := (((i : ℤ) + d) % n).toNat

section
variable {A V : Type} [Cfg] [Axis A]

/-- two calls of the same method with the same arguments but for the coordinates, `P` holding for the old and the new coordinate -/
def SameButCoord (P : Axis.Coordinate A → Axis.Coordinate A → Prop) (call call' : Call V (Axis.Coordinate A)) : Prop :=
  call' = call.mapCoord (fun _ => call'.coord) ∧ P call.coord call'.coord

/-- the bins of the axis containing `c` are those containing `c'` -/
def InSameBins (a : A) (n : Nat) (covers : Axis.Interval A → Axis.Coordinate A → Prop) (c c' : Axis.Coordinate A) : Prop :=
  ∀ i b, i < n → Axis.bin a i = .ok (some b) → (covers b c ↔ covers b c')
end
end NdHist
