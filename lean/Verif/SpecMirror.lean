import Verif.SpecRescale
/-!
# Specification vocabulary: mirrored axes
-/
namespace NdHist

/-- the numbers in bin `i` of an axis with underflow, `n` bins between the edges `E 0, ..., E n`, and overflow -/
def flowBins (E : Nat → ℚ) (n i : Nat) : Set ℚ :=
  if i = 0 then {x | x < E 0} else if i = n + 1 then {x | E n ≤ x} else {x | E (i - 1) ≤ x ∧ x < E i}

/-- the numbers in bin `i` of an axis with bins between the edges `E 0, E 1, ...` and no flow bins -/
def plainBins (E : Nat → ℚ) (i : Nat) : Set ℚ := {x | E i ≤ x ∧ x < E (i + 1)}

/-- the edges `E 0, ..., E n` mirrored: `x` becomes `m - x` -/
def mirrorEdges (E : Nat → ℚ) (n : Nat) (m : ℚ) (k : Nat) : ℚ := m - E (n - k)
end NdHist
