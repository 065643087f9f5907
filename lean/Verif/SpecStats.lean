import Verif.SpecContent
import Verif.Model.Float
import Mathlib.Algebra.BigOperators.Group.Finset.Basic
/-!
# Specification vocabulary: cumulative distributions, quantiles, means read off the bins
-/
namespace NdHist
section
variable [Cfg] {A : Type} [Axis A]

/-- The bins of the axis are in ascending order: every bin but the last has an end, and a coordinate lying in bin `j` is below the end of bin `i` exactly if `j ≤ i`.
(`stop b` is the end of the interval `b`, `lt` the order of the coordinates.) -/
structure AscendingAxis (a : A) (n : Nat) (covers : Axis.Interval A → Axis.Coordinate A → Prop) (dom : Axis.Coordinate A → Prop)
    (stop : Axis.Interval A → Option (Axis.Coordinate A)) (lt : Axis.Coordinate A → Axis.Coordinate A → Prop) : Prop where
  faithful : FaithfulAxis a n covers dom
  ends : ∀ i b, i + 1 < n → Axis.bin a i = .ok (some b) → ∃ e, stop b = some e
  below : ∀ i b e, i < n → Axis.bin a i = .ok (some b) → stop b = some e →
    ∀ j b' c, j < n → Axis.bin a j = .ok (some b') → dom c → covers b' c → (lt c e ↔ j ≤ i)

/-- Larger coordinates are not counted in earlier bins (whatever the intervals reported for the bins). -/
structure MonotoneAxis (a : A) (n : Nat) (dom : Axis.Coordinate A → Prop) (le : Axis.Coordinate A → Axis.Coordinate A → Prop) : Prop where
  lawful : LawfulAxis a n
  mono : ∀ c d i j, dom c → dom d → le c d → Axis.index a c = .ok (some i) → Axis.index a d = .ok (some j) → i ≤ j
end

/-- the total of the quantity `q` of the bin values over the first `m` bins, given the value of each bin (a bin that a sparse histogram does not store counts nothing) -/
def cumulative {V M : Type} [AddCommMonoid M] (q : V → M) (value : Nat → Option V) (m : Nat) : M := ∑ i ∈ Finset.range m, (value i).elim 0 q

/-- the running total over the first `m` bins as a program computes it with floats: `let mut t = 0.0; for i in 0..m { if let Some(v) = hist.value_at_index(i) { t += v } }` -/
def runningFloat {F : FFmt} (value : Nat → Option (Flt F)) (m : Nat) : Flt F :=
  (List.range m).foldl (fun t i => match value i with | some v => Flt.add t v | none => t) (Flt.zero false)

end NdHist
