import Verif.SpecHist
/-!
# Specification vocabulary: one fill in place of several
-/
namespace NdHist
variable {V C : Type}

/-- The one call `g` may stand for the calls `fs` (at least one): they have the same coordinate, and from every value of the bin `g` panics exactly if one of `fs` does; without a panic `g` leaves the
same value as `fs` one after another. -/
structure StandsFor (g : Call V C) (fs : List (Call V C)) : Prop where
  some : fs ≠ []
  coord : ∀ f ∈ fs, f.coord = g.coord
  ok : ∀ v, (g.on v).2 = none ↔ (fillSeq fs v).2 = none
  same : ∀ v, (g.on v).2 = none → g.on v = fillSeq fs v

/-- the samples of a table with multiplicities, one by one -/
def oneByOne {X : Type} (table : List (X × ℕ)) : List X := table.flatMap fun b => List.replicate b.2 b.1
end NdHist
