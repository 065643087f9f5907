import Verif.SpecStats
/-!
# Specification vocabulary: how much the contents change with the data
-/
namespace NdHist

/-- the quantity `q` of the value of bin `i`, given the value of each bin (a bin that a sparse histogram does not store counts nothing) -/
def content {V M : Type} [Zero M] (q : V → M) (value : Nat → Option V) (i : Nat) : M := (value i).elim 0 q

/-- two data sets that have the elements of `common` in common, the first containing also `xs` and the second also `ys`, each in any order -/
structure Differ {α : Type*} (l l' common xs ys : List α) : Prop where
  left : l.Perm (common ++ xs)
  right : l'.Perm (common ++ ys)
end NdHist
