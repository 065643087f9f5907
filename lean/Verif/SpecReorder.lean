import Verif.SpecProject
/-!
# Specification vocabulary: the same axes in another order
-/
namespace NdHist
variable [Cfg]

/-- `σ` lists every component number below `m` exactly once. -/
def IsOrder {m : Nat} (σ : List (Fin m)) : Prop := σ.Nodup ∧ ∀ k, k ∈ σ

/-- The two axes have the same bins under other numbers: `renumber` is a one-to-one map of the `n` bin numbers, `index` gives the renumbered bin number for the rewritten coordinate (or `None`, or the
same panic) as far as the coordinates are in `dom`, and `bin` gives the rewritten bin. -/
structure Renumbered {A A' : Type} [Axis A] [Axis A'] (a : A) (a' : A') (n : Nat) (f : Axis.Coordinate A → Axis.Coordinate A') (g : Axis.Interval A → Axis.Interval A')
    (dom : Axis.Coordinate A → Prop) (renumber : Nat → Nat) : Prop where
  numBins : Axis.numBins a = .ok n
  numBins' : Axis.numBins a' = .ok n
  lt : ∀ i, i < n → renumber i < n
  inj : ∀ i j, i < n → j < n → renumber i = renumber j → i = j
  index : ∀ c, dom c → Axis.index a' (f c) = (Axis.index a c).map (Option.map renumber)
  bin : ∀ i, i < n → Axis.bin a' (renumber i) = (Axis.bin a i).map (Option.map g)
end NdHist
