import Verif.Model.History
import Mathlib.Data.List.Forall2
/-!
# Specification vocabulary: more data, and data of larger weights
-/
namespace NdHist

/-- `more` has, in order, all elements of `less` or elements that exceed them, and perhaps others in between -/
abbrev Exceeds {α β : Type*} (exceeds : α → β → Prop) (less : List α) (more : List β) : Prop := List.SublistForall₂ exceeds less more

/-- the weight of a call: 1 for `fill(c)`, `w` for `fill_with(c, w)` -/
def givenWeight {C T : Type} [Cfg] [RNum T] (cw : C × Option T) : T := cw.2.getD RNum.one

/-- `b` has the coordinate of `a` and at least its weight -/
def Heavier {C T : Type} [Cfg] [RNum T] (a b : C × Option T) : Prop := a.1 = b.1 ∧ POrd.ge (givenWeight b) (givenWeight a) = true

/-- no weight is negative (or NaN) -/
def NoNegative {C T : Type} [Cfg] [RNum T] (hist : List (C × Option T)) : Prop := ∀ cw ∈ hist, ∀ w, cw.2 = some w → POrd.ge w (RNum.zero : T) = true
end NdHist
