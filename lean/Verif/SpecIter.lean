import Verif.Model.Iter
/-!
# Specification vocabulary: loops that end early
-/
namespace NdHist

/-- How a loop over the bins `visited ++ rest` may end, having visited `visited`: all bodies ended normally and nothing is left; or the body of the last visited
bin ended with `break` or with the panic `p`, and all before normally. `flow` tells how the body ends for a bin. -/
def LoopRan {ι : Type} (flow : ι → Flow) (visited rest : List ι) (out : Option Panic) : Prop :=
  (rest = [] ∧ (∀ x ∈ visited, flow x = .next) ∧ out = none) ∨
  ∃ before last, visited = before ++ [last] ∧ (∀ x ∈ before, flow x = .next) ∧
    ((flow last = .stop ∧ out = none) ∨ ∃ p, flow last = .panic p ∧ out = some p)

/-- a loop body that never breaks -/
def noBreak {V : Type} (f : Upd V) (v : V) : V × Flow :=
  ((f v).1, match (f v).2 with | none => .next | some p => .panic p)

end NdHist
