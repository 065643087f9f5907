import Verif.SpecHist
/-!
# Specification: threads that share a histogram behind a lock

Each thread has its own list of calls and makes them in this order; it takes the lock for each call. The histogram sees the calls of all threads one after another, in some order.
-/
namespace NdHist

/-- `Interleaving ts run`: `run` is an order in which the calls of the threads `ts` can happen: each step is the next call of one of the threads, and in the end all have made all their calls. -/
inductive Interleaving {α : Type u} : List (List α) → List α → Prop where
  | done {ts : List (List α)} : (∀ t ∈ ts, t = []) → Interleaving ts []
  | step {ts : List (List α)} {k : Nat} {c : α} {rest run : List α} : ts[k]? = some (c :: rest) → Interleaving (ts.set k rest) run → Interleaving ts (c :: run)

/-- Two calls on a value that can be made in the other order: if making `a` and then `b` does not panic, neither does making `b` and then `a`, and the value is the same. -/
def Swappable {V C : Type} (a b : Call V C) : Prop := ∀ v, (fillSeq [a, b] v).2 = none → fillSeq [b, a] v = fillSeq [a, b] v
end NdHist
