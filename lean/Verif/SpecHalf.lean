import Verif.Model.History
/-!
# Specification for C64: what a fill that panics leaves behind
-/
namespace NdHist

/-- `Stops steps s r`: carrying out `steps` on `s` one after another, up to the first that panics, ends with `r`: the content reached (a step that
panics changes nothing) and the panic, if there was one. -/
inductive Stops {σ : Type} : List (σ → Res σ) → σ → σ × Option Panic → Prop
  | done {s : σ} : Stops [] s (s, none)
  | panic {f : σ → Res σ} {fs : List (σ → Res σ)} {s : σ} {p : Panic} (h : f s = .error p) : Stops (f :: fs) s (s, some p)
  | step {f : σ → Res σ} {fs : List (σ → Res σ)} {s s' : σ} {r : σ × Option Panic} (h : f s = .ok s') (hr : Stops fs s' r) : Stops (f :: fs) s r

/-- A program that makes a list of updates, catching every panic: the final content, and which of the updates returned. -/
def caught {σ : Type} : List (Upd σ) → σ → σ × List Bool
  | [], s => (s, [])
  | f :: fs, s => ((caught fs (f s).1).1, (f s).2.isNone :: (caught fs (f s).1).2)

section
variable {A V : Type} [Cfg] [Axis A]

/-- A program that fills a dense histogram, catching every panic: the final histogram, and which of the calls returned. -/
def VecHistogram.caught (h : VecHistogram A V) : List (Call V (Axis.Coordinate A)) → VecHistogram A V × List Bool
  | [] => (h, [])
  | c :: cs => (((h.call c).1.caught cs).1, (h.call c).2.isNone :: ((h.call c).1.caught cs).2)

/-- the same for a sparse histogram -/
def HashHistogram.caught [RDefault V] (h : HashHistogram A V) : List (Call V (Axis.Coordinate A)) → HashHistogram A V × List Bool
  | [] => (h, [])
  | c :: cs => (((h.call c).1.caught cs).1, (h.call c).2.isNone :: ((h.call c).1.caught cs).2)
end

/-- the total of the numbers marked `true` -/
def totalOf : List (Int × Bool) → Int
  | [] => 0
  | (x, true) :: l => x + totalOf l
  | (_, false) :: l => totalOf l

section
variable [Cfg] {A : Type} [Axis A] {κ : IntTy}
/-- the data of the calls that fell into bin `i`, zero for the others -/
def intoBin (axes : A) (i : Nat) (cs : List (Axis.Coordinate A × MInt κ)) : List Int :=
  cs.map fun c => match Axis.index axes c.1 with
    | .ok (some j) => if j = i then c.2.val else 0
    | _ => 0

/-- what a bin of a sparse integer histogram counts as holding -/
def heldBy (h : HashHistogram A (MInt κ)) (i : Nat) : Int := ((h.valueAtIndex i).map MInt.val).getD 0
end
end NdHist
