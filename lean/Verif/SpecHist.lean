import Verif.Spec
import Verif.Model.History
/-!
# Specification vocabulary for histograms
-/
namespace NdHist
variable {A V C : Type} [Cfg] [Axis A]

/-- A dense histogram in a state the library can produce: lawful axes, one value per bin. -/
structure VecHistogram.Ok (h : VecHistogram A V) (n : Nat) : Prop where
  lawful : LawfulAxis h.axes n
  size : h.values.length = n

/-- A sparse histogram in a state the library can produce: lawful axes, a proper map, only bin numbers as keys. -/
structure HashHistogram.Ok (h : HashHistogram A V) (n : Nat) : Prop where
  lawful : LawfulAxis h.axes n
  nodup : h.values.NodupKeys
  valid : ∀ i, i ∈ h.values.keys → i < n

/-- The calls whose coordinate lies in bin `i`, in order. -/
def callsIn (axes : A) (i : Nat) (calls : List (Call V (Axis.Coordinate A))) : List (Call V (Axis.Coordinate A)) :=
  calls.filter fun call => Axis.index axes call.coord = .ok (some i)

/-- The calls whose coordinate lies in some bin, in order. -/
def callsCovered (axes : A) (calls : List (Call V (Axis.Coordinate A))) : List (Call V (Axis.Coordinate A)) :=
  calls.filter fun call => match Axis.index axes call.coord with
    | .ok (some _) => true
    | _ => false

/-- A single value (no histogram around it) after the calls, whether or not they panicked. -/
def filledWith (calls : List (Call V C)) (v : V) : V := calls.foldl (fun v call => (call.on v).1) v

/-- A single value filled with the calls one after another, up to the first panic. -/
def fillSeq : List (Call V C) → V → V × Option Panic
  | [], v => (v, none)
  | call :: calls, v =>
    match call.on v with
    | (v', some p) => (v', some p)
    | (v', none) => fillSeq calls v'

end NdHist
