import Verif.SpecProject
/-!
# Specification vocabulary: tuples of axes as components of other tuples

`AxesTuple` implements `Axis`, so `AxesTuple<(AxesTuple<(X, Y)>, Z)>` is an axis as well, and so is every other way to put parentheses around consecutive axes.
-/
namespace NdHist
variable [Cfg]

/-- a tuple of axes as a component of a tuple -/
@[reducible] def nestTy (t₀ t₁ : AxTy) (ts : List AxTy) : AxTy := ⟨AxesTuple t₀ t₁ ts, inferInstance⟩
/-- a tuple of one axis as a component of a tuple -/
@[reducible] def nestTy1 (t : AxTy) : AxTy := ⟨AxesTuple1 t.A, inferInstance⟩

/-- A way to put parentheses around consecutive axes, the groups being grouped themselves: the axes one by one, and the components of the grouped tuple. -/
inductive Grouping : List AxTy → List AxTy → Type 1 where
  | nil : Grouping [] []
  /-- an axis stays a component of its own -/
  | keep {t : AxTy} {ts us : List AxTy} (rest : Grouping ts us) : Grouping (t :: ts) (t :: us)
  /-- a tuple of two or more components comes first -/
  | group {g₀ g₁ : AxTy} {gs hs ts us : List AxTy} (inner : Grouping hs (g₀ :: g₁ :: gs)) (rest : Grouping ts us) : Grouping (hs ++ ts) (nestTy g₀ g₁ gs :: us)
  /-- a tuple of one component comes first -/
  | group1 {g : AxTy} {hs ts us : List AxTy} (inner : Grouping hs [g]) (rest : Grouping ts us) : Grouping (hs ++ ts) (nestTy1 g :: us)

/-- the first axes and the others -/
def Tup.split : (hs : List AxTy) → {ts : List AxTy} → Tup (hs ++ ts) → Tup hs × Tup ts
  | [], _, x => ((), x)
  | _ :: hs, _, (x, xs) => ((x, (Tup.split hs xs).1), (Tup.split hs xs).2)

/-- the first components of a coordinate and the others -/
def Coords.split : (hs : List AxTy) → {ts : List AxTy} → Coords (hs ++ ts) → Coords hs × Coords ts
  | [], _, x => ((), x)
  | _ :: hs, _, (x, xs) => ((x, (Coords.split hs xs).1), (Coords.split hs xs).2)

/-- the first components of a bin and the others -/
def Intervals.split : (hs : List AxTy) → {ts : List AxTy} → Intervals (hs ++ ts) → Intervals hs × Intervals ts
  | [], _, x => ((), x)
  | _ :: hs, _, (x, xs) => ((x, (Intervals.split hs xs).1), (Intervals.split hs xs).2)

namespace Grouping
/-- build the inner tuples -/
def build : {ts us : List AxTy} → Grouping ts us → Tup ts → Res (Tup us)
  | _, _, .nil, _ => return ()
  | _, _, .keep rest, (a, as) => do
    let r ← rest.build as
    return (a, r)
  | _, _, .group (hs := hs) inner rest, t => do
    let i ← inner.build (Tup.split hs t).1
    let a ← AxesTuple.fromTuple i
    let r ← rest.build (Tup.split hs t).2
    return (a, r)
  | _, _, .group1 (hs := hs) inner rest, t => do
    let i ← inner.build (Tup.split hs t).1
    let a ← AxesTuple1.fromTuple i.1
    let r ← rest.build (Tup.split hs t).2
    return (a, r)

/-- put the parentheses in a coordinate (a tuple of one axis has the coordinates of the axis) -/
def coords : {ts us : List AxTy} → Grouping ts us → Coords ts → Coords us
  | _, _, .nil, _ => ()
  | _, _, .keep rest, (c, cs) => (c, rest.coords cs)
  | _, _, .group (hs := hs) inner rest, c => (inner.coords (Coords.split hs c).1, rest.coords (Coords.split hs c).2)
  | _, _, .group1 (hs := hs) inner rest, c => ((inner.coords (Coords.split hs c).1).1, rest.coords (Coords.split hs c).2)

/-- put the parentheses in a bin -/
def intervals : {ts us : List AxTy} → Grouping ts us → Intervals ts → Intervals us
  | _, _, .nil, _ => ()
  | _, _, .keep rest, (b, bs) => (b, rest.intervals bs)
  | _, _, .group (hs := hs) inner rest, b => (inner.intervals (Intervals.split hs b).1, rest.intervals (Intervals.split hs b).2)
  | _, _, .group1 (hs := hs) inner rest, b => ((inner.intervals (Intervals.split hs b).1).1, rest.intervals (Intervals.split hs b).2)
end Grouping

/-- The two axes are the same but for the way coordinates and bins are written: as many bins, the same bin number for every coordinate (or `None`, or the same panic), and the same bin for every number,
also for numbers that are too large. -/
structure SameBins {A A' : Type} [Axis A] [Axis A'] (a : A) (a' : A') (f : Axis.Coordinate A → Axis.Coordinate A') (g : Axis.Interval A → Axis.Interval A') : Prop where
  numBins : Axis.numBins a' = Axis.numBins a
  index : ∀ c, Axis.index a' (f c) = Axis.index a c
  bin : ∀ i, Axis.bin a' i = (Axis.bin a i).map (Option.map g)
end NdHist
