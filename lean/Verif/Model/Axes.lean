import Verif.Model.Axis
/-!
# Tuples of axes (axes.rs)
-/
namespace NdHist

/-- `AxesTuple<(X,)>` (axes.rs:39-68): the one-dimensional case has its own implementation.
`as_tuple()` (axes.rs:17-19) is the field. -/
structure AxesTuple1 (X : Type) where
  axis : X
  shape : List Nat
deriving DecidableEq

namespace AxesTuple1
variable {X : Type} [Cfg] [Axis X]

/-- `From<(X,)>` (axes.rs:44-49) -/
def fromTuple (x : X) : Res (AxesTuple1 X) := do
  let n ← Axis.numBins x
  return { axis := x, shape := [n] }

/-- `impl Axis for AxesTuple<(X,)>` (axes.rs:51-68); `num_dim` is the trait default 1. -/
instance : Axis (AxesTuple1 X) where
  Coordinate := Axis.Coordinate X
  Interval := Axis.Interval X
  index a c := Axis.index a.axis c
  numBins a := Axis.numBins a.axis
  bin a i := Axis.bin a.axis i

end AxesTuple1

/-- A type implementing `Axis`. -/
structure AxTy [Cfg] where
  A : Type
  inst : Axis A

attribute [instance] AxTy.inst

variable [Cfg]

/-- The Rust tuple of axes `(X, Y, ...)`. Rust generates one implementation per arity 2..=21
(axes.rs:72-175); the model is for every arity. -/
def Tup : List AxTy → Type
  | [] => Unit
  | t :: ts => t.A × Tup ts

/-- `type Coordinate` (axes.rs:85) -/
def Coords : List AxTy → Type
  | [] => Unit
  | t :: ts => Axis.Coordinate t.A × Coords ts

/-- `type BinInterval` (axes.rs:86) -/
def Intervals : List AxTy → Type
  | [] => Unit
  | t :: ts => Axis.Interval t.A × Intervals ts

namespace Tup
/-- `[$(item.$nth_index.num_bins()),*]` (axes.rs:79, 110) -/
def numBinsList : {ts : List AxTy} → Tup ts → Res (List Nat)
  | [], _ => return []
  | _ :: _, (a, as) => do
    let n ← Axis.numBins a
    let ns ← numBinsList as
    return n :: ns

/-- `[$(self.axes.$nth_index.index(&coordinate.$nth_index)?),*]` (axes.rs:90): `?` returns `None` at the
first axis that has no bin, without looking at the later axes. -/
def indices : {ts : List AxTy} → Tup ts → Coords ts → Res (Option (List Nat))
  | [], _, _ => return some []
  | _ :: _, (a, as), (c, cs) => do
    match ← Axis.index a c with
    | none => return none
    | some i =>
      match ← indices as cs with
      | none => return none
      | some is => return some (i :: is)

/-- `( $(self.axes.$nth_index.bin(index[$nth_index])?),* )` (axes.rs:118-122) -/
def bins : {ts : List AxTy} → Tup ts → List Nat → Res (Option (Intervals ts))
  | [], _, _ => return some ()
  | _ :: _, _, [] => throw .indexOutOfBounds
  | _ :: _, (a, as), i :: is => do
    match ← Axis.bin a i with
    | none => return none
    | some b =>
      match ← bins as is with
      | none => return none
      | some bs => return some (b, bs)
end Tup

/-- `.scan(1, |acc, nbin| {*acc *= *nbin; Some(*acc)})` (axes.rs:79) -/
def scanProd (acc : Nat) : List Nat → Res (List Nat)
  | [] => return []
  | n :: ns => do
    let acc ← umul acc n
    let rest ← scanProd acc ns
    return acc :: rest

/-- `product.map(|nb| { let v = index % nb; index /= nb; v }).collect()` (axes.rs:111-117). The scan in the
code never updates its accumulator, so `nb` is `1 * num_bins` of each axis. -/
def digits (index : Nat) : List Nat → Res (List Nat)
  | [] => return []
  | n :: ns => do
    let nb ← umul 1 n
    let v ← urem index nb
    let index ← udiv index nb
    let rest ← digits index ns
    return v :: rest

/-- `AxesTuple<(X, Y, ...)>` for two or more axes (axes.rs:10-13, 72-127). `as_tuple()` (axes.rs:17-19) is the field. -/
structure AxesTuple (t₀ t₁ : AxTy) (ts : List AxTy) where
  axes : Tup (t₀ :: t₁ :: ts)
  shape : List Nat

namespace AxesTuple
variable {t₀ t₁ : AxTy} {ts : List AxTy}

/-- `From<(X, Y, ...)>` (axes.rs:77-82) -/
def fromTuple (item : Tup (t₀ :: t₁ :: ts)) : Res (AxesTuple t₀ t₁ ts) := do
  let ns ← item.numBinsList
  let shape ← scanProd 1 ns
  return { axes := item, shape }

/-- the combination of per-axis bin numbers (axes.rs:92-96) -/
def flatten (shape indices : List Nat) : Res Nat := do
  let i0 ← indexSlice indices 0
  ((shape.reverse.drop 1).zip indices.reverse).foldlM
    (fun acc ni => do
      let p ← umul ni.1 ni.2
      uadd acc p) i0

/-- `Axis::index` (axes.rs:89-98) -/
def index (a : AxesTuple t₀ t₁ ts) (c : Coords (t₀ :: t₁ :: ts)) : Res (Option Nat) := do
  match ← a.axes.indices c with
  | none => return none
  | some indices =>
    let i ← flatten a.shape indices
    return some i

/-- `Axis::num_bins` (axes.rs:100-103): `n0 * n1 * ... * 1`, evaluated from the left. (In the code the
`num_bins()` calls are interleaved with the products; this only affects which panic comes first.) -/
def numBins (a : AxesTuple t₀ t₁ ts) : Res Nat := do
  match ← a.axes.numBinsList with
  | [] => return 1
  | n :: ns =>
    let p ← ns.foldlM umul n
    umul p 1

/-- `Axis::bin` (axes.rs:109-123) -/
def bin (a : AxesTuple t₀ t₁ ts) (i : Nat) : Res (Option (Intervals (t₀ :: t₁ :: ts))) := do
  let ns ← a.axes.numBinsList
  let is ← digits i ns
  a.axes.bins is

/-- `impl Axis for AxesTuple<(X, Y, ...)>` (axes.rs:84-124) -/
instance : Axis (AxesTuple t₀ t₁ ts) where
  Coordinate := Coords (t₀ :: t₁ :: ts)
  Interval := Intervals (t₀ :: t₁ :: ts)
  index := index
  numBins := numBins
  bin := bin
  numDim _ := (t₀ :: t₁ :: ts).length

end AxesTuple
end NdHist
