import Verif.Model.Num
import Verif.Model.BinInterval
import Verif.Model.Axes
import Mathlib.Data.List.Forall2
/-!
# Specification vocabulary

Small definitions used in the statements of the properties and nowhere in the model of the code.
-/
namespace NdHist

/-- `c` lies in the bin: below `stop`, from `start` on, or in `[start, stop)`. Comparisons are the coordinate type's own, so
no bin contains a NaN. -/
def BinInterval.Covers {T : Type} [POrd T] : BinInterval T → T → Prop
  | .Underflow stop, c => POrd.lt c stop = true
  | .Overflow start, c => POrd.le start c = true
  | .Bin start stop, c => POrd.le start c = true ∧ POrd.lt c stop = true

/-- The category bin contains `c`, given the list of all categories of the axis. -/
def SingleValueBinInterval.Covers {T : Type} (categories : List T) : SingleValueBinInterval T → T → Prop
  | .Overflow, c => c ∉ categories
  | .Bin v, c => c = v

/-! ## Axes -/

/-- What the documentation of `Axis` (axis/mod.rs:27-85) promises of an axis with `n` bins, for the `usize` of the
platform: bin numbers returned by `index` are below `n`, and every bin number below `n` has a bin. -/
structure LawfulAxis [Cfg] {A : Type} [Axis A] (a : A) (n : Nat) : Prop where
  numBins : Axis.numBins a = .ok n
  fits : n < usizeSize
  index_lt : ∀ c i, Axis.index a c = .ok (some i) → i < n
  bin_some : ∀ i, i < n → ∃ b, Axis.bin a i = .ok (some b)

/-- `index` does not panic on `c`. -/
def IndexTotal [Cfg] {A : Type} [Axis A] (a : A) (c : Axis.Coordinate A) : Prop :=
  ∃ o, Axis.index a c = .ok o

section
variable [Cfg]

/-- `ns` are the numbers of bins of the axes of the tuple, all of which are lawful. -/
def TupLawful : {ts : List AxTy} → Tup ts → List Nat → Prop
  | [], _, ns => ns = []
  | _ :: _, (a, as), ns => ∃ n ns', ns = n :: ns' ∧ LawfulAxis a n ∧ TupLawful as ns'

/-- `is` are the bin numbers of the components of the coordinate, axis by axis. -/
def IndexOf : {ts : List AxTy} → Tup ts → Coords ts → List Nat → Prop
  | [], _, _, is => is = []
  | _ :: _, (a, as), (c, cs), is => ∃ i is', is = i :: is' ∧ Axis.index a c = .ok (some i) ∧ IndexOf as cs is'

/-- `bs` are the bins number `is` of the axes. -/
def BinsOf : {ts : List AxTy} → Tup ts → List Nat → Intervals ts → Prop
  | [], _, is, _ => is = []
  | _ :: _, (a, as), is, (b, bs) => ∃ i is', is = i :: is' ∧ Axis.bin a i = .ok (some b) ∧ BinsOf as is' bs

/-- no axis panics on its component of the coordinate -/
def TupTotal : {ts : List AxTy} → Tup ts → Coords ts → Prop
  | [], _, _ => True
  | _ :: _, (a, as), (c, cs) => IndexTotal a c ∧ TupTotal as cs

/-- some axis has no bin for its component of the coordinate -/
def SomeUncovered : {ts : List AxTy} → Tup ts → Coords ts → Prop
  | [], _, _ => False
  | _ :: _, (a, as), (c, cs) => Axis.index a c = .ok none ∨ SomeUncovered as cs
end

/-- `i_0 * w + i_1 * (w * n_0) + i_2 * (w * n_0 * n_1) + ...`: the number of the cell `is` in a grid of shape `ns`, the
first axis varying fastest (`w = 1`). -/
def cellNumber (w : Nat) : List Nat → List Nat → Nat
  | n :: ns, i :: is => w * i + cellNumber (w * n) ns is
  | _, _ => 0

/-- `is` is a cell of the grid of shape `ns` -/
def InGrid (ns is : List Nat) : Prop := List.Forall₂ (fun i n => i < n) is ns

end NdHist
