import Verif.SpecContent
import Verif.Model.Eq
/-!
# Specification vocabulary: axes that cannot be told apart
-/
namespace NdHist

/-- Two calls end in the same way: with the same panic, or with results related by `r`. -/
def SameOutcome {α : Type} (r : α → α → Prop) : Res α → Res α → Prop
  | .error p, .error q => p = q
  | .ok x, .ok y => r x y
  | _, _ => False

/-- both `None`, or both `Some` and related by `r` -/
def SameOption {α : Type} (r : α → α → Prop) : Option α → Option α → Prop
  | none, none => True
  | some x, some y => r x y
  | _, _ => False

/-- The same number: identical, or equal for the type's own `==` (`0.0` and `-0.0`). -/
def SameNum {T : Type} [POrd T] (x y : T) : Prop := x = y ∨ POrd.eq x y = true

/-- the same kind of bin with the same end points -/
def BinInterval.Same {T : Type} [POrd T] : BinInterval T → BinInterval T → Prop
  | .Underflow e, .Underflow e' => SameNum e e'
  | .Overflow s, .Overflow s' => SameNum s s'
  | .Bin s e, .Bin s' e' => SameNum s s' ∧ SameNum e e'
  | _, _ => False

/-- Two axes that cannot be told apart: as many bins, the same bin number for every coordinate (and the same panics), and the same bins. -/
structure SameAxis [Cfg] {A : Type} [Axis A] (a b : A) (same : Axis.Interval A → Axis.Interval A → Prop) : Prop where
  numBins : Axis.numBins a = Axis.numBins b
  index : ∀ c, Axis.index a c = Axis.index b c
  bin : ∀ i, SameOutcome (SameOption same) (Axis.bin a i) (Axis.bin b i)

section
variable [Cfg]
/-- for each axis of a tuple, when two bins are the same -/
def TupRel : List AxTy → Type
  | [] => Unit
  | t :: ts => (Axis.Interval t.A → Axis.Interval t.A → Prop) × TupRel ts

/-- multi-dimensional bins are the same: component by component -/
def SameAll : {ts : List AxTy} → TupRel ts → Intervals ts → Intervals ts → Prop
  | [], _, _, _ => True
  | _ :: _, (r, rs), (b, bs), (b', bs') => r b b' ∧ SameAll rs bs bs'

/-- the axes of two tuples cannot be told apart, one by one -/
def TupSame : {ts : List AxTy} → Tup ts → Tup ts → TupRel ts → Prop
  | [], _, _, _ => True
  | _ :: _, (a, as), (b, bs), (r, rs) => SameAxis a b r ∧ TupSame as bs rs
end

end NdHist
