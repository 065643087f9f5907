import Verif.Model.Eq
/-!
# `PartialOrd` of the crate's types

All derived in the code (`#[derive(PartialOrd)]`). The derive compares structs field by field in declaration order, enums first by the position of the
variant in the declaration and then by the fields. Simplification: `Ord::cmp`, derived the same way where the fields are `Ord`, is `partial_cmp` (never `None` there: C60).
-/
namespace NdHist

/-- One step of a derived `partial_cmp`: the first field that differs, or is not comparable, decides. -/
def thenCmp (first : Option Ordering) (second : Option Ordering) : Option Ordering :=
  match first with
  | some .eq => second
  | o => o

/-- `PartialOrd for usize` -/
@[reducible] def natPOrd : POrd Nat := ⟨fun a b => some (compare a b)⟩

/-- `PartialOrd for Vec<T>`: the first difference decides, then the lengths -/
def vecCmp {T : Type} [POrd T] : List T → List T → Option Ordering
  | [], [] => some .eq
  | [], _ :: _ => some .lt
  | _ :: _, [] => some .gt
  | a :: as, b :: bs => thenCmp (POrd.pcmp a b) (vecCmp as bs)

namespace BinInterval
variable {T : Type}
/-- position of the variant in the declaration (axis/bininterval/bininterval.rs:10-32) -/
def variant : BinInterval T → Nat
  | .Underflow _ => 0
  | .Overflow _ => 1
  | .Bin _ _ => 2

/-- derived (axis/bininterval/bininterval.rs:9) -/
instance [POrd T] : POrd (BinInterval T) := ⟨fun a b =>
  match a, b with
  | .Underflow e, .Underflow e' => POrd.pcmp e e'
  | .Overflow s, .Overflow s' => POrd.pcmp s s'
  | .Bin s e, .Bin s' e' => thenCmp (POrd.pcmp s s') (POrd.pcmp e e')
  | a, b => some (compare a.variant b.variant)⟩

/-- derived `PartialEq` (axis/bininterval/bininterval.rs:9) -/
instance [PEq T] : PEq (BinInterval T) := ⟨fun a b =>
  match a, b with
  | .Underflow e, .Underflow e' => PEq.peq e e'
  | .Overflow s, .Overflow s' => PEq.peq s s'
  | .Bin s e, .Bin s' e' => PEq.peq s s' && PEq.peq e e'
  | _, _ => false⟩
end BinInterval

namespace SingleValueBinInterval
variable {T : Type}
/-- position of the variant in the declaration (axis/bininterval/singlevaluebininterval.rs:8-16) -/
def variant : SingleValueBinInterval T → Nat
  | .Overflow => 0
  | .Bin _ => 1

/-- derived (axis/bininterval/singlevaluebininterval.rs:7) -/
instance [POrd T] : POrd (SingleValueBinInterval T) := ⟨fun a b =>
  match a, b with
  | .Overflow, .Overflow => some .eq
  | .Bin v, .Bin v' => POrd.pcmp v v'
  | a, b => some (compare a.variant b.variant)⟩

/-- derived `PartialEq` (axis/bininterval/singlevaluebininterval.rs:7) -/
instance [PEq T] : PEq (SingleValueBinInterval T) := ⟨fun a b =>
  match a, b with
  | .Overflow, .Overflow => true
  | .Bin v, .Bin v' => PEq.peq v v'
  | _, _ => false⟩
end SingleValueBinInterval

section
variable {T : Type} [POrd T]
/-- derived (axis/uniform.rs:31) -/
instance : POrd (Uniform T) := ⟨fun a b =>
  thenCmp (natPOrd.pcmp a.num b.num) (thenCmp (POrd.pcmp a.low b.low) (thenCmp (POrd.pcmp a.high b.high) (POrd.pcmp a.step b.step)))⟩
/-- derived (axis/uniformnoflow.rs:28) -/
instance : POrd (UniformNoFlow T) := ⟨fun a b => POrd.pcmp a.axis b.axis⟩
/-- derived (axis/uniformcyclic.rs:48) -/
instance : POrd (UniformCyclic T) := ⟨fun a b => POrd.pcmp a.axis b.axis⟩
/-- derived (axis/variable.rs:33) -/
instance : POrd (Variable T) := ⟨fun a b => vecCmp a.binEdges b.binEdges⟩
/-- derived (axis/variablenoflow.rs:30) -/
instance : POrd (VariableNoFlow T) := ⟨fun a b => POrd.pcmp a.axis b.axis⟩
/-- derived (axis/variablecyclic.rs:28) -/
instance : POrd (VariableCyclic T) := ⟨fun a b => POrd.pcmp a.axis b.axis⟩
end

/-- derived (axes.rs:8), one axis -/
instance {X : Type} [POrd X] : POrd (AxesTuple1 X) := ⟨fun a b => thenCmp (POrd.pcmp a.axis b.axis) (@vecCmp Nat natPOrd a.shape b.shape)⟩

/-- each axis of a tuple has `PartialOrd`; tuples compare from the first component on -/
class TupPOrd [Cfg] (ts : List AxTy) where
  pcmp : Tup ts → Tup ts → Option Ordering

instance [Cfg] : TupPOrd [] := ⟨fun _ _ => some .eq⟩
instance [Cfg] {t : AxTy} {ts : List AxTy} [POrd t.A] [TupPOrd ts] : TupPOrd (t :: ts) :=
  ⟨fun a b => thenCmp (POrd.pcmp a.1 b.1) (TupPOrd.pcmp a.2 b.2)⟩

/-- derived (axes.rs:8), two or more axes -/
instance [Cfg] {t₀ t₁ : AxTy} {ts : List AxTy} [TupPOrd (t₀ :: t₁ :: ts)] : POrd (AxesTuple t₀ t₁ ts) :=
  ⟨fun a b => thenCmp (TupPOrd.pcmp a.axes b.axes) (@vecCmp Nat natPOrd a.shape b.shape)⟩

/-- derived (value/sum.rs:9) -/
instance {T : Type} [POrd T] : POrd (Sum T) := ⟨fun a b => POrd.pcmp a.sum b.sum⟩
/-- derived (value/weightedsum.rs:13) -/
instance {T : Type} [POrd T] : POrd (WeightedSum T) := ⟨fun a b => thenCmp (POrd.pcmp a.sumw b.sumw) (POrd.pcmp a.sumw2 b.sumw2)⟩
/-- derived (value/mean.rs:39) -/
instance {T O C : Type} [POrd T] [POrd C] : POrd (Mean T O C) :=
  ⟨fun a b => thenCmp (POrd.pcmp a.sumw b.sumw) (thenCmp (POrd.pcmp a.sumw2 b.sumw2) (POrd.pcmp a.count b.count))⟩
/-- derived (value/weightedmean.rs:40) -/
instance {T W O C : Type} [POrd T] [POrd W] [POrd C] : POrd (WeightedMean T W O C) :=
  ⟨fun a b => thenCmp (POrd.pcmp a.sumwt b.sumwt) (thenCmp (POrd.pcmp a.sumwt2 b.sumwt2) (thenCmp (POrd.pcmp a.sumw b.sumw)
    (thenCmp (POrd.pcmp a.sumw2 b.sumw2) (POrd.pcmp a.count b.count))))⟩

/-- derived `PartialEq` (histogram/histogram.rs:101) -/
instance {B V : Type} [PEq B] [PEq V] : PEq (Item B V) := ⟨fun a b => a.index == b.index && PEq.peq a.bin b.bin && PEq.peq a.value b.value⟩
/-- derived (histogram/histogram.rs:101) -/
instance {B V : Type} [POrd B] [POrd V] : POrd (Item B V) :=
  ⟨fun a b => thenCmp (natPOrd.pcmp a.index b.index) (thenCmp (POrd.pcmp a.bin b.bin) (POrd.pcmp a.value b.value))⟩

/-- derived (histogram/vechistogram.rs:14) -/
instance {A V : Type} [POrd A] [POrd V] : POrd (VecHistogram A V) := ⟨fun a b => thenCmp (POrd.pcmp a.axes b.axes) (vecCmp a.values b.values)⟩
/-- derived `PartialEq` (histogram/vechistogram.rs:14) -/
instance {A V : Type} [PEq A] [PEq V] : PEq (VecHistogram A V) := ⟨VecHistogram.beq⟩

end NdHist
