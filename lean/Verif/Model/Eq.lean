import Verif.Model.Hist
import Verif.Model.Axes
import Verif.Model.Uniform
import Verif.Model.Variable
import Verif.Model.Category
/-!
# `PartialEq` of the crate's types

All of these are derived in the code (`#[derive(PartialEq)]`): field by field, in order.
-/
namespace NdHist

/-- `PartialEq` of numbers (Rust requires it to agree with `partial_cmp`). -/
@[reducible] def numPEq (T : Type) [POrd T] : PEq T := ⟨POrd.eq⟩

/-- `PartialEq` of a type with `Eq`, e.g. `String` -/
@[reducible] def eqPEq (T : Type) [DecidableEq T] : PEq T := ⟨fun a b => decide (a = b)⟩

/-- `Vec::eq` -/
def vecEq {T : Type} [PEq T] : List T → List T → Bool
  | [], [] => true
  | a :: as, b :: bs => PEq.peq a b && vecEq as bs
  | _, _ => false

section
variable {T : Type} [POrd T]
/-- derived (axis/uniform.rs:31) -/
instance : PEq (Uniform T) := ⟨fun a b => a.num == b.num && POrd.eq a.low b.low && POrd.eq a.high b.high && POrd.eq a.step b.step⟩
/-- derived (axis/uniformnoflow.rs:28) -/
instance : PEq (UniformNoFlow T) := ⟨fun a b => PEq.peq a.axis b.axis⟩
/-- derived (axis/uniformcyclic.rs:48) -/
instance : PEq (UniformCyclic T) := ⟨fun a b => PEq.peq a.axis b.axis⟩
/-- derived (axis/variable.rs:33) -/
instance : PEq (Variable T) := ⟨fun a b => @vecEq T (numPEq T) a.binEdges b.binEdges⟩
/-- derived (axis/variablenoflow.rs:30) -/
instance : PEq (VariableNoFlow T) := ⟨fun a b => PEq.peq a.axis b.axis⟩
/-- derived (axis/variablecyclic.rs:28) -/
instance : PEq (VariableCyclic T) := ⟨fun a b => PEq.peq a.axis b.axis⟩
end

section
variable {T : Type} [DecidableEq T]
/-- derived (axis/category.rs:27) -/
instance : PEq (Category T) := ⟨fun a b =>
  HMap.beq (fun i j => decide (i = j)) a.mapTToIndex b.mapTToIndex &&
  HMap.beq (fun x y => decide (x = y)) a.mapIndexToT b.mapIndexToT⟩
/-- derived (axis/categorynoflow.rs:19) -/
instance : PEq (CategoryNoFlow T) := ⟨fun a b => PEq.peq a.axis b.axis⟩
end

/-- derived (axes.rs:8), one axis -/
instance {X : Type} [PEq X] : PEq (AxesTuple1 X) := ⟨fun a b => PEq.peq a.axis b.axis && decide (a.shape = b.shape)⟩

/-- each axis of a tuple has `PartialEq` -/
class TupPEq [Cfg] (ts : List AxTy) where
  peq : Tup ts → Tup ts → Bool

instance [Cfg] : TupPEq [] := ⟨fun _ _ => true⟩
instance [Cfg] {t : AxTy} {ts : List AxTy} [PEq t.A] [TupPEq ts] : TupPEq (t :: ts) :=
  ⟨fun a b => PEq.peq a.1 b.1 && TupPEq.peq a.2 b.2⟩

/-- derived (axes.rs:8), two or more axes -/
instance [Cfg] {t₀ t₁ : AxTy} {ts : List AxTy} [TupPEq (t₀ :: t₁ :: ts)] : PEq (AxesTuple t₀ t₁ ts) :=
  ⟨fun a b => TupPEq.peq a.axes b.axes && decide (a.shape = b.shape)⟩

/-- derived (value/sum.rs:9) -/
instance {T : Type} [PEq T] : PEq (Sum T) := ⟨fun a b => PEq.peq a.sum b.sum⟩
/-- derived (value/weightedsum.rs:13) -/
instance {T : Type} [PEq T] : PEq (WeightedSum T) := ⟨fun a b => PEq.peq a.sumw b.sumw && PEq.peq a.sumw2 b.sumw2⟩
/-- derived (value/mean.rs:39) -/
instance {T O C : Type} [PEq T] [PEq C] : PEq (Mean T O C) :=
  ⟨fun a b => PEq.peq a.sumw b.sumw && PEq.peq a.sumw2 b.sumw2 && PEq.peq a.count b.count⟩
/-- derived (value/weightedmean.rs:40) -/
instance {T W O C : Type} [PEq T] [PEq W] [PEq C] : PEq (WeightedMean T W O C) :=
  ⟨fun a b => PEq.peq a.sumwt b.sumwt && PEq.peq a.sumwt2 b.sumwt2 && PEq.peq a.sumw b.sumw &&
    PEq.peq a.sumw2 b.sumw2 && PEq.peq a.count b.count⟩

end NdHist
