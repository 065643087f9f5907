import Verif.Model.Order
/-!
# `Hash` of the crate's types

All derived in the code (`#[derive(Hash)]`): the derive feeds the fields to the hasher in declaration order, for an enum the position of the variant first.
The category axes and the sparse histogram do not implement `Hash`.

Simplification: a fixed-width integer given to the hasher (`write_u8`, …, `write_isize`) is recorded by its value, not by its bytes (the width is determined by
the type; the representation is one-to-one).
-/
namespace NdHist

/-- One call of a method of `std::hash::Hasher`. -/
inductive HWrite where
  /-- `write_u8`, …, `write_i128`, `write_usize`, `write_isize`, `write_length_prefix` -/
  | int (v : Int)
  /-- `write` with the bytes of a slice of integers (what `hash_slice` of the integer types does) -/
  | ints (vs : List Int)
  /-- `write` with other bytes (e.g. of a `str`) -/
  | bytes (bs : List Nat)
deriving DecidableEq, Repr

/-- `std::hash::Hash`: the calls made on the hasher -/
class RHash (T : Type) where
  hash : T → List HWrite
  /-- `Hash::hash_slice`, by default one element after the other -/
  hashSlice : List T → List HWrite := fun l => l.flatMap hash

/-- `Hash for Vec<T>` (via `[T]`): the length, then the elements -/
def vecHash {T : Type} [RHash T] (l : List T) : List HWrite := .int l.length :: RHash.hashSlice l

/-- `Hash` of the integer types: the number; a slice is written at once -/
instance {τ : IntTy} : RHash (MInt τ) := ⟨fun n => [.int n.val], fun l => [.ints (l.map MInt.val)]⟩
/-- `Hash for usize` -/
@[reducible] def usizeHash : RHash Nat := ⟨fun n => [.int n], fun l => [.ints (l.map Int.ofNat)]⟩
/-- `Hash for str` and `String`: the bytes (model: code points), then `0xff` -/
@[reducible] def strHash : RHash String := ⟨fun s => [.bytes (s.toList.map Char.toNat), .int 255], fun l => l.flatMap fun s => [.bytes (s.toList.map Char.toNat), .int 255]⟩

section
variable {T : Type} [RHash T]
/-- derived (axis/bininterval/bininterval.rs:9) -/
instance : RHash (BinInterval T) where
  hash b := .int b.variant :: match b with
    | .Underflow e => RHash.hash e
    | .Overflow s => RHash.hash s
    | .Bin s e => RHash.hash s ++ RHash.hash e
/-- derived (axis/bininterval/singlevaluebininterval.rs:7) -/
instance : RHash (SingleValueBinInterval T) where
  hash b := .int b.variant :: match b with
    | .Overflow => []
    | .Bin v => RHash.hash v
/-- derived (axis/uniform.rs:31) -/
instance : RHash (Uniform T) where
  hash a := usizeHash.hash a.num ++ (RHash.hash a.low ++ (RHash.hash a.high ++ RHash.hash a.step))
/-- derived (axis/uniformnoflow.rs:28) -/
instance : RHash (UniformNoFlow T) where hash a := RHash.hash a.axis
/-- derived (axis/uniformcyclic.rs:48) -/
instance : RHash (UniformCyclic T) where hash a := RHash.hash a.axis
/-- derived (axis/variable.rs:33) -/
instance : RHash (Variable T) where hash a := vecHash a.binEdges
/-- derived (axis/variablenoflow.rs:30) -/
instance : RHash (VariableNoFlow T) where hash a := RHash.hash a.axis
/-- derived (axis/variablecyclic.rs:28) -/
instance : RHash (VariableCyclic T) where hash a := RHash.hash a.axis
/-- derived (value/sum.rs:9) -/
instance : RHash (Sum T) where hash a := RHash.hash a.sum
/-- derived (value/weightedsum.rs:13) -/
instance : RHash (WeightedSum T) where hash a := RHash.hash a.sumw ++ RHash.hash a.sumw2
end

/-- derived (axes.rs:8), one axis -/
instance {X : Type} [RHash X] : RHash (AxesTuple1 X) where hash a := RHash.hash a.axis ++ @vecHash Nat usizeHash a.shape

/-- each axis of a tuple has `Hash`; tuples feed their components in order -/
class TupHash [Cfg] (ts : List AxTy) where
  hash : Tup ts → List HWrite

instance [Cfg] : TupHash [] := ⟨fun _ => []⟩
instance [Cfg] {t : AxTy} {ts : List AxTy} [RHash t.A] [TupHash ts] : TupHash (t :: ts) := ⟨fun a => RHash.hash a.1 ++ TupHash.hash a.2⟩

/-- derived (axes.rs:8), two or more axes -/
instance [Cfg] {t₀ t₁ : AxTy} {ts : List AxTy} [TupHash (t₀ :: t₁ :: ts)] : RHash (AxesTuple t₀ t₁ ts) where
  hash a := TupHash.hash a.axes ++ @vecHash Nat usizeHash a.shape

/-- derived (value/mean.rs:39); the phantom field feeds nothing -/
instance {T O C : Type} [RHash T] [RHash C] : RHash (Mean T O C) where
  hash a := RHash.hash a.sumw ++ (RHash.hash a.sumw2 ++ RHash.hash a.count)
/-- derived (value/weightedmean.rs:40); the phantom field feeds nothing -/
instance {T W O C : Type} [RHash T] [RHash W] [RHash C] : RHash (WeightedMean T W O C) where
  hash a := RHash.hash a.sumwt ++ (RHash.hash a.sumwt2 ++ (RHash.hash a.sumw ++ (RHash.hash a.sumw2 ++ RHash.hash a.count)))
/-- derived (histogram/histogram.rs:101) -/
instance {B V : Type} [RHash B] [RHash V] : RHash (Item B V) where
  hash a := usizeHash.hash a.index ++ (RHash.hash a.bin ++ RHash.hash a.value)
/-- derived (histogram/vechistogram.rs:14) -/
instance {A V : Type} [RHash A] [RHash V] : RHash (VecHistogram A V) where
  hash h := RHash.hash h.axes ++ vecHash h.values

/-! ## The error types -/
/-- position of the variant in the declaration (error.rs:27-43) -/
def AxisError.variant : AxisError → Nat
  | .InvalidNumberOfBins => 0
  | .InvalidAxisRange => 1
  | .InvalidStepSize => 2
  | .InvalidNumberOfBinEdges => 3
  | .FailedToSortBinEdges => 4
/-- position of the variant in the declaration (error.rs:8-15) -/
def Error.variant : Error → Nat
  | .BinaryOperationError _ => 0
  | .AxisError _ => 1

/-- derived (error.rs:25) -/
instance : POrd AxisError := ⟨fun a b => natPOrd.pcmp a.variant b.variant⟩
/-- derived (error.rs:17); a struct without fields -/
instance : POrd BinaryOperationError := ⟨fun _ _ => some .eq⟩
/-- derived (error.rs:6) -/
instance : POrd Error := ⟨fun a b =>
  match a, b with
  | .BinaryOperationError e, .BinaryOperationError e' => POrd.pcmp e e'
  | .AxisError e, .AxisError e' => POrd.pcmp e e'
  | a, b => natPOrd.pcmp a.variant b.variant⟩
/-- derived (error.rs:25) -/
instance : PEq AxisError := ⟨fun a b => a.variant == b.variant⟩
/-- derived (error.rs:17) -/
instance : PEq BinaryOperationError := ⟨fun _ _ => true⟩
/-- derived (error.rs:6) -/
instance : PEq Error := ⟨fun a b =>
  match a, b with
  | .BinaryOperationError e, .BinaryOperationError e' => PEq.peq e e'
  | .AxisError e, .AxisError e' => PEq.peq e e'
  | _, _ => false⟩
/-- derived (error.rs:25) -/
instance : RHash AxisError where hash e := [.int e.variant]
/-- derived (error.rs:17) -/
instance : RHash BinaryOperationError where hash _ := []
/-- derived (error.rs:6) -/
instance : RHash Error where
  hash e := .int e.variant :: match e with
    | .BinaryOperationError e => RHash.hash e
    | .AxisError e => RHash.hash e

end NdHist
