import Verif.Props.Hash
import Verif.Examples.Fill
/-!
# Concrete cases of C66
-/
namespace NdHist.Examples
open NdHist
section
attribute [local instance] dbg64 stdNew numPEq

/-- a `Variable<i32>` × `Uniform<u8>` histogram of `WeightedSum<i32>` -/
abbrev HashAxes := AxesTuple ⟨Variable (MInt .i32), inferInstance⟩ ⟨Uniform (MInt .u8), inferInstance⟩ []
instance : PEq (AxTy.A ⟨Variable (MInt .i32), inferInstance⟩) := inferInstanceAs (PEq (Variable (MInt .i32)))
instance : PEq (AxTy.A ⟨Uniform (MInt .u8), inferInstance⟩) := inferInstanceAs (PEq (Uniform (MInt .u8)))
instance : RHash (AxTy.A ⟨Variable (MInt .i32), inferInstance⟩) := inferInstanceAs (RHash (Variable (MInt .i32)))
instance : RHash (AxTy.A ⟨Uniform (MInt .u8), inferInstance⟩) := inferInstanceAs (RHash (Uniform (MInt .u8)))

theorem exHash_axes : HashContract (PEq.peq (A := HashAxes)) RHash.hash :=
  C66_axes (C66_tuple_cons (C66_variable (C66_int .i32).2) (C66_tuple_cons (C66_uniform (C66_int .u8).1) C66_tuple_nil))
theorem exHash_hist : HashContract (PEq.peq (A := VecHistogram HashAxes (WeightedSum (MInt .i32)))) RHash.hash :=
  C66_vec_histogram exHash_axes (C66_slice (C66_weighted_sum (C66_int .i32).1))

/-- two different histograms: edges 1, 3 and 2×5 bins of width 10 -/
def hashA : VecHistogram HashAxes (WeightedSum (MInt .i32)) := ⟨⟨(⟨[.lit 1, .lit 3]⟩, ⟨5, .lit 0, .lit 50, .lit 10⟩, ()), [1, 3]⟩, [⟨.lit 0, .lit 0⟩, ⟨.lit 7, .lit 49⟩]⟩
def hashB : VecHistogram HashAxes (WeightedSum (MInt .i32)) := ⟨⟨(⟨[.lit 1, .lit 3]⟩, ⟨5, .lit 0, .lit 50, .lit 10⟩, ()), [1, 3]⟩, [⟨.lit 7, .lit 49⟩, ⟨.lit 0, .lit 0⟩]⟩
/-- what the first one feeds to the hasher -/
example : RHash.hash hashA = [.int 2, .ints [1, 3], .int 5, .int 0, .int 50, .int 10, .int 2, .ints [1, 3], .int 2, .int 0, .int 0, .int 7, .int 49] := by decide
example : PEq.peq hashA hashA = true ∧ PEq.peq hashA hashB = false := by decide
example (H : Hasher) : H.of RHash.hash hashA = H.of RHash.hash hashA := exHash_hist.agrees hashA hashA (by decide) H
example (rest rest' : List HWrite) : RHash.hash hashA ++ rest ≠ RHash.hash hashB ++ rest' := fun h =>
  absurd (exHash_hist.tells_apart _ _ _ _ h).1 (by decide)

/-- without the position of the variant `Underflow { end: 3 }` and `Overflow { start: 3 }` would feed the same -/
example : RHash.hash (BinInterval.Underflow (MInt.lit (τ := .i32) 3)) ≠ RHash.hash (BinInterval.Overflow (MInt.lit (τ := .i32) 3)) := fun h =>
  absurd ((C66_bin_interval (C66_int .i32).1).tells_apart _ _ [] [] (congrArg (· ++ []) h)).1 (by decide)
example : HashContract (PEq.peq (A := UniformNoFlow (MInt .i32))) RHash.hash ∧ HashContract (PEq.peq (A := UniformCyclic (MInt .i32))) RHash.hash ∧
    HashContract (PEq.peq (A := VariableNoFlow (MInt .i32))) RHash.hash ∧ HashContract (PEq.peq (A := VariableCyclic (MInt .i32))) RHash.hash :=
  ⟨C66_uniform_noflow (C66_int .i32).1, C66_uniform_cyclic (C66_int .i32).1, C66_variable_noflow (C66_int .i32).2, C66_variable_cyclic (C66_int .i32).2⟩
example : HashContract (PEq.peq (A := AxesTuple1 (Uniform (MInt .i32)))) RHash.hash ∧ HashContract (PEq.peq (A := Sum (MInt .i32))) RHash.hash :=
  ⟨C66_axes1 (C66_uniform (C66_int .i32).1), C66_sum (C66_int .i32).1⟩
example : HashContract (PEq.peq (A := Item (BinInterval (MInt .i32)) (Mean (MInt .i32) F64 (MInt .u32)))) RHash.hash :=
  C66_item (C66_bin_interval (C66_int .i32).1) (C66_mean (C66_int .i32).1 (C66_int .u32).1)
example : HashContract (PEq.peq (A := WeightedMean (MInt .i32) (MInt .i8) F64 (MInt .u32))) RHash.hash :=
  C66_weighted_mean (C66_int .i32).1 (C66_int .i8).1 (C66_int .u32).1
example : PEq.peq (Error.AxisError .InvalidStepSize) (Error.AxisError .InvalidAxisRange) = false := by
  rw [Bool.eq_false_iff]; exact fun h => absurd ((C66_errors.2.2.2.2 _ _).1 h) (by decide)
example : POrd.pcmp (Error.BinaryOperationError .mk) (Error.AxisError .InvalidStepSize) = some .lt := C60_error_order.2.1 0 3 _ _ rfl rfl
example : POrd.pcmp (Error.AxisError .FailedToSortBinEdges) (Error.BinaryOperationError .mk) = some .gt := by
  rw [C60_errors.2.dual (Error.BinaryOperationError .mk)]; rfl
end
section
attribute [local instance] strHash
local instance : PEq String := eqPEq String
example : HashContract (PEq.peq (A := SingleValueBinInterval String)) RHash.hash := C66_single_value_interval C66_string.1
end
end NdHist.Examples
