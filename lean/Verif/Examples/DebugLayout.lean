import Verif.Props.DebugLayout
import Verif.Examples.Debug
/-! # Examples: C104 -/
namespace NdHist.Examples

theorem nestsF : Nests F64 := (C104_numbers (τ := .u8) exPrintable).2.2.1.1
theorem nestsU8 : Nests (MInt .u8) := (C104_numbers (F := FFmt.f64) exPrintable).2.1.1

example : Prints true (f64 1.5) "1.5".toList := ((C104_numbers (τ := .u8) exPrintable).2.2.1.2 _ _).2 (show _ = Flt.dbgChars _ by decide +kernel)
-- a struct with `{:?}` and with `{:#?}`
example : Prints false exDbgU "Uniform { num: 5, low: 0.0, high: 2.0, step: 0.4 }".toList :=
  ((C104_uniform nestsF).2 _ _ _).2 ⟨_, _, _, rfl, rfl, rfl, by decide +kernel⟩
example : Prints true exDbgU "Uniform {\n    num: 5,\n    low: 0.0,\n    high: 2.0,\n    step: 0.4,\n}".toList :=
  ((C104_uniform nestsF).2 _ _ _).2 ⟨_, _, _, rfl, rfl, rfl, by decide +kernel⟩
-- it is the only text
example (s : List Char) (h : Prints true exDbgU s) : s = "Uniform {\n    num: 5,\n    low: 0.0,\n    high: 2.0,\n    step: 0.4,\n}".toList := by
  obtain ⟨_, _, _, rfl, rfl, rfl, rfl⟩ := ((C104_uniform nestsF).2 _ _ _).1 h
  decide +kernel
-- inside two braces the same, eight columns to the right
example : Dbg.text (some 2) exDbgU "Uniform {\n            num: 5,\n            low: 0.0,\n            high: 2.0,\n            step: 0.4,\n        }".toList :=
  ((C104_uniform nestsF).1 _ _ _).2 ⟨_, ((C104_uniform nestsF).2 _ _ _).2 ⟨_, _, _, rfl, rfl, rfl, rfl⟩, by decide +kernel⟩
example : Nests (UniformNoFlow F64) := (C104_uniformNoFlow nestsF).1
example : Prints true (⟨⟨exDbgU⟩⟩ : UniformCyclic F64)
    "UniformCyclic {\n    axis: UniformNoFlow {\n        axis: Uniform {\n            num: 5,\n            low: 0.0,\n            high: 2.0,\n            step: 0.4,\n        },\n    },\n}".toList :=
  ((C104_uniformCyclic nestsF).2 _ _ _).2 ⟨_, ((C104_uniformNoFlow nestsF).2 _ _ _).2 ⟨_, ((C104_uniform nestsF).2 _ _ _).2 ⟨_, _, _, rfl, rfl, rfl, rfl⟩, rfl⟩, by decide +kernel⟩
example : Prints true ([] : List F64) "[]".toList := ((C104_list nestsF).2 _ _ _).2 ⟨_, .nil, rfl⟩
example : Prints true (⟨[MInt.lit 1, MInt.lit 2]⟩ : Variable (MInt .u8)) "Variable {\n    bin_edges: [\n        1,\n        2,\n    ],\n}".toList :=
  ((C104_variable nestsU8).2 _ _ _).2 ⟨_, ((C104_list nestsU8).2 _ _ _).2 ⟨_, .cons rfl (.cons rfl .nil), rfl⟩, by decide +kernel⟩
example : Nests (VariableNoFlow F64) ∧ Nests (VariableCyclic F64) := ⟨(C104_variableNoFlow nestsF).1, (C104_variableCyclic nestsF).1⟩
section
local instance : Dbg String := strDbg exPrintable
theorem nestsS : Nests String := (C104_numbers (τ := .u8) (F := FFmt.f64) exPrintable).2.2.2.1
example : Prints true (⟨⟨[("a", 0)]⟩, ⟨[(0, "a")]⟩⟩ : Category String) "Category {\n    map_t_to_index: {\n        \"a\": 0,\n    },\n    map_index_to_t: {\n        0: \"a\",\n    },\n}".toList := by
  refine ((C104_category nestsS).2 _ _ _).2 ⟨_, _, ((C104_map nestsS nests_nat).2 _ _ _).2 ⟨⟨_, .refl _⟩, _, .cons ⟨_, _, rfl, rfl, rfl⟩ .nil, rfl⟩,
    ((C104_map nests_nat nestsS).2 _ _ _).2 ⟨⟨_, .refl _⟩, _, .cons ⟨_, _, rfl, rfl, rfl⟩ .nil, rfl⟩, by decide +kernel⟩
example : Nests (CategoryNoFlow String) := (C104_categoryNoFlow nestsS).1
example : Prints true (.Bin "a" : SingleValueBinInterval String) "Bin {\n    value: \"a\",\n}".toList := (((C104_category_bins nestsS).2 _ _).2 _).2 ⟨_, rfl, by decide +kernel⟩
end
example : Prints true (.Bin (f64 0) (f64 1) : BinInterval F64) "Bin {\n    start: 0.0,\n    end: 1.0,\n}".toList := (((C104_bins nestsF).2 _ _).2.2 _ _).2 ⟨_, _, rfl, rfl, by decide +kernel⟩
example : Prints false (.Underflow (f64 0) : BinInterval F64) "Underflow { end: 0.0 }".toList := (((C104_bins nestsF).2 _ _).1 _).2 ⟨_, rfl, by decide +kernel⟩
example : Nests (Sum F64) := (C104_sum nestsF).1
example : Prints false (⟨f64 1, f64 2⟩ : WeightedSum F64) "WeightedSum { sumw: 1.0, sumw2: 2.0 }".toList := ((C104_weightedSum nestsF).2 _ _ _).2 ⟨_, _, rfl, rfl, by decide +kernel⟩
example : Prints true (⟨f64 1, f64 2, MInt.lit 3⟩ : Mean F64 F64 (MInt .u8)) "Mean {\n    sumw: 1.0,\n    sumw2: 2.0,\n    count: 3,\n    phantom_output_type: PhantomData<f64>,\n}".toList :=
  ((C104_mean nestsF nestsU8 (by decide)).2 _ _ _).2 ⟨_, _, _, rfl, rfl, rfl, by decide +kernel⟩
example : Nests (WeightedMean F64 F64 F64 (MInt .u8)) := (C104_weightedMean nestsF nestsF nestsU8 (by decide)).1
example : Nests (Item (BinInterval F64) (MInt .u8)) := (C104_item (C104_bins nestsF).1 nestsU8).1
example : Prints true (⟨⟨⟨1, MInt.lit 0, MInt.lit 1, MInt.lit 1⟩⟩, [MInt.lit 7]⟩ : VecHistogram (UniformNoFlow (MInt .u8)) (MInt .u8))
    "VecHistogram {\n    axes: UniformNoFlow {\n        axis: Uniform {\n            num: 1,\n            low: 0,\n            high: 1,\n            step: 1,\n        },\n    },\n    values: [\n        7,\n    ],\n}".toList :=
  ((C104_vec (C104_uniformNoFlow nestsU8).1 nestsU8).2 _ _ _).2 ⟨_, _, ((C104_uniformNoFlow nestsU8).2 _ _ _).2 ⟨_, ((C104_uniform nestsU8).2 _ _ _).2 ⟨_, _, _, rfl, rfl, rfl, rfl⟩, rfl⟩,
    ((C104_list nestsU8).2 _ _ _).2 ⟨_, .cons rfl .nil, rfl⟩, by decide +kernel⟩
example : Nests (HashHistogram (UniformNoFlow F64) (MInt .u8)) := (C104_hash (C104_uniformNoFlow nestsF).1 nestsU8).1
-- tuples: a comma after a single component
example : Prints false (⟨⟨1, MInt.lit 0, MInt.lit 1, MInt.lit 1⟩, [3]⟩ : AxesTuple1 (Uniform (MInt .u8))) "AxesTuple { axes: (Uniform { num: 1, low: 0, high: 1, step: 1 },), shape: [3] }".toList :=
  ((C104_tuple1 (C104_uniform nestsU8).1).2 _ _ _).2 ⟨_, _, ((C104_uniform nestsU8).2 _ _ _).2 ⟨_, _, _, rfl, rfl, rfl, rfl⟩, ((C104_list nests_nat).2 _ _ _).2 ⟨_, .cons rfl .nil, rfl⟩, by decide +kernel⟩
section
attribute [local instance] dbg64
theorem nestsTup : TupNests [⟨Uniform F64, inferInstance⟩, ⟨UniformNoFlow F64, inferInstance⟩] :=
  have nil : TupNests ([] : List AxTy) := fun n a l => ⟨by rintro rfl; exact ⟨[], rfl, rfl⟩, by rintro ⟨_, rfl, rfl⟩; rfl⟩
  (C104_axes (t := ⟨Uniform F64, inferInstance⟩) (C104_uniform nestsF).1 (C104_axes (t := ⟨UniformNoFlow F64, inferInstance⟩) (C104_uniformNoFlow nestsF).1 nil).2).2
example : TupNests [⟨Uniform F64, inferInstance⟩, ⟨Uniform F64, inferInstance⟩, ⟨UniformNoFlow F64, inferInstance⟩] :=
  (C104_axes (t := ⟨Uniform F64, inferInstance⟩) (C104_uniform nestsF).1 nestsTup).2
example : Nests (AxesTuple ⟨Uniform F64, inferInstance⟩ ⟨UniformNoFlow F64, inferInstance⟩ []) := (C104_tuple nestsTup).1
end
example : Prints true (.AxisError .InvalidAxisRange : Error) "AxisError(\n    InvalidAxisRange,\n)".toList := ((C104_errors _ _).2 _).2 ⟨_, rfl, by decide +kernel⟩
example : Prints false (.BinaryOperationError .mk : Error) "BinaryOperationError(BinaryOperationError)".toList := ((C104_errors _ _).1 _).2 ⟨_, rfl, by decide +kernel⟩
end NdHist.Examples
