import Verif.Props.DebugEq
import Verif.Examples.Axes
/-! # Examples: C96 -/
namespace NdHist.Examples

instance : TypeName F64 := ⟨"f64"⟩

-- the texts that std prints
example : Flt.dbgChars (f64 1) = "1.0".toList := by decide +kernel
example : Flt.dbgChars (f64 0.1) = "0.1".toList := by decide +kernel
example : Flt.dbgChars (f64 (-1234.5)) = "-1234.5".toList := by decide +kernel
example : Flt.dbgChars (f64 1e15) = "1000000000000000.0".toList := by decide +kernel
example : Flt.dbgChars (f64 1e16) = "1e16".toList := by decide +kernel
example : Flt.dbgChars (f64 1e-4) = "0.0001".toList := by decide +kernel
example : Flt.dbgChars (f64 1.5e-5) = "1.5e-5".toList := by decide +kernel
example : Flt.dbgChars (Flt.zero true : F64) = "-0.0".toList := by decide +kernel
example : Flt.dbgChars (Flt.inf true : F64) = "-inf".toList := rfl
example : escapeDebug (fun c => c.toNat < 127 && 32 ≤ c.toNat) 'é' = "\\u{e9}".toList := by decide +kernel

/-- `Uniform::new(5, 0.0, 2.0)` -/
def exDbgU : Uniform F64 := ⟨5, f64 0, f64 2, f64 0.4⟩
example : Dbg.text none exDbgU "Uniform { num: 5, low: 0.0, high: 2.0, step: 0.4 }".toList := ⟨_, _, _, rfl, rfl, rfl, by decide +kernel⟩
example : Dbg.text (some 0) exDbgU "Uniform {\n    num: 5,\n    low: 0.0,\n    high: 2.0,\n    step: 0.4,\n}".toList := ⟨_, _, _, rfl, rfl, rfl, by decide +kernel⟩
example : Dbg.text none (⟨[f64 1, f64 2.5]⟩ : Variable F64) "Variable { bin_edges: [1.0, 2.5] }".toList := ⟨_, ⟨_, .cons rfl (.cons rfl .nil), rfl⟩, by decide +kernel⟩
example : Dbg.text (some 0) (⟨⟨exDbgU⟩, [5]⟩ : AxesTuple1 (UniformNoFlow F64))
    "AxesTuple {\n    axes: (\n        UniformNoFlow {\n            axis: Uniform {\n                num: 5,\n                low: 0.0,\n                high: 2.0,\n                step: 0.4,\n            },\n        },\n    ),\n    shape: [\n        5,\n    ],\n}".toList :=
  ⟨_, _, ⟨_, ⟨_, _, _, rfl, rfl, rfl, rfl⟩, rfl⟩, ⟨_, .cons rfl .nil, rfl⟩, by decide +kernel⟩
example : Dbg.text none (⟨⟨exDbgU⟩, [5]⟩ : AxesTuple1 (UniformNoFlow F64)) "AxesTuple { axes: (UniformNoFlow { axis: Uniform { num: 5, low: 0.0, high: 2.0, step: 0.4 } },), shape: [5] }".toList :=
  ⟨_, _, ⟨_, ⟨_, _, _, rfl, rfl, rfl, rfl⟩, rfl⟩, ⟨_, .cons rfl .nil, rfl⟩, by decide +kernel⟩
example : Dbg.text none (⟨f64 1, f64 2, MInt.lit 3⟩ : Mean F64 F64 (MInt .u32)) "Mean { sumw: 1.0, sumw2: 2.0, count: 3, phantom_output_type: PhantomData<f64> }".toList := ⟨_, _, _, rfl, rfl, rfl, by decide +kernel⟩
example : Dbg.text none (.AxisError .InvalidNumberOfBins : Error) "AxisError(InvalidNumberOfBins)".toList := ⟨_, rfl, by decide +kernel⟩
example : Dbg.text none (.Bin (f64 0) (f64 1) : BinInterval F64) "Bin { start: 0.0, end: 1.0 }".toList := ⟨_, _, rfl, rfl, by decide +kernel⟩
example : Dbg.text none ([] : List F64) "[]".toList := ⟨_, .nil, rfl⟩

/-- printable ASCII -/
abbrev exPrintable : Char → Bool := fun c => c.toNat < 127 && 32 ≤ c.toNat
section
attribute [local instance] dbg64
local instance : Dbg String := strDbg exPrintable
theorem exStr : DebugIdentifies String Eq := C96_string _
example : Dbg.text none (Category.new ["a\"b"]) "Category { map_t_to_index: {\"a\\\"b\": 0}, map_index_to_t: {0: \"a\\\"b\"} }".toList :=
  ⟨_, _, ⟨⟨_, .refl _⟩, _, .cons ⟨_, _, rfl, rfl, rfl⟩ .nil, rfl⟩, ⟨⟨_, .refl _⟩, _, .cons ⟨_, _, rfl, rfl, rfl⟩ .nil, rfl⟩, by decide +kernel⟩

-- distinct floats, integers, strings, lists have no text in common
example : ¬ SameText none (f64 0.1) (f64 0.2) := fun h => absurd ((C96_same_text C96_float none _ _).1 h) (by decide +kernel)
example : ¬ SameText (some 1) (MInt.lit 1 : MInt .u8) (MInt.lit 2) := fun h => absurd ((C96_same_text C96_int.1 _ _ _).1 h) (by decide)
example : ¬ SameText none "a" "b" := fun h => absurd ((C96_same_text exStr none _ _).1 h) (by decide)
example : ¬ SameText none [f64 1] [f64 1, f64 1] := fun h => by
  have := (C96_same_text (C96_list C96_float) none _ _).1 h
  cases this with | cons _ h => cases h
example : readFloatExp (String.ofList "1.5e-5".toList) = f64 1.5e-5 := C96_float_reads_back (st := none) _ (show "1.5e-5".toList = Flt.dbgChars _ by decide +kernel)
-- a hash map in either order
example : SameText none (⟨[(0, f64 1), (1, f64 2)]⟩ : HMap Nat F64) ⟨[(1, f64 2), (0, f64 1)]⟩ := (C96_same_text (C96_map (C96_int (τ := .u8)).2 C96_float) none _ _).2 (.swap _ _ _)
-- axes
example : ¬ SameText none exDbgU ⟨5, f64 0, f64 2, f64 0.5⟩ := fun h => absurd (congrArg Uniform.step ((C96_same_text (C96_uniform C96_float).1 none _ _).1 h)) (by decide +kernel)
example : ¬ SameText none (⟨[f64 1, f64 2.5]⟩ : Variable F64) ⟨[f64 1, f64 3]⟩ := fun h => absurd (congrArg Variable.binEdges ((C96_same_text (C96_variable C96_float).1 none _ _).1 h)) (by decide +kernel)
example : ¬ SameText (some 0) (Category.new ["a", "b"]) (Category.new ["b", "a"]) := fun h => absurd ((C96_category_new exStr _ _ _).1.1 h) (by decide)
example : DebugIdentifies (Category String) Category.SameMaps := (C96_category exStr).1
-- a bin, a sum, a mean
example : ¬ SameText none (.Underflow (f64 1) : BinInterval F64) (.Overflow (f64 1)) := fun h => absurd ((C96_same_text (C96_bins C96_float).1 none _ _).1 h) (by simp)
example : ¬ SameText none (⟨f64 1, f64 2⟩ : WeightedSum F64) ⟨f64 1, f64 3⟩ := fun h => absurd (congrArg WeightedSum.sumw2 ((C96_same_text (C96_sums C96_float).2 none _ _).1 h)) (by decide +kernel)
example : DebugIdentifies (WeightedMean F64 F64 F64 (MInt .u32)) Eq := (C96_means C96_float C96_float C96_int.1).2
-- tuples of axes
example : DebugIdentifies (AxesTuple1 (Uniform F64)) (fun a b => a.axis = b.axis ∧ a.shape = b.shape) := C96_tuple1 (C96_uniform C96_float).1
/-- `(Uniform<f64>, Category<String>)` -/
theorem exTupId : TupIdentifies [⟨Uniform F64, inferInstance⟩, ⟨Category String, inferInstance⟩] (fun a b => a.1 = b.1 ∧ a.2.1.SameMaps b.2.1 ∧ True) :=
  .cons (t := ⟨Uniform F64, inferInstance⟩) (C96_uniform C96_float).1 (.cons (t := ⟨Category String, inferInstance⟩) (C96_category exStr).1 .nil)
example : DebugIdentifies (AxesTuple ⟨Uniform F64, inferInstance⟩ ⟨Category String, inferInstance⟩ []) (fun a b => (a.axes.1 = b.axes.1 ∧ a.axes.2.1.SameMaps b.axes.2.1 ∧ True) ∧ a.shape = b.shape) := C96_tuple exTupId
example : DebugIdentifies (Item (BinInterval F64) (Sum F64)) Eq := C96_item (C96_bins C96_float).1 (C96_sums C96_float).1
-- histograms of tuples
example : DebugIdentifies (VecHistogram (AxesTuple1 (Uniform F64)) (WeightedSum F64)) (fun h g => (h.axes.axis = g.axes.axis ∧ h.axes.shape = g.axes.shape) ∧ h.values = g.values) :=
  C96_vec (C96_tuple1 (C96_uniform C96_float).1) (C96_sums C96_float).2
example : DebugIdentifies (HashHistogram (AxesTuple1 (Uniform F64)) (MInt .i32)) (fun h g => (h.axes.axis = g.axes.axis ∧ h.axes.shape = g.axes.shape) ∧ h.values.SameEntries g.values) :=
  C96_sparse (C96_tuple1 (C96_uniform C96_float).1) C96_int.1
example : ¬ SameText none (.AxisError .InvalidNumberOfBins : Error) (.AxisError .InvalidAxisRange) := fun h => absurd ((C96_same_text C96_errors.2 none _ _).1 h) (by simp)
-- one text only
example : DebugUnique (VecHistogram (Uniform F64) (MInt .i32)) :=
  (C96_unique (T := Uniform F64) (W := MInt .i32) (O := F64) (C := Nat) (C96_unique_axes (C96_unique_numbers (τ := .i32) (F := .f64) exPrintable).2.2.1).1 (C96_unique_numbers (F := .f64) exPrintable).1
    (C96_unique_numbers (τ := .i32) (F := .f64) exPrintable).2.1).2.2.2.2.2
-- 0.25 has a point; it is in [1e-4, 1e16): no exponent
example : 'e' ∉ Flt.dbgChars (.fin true (1 / 4) ⟨1, -2, by decide +kernel, by decide, by decide, by decide⟩ : F64) := fun h =>
  absurd ((C96_float_form (st := none) true (1 / 4) ⟨1, -2, by decide +kernel, by decide, by decide, by decide⟩ rfl).2.2.1 h) (by decide +kernel)
end

section
/-- equality of integers -/
local instance : PEq (MInt .i32) := ⟨fun a b => decide (a = b)⟩
local instance : PEq (UniformNoFlow (MInt .i32)) := ⟨fun a b => decide (a = b)⟩
-- equal sparse histograms print the same texts
example (g : HashHistogram (UniformNoFlow (MInt .i32)) (MInt .i32)) (hg : g.values.NodupKeys) : exDbgSparse.beq g = true ↔ SameText (some 0) exDbgSparse g :=
  (C96_equal_sparse (C96_uniform C96_int.1).2.1 C96_int.1 (fun _ _ => decide_eq_true_iff) exDbgSparse g (show [0, 1].Nodup by decide) hg decide_eq_true_iff _).1
example (h g : VecHistogram (UniformNoFlow (MInt .i32)) (MInt .i32)) : h.beq g = true ↔ SameText none h g :=
  C96_equal_dense (C96_uniform C96_int.1).2.1 C96_int.1 (fun _ _ => decide_eq_true_iff) h g decide_eq_true_iff _
end
end NdHist.Examples
