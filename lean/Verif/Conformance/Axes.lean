import Verif.Conformance.Uniform
import Verif.Model.Variable
import Verif.Model.Category
import Verif.Model.Axes
import Verif.Model.Order
import Verif.Model.Display
import Verif.Lemmas.Std
/-!
# The project's own tests of variable axes, category axes, tuples of axes and bin intervals, run on the model
-/
namespace NdHist.Conformance
open NdHist
attribute [local instance] dbg64 stdNew

instance decVariable {T : Type} [POrd T] [DecidableEq T] : DecidableEq (@Axis.Interval (Variable T) dbg64 _) := inferInstanceAs (DecidableEq (BinInterval T))
instance decVariableNoFlow {T : Type} [POrd T] [DecidableEq T] : DecidableEq (@Axis.Interval (VariableNoFlow T) dbg64 _) := inferInstanceAs (DecidableEq (BinInterval T))
instance decVariableCyclic {T : Type} [RNum T] [DecidableEq T] : DecidableEq (Axis.Interval (VariableCyclic T)) := inferInstanceAs (DecidableEq (BinInterval T))
instance decCategory {T : Type} [DecidableEq T] : DecidableEq (@Axis.Interval (Category T) dbg64 _) := inferInstanceAs (DecidableEq (SingleValueBinInterval T))
instance decCategoryNoFlow {T : Type} [DecidableEq T] : DecidableEq (@Axis.Interval (CategoryNoFlow T) dbg64 _) := inferInstanceAs (DecidableEq (SingleValueBinInterval T))

attribute [local instance] numPEq
local instance pStr : PEq String := eqPEq String
local instance dispStr : Disp String := ⟨fun _ s => s⟩
def beq : BinInterval F64 → BinInterval F64 → Bool := PEq.peq
def seq : SingleValueBinInterval String → SingleValueBinInterval String → Bool := PEq.peq

/-! ## tests/test_variable_axis.rs -/

/-- num_bins, errors (6-36) -/
example : (do (← must (Variable.new [f64 0.0, f64 1.0, f64 4.0, f64 8.0])).numBins) = .ok 5 := by decide +kernel
example : Variable.new ([] : List F64) = .ok (.error .InvalidNumberOfBinEdges) := by decide +kernel
example : Variable.new [f64 1.0] = .ok (.error .InvalidNumberOfBinEdges) := by decide +kernel
example : Variable.new [f64 1.0, .nan, f64 2.0] = .ok (.error .FailedToSortBinEdges) := by decide +kernel
/-- low, high (38-48) -/
example : (do (← must (Variable.new [i32 0, i32 1, i32 4, i32 8])).low) = .ok (i32 0) := by decide +kernel
example : (do (← must (Variable.new [i32 0, i32 1, i32 4, i32 8])).high) = .ok (i32 8) := by decide +kernel
/-- get_index (50-56) -/
example : (do
    let ax ← must (Variable.new [i32 0, i32 1, i32 4, i32 8])
    [i32 (-1), i32 0, i32 1, i32 2, i32 3, i32 4, i32 5, i32 6, i32 7, i32 8, i32 9].mapM fun c => ax.index c) =
    .ok [some 0, some 1, some 2, some 2, some 2, some 3, some 3, some 3, some 3, some 4, some 4] := by decide +kernel
/-- get_bin (58-71) -/
example : (do
    let ax ← must (Variable.new [i32 0, i32 1, i32 4, i32 8])
    [0, 1, 2, 3, 4, 5].mapM fun i => ax.bin i) =
    .ok [some (.Underflow (i32 0)), some (.Bin (i32 0) (i32 1)), some (.Bin (i32 1) (i32 4)), some (.Bin (i32 4) (i32 8)), some (.Overflow (i32 8)), none] := by
  decide +kernel
/-- iterate (91-121) -/
example : (do Axis.indices (← must (Variable.new [i32 0, i32 1, i32 4, i32 8]))) = .ok [0, 1, 2, 3, 4] := by decide +kernel
example : (do Axis.bins (← must (Variable.new [i32 0, i32 1, i32 4, i32 8]))) =
    .ok [.Underflow (i32 0), .Bin (i32 0) (i32 1), .Bin (i32 1) (i32 4), .Bin (i32 4) (i32 8), .Overflow (i32 8)] := by decide +kernel
example : (do Axis.iter (← must (Variable.new [i32 0, i32 1, i32 4, i32 8]))) =
    .ok [(0, .Underflow (i32 0)), (1, .Bin (i32 0) (i32 1)), (2, .Bin (i32 1) (i32 4)), (3, .Bin (i32 4) (i32 8)), (4, .Overflow (i32 8))] := by decide +kernel
/-- negative edges (123-143) -/
example : (do
    let ax ← must (Variable.new [i32 (-3), i32 (-1), i32 0, i32 1])
    [i32 (-4), i32 (-3), i32 (-2), i32 (-1), i32 0, i32 1, i32 2].mapM fun c => ax.index c) =
    .ok [some 0, some 1, some 1, some 2, some 3, some 4, some 4] := by decide +kernel
example : (do
    let ax ← must (Variable.new [i32 (-3), i32 (-1), i32 0, i32 1])
    [0, 1, 2, 3, 4, 5].mapM fun i => ax.bin i) =
    .ok [some (.Underflow (i32 (-3))), some (.Bin (i32 (-3)) (i32 (-1))), some (.Bin (i32 (-1)) (i32 0)), some (.Bin (i32 0) (i32 1)), some (.Overflow (i32 1)), none] := by
  decide +kernel
/-- floats (145-165) -/
example : (do
    let ax ← must (Variable.new [f64 (-3.0), f64 (-1.0), f64 0.0, f64 1.0])
    ([-4, -3, -2, -1, 0, 1, 2] : List ℚ).mapM fun c => ax.index (f64 c)) =
    .ok [some 0, some 1, some 1, some 2, some 3, some 4, some 4] := by decide +kernel
example : (do
    let ax ← must (Variable.new [f64 (-3.0), f64 (-1.0), f64 0.0, f64 1.0])
    [0, 1, 2, 3, 4, 5].mapM fun i => ax.bin i) =
    .ok [some (.Underflow (f64 (-3.0))), some (.Bin (f64 (-3.0)) (f64 (-1.0))), some (.Bin (f64 (-1.0)) (f64 0.0)), some (.Bin (f64 0.0) (f64 1.0)),
      some (.Overflow (f64 1.0)), none] := by decide +kernel

/-! ## tests/test_variablenoflow_axis.rs -/

example : (do (← must (VariableNoFlow.new [f64 0.0, f64 1.0, f64 4.0, f64 8.0])).numBins) = .ok 3 := by decide +kernel
example : VariableNoFlow.new ([] : List F64) = .ok (.error .InvalidNumberOfBinEdges) := by decide +kernel
example : VariableNoFlow.new [f64 1.0] = .ok (.error .InvalidNumberOfBinEdges) := by decide +kernel
example : VariableNoFlow.new [f64 1.0, .nan, f64 2.0] = .ok (.error .FailedToSortBinEdges) := by decide +kernel
example : (do (← must (VariableNoFlow.new [i32 0, i32 1, i32 4, i32 8])).low) = .ok (i32 0) := by decide +kernel
example : (do (← must (VariableNoFlow.new [i32 0, i32 1, i32 4, i32 8])).high) = .ok (i32 8) := by decide +kernel
example : (do
    let ax ← must (VariableNoFlow.new [i32 0, i32 1, i32 4, i32 8])
    let is ← [i32 (-1), i32 0, i32 1, i32 2, i32 3, i32 4, i32 5, i32 6, i32 7, i32 8, i32 9].mapM fun c => ax.index c
    return is.filterMap id) = .ok [0, 1, 1, 1, 2, 2, 2, 2] := by decide +kernel
example : (do
    let ax ← must (VariableNoFlow.new [i32 0, i32 1, i32 4, i32 8])
    [0, 1, 2, 3].mapM fun i => ax.bin i) = .ok [some (.Bin (i32 0) (i32 1)), some (.Bin (i32 1) (i32 4)), some (.Bin (i32 4) (i32 8)), none] := by decide +kernel
example : (do Axis.indices (← must (VariableNoFlow.new [i32 0, i32 1, i32 4, i32 8]))) = .ok [0, 1, 2] := by decide +kernel
example : (do Axis.bins (← must (VariableNoFlow.new [i32 0, i32 1, i32 4, i32 8]))) =
    .ok [.Bin (i32 0) (i32 1), .Bin (i32 1) (i32 4), .Bin (i32 4) (i32 8)] := by decide +kernel
example : (do Axis.iter (← must (VariableNoFlow.new [i32 0, i32 1, i32 4, i32 8]))) =
    .ok [(0, .Bin (i32 0) (i32 1)), (1, .Bin (i32 1) (i32 4)), (2, .Bin (i32 4) (i32 8))] := by decide +kernel
example : (do
    let ax ← must (VariableNoFlow.new [i32 (-3), i32 (-1), i32 0, i32 1])
    let is ← [i32 (-4), i32 (-3), i32 (-2), i32 (-1), i32 0, i32 1, i32 2].mapM fun c => ax.index c
    return is.filterMap id) = .ok [0, 0, 1, 2] := by decide +kernel

/-! ## tests/test_variablecyclic_axis.rs -/

/-- bin_float, bin_int (9-33) -/
example : (do let ax ← must (VariableCyclic.new [f32 0.0, f32 0.5, f32 2.0]); [0, 1].mapM fun i => ax.bin i) =
    .ok [some (.Bin (f32 0.0) (f32 0.5)), some (.Bin (f32 0.5) (f32 2.0))] := by decide +kernel
example : (do let ax ← must (VariableCyclic.new [f32 0.5, f32 2.0, f32 0.0]); [0, 1].mapM fun i => ax.bin i) =
    .ok [some (.Bin (f32 0.0) (f32 0.5)), some (.Bin (f32 0.5) (f32 2.0))] := by decide +kernel
example : (do let ax ← must (VariableCyclic.new [i32 0, i32 5, i32 20]); [0, 1].mapM fun i => ax.bin i) =
    .ok [some (.Bin (i32 0) (i32 5)), some (.Bin (i32 5) (i32 20))] := by decide +kernel
example : (do let ax ← must (VariableCyclic.new [i32 5, i32 20, i32 0]); [0, 1].mapM fun i => ax.bin i) =
    .ok [some (.Bin (i32 0) (i32 5)), some (.Bin (i32 5) (i32 20))] := by decide +kernel
/-- float_index (35-52) -/
example : (do
    let ax ← must (VariableCyclic.new [f32 0.0, f32 1.0, f32 2.0, f32 4.0, f32 8.0])
    ([0.5, 1.5, 3.0, 6.0, 8.5, 9.5, 11.0, 14.0, -7.5, -6.5, -5.0, -2.0] : List ℚ).mapM fun x => ax.index (f32 x)) =
    .ok [some 0, some 1, some 2, some 3, some 0, some 1, some 2, some 3, some 0, some 1, some 2, some 3] := by decide +kernel
/-- int_index (54-71) -/
example : (do
    let ax ← must (VariableCyclic.new [i32 0, i32 10, i32 20, i32 40, i32 80])
    [i32 5, i32 15, i32 30, i32 60, i32 85, i32 95, i32 110, i32 140, i32 (-75), i32 (-65), i32 (-50), i32 (-20)].mapM fun x => ax.index x) =
    .ok [some 0, some 1, some 2, some 3, some 0, some 1, some 2, some 3, some 0, some 1, some 2, some 3] := by decide +kernel
/-- indices (73-82) -/
example : (do Axis.indices (← must (VariableCyclic.new [f32 1.0, f32 2.0]))) = .ok [0] := by decide +kernel
example : (do Axis.indices (← must (VariableCyclic.new [f32 8.5, f32 2.3, f32 9.4, f32 (-23.4)]))) = .ok [0, 1, 2] := by decide +kernel
/-- into_iter (117-127) -/
example : (do Axis.iter (← must (VariableCyclic.new [i32 0, i32 1, i32 10, i32 100]))) =
    .ok [(0, .Bin (i32 0) (i32 1)), (1, .Bin (i32 1) (i32 10)), (2, .Bin (i32 10) (i32 100))] := by decide +kernel

/-! ## tests/test_axis_nan_and_inf_value.rs (variable axes) -/

example : (do
    let ax ← must (Variable.new [f64 0.0, f64 1.0])
    ([.nan, .inf false, .inf true] : List F64).mapM fun x => ax.index x) = .ok [some 2, some 2, some 0] := by decide +kernel
example : (do
    let ax ← must (VariableNoFlow.new [f64 0.0, f64 1.0])
    ([.nan, .inf false, .inf true] : List F64).mapM fun x => ax.index x) = .ok [none, none, none] := by decide +kernel
example : (do
    let ax ← must (VariableCyclic.new [f64 0.0, f64 1.0])
    ([.nan, .inf false, .inf true] : List F64).mapM fun x => ax.index x) = .ok [none, none, none] := by decide +kernel

/-! ## tests/test_category_axis.rs, test_categorynoflow_axis.rs -/

example : (Category.new ["A", "B", "C"]).numBins = .ok 4 := by decide +kernel
example : ["A", "B", "D"].mapM (Category.new ["A", "B"]).index = .ok [some 0, some 1, some 2] := by decide +kernel
example : [0, 1, 2, 3, 4].mapM (Category.new ["A", "B", "C"]).bin = .ok [some (.Bin "A"), some (.Bin "B"), some (.Bin "C"), some .Overflow, none] := by decide +kernel
example : Axis.indices (Category.new ["A", "B", "C"]) = .ok [0, 1, 2, 3] := by decide +kernel
example : Axis.iter (Category.new ["A", "B"]) = .ok [(0, .Bin "A"), (1, .Bin "B"), (2, .Overflow)] := by decide +kernel
example : Axis.bins (Category.new ["A", "B"]) = .ok [.Bin "A", .Bin "B", .Overflow] := by decide +kernel
example : (CategoryNoFlow.new ["A", "B", "C"]).numBins = .ok 3 := by decide +kernel
example : ["A", "B", "D"].mapM (CategoryNoFlow.new ["A", "B"]).index = .ok [some 0, some 1, none] := by decide +kernel
example : [0, 1, 2, 3].mapM (CategoryNoFlow.new ["A", "B", "C"]).bin = .ok [some (.Bin "A"), some (.Bin "B"), some (.Bin "C"), none] := by decide +kernel
example : Axis.indices (CategoryNoFlow.new ["A", "B", "C"]) = .ok [0, 1, 2] := by decide +kernel
example : Axis.iter (CategoryNoFlow.new ["A", "B"]) = .ok [(0, .Bin "A"), (1, .Bin "B")] := by decide +kernel
example : Axis.bins (CategoryNoFlow.new ["A", "B"]) = .ok [.Bin "A", .Bin "B"] := by decide +kernel

/-! ## tests/test_binrange.rs, test_category_binrange.rs -/

/-- equality (8-33) -/
example : [beq (.underflow (f64 0.0)) (.underflow (f64 0.0)), beq (.overflow (f64 0.0)) (.overflow (f64 0.0)),
    beq (.new (f64 0.0) (f64 1.0)) (.new (f64 0.0) (f64 1.0))] = [true, true, true] := by decide +kernel
example : [beq (.underflow (f64 0.0)) (.underflow (f64 1.0)), beq (.overflow (f64 0.0)) (.overflow (f64 1.0)),
    beq (.new (f64 0.0) (f64 1.0)) (.new (f64 1.0) (f64 2.0)), beq (.underflow (f64 0.0)) (.overflow (f64 0.0)),
    beq (.underflow (f64 0.0)) (.new (f64 0.0) (f64 1.0)), beq (.new (f64 0.0) (f64 1.0)) (.overflow (f64 0.0))] =
    [false, false, false, false, false, false] := by decide +kernel
/-- conversions (71-104) -/
example : (BinInterval.new (f64 0.0) (f64 1.0)).tryIntoRange = .ok ⟨f64 0.0, f64 1.0⟩ := rfl
example : BinInterval.fromRange ⟨f64 0.0, f64 1.0⟩ = .new (f64 0.0) (f64 1.0) := rfl
example : (BinInterval.underflow (f64 1.0)).tryIntoRangeTo = .ok ⟨f64 1.0⟩ := rfl
example : BinInterval.fromRangeTo ⟨f64 1.0⟩ = .underflow (f64 1.0) := rfl
example : (BinInterval.overflow (f64 1.0)).tryIntoRangeFrom = .ok ⟨f64 1.0⟩ := rfl
example : BinInterval.fromRangeFrom ⟨f64 1.0⟩ = .overflow (f64 1.0) := rfl
/-- start, end (112-130) -/
example : [(BinInterval.new (f64 0.0) (f64 1.0)).start, (BinInterval.underflow (f64 0.0)).start, (BinInterval.overflow (f64 1.0)).start] =
    [some (f64 0.0), none, some (f64 1.0)] := rfl
example : [(BinInterval.new (f64 0.0) (f64 1.0)).stop, (BinInterval.underflow (f64 0.0)).stop, (BinInterval.overflow (f64 1.0)).stop] =
    [some (f64 1.0), some (f64 0.0), none] := rfl

/-- test_category_binrange.rs: equality (3-17) -/
example : [seq (.overflow) .overflow, seq (.new "Zero") (.new "Zero"), seq (.new "Zero") (.new "One"),
    seq (.new "Zero") .overflow] = [true, true, false, false] := by decide +kernel
/-- value (49-55) -/
example : ((SingleValueBinInterval.new "One").value, (SingleValueBinInterval.overflow (T := String)).value) = (some "One", none) := rfl

/-- Display of category axes (test_category_axis.rs 51-56, test_categorynoflow_axis.rs 50-55) -/
example : (Category.new ["A", "B", "C"]).display = .ok "{{A}, {B}, {C}, {overflow}}" := by decide +kernel
example : (CategoryNoFlow.new ["A", "B", "C"]).display = .ok "{{A}, {B}, {C}, {overflow}}" := by decide +kernel

/-! ## tests/test_axes.rs -/

abbrev U : AxTy := ⟨Uniform F64, inferInstance⟩
abbrev C : AxTy := ⟨Category String, inferInstance⟩
abbrev N : AxTy := ⟨CategoryNoFlow String, inferInstance⟩

/-- 2d_num_bins, 3d_num_bins -/
example : (do
    let x ← must (Uniform.new 5 (f64 0.0) (f64 1.0))
    let y ← must (Uniform.new 4 (f64 0.0) (f64 1.0))
    (← AxesTuple.fromTuple (ts := []) (t₀ := U) (t₁ := U) (x, y, ())).numBins) = .ok ((5 + 2) * (4 + 2)) := by decide +kernel
example : (do
    let x ← must (Uniform.new 5 (f64 0.0) (f64 1.0))
    let y ← must (Uniform.new 4 (f64 0.0) (f64 1.0))
    let z ← must (Uniform.new 3 (f64 0.0) (f64 1.0))
    (← AxesTuple.fromTuple (t₀ := U) (t₁ := U) (ts := [U]) (x, y, z, ())).numBins) = .ok ((5 + 2) * (4 + 2) * (3 + 2)) := by decide +kernel

instance dec2 {t₀ t₁ : AxTy} [DecidableEq (@Axis.Interval t₀.A _ t₀.inst)] [DecidableEq (@Axis.Interval t₁.A _ t₁.inst)] :
    DecidableEq (Axis.Interval (AxesTuple t₀ t₁ [])) := inferInstanceAs (DecidableEq (_ × _ × Unit))
instance dec3 {t₀ t₁ t₂ : AxTy} [DecidableEq (@Axis.Interval t₀.A _ t₀.inst)] [DecidableEq (@Axis.Interval t₁.A _ t₁.inst)]
    [DecidableEq (@Axis.Interval t₂.A _ t₂.inst)] :
    DecidableEq (Axis.Interval (AxesTuple t₀ t₁ [t₂])) := inferInstanceAs (DecidableEq (_ × _ × _ × Unit))

/-- 2d_iter -/
example : (do Axis.iter (← AxesTuple.fromTuple (t₀ := C) (t₁ := C) (ts := []) (Category.new ["A", "B"], Category.new ["C", "D"], ()))) =
    .ok [(0, .Bin "A", .Bin "C", ()), (1, .Bin "B", .Bin "C", ()), (2, .Overflow, .Bin "C", ()), (3, .Bin "A", .Bin "D", ()), (4, .Bin "B", .Bin "D", ()),
      (5, .Overflow, .Bin "D", ()), (6, .Bin "A", .Overflow, ()), (7, .Bin "B", .Overflow, ()), (8, .Overflow, .Overflow, ())] := by decide +kernel
/-- 2d_index, 2d_bin -/
example : (do
    let xy ← AxesTuple.fromTuple (t₀ := N) (t₁ := N) (ts := []) (CategoryNoFlow.new ["A", "B"], CategoryNoFlow.new ["C", "D"], ())
    [("A", "C"), ("B", "C"), ("A", "D"), ("B", "D")].mapM fun (x, y) => xy.index (x, y, ())) = .ok [some 0, some 1, some 2, some 3] := by decide +kernel
example : (do
    let xy ← AxesTuple.fromTuple (t₀ := N) (t₁ := N) (ts := []) (CategoryNoFlow.new ["A", "B"], CategoryNoFlow.new ["C", "D"], ())
    [0, 1, 2, 3].mapM fun i => Axis.bin xy i) =
    .ok [some (.Bin "A", .Bin "C", ()), some (.Bin "B", .Bin "C", ()), some (.Bin "A", .Bin "D", ()), some (.Bin "B", .Bin "D", ())] := by decide +kernel

/-- the axes of the 3d tests -/
def xyz : Res (AxesTuple N N [N]) :=
  AxesTuple.fromTuple (t₀ := N) (t₁ := N) (ts := [N]) (CategoryNoFlow.new ["x0", "x1"], CategoryNoFlow.new ["y0", "y1"], CategoryNoFlow.new ["z0", "z1"], ())

/-- 3d_iter, 3d_index, 3d_bin -/
example : (do Axis.iter (← xyz)) =
    .ok [(0, .Bin "x0", .Bin "y0", .Bin "z0", ()), (1, .Bin "x1", .Bin "y0", .Bin "z0", ()), (2, .Bin "x0", .Bin "y1", .Bin "z0", ()),
      (3, .Bin "x1", .Bin "y1", .Bin "z0", ()), (4, .Bin "x0", .Bin "y0", .Bin "z1", ()), (5, .Bin "x1", .Bin "y0", .Bin "z1", ()),
      (6, .Bin "x0", .Bin "y1", .Bin "z1", ()), (7, .Bin "x1", .Bin "y1", .Bin "z1", ())] := by decide +kernel
example : (do
    let a ← xyz
    [("x0", "y0", "z0"), ("x1", "y0", "z0"), ("x0", "y1", "z0"), ("x1", "y1", "z0"), ("x0", "y0", "z1"), ("x1", "y0", "z1"), ("x0", "y1", "z1"),
      ("x1", "y1", "z1")].mapM fun (x, y, z) => a.index (x, y, z, ())) =
    .ok [some 0, some 1, some 2, some 3, some 4, some 5, some 6, some 7] := by decide +kernel
example : (do
    let a ← xyz
    [0, 1, 2, 3, 4, 5, 6, 7].mapM fun i => Axis.bin a i) =
    .ok [some (.Bin "x0", .Bin "y0", .Bin "z0", ()), some (.Bin "x1", .Bin "y0", .Bin "z0", ()), some (.Bin "x0", .Bin "y1", .Bin "z0", ()),
      some (.Bin "x1", .Bin "y1", .Bin "z0", ()), some (.Bin "x0", .Bin "y0", .Bin "z1", ()), some (.Bin "x1", .Bin "y0", .Bin "z1", ()),
      some (.Bin "x0", .Bin "y1", .Bin "z1", ()), some (.Bin "x1", .Bin "y1", .Bin "z1", ())] := by decide +kernel

end NdHist.Conformance
