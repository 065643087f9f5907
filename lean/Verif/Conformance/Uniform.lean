import Verif.Model.Uniform
import Verif.Model.Float
/-!
# The project's own tests of uniform axes, run on the model

Transcriptions of the unit tests in /repo/ndhistogram/tests as closed statements checked by Lean's kernel. They prove no property of the crate: they check the model against
the behaviour the authors of the crate observed, including the rounding of `f32` and `f64`. Tests that only print or clone are left out. Expected
values are compared with `=`, which is stricter than `assert_eq!` on floats.
-/
namespace NdHist.Conformance
open NdHist
attribute [local instance] dbg64

/-- `constructor(..).unwrap()` or `constructor(..)?` in a test -/
def must {ε α : Type} : Res (Except ε α) → Res α
  | .ok (.ok a) => .ok a
  | .ok (.error _) => .error .expectNone
  | .error p => .error p

abbrev i32 (n : Int) (h : IntTy.i32.min ≤ n ∧ n ≤ IntTy.i32.max := by decide) : MInt .i32 := .lit n h

/-- finite and within 1e-6 -/
def near (x : F64) (q : ℚ) : Bool :=
  match x with
  | .fin s m _ => decide (|(if s then -m else m) - q| < 1 / 10 ^ 6)
  | _ => false

instance decUniform {T : Type} [RNum T] [DecidableEq T] : DecidableEq (Axis.Interval (Uniform T)) := inferInstanceAs (DecidableEq (BinInterval T))
instance decUniformNoFlow {T : Type} [RNum T] [DecidableEq T] : DecidableEq (Axis.Interval (UniformNoFlow T)) := inferInstanceAs (DecidableEq (BinInterval T))
instance decUniformCyclic {T : Type} [RNum T] [DecidableEq T] : DecidableEq (Axis.Interval (UniformCyclic T)) := inferInstanceAs (DecidableEq (BinInterval T))

/-! ## tests/test_uniform_axis.rs -/

/-- test_uniform_num_bins (6-9) -/
example : (do (← must (Uniform.new 5 (f64 0.0) (f64 1.0))).numBins) = .ok 7 := by decide +kernel
/-- test_uniform_get_index (11-19) -/
example : (do
    let ax ← must (Uniform.new 5 (f64 0.0) (f64 1.0))
    ([-2, -1, 0, 1, 2, 3, 4, 5, 6] : List ℚ).mapM fun x => ax.index (Flt.div (Flt.add (f64 x) (f64 1e-6)) (f64 5.0))) =
    .ok [some 0, some 0, some 1, some 2, some 3, some 4, some 5, some 6, some 6] := by decide +kernel
/-- test_uniform_get_bin (21-32) -/
example : (do
    let ax ← must (Uniform.new 1 (f64 0.0) (f64 1.0))
    [0, 1, 2, 3].mapM fun i => ax.bin i) =
    .ok [some (.Underflow (f64 0.0)), some (.Bin (f64 0.0) (f64 1.0)), some (.Overflow (f64 1.0)), none] := by decide +kernel
/-- test_uniform_get_edges (34-57); `-2 as usize` and `-1 as usize` are 2^64-2 and 2^64-1 -/
example : (do
    let ax ← must (Uniform.new 5 (f64 0.0) (f64 1.0))
    let bins ← [2 ^ 64 - 2, 2 ^ 64 - 1, 0, 1, 2, 3, 4, 5, 6].mapM fun i => ax.bin i
    let ranges : List (Range F64) := (bins.filterMap id).filterMap fun b => (BinInterval.tryIntoRange b).toOption
    return ranges.length == 5 && (ranges.zip [(0.0, 0.2), (0.2, 0.4), (0.4, 0.6), (0.6, 0.8), (0.8, 1.0)]).all
      fun (r, x, y) => near r.start x && near r.stop y) = .ok true := by decide +kernel
/-- test_uniform_iterate_indices (77-83) -/
example : (do Axis.indices (← must (Uniform.new 5 (f64 0.0) (f64 1.0)))) = .ok [0, 1, 2, 3, 4, 5, 6] := by decide +kernel
/-- test_uniform_iterate_items (85-96) -/
example : (do Axis.iter (← must (Uniform.new 2 (f64 0.0) (f64 2.0)))) =
    .ok [(0, .Underflow (f64 0.0)), (1, .Bin (f64 0.0) (f64 1.0)), (2, .Bin (f64 1.0) (f64 2.0)), (3, .Overflow (f64 2.0))] := by decide +kernel
/-- test_uniform_iterate_bin (98-108) -/
example : (do Axis.bins (← must (Uniform.new 1 (f64 0.0) (f64 1.0)))) =
    .ok [.Underflow (f64 0.0), .Bin (f64 0.0) (f64 1.0), .Overflow (f64 1.0)] := by decide +kernel
/-- test_negative_axis (118-123) -/
example : (do
    let ax ← must (Uniform.new 10 (f64 (-5.0)) (f64 5.0))
    [0, 1, 11].mapM fun i => ax.bin i) =
    .ok [some (.Underflow (f64 (-5.0))), some (.Bin (f64 (-5.0)) (f64 (-4.0))), some (.Overflow (f64 5.0))] := by decide +kernel

/-! ## tests/test_uniform_axis_integer.rs -/

/-- test_uniform_num_bins (6-10) -/
example : (do (← must (Uniform.withStepSize 3 (i32 0) (i32 2))).numBins) = .ok 5 := by decide +kernel
/-- test_uniform_integer_get_index (12-18) -/
example : (do
    let ax ← must (Uniform.withStepSize 3 (i32 (-2)) (i32 2))
    [i32 (-3), i32 (-2), i32 (-1), i32 0, i32 1, i32 2, i32 3, i32 4].mapM fun x => ax.index x) =
    .ok [some 0, some 1, some 1, some 2, some 2, some 3, some 3, some 4] := by decide +kernel
/-- test_uniform_integer_get_bin (20-33) -/
example : (do
    let ax ← must (Uniform.withStepSize 3 (i32 (-2)) (i32 2))
    [0, 1, 2, 3, 4, 5].mapM fun i => ax.bin i) =
    .ok [some (.Underflow (i32 (-2))), some (.Bin (i32 (-2)) (i32 0)), some (.Bin (i32 0) (i32 2)), some (.Bin (i32 2) (i32 4)), some (.Overflow (i32 4)), none] := by
  decide +kernel
/-- test_uniform_with_step_size_should_return_error_on_negative_step, .._on_zero_step (35-49) -/
example : Uniform.withStepSize 10 (f64 20.0) (f64 (-1.0)) = .ok (.error .InvalidStepSize) := by decide +kernel
example : Uniform.withStepSize 10 (f64 20.0) (f64 0.0) = .ok (.error .InvalidStepSize) := by decide +kernel

/-! ## tests/test_noflow_axis.rs -/

/-- num_bins, get_index, get_bin, indices, bins, iter (3-63) -/
example : (do (← must (UniformNoFlow.new 2 (f64 0.0) (f64 2.0))).numBins) = .ok 2 := by decide +kernel
example : (do
    let ax ← must (UniformNoFlow.new 2 (f64 0.0) (f64 2.0))
    ([-1, 0, 1, 2] : List ℚ).mapM fun x => ax.index (f64 x)) = .ok [none, some 0, some 1, none] := by decide +kernel
example : (do
    let ax ← must (UniformNoFlow.new 2 (f64 0.0) (f64 2.0))
    [0, 1, 2].mapM fun i => ax.bin i) = .ok [some (.Bin (f64 0.0) (f64 1.0)), some (.Bin (f64 1.0) (f64 2.0)), none] := by decide +kernel
example : (do Axis.indices (← must (UniformNoFlow.new 2 (f64 0.0) (f64 2.0)))) = .ok [0, 1] := by decide +kernel
example : (do Axis.bins (← must (UniformNoFlow.new 2 (f64 0.0) (f64 2.0)))) = .ok [.Bin (f64 0.0) (f64 1.0), .Bin (f64 1.0) (f64 2.0)] := by decide +kernel
example : (do Axis.iter (← must (UniformNoFlow.new 2 (f64 0.0) (f64 2.0)))) = .ok [(0, .Bin (f64 0.0) (f64 1.0)), (1, .Bin (f64 1.0) (f64 2.0))] := by decide +kernel

/-! ## tests/test_uniformcyclic_axis.rs -/

/-- bin (7-16), on `f32` -/
example : (do
    let ax ← must (UniformCyclic.new 4 (f32 0.0) (f32 1.0))
    [0, 1, 2, 3].mapM fun i => ax.bin i) =
    .ok [some (.Bin (f32 0.00) (f32 0.25)), some (.Bin (f32 0.25) (f32 0.50)), some (.Bin (f32 0.50) (f32 0.75)), some (.Bin (f32 0.75) (f32 1.00))] := by decide +kernel
/-- float_index (18-39), on `f32`; the results for 0.1, -0.19, -0.9, -10.1 depend on how `f32` rounds -/
example : (do
    let ax ← must (UniformCyclic.new 10 (f32 0.0) (f32 1.0))
    ([0.0, 0.09, 0.1, 0.19, 0.2, 10.0, 20.33, 50.99, -0.1, -0.19, -0.2, -0.9, -0.95, -10.0, -10.05, -10.1] : List ℚ).mapM fun x => ax.index (f32 x)) =
    .ok [some 0, some 0, some 1, some 1, some 2, some 0, some 3, some 9, some 9, some 8, some 8, some 1, some 0, some 0, some 9, some 8] := by decide +kernel
/-- integer_index (41-69) -/
example : (do
    let ax ← must (UniformCyclic.withStepSize 2 (i32 0) (i32 10))
    [i32 0, i32 5, i32 15, i32 20, i32 29, i32 30, i32 (-1), i32 (-10), i32 (-11)].mapM fun x => ax.index x) =
    .ok [some 0, some 0, some 1, some 0, some 0, some 1, some 1, some 1, some 0] := by decide +kernel
example : (do
    let ax ← must (UniformCyclic.withStepSize 10 (i32 10) (i32 9))
    [i32 10, i32 18, i32 19, i32 27, i32 28, i32 99, i32 100].mapM fun x => ax.index x) =
    .ok [some 0, some 0, some 1, some 1, some 2, some 9, some 0] := by decide +kernel
/-- indices (71-77) -/
example : (do Axis.indices (← must (UniformCyclic.new 7 (f64 23.4) (f64 97.3)))) = .ok [0, 1, 2, 3, 4, 5, 6] := by decide +kernel
/-- into_iter (110-120) -/
example : (do Axis.iter (← must (UniformCyclic.withStepSize 3 (i32 15) (i32 10)))) =
    .ok [(0, .Bin (i32 15) (i32 25)), (1, .Bin (i32 25) (i32 35)), (2, .Bin (i32 35) (i32 45))] := by decide +kernel

/-! ## tests/test_axis_nan_and_inf_value.rs (uniform axes) -/

example : (do
    let ax ← must (Uniform.new 5 (f64 0.0) (f64 1.0))
    ([.nan, .inf false, .inf true] : List F64).mapM fun x => ax.index x) = .ok [some 6, some 6, some 0] := by decide +kernel
example : (do
    let ax ← must (UniformNoFlow.new 5 (f64 0.0) (f64 1.0))
    ([.nan, .inf false, .inf true] : List F64).mapM fun x => ax.index x) = .ok [none, none, none] := by decide +kernel
example : (do
    let ax ← must (UniformCyclic.new 5 (f64 0.0) (f64 1.0))
    ([.nan, .inf false, .inf true] : List F64).mapM fun x => ax.index x) = .ok [none, none, none] := by decide +kernel

end NdHist.Conformance
