import Verif.Conformance.Value
/-!
# The examples in the project's documentation, run on the model

The `assert`s of the documentation tests, and what the examples without one print.
-/
namespace NdHist.Conformance
open NdHist
attribute [local instance] dbg64 stdNew numPEq

/-! ## lib.rs -/

/-- quick start (46-67) -/
def quick : Res (H1 (Uniform F64) F64) := do fillWU (← fillU (← newU 10 (-5.0) 5.0) 1) 2 4
example : (do return ((← (← quick).value (f64 1 : F64)), (← quick).valueAtIndex 7)) = .ok (some (f64 1), some (f64 1)) := by decide +kernel
example : (do return (← (← quick).iter).map fun (it : Item _ _) => (it.index, it.value)) =
    .ok [(0, f64 0), (1, f64 0), (2, f64 0), (3, f64 0), (4, f64 0), (5, f64 0), (6, f64 0), (7, f64 1), (8, f64 4), (9, f64 0), (10, f64 0), (11, f64 0)] := by
  decide +kernel
/-- another bin value type (126-149) -/
example : (do
    let h ← ndhistogram1 (MInt .i32) (← uni 10 (-5.0) 5.0)
    (← ran (h.fillWith (f64 1 : F64) (i32 2))).value (f64 1 : F64)) = .ok (some (i32 2)) := by decide +kernel
example : (do
    let h ← ndhistogram1 MF (← uni 10 (-5.0) 5.0)
    let h ← ran (h.fillWith (f64 1 : F64) (f64 1))
    let h ← ran (h.fillWith (f64 1 : F64) (f64 3))
    match ← h.value (f64 1 : F64) with
    | none => return none
    | some v => return some (← v.mean)) = .ok (some (f64 2)) := by decide +kernel
/-- two dimensions (151-165) -/
example : (do
    let h ← new2 10 (-5.0) 5.0 (-5.0) 5.0
    let h ← ran (h.fill ((f64 1, f64 2, ()) : F64 × F64 × Unit))
    h.value ((f64 1, f64 2, ()) : F64 × F64 × Unit)) = .ok (some (f64 1)) := by decide +kernel
/-- a discrete axis (167-187): integers and strings -/
example : (do
    let h ← ndhistogram1 F64 (Category.new [i32 0, i32 2, i32 4])
    let h ← ran (h.fillWith (i32 2 : MInt .i32) (f64 42))
    let h ← ran (h.fillWith (i32 1 : MInt .i32) (f64 128))
    [i32 2, i32 1, i32 3].mapM fun c => h.value (c : MInt .i32)) = .ok [some (f64 42), some (f64 128), some (f64 128)] := by decide +kernel
example : (do
    let h ← ndhistogram1 F64 (Category.new ["Red", "Blue", "Green"])
    (← ran (h.fill ("Red" : String))).value ("Red" : String)) = .ok (some (f64 1)) := by decide +kernel
/-- bins of variable size (189-203) -/
example : (do
    let mut h ← ndhistogram1 F64 (← must (Variable.new [f64 0, f64 1, f64 3, f64 6]))
    for x in [f64 0, f64 1, f64 2, f64 3, f64 4, f64 5] do
      h ← ran (h.fill (x : F64))
    [f64 0, f64 1, f64 3].mapM fun c => h.value (c : F64)) = .ok [some (f64 1), some (f64 2), some (f64 3)] := by decide +kernel
/-- `std::f64::consts::PI` -/
def PI : F64 := f64 (884279719003555 / 281474976710656)
/-- a cyclic axis (205-220) -/
example : (do
    let h ← ndhistogram1 F64 (← must (UniformCyclic.new 10 (f64 0) (← RNum.mul (f64 2) PI)))
    let h ← ran (h.fill (PI : F64))
    let h ← ran (h.fill (PI.neg : F64))
    [PI.neg, PI].mapM fun c => h.value (c : F64)) = .ok [some (f64 2), some (f64 2)] := by decide +kernel
/-- a sparse histogram with 1e18 bins (222-240) -/
abbrev S3 := HashHistogram (AxesTuple U U [U]) F64
example : (do
    let u ← uni 1000000 (-5.0) 5.0
    let h : S3 ← sparsehistogram (t₀ := U) (t₁ := U) (ts := [U]) F64 (u, u, u, ())
    let h ← ran (h.fill ((f64 1, f64 2, f64 3, ()) : F64 × F64 × F64 × Unit))
    return (← h.value ((f64 1, f64 2, f64 3, ()) : F64 × F64 × F64 × Unit), ← h.value ((f64 0, f64 0, f64 0, ()) : F64 × F64 × F64 × Unit))) =
    .ok (some (f64 1), none) := by decide +kernel
/-- merging (242-255) -/
example : (do
    let a ← fillWU (← newU 10 (-5.0) 5.0) 0 2
    let b ← fillWU (← newU 10 (-5.0) 5.0) 0 3
    match ← VecHistogram.opOwned .add a b with
    | .ok h => h.value (f64 0 : F64)
    | .error _ => return none) = .ok (some (f64 5)) := by decide +kernel

/-! ## axis/ -/

/-- category.rs (19-26), categorynoflow.rs (11-18) -/
def colors : List String := ["red", "blue", "pink", "yellow", "black"]
example : ["red", "green"].mapM (Category.new colors).index = .ok [some 0, some 5] ∧ [1, 5].mapM (Category.new colors).bin = .ok [some (.Bin "blue"), some .Overflow] := by
  decide +kernel
example : ["red", "green"].mapM (CategoryNoFlow.new colors).index = .ok [some 0, none] ∧ [1, 5].mapM (CategoryNoFlow.new colors).bin = .ok [some (.Bin "blue"), none] := by
  decide +kernel

/-- mod.rs (51-89): an axis of the user's -/
inductive Parity | Even | Odd
deriving DecidableEq
structure ParityAxis
instance parityAxis : @Axis ParityAxis dbg64 where
  Coordinate := MInt .i32
  Interval := Parity
  index _ c := do
    let r ← @RNum.rem (MInt .i32) dbg64 _ c (i32 2)
    return if r = i32 0 then some 0 else some 1
  numBins _ := .ok 2
  bin _ i := .ok (if i = 0 then some .Even else some .Odd)
example : (do
    let h ← ndhistogram1 (MInt .i32) ParityAxis.mk
    let h ← ran (h.fill (i32 1 : MInt .i32))
    let h ← ran (h.fillWith (i32 2 : MInt .i32) (i32 4))
    [i32 1, i32 2].mapM fun c => h.value (c : MInt .i32)) = .ok [some (i32 1), some (i32 4)] := by decide +kernel

/-- uniform.rs (20-30), uniformnoflow.rs (18-26) -/
example : (do
    let h ← newU 10 (-5.0) 5.0
    [0, 1, 11].mapM fun i => h.axes.axis.bin i) = .ok [some (.Underflow (f64 (-5))), some (.Bin (f64 (-5)) (f64 (-4))), some (.Overflow (f64 5))] := by decide +kernel
example : (do
    let h ← ndhistogram1 F64 (← must (UniformNoFlow.new 10 (f64 (-5)) (f64 5)))
    [0, 10].mapM fun i => h.axes.axis.bin i) = .ok [some (.Bin (f64 (-5)) (f64 (-4))), none] := by decide +kernel
/-- uniformcyclic.rs (16-30, 32-46) -/
example : (do
    let h ← ndhistogram1 F64 (← must (UniformCyclic.new 4 (f64 0) (f64 360)))
    let h ← ran (h.fill (f64 45 : F64))
    let h ← ran (h.fill (f64 (45 + 360) : F64))
    let h ← ran (h.fill (f64 (45 - 360) : F64))
    [f64 45, f64 (45 + 360), f64 (45 - 360)].mapM fun c => h.value (c : F64)) = .ok [some (f64 3), some (f64 3), some (f64 3)] := by decide +kernel
example : (do
    let h ← ndhistogram1 F64 (← must (UniformCyclic.withStepSize 24 (i32 0) (i32 1)))
    (← ran (h.fill (i32 40 : MInt .i32))).value (i32 16 : MInt .i32)) = .ok (some (f64 1)) := by decide +kernel
/-- variable.rs (19-31), variablenoflow.rs (16-28) -/
example : (do
    let h ← ndhistogram1 (MInt .i32) (← must (Variable.new [f64 0, f64 1, f64 3, f64 7]))
    let h ← ran (h.fill (f64 0 : F64))
    let h ← ran (h.fill (f64 1 : F64))
    let h ← ran (h.fill (f64 2 : F64))
    return h.valuesIter) = .ok [i32 0, i32 1, i32 2, i32 0, i32 0] := by decide +kernel
example : (do
    let h ← ndhistogram1 (MInt .i32) (← must (VariableNoFlow.new [f64 0, f64 1, f64 3, f64 7]))
    let h ← ran (h.fill (f64 (-1) : F64))
    let h ← ran (h.fill (f64 1 : F64))
    let h ← ran (h.fill (f64 2 : F64))
    return h.valuesIter) = .ok [i32 0, i32 2, i32 0] := by decide +kernel
/-- variablecyclic.rs (17-28) -/
example : (do
    let tau ← RNum.mul (f64 2) PI
    let h ← ndhistogram1 (MInt .i32) (← must (VariableCyclic.new [f64 0, ← RNum.div PI (f64 2), PI, tau]))
    let h ← ran (h.fill (f64 0.1 : F64))
    let h ← ran (h.fill ((← RNum.add (f64 0.1) tau) : F64))
    h.value (f64 0.1 : F64)) = .ok (some (i32 2)) := by decide +kernel

/-! ## macros.rs, value/mean.rs, value/weightedmean.rs, histogram/ -/

/-- macros.rs (23-33, 98-107): 12 * 12 bins -/
example : (do (← new2 10 (-5.0) 5.0 (-5.0) 5.0).axes.numBins) = .ok (12 * 12) := by decide +kernel
example : (do
    let u ← uni 10 (-5.0) 5.0
    let h : HashHistogram (AxesTuple U U []) F64 ← sparsehistogram (t₀ := U) (t₁ := U) (ts := []) F64 (u, u, ())
    h.axes.numBins) = .ok (12 * 12) := by decide +kernel
/-- macros.rs (36-46, 110-120) -/
example : (do
    let h ← ndhistogram1 MF (← uni 10 (-5.0) 5.0)
    let h ← ran (h.fillWith (f64 0 : F64) (f64 1))
    let h ← ran (h.fillWith (f64 0 : F64) (f64 3))
    match ← h.value (f64 0 : F64) with
    | none => return none
    | some v => return some (← v.get)) = .ok (some (f64 2)) := by decide +kernel
example : (do
    let h ← sparsehistogram1 MF (← uni 10 (-5.0) 5.0)
    let h ← ran (h.fillWith (f64 0 : F64) (f64 1))
    let h ← ran (h.fillWith (f64 0 : F64) (f64 3))
    match ← h.value (f64 0 : F64) with
    | none => return none
    | some v => return some (← v.get)) = .ok (some (f64 2)) := by decide +kernel
/-- mean.rs (25-38), weightedmean.rs (26-39) -/
example : (do
    let h ← ndhistogram1 MI (← uni 10 0.0 10.0)
    let h ← ran (h.fillWith (f64 0 : F64) (i32 1))
    let h ← ran (h.fillWith (f64 0 : F64) (i32 2))
    let h ← ran (h.fillWith (f64 0 : F64) (i32 3))
    match ← h.value (f64 0 : F64) with
    | none => return none
    | some v => return some (← v.get)) = .ok (some (f64 2)) := by decide +kernel
example : (do
    let h ← ndhistogram1 WI (← uni 10 0.0 10.0)
    let h ← ran (h.fillWithWeighted (f64 0 : F64) (i32 2) (i32 1))
    let h ← ran (h.fillWithWeighted (f64 0 : F64) (i32 2) (i32 2))
    let h ← ran (h.fillWithWeighted (f64 0 : F64) (i32 4) (i32 3))
    match ← h.value (f64 0 : F64) with
    | none => return none
    | some v => return some (← v.get)) = .ok (some (f64 3)) := by decide +kernel
/-- vechistogram.rs (166-176, 247-257, 294-304) and the same in hashhistogram.rs (255-265, 317-327, 368-378): 2 op 1 -/
def two : Res (H1 (Uniform F64) F64) := do fillWU (← newU 10 (-5.0) 5.0) 0 2
def one : Res (H1 (Uniform F64) F64) := do fillU (← newU 10 (-5.0) 5.0) 0
example : [Op.add, Op.sub, Op.mul, Op.div].mapM (fun o => do
    match ← VecHistogram.opBorrow o (← two) (← one) with
    | .ok h => h.value (f64 0 : F64)
    | .error _ => return none) = .ok [some (f64 3), some (f64 1), some (f64 2), some (f64 2)] := by decide +kernel
example : [Op.add, Op.sub, Op.mul, Op.div].mapM (fun o => do
    match ← VecHistogram.opOwned o (← two) (← one) with
    | .ok h => h.value (f64 0 : F64)
    | .error _ => return none) = .ok [some (f64 3), some (f64 1), some (f64 2), some (f64 2)] := by decide +kernel
def twoS : Res (S1 (Uniform F64) F64) := do ran ((← newS 10 (-5.0) 5.0).fillWith (f64 0 : F64) (f64 2))
def oneS : Res (S1 (Uniform F64) F64) := do ran ((← newS 10 (-5.0) 5.0).fill (f64 0 : F64))
example : [Op.add, Op.sub, Op.mul, Op.div].mapM (fun o => do
    let r ← oneS
    match ← HashHistogram.opOwned o (← twoS) r ⟨r.values.entries, .refl _⟩ with
    | .ok h => h.value (f64 0 : F64)
    | .error _ => return none) = .ok [some (f64 3), some (f64 1), some (f64 2), some (f64 2)] := by decide +kernel

end NdHist.Conformance
