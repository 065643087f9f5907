import Verif.Conformance.Axes
import Verif.Model.Macros
import Verif.Model.Eq
import Verif.Model.Wrapping
/-!
# The project's own tests of histograms, run on the model

The tests that fill histograms with random numbers are checked on small fixed data instead.
-/
namespace NdHist.Conformance
open NdHist
attribute [local instance] dbg64 stdNew numPEq

/-- a method call that did not panic -/
def ran {H : Type} : H × Option Panic → Res H
  | (h, none) => .ok h
  | (_, some p) => .error p

abbrev u8 (n : Int) (h : IntTy.u8.min ≤ n ∧ n ≤ IntTy.u8.max := by decide) : MInt .u8 := .lit n h
abbrev H1 (A V : Type) [Axis A] := VecHistogram (AxesTuple1 A) V
abbrev S1 (A V : Type) [Axis A] := HashHistogram (AxesTuple1 A) V
def uni (n : Nat) (lo hi : ℚ) : Res (Uniform F64) := must (Uniform.new n (f64 lo) (f64 hi))
def newU (n : Nat) (lo hi : ℚ) : Res (H1 (Uniform F64) F64) := do ndhistogram1 F64 (← uni n lo hi)
def fillU (h : H1 (Uniform F64) F64) (c : ℚ) : Res (H1 (Uniform F64) F64) := ran (h.fill (f64 c : F64))
def fillWU (h : H1 (Uniform F64) F64) (c w : ℚ) : Res (H1 (Uniform F64) F64) := ran (h.fillWith (f64 c : F64) (f64 w))
def zs (n : Nat) : List F64 := List.replicate n (f64 0)

/-! ## tests/test_ndhistogram_1d.rs -/

/-- unweighted_fill_once, unfilled_is_empty, weighted_fill_once, unweighted_fill_nan (9-47) -/
example : (do (← fillU (← newU 5 0.0 0.5) 0.1).value (f64 0.1 : F64)) = .ok (some (f64 1)) := by decide +kernel
example : (do return (← newU 5 0.0 0.5).valuesIter) = .ok (zs 7) := by decide +kernel
example : (do (← fillWU (← newU 5 0.0 0.5) 0.1 2).value (f64 0.1 : F64)) = .ok (some (f64 2)) := by decide +kernel
example : (do (← ran ((← newU 5 0.0 0.5).fill (Flt.nan : F64))).value (f64 0.1 : F64)) = .ok (some (f64 0)) := by decide +kernel
/-- unweighted_fill_bin_edges (49-62) -/
example : (do
    let mut h ← newU 2 0.0 2.0
    h ← fillU h (-1)
    for (c, w) in ([(0.0, 20), (0.5, 300), (1.0, 4000), (1.5, 50000), (2.0, 600000), (2.5, 7000000)] : List (ℚ × ℚ)) do
      h ← fillWU h c w
    return h.valuesIter) = .ok [f64 1, f64 320, f64 54000, f64 7600000] := by decide +kernel
/-- value_at_index, value_at_coordinate (72-91) -/
example : (do
    let h ← fillU (← newU 2 0.0 2.0) 0
    return [0, 1, 2, 3, 4].map h.valueAtIndex) = .ok [some (f64 0), some (f64 1), some (f64 0), some (f64 0), none] := by decide +kernel
example : (do
    let h ← fillU (← newU 2 0.0 2.0) 0
    ([0, 1, -1, 2] : List ℚ).mapM fun c => h.value (f64 c : F64)) = .ok [some (f64 1), some (f64 0), some (f64 0), some (f64 0)] := by decide +kernel
/-- value_at_index_mut, value_mut (126-146): the reference is used to store 2.0 -/
def store2 : Upd F64 := fun _ => (f64 2, none)
example : (do
    let h ← newU 2 0.0 2.0
    return (h.valueAtIndexMut 1 store2).map fun (r : H1 (Uniform F64) F64 × Option Panic) => r.1.valuesIter) = .ok (some [f64 0, f64 2, f64 0, f64 0]) := by decide +kernel
example : (do
    let h ← newU 2 0.0 2.0
    return (← h.valueMut (f64 0 : F64) store2).map fun (r : H1 (Uniform F64) F64 × Option Panic) => r.1.valuesIter) = .ok (some [f64 0, f64 2, f64 0, f64 0]) := by decide +kernel
/-- iter_mut (161-172) -/
example : (do
    let h ← newU 2 0.0 2.0
    return (h.iterMut fun i _ _ => (f64 i, none)).1.valuesIter) = .ok [f64 0, f64 1, f64 2, f64 3] := by decide +kernel

/-! ## tests/test_ndhistogram_1d_category.rs -/

def newC : Res (H1 (Category String) (MInt .i32)) := ndhistogram1 (MInt .i32) (Category.new ["A", "B"])
def fillC (h : H1 (Category String) (MInt .i32)) (c : String) : Res (H1 (Category String) (MInt .i32)) := ran (h.fill (c : String))
def fillWC (h : H1 (Category String) (MInt .i32)) (c : String) (w : MInt .i32) : Res (H1 (Category String) (MInt .i32)) := ran (h.fillWith (c : String) w)
def simpleCat : Res (H1 (Category String) (MInt .i32)) := do fillWC (← fillWC (← fillC (← newC) "A") "B" (i32 2)) "C" (i32 3)

example : (do return (← newC).valuesIter) = .ok [i32 0, i32 0, i32 0] := by decide +kernel
example : (do (← fillWC (← newC) "A" (i32 2)).value ("A" : String)) = .ok (some (i32 2)) := by decide +kernel
example : (do return (← simpleCat).valuesIter) = .ok [i32 1, i32 2, i32 3] := by decide +kernel
example : (do
    let h ← fillC (← newC) "A"
    return [0, 1, 2, 3].map h.valueAtIndex) = .ok [some (i32 1), some (i32 0), some (i32 0), none] := by decide +kernel
example : (do
    let h ← fillC (← newC) "A"
    ["A", "B", "C"].mapM fun c => h.value (c : String)) = .ok [some (i32 1), some (i32 0), some (i32 0)] := by decide +kernel
example : (do return (← (← simpleCat).iter).map fun (it : Item _ _) => (it.index, it.value)) = .ok [(0, i32 1), (1, i32 2), (2, i32 3)] := by decide +kernel

/-! ## tests/test_ndhistogram_2d.rs -/

abbrev H2 := VecHistogram (AxesTuple U U []) F64
def new2 (n : Nat) (a b c d : ℚ) : Res H2 := do ndhistogram (t₀ := U) (t₁ := U) (ts := []) F64 (← uni n a b, ← uni n c d, ())
def fillW2 (h : H2) (x y w : ℚ) : Res H2 := ran (h.fillWith ((f64 x, f64 y, ()) : F64 × F64 × Unit) (f64 w))
example : (do (← ran ((← new2 5 0.0 0.5 0.5 1.0).fill ((f64 0.1, f64 0.6, ()) : F64 × F64 × Unit))).value ((f64 0.1, f64 0.6, ()) : F64 × F64 × Unit)) =
    .ok (some (f64 1)) := by decide +kernel
example : (do return (← new2 5 0.0 0.5 0.5 1.0).valuesIter) = .ok (zs (7 * 7)) := by decide +kernel
/-- unweighted_fill_bin_edges (42-97): the values in the order of the bins -/
example : (do
    let h ← ran ((← new2 2 0.0 2.0 0.0 2.0).fill ((f64 (-1), f64 (-1), ()) : F64 × F64 × Unit))
    let h ← fillW2 h 0 0 20
    let h ← fillW2 h 1 0 300
    let h ← fillW2 h 0 1 4000
    let h ← fillW2 h 1 1 50000
    return h.valuesIter) =
    .ok [f64 1, f64 0, f64 0, f64 0, f64 0, f64 20, f64 300, f64 0, f64 0, f64 4000, f64 50000, f64 0, f64 0, f64 0, f64 0, f64 0] := by decide +kernel

/-! ## tests/test_from_and_into_methods.rs -/

example : (do return (← fillU (← newU 1 0.0 1.0) 0.5).asVec) = .ok [f64 0, f64 1, f64 0] := by decide +kernel
example : (do return (← fillU (← newU 1 0.0 1.0) 0.5).intoVec) = .ok [f64 0, f64 1, f64 0] := by decide +kernel
example : (do
    let axes ← AxesTuple1.fromTuple (← uni 1 0.0 1.0)
    let a ← VecHistogram.fromVec axes [f64 0, f64 1, f64 0]
    let b ← VecHistogram.fromVec axes [f64 0]
    return (a.toOption.isSome, match b with | .error e => some e | .ok _ => none)) = .ok (true, some (Error.AxisError .InvalidNumberOfBins)) := by decide +kernel
def newS (n : Nat) (lo hi : ℚ) : Res (S1 (Uniform F64) F64) := do sparsehistogram1 F64 (← uni n lo hi)
def fillS (h : S1 (Uniform F64) F64) (c : ℚ) : Res (S1 (Uniform F64) F64) := ran (h.fill (f64 c : F64))
example : (do return (← fillS (← newS 1 0.0 1.0) 0.5).asMap.entries) = .ok [(1, f64 1)] := by decide +kernel
example : (do return (← fillS (← newS 1 0.0 1.0) 0.5).intoMap.entries) = .ok [(1, f64 1)] := by decide +kernel
example : (do
    let axes ← AxesTuple1.fromTuple (← uni 1 0.0 1.0)
    let a ← HashHistogram.fromMap axes ⟨[(1, f64 1)]⟩
    let b ← HashHistogram.fromMap axes ⟨[(3, f64 1)]⟩
    return (a.toOption.isSome, match b with | .error e => some e | .ok _ => none)) = .ok (true, some (Error.AxisError .InvalidNumberOfBins)) := by decide +kernel

/-! ## tests/test_hashhistogram.rs -/

/-- fill (11-17), with the `i64` bins of the test as `i32` -/
example : (do
    let h ← sparsehistogram1 (MInt .i32) (← uni 10 0.0 10.0)
    let h ← ran (h.fill (f64 0.5 : F64))
    let h ← ran (h.fillWith (f64 0.5 : F64) (i32 2))
    h.value (f64 0.5 : F64)) = .ok (some (i32 3)) := by decide +kernel
/-- clone (128-133): equal histograms compare equal -/
example : (do
    let h ← newS 4 0.0 2.0
    return HashHistogram.beq h h) = .ok true := by decide +kernel

/-! ## the wrap tests of the cyclic axes (test_uniformcyclic_axis.rs 78-108, test_variablecyclic_axis.rs 84-115) -/

abbrev HC (A : Type) [Axis A] := H1 A (MInt .u8)
example : (do
    let h ← ndhistogram1 (MInt .u8) (← must (UniformCyclic.new 4 (f64 0.0) (f64 360.0)))
    let h ← ran (h.fill (f64 45 : F64))
    let h ← ran (h.fill (f64 405 : F64))
    let h ← ran (h.fill (f64 (-315) : F64))
    return (← h.value (f64 45 : F64), h.valueAtIndex 0)) = .ok (some (u8 3), some (u8 3)) := by decide +kernel
example : (do
    let h ← ndhistogram1 F64 (← must (UniformCyclic.withStepSize 24 (i32 0) (i32 1)))
    let h ← ran (h.fill (i32 40 : MInt .i32))
    h.value (i32 16 : MInt .i32)) = .ok (some (f64 1)) := by decide +kernel
example : (do
    let h ← ndhistogram1 (MInt .u8) (← must (UniformCyclic.new 4 (f64 0.0) (f64 360.0)))
    let h ← ran (h.fill (f64 45 : F64))
    ([45, 405, -315] : List ℚ).mapM fun c => h.value (f64 c : F64)) = .ok [some (u8 1), some (u8 1), some (u8 1)] := by decide +kernel

/-! ## tests/test_ndhistogram_binary_ops.rs and the operators of test_hashhistogram.rs, on fixed data -/

/-- binning mismatch: an error, for every operator -/
example : [Op.add, Op.sub, Op.mul, Op.div].mapM (fun o => do
    let l ← newU 10 (-5.0) 5.0
    let r ← newU 10 (-5.0) 6.0
    let res ← VecHistogram.opBorrow o l r
    return res.toOption.isNone) = (.ok [true, true, true, true] : Res (List Bool)) := by decide +kernel
def lhs : Res (H1 (Uniform F64) F64) := do fillWU (← fillWU (← newU 2 0.0 2.0) 0.5 6) 1.5 1
def rhs : Res (H1 (Uniform F64) F64) := do fillWU (← fillWU (← newU 2 0.0 2.0) 0.5 2) (-1) 3
example : [Op.add, Op.sub, Op.mul].mapM (fun o => do
    match ← VecHistogram.opBorrow o (← lhs) (← rhs) with
    | .ok h => return h.valuesIter
    | .error _ => return []) =
    (.ok [[f64 3, f64 8, f64 1, f64 0], [f64 (-3), f64 4, f64 1, f64 0], [f64 0, f64 12, f64 0, f64 0]] : Res (List (List F64))) := by decide +kernel
/-- the quotients 0/0 are NaN, which the test filters out; 1/0 is infinite -/
example : (do
    match ← VecHistogram.opBorrow .div (← lhs) (← rhs) with
    | .ok h => return h.valuesIter
    | .error _ => return []) = (.ok [f64 0, f64 3, .inf false, .nan] : Res (List F64)) := by decide +kernel
def lhsS : Res (S1 (Uniform F64) F64) := do ran ((← ran ((← newS 2 0.0 2.0).fillWith (f64 0.5 : F64) (f64 6))).fillWith (f64 1.5 : F64) (f64 1))
def rhsS : Res (S1 (Uniform F64) F64) := do ran ((← ran ((← newS 2 0.0 2.0).fillWith (f64 0.5 : F64) (f64 2))).fillWith (f64 (-1) : F64) (f64 3))
example : [Op.add, Op.sub].mapM (fun o => do
    let r ← rhsS
    match ← HashHistogram.opOwned o (← lhsS) r ⟨r.values.entries, .refl _⟩ with
    | .ok h => return [0, 1, 2, 3].map fun i => (h.valueAtIndex i).getD (f64 0)
    | .error _ => return []) =
    (.ok [[f64 3, f64 8, f64 1, f64 0], [f64 (-3), f64 4, f64 1, f64 0]] : Res (List (List F64))) := by decide +kernel

/-! ## tests/test_fill_overflow.rs -/

example : (do
    let h ← ndhistogram1 (WInt .u32) (← uni 1 0.0 1.0)
    let h ← ran (h.fillWith (f64 0 : F64) (⟨.lit 4294967295⟩ : WInt .u32))
    let h ← ran (h.fill (f64 0 : F64))
    h.value (f64 0 : F64)) = .ok (some ⟨.lit 0⟩) := by decide +kernel

end NdHist.Conformance
