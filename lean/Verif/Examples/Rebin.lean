import Verif.Examples.Content
import Verif.Examples.FloatGrid
import Verif.Props.RebinAxes
/-!
# Concrete cases of the theorems in `Props/Rebin.lean` and `Props/RebinAxes.lean`

`exUni` has ten bins of width 5 from 0 to 50; `exUni5` two of width 25.
-/
namespace NdHist.Examples
open NdHist
section
attribute [local instance] dbg64 stdNew

def exUni5 : Uniform (MInt .i32) := ⟨2, .lit 0, .lit 50, .lit 25⟩
theorem exUni_coarser : Coarser exUni 12 (BinInterval.Covers (T := MInt .i32)) exUni5 4 (BinInterval.Covers (T := MInt .i32)) id (fun _ => True) (fun i => (i + (5 - 1)) / 5) :=
  C82_uniform_int (num := 2) (r := 5) (low := .lit 0) (step := .lit 5) (step' := .lit 25) (by decide) (by decide) rfl rfl (fun h => absurd h (by decide)) (by decide) (by decide)
def exUni5New : VecHistogram (Uniform (MInt .i32)) (MInt .u8) := ⟨exUni5, List.replicate 4 (.lit 0)⟩
/-- three of the five calls are in `[0, 25)`, the first coarse bin -/
def exRebinCoords : List (MInt .i32) := [.lit 7, .lit 60, .lit 5, .lit 24, .lit 25]
example : ∃ v', (exUni5New.callAllCaught (exRebinCoords.map fun c => .fill c)).valueAtIndex 1 = some v' ∧
    v'.val = ∑ i ∈ (Finset.range 12).filter (fun i => (i + (5 - 1)) / 5 = 1), ((exUniNew.callAllCaught (exRebinCoords.map .fill)).valueAtIndex i).elim 0 MInt.val :=
  C82_count exUni_coarser exUniNew_new (h' := exUni5New) rfl exRebinCoords (fun _ _ => trivial) (by decide) (j := 1) (by decide)
example : (exUni5New.callAllCaught (exRebinCoords.map fun c => .fill c)).valueAtIndex 1 = some (.lit 3) := by decide +kernel
example : ∃ v', (exUni5New.callAllCaught ((exRebinCoords.map .fill).map (Call.mapCoord id))).valueAtIndex 1 = some v' ∧
    v'.val = ∑ i ∈ (Finset.range 12).filter (fun i => (i + (5 - 1)) / 5 = 1), ((exUniNew.callAllCaught (exRebinCoords.map .fill)).valueAtIndex i).elim 0 MInt.val :=
  C82_dense exUni_coarser exUniNew_new (h' := exUni5New) rfl (exRebinCoords.map .fill) (fun _ _ => trivial) MInt.val (fun _ => 1) (additive_count exRebinCoords (by decide)) (j := 1) (by decide)
example : (((HashHistogram.new exUni5 : HashHistogram _ (MInt .u8)).callAllCaught ((exRebinCoords.map .fill).map (Call.mapCoord id))).valueAtIndex 1).elim 0 MInt.val =
    ∑ i ∈ (Finset.range 12).filter (fun i => (i + (5 - 1)) / 5 = 1), (((HashHistogram.new exUni : HashHistogram _ (MInt .u8)).callAllCaught (exRebinCoords.map .fill)).valueAtIndex i).elim 0 MInt.val :=
  C82_sparse exUni_coarser (exRebinCoords.map .fill) (fun _ _ => trivial) MInt.val (fun _ => 1) (additive_count exRebinCoords (by decide)) 1

/-- without flow bins and cyclic -/
example : Coarser (UniformNoFlow.mk exUni) 10 (BinInterval.Covers (T := MInt .i32)) (UniformNoFlow.mk exUni5) 2 (BinInterval.Covers (T := MInt .i32)) id (fun _ => True) (fun i => i / 5) :=
  C82_uniform_int_noflow (num := 2) (r := 5) (low := .lit 0) (step := .lit 5) (step' := .lit 25) (by decide) (by decide) rfl rfl (fun h => absurd h (by decide)) (by decide) (by decide)
example : Coarser (UniformNoFlow.mk exUni) 10 (BinInterval.Covers (T := MInt .i32)) (UniformNoFlow.mk exUni5) 2 (BinInterval.Covers (T := MInt .i32)) id (fun _ => True) (fun i => (i + 1 + (5 - 1)) / 5 - 1) :=
  C82_uniform_noflow exUni_coarser (by decide) (by decide)
def exUniCyc : UniformCyclic (MInt .i32) := ⟨⟨exUni⟩⟩
def exUni5Cyc : UniformCyclic (MInt .i32) := ⟨⟨exUni5⟩⟩
theorem exCyc_coarser : Coarser exUniCyc 10 (BinInterval.CoversTurns (τ := .i32) ((2 * 5 : ℕ) * 5)) exUni5Cyc 2 (BinInterval.CoversTurns (τ := .i32) ((2 * 5 : ℕ) * 5)) id
    (fun c : MInt .i32 => IntTy.min .i32 ≤ c.val - 0 ∧ c.val - 0 ≤ IntTy.max .i32) (fun i => i / 5) :=
  C82_uniform_int_cyclic (num := 2) (r := 5) (low := .lit 0) (step := .lit 5) (step' := .lit 25) (by decide) (by decide) rfl rfl (fun h => absurd h (by decide)) (by decide) (by decide)
/-- -3 is in the last fine bin and in the last coarse bin -/
example : exUniCyc.index (.lit (-3)) = .ok (some 9) ∧ exUni5Cyc.index (.lit (-3)) = .ok (some (9 / 5)) := by decide +kernel

/-- the edges 0, 5, 10, 20, 50, and 20 and the outer ones of them -/
def exFine : List (MInt .i32) := [.lit 5, .lit 0, .lit 50, .lit 10, .lit 20]
def exCoarseE : List (MInt .i32) := [.lit 20, .lit 0, .lit 50]
def exFineV : Variable (MInt .i32) := ⟨[.lit 0, .lit 5, .lit 10, .lit 20, .lit 50]⟩
def exCoarseV : Variable (MInt .i32) := ⟨[.lit 0, .lit 20, .lit 50]⟩
theorem exFineV_new : Variable.new exFine = .ok (.ok exFineV) := by decide +kernel
theorem exCoarseV_new : Variable.new exCoarseE = .ok (.ok exCoarseV) := by decide +kernel
example : Coarser exFineV 6 (BinInterval.Covers (T := MInt .i32)) exCoarseV 4 (BinInterval.Covers (T := MInt .i32)) id (fun c : MInt .i32 => POrd.eq c c = true) (mergeEdges exFine exCoarseE) :=
  C82_variable exFineV_new exCoarseV_new (by decide) (by decide) (by decide) (by decide) (by decide)
/-- the bins are numbered 0, then thrice 1, 2 and 3 -/
example : (List.range 6).map (mergeEdges exFine exCoarseE) = [0, 1, 1, 1, 2, 3] := by decide +kernel
example : Coarser (VariableNoFlow.mk exFineV) 4 (BinInterval.Covers (T := MInt .i32)) (VariableNoFlow.mk exCoarseV) 2 (BinInterval.Covers (T := MInt .i32)) id (fun _ => True)
    (fun i => mergeEdges exFine exCoarseE (i + 1) - 1) :=
  C82_variable_noflow (edges := exFine) (edges' := exCoarseE) (by decide +kernel) (by decide +kernel) (by decide) (by decide) (by decide) (by decide) (by decide)
    ⟨.lit 0, by decide, by decide⟩ ⟨.lit 50, by decide, by decide⟩

/-- three kinds of fruit, renamed to two -/
def exFruit : List String := ["apple", "pear", "plum"]
def exKind : String → String | "apple" => "pome" | "pear" => "pome" | "plum" => "stone" | _ => "other"
theorem exKind_map : ∀ c, exKind c ∈ ["stone", "pome"] ↔ c ∈ exFruit := by
  intro c
  unfold exKind
  split <;> simp_all [exFruit]
example : Coarser (Category.new exFruit) 4 (SingleValueBinInterval.Covers exFruit) (Category.new ["stone", "pome"]) 3 (SingleValueBinInterval.Covers ["stone", "pome"]) exKind (fun _ => True)
    (mergeCategories exFruit ["stone", "pome"] exKind) := C82_category (by decide) (by decide) (by decide) (by decide) exKind exKind_map
example : (List.range 4).map (mergeCategories exFruit ["stone", "pome"] exKind) = [1, 1, 0, 2] := by decide
theorem exFruit_coarser : Coarser (CategoryNoFlow.new exFruit) 3 (SingleValueBinInterval.Covers exFruit) (CategoryNoFlow.new ["stone", "pome"]) 2 (SingleValueBinInterval.Covers ["stone", "pome"]) exKind
    (fun _ => True) (mergeCategories exFruit ["stone", "pome"] exKind) := C82_category_noflow (by decide) (by decide) (by decide) (by decide) exKind exKind_map

/-- two axes, both rebinned -/
def exRebinPair : AxesTuple exTU exTC [] := ⟨(exUni, CategoryNoFlow.new exFruit, ()), [12, 36]⟩
def exRebinPair' : AxesTuple exTU exTC [] := ⟨(exUni5, CategoryNoFlow.new ["stone", "pome"], ()), [4, 8]⟩
theorem exPair_coarser : Coarser exRebinPair 36 (CoversAll (ts := [exTU, exTC]) (BinInterval.Covers (T := MInt .i32), SingleValueBinInterval.Covers exFruit, ())) exRebinPair' 8
    (CoversAll (ts := [exTU, exTC]) (BinInterval.Covers (T := MInt .i32), SingleValueBinInterval.Covers ["stone", "pome"], ())) (fun (c : MInt .i32 × String × Unit) => (c.1, exKind c.2.1, ()))
    (InDom (ts := [exTU, exTC]) (fun _ => True, fun _ => True, ())) (mergeCells [12, 3] [4, 2] [fun i => (i + (5 - 1)) / 5, mergeCategories exFruit ["stone", "pome"] exKind]) :=
  C82_tuple (t₀ := exTU) (t₁ := exTC) (ts := []) (t₀' := exTU) (t₁' := exTC) (ts' := []) (t := (exUni, CategoryNoFlow.new exFruit, ())) (t' := (exUni5, CategoryNoFlow.new ["stone", "pome"], ()))
    (ns := [12, 3]) (ns' := [4, 2])
    ⟨12, [3], 4, [2], _, _, id, fun c => (exKind c.1, ()), rfl, rfl, rfl, fun _ _ => rfl, exUni_coarser, 3, [], 2, [], _, _, exKind, id, rfl, rfl, rfl, fun _ _ => rfl, exFruit_coarser, rfl, rfl, rfl⟩
    (by decide) (by decide) (by decide) (by decide) rfl rfl
/-- the cell ([20, 25), "pear") is part of the cell ([0, 25), "pome") -/
example : exRebinPair.index (.lit 22, "pear", ()) = .ok (some 17) ∧ exRebinPair'.index (.lit 22, "pome", ()) = .ok (some 5) ∧
    mergeCells [12, 3] [4, 2] [fun i => (i + (5 - 1)) / 5, mergeCategories exFruit ["stone", "pome"] exKind] 17 = 5 := by decide +kernel
example : Coarser exUni 12 (BinInterval.Covers (T := MInt .i32)) exUni 12 (BinInterval.Covers (T := MInt .i32)) id (fun _ => True) id := C82_refl exUni_faithful

/-- ten float bins of width ten, and two of width fifty -/
def exGridTwo : Uniform F64 := ⟨2, f64 0, f64 100, f64 50⟩
example : Coarser exGridTen 12 BinInterval.Covers exGridTwo 4 BinInterval.Covers id (GridCoord 0 (f64 0) (f64 100)) (fun i => (i + (5 - 1)) / 5) :=
  C82_uniform_float (num := 2) (r := 5) exTen_fits (by decide +kernel) (by decide +kernel) (by decide +kernel) (by decide +kernel) (by decide) exGridTen_new (by decide +kernel)
example : Coarser (UniformNoFlow.mk exGridTen) 10 BinInterval.Covers (UniformNoFlow.mk exGridTwo) 2 BinInterval.Covers id (GridCoord 0 (f64 0) (f64 100)) (fun i => i / 5) :=
  C82_uniform_float_noflow (num := 2) (r := 5) exTen_fits (by decide +kernel) (by decide +kernel) (by decide +kernel) (by decide +kernel) (by decide) (by decide +kernel) (by decide +kernel)
def exDeg2 : UniformCyclic F64 := ⟨⟨⟨2, f64 0, f64 360, f64 180⟩⟩⟩
example : Coarser exDeg 4 (BinInterval.CoversTurnsF ((f64 360).val - (f64 0).val)) exDeg2 2 (BinInterval.CoversTurnsF ((f64 360).val - (f64 0).val)) id (GridTurns 0 (f64 0)) (fun i => i / 2) :=
  C82_uniform_float_cyclic (num := 2) (r := 2) exDeg_fits (by decide +kernel) (by decide +kernel) (by decide +kernel) (by decide +kernel) (by decide) (by decide +kernel) (by decide +kernel)
end
end NdHist.Examples
