import Verif.Examples.Rebin
import Verif.Props.Interchange
/-!
# Concrete cases of the theorems in `Props/Interchange.lean`

`exUni` has ten bins of width 5 from 0 to 50; `exSameV` is the `Variable` axis with the same edges, given in the opposite order.
-/
namespace NdHist.Examples
open NdHist
section
attribute [local instance] dbg64 stdNew

def exSameEdges : List (MInt .i32) := [.lit 50, .lit 45, .lit 40, .lit 35, .lit 30, .lit 25, .lit 20, .lit 15, .lit 10, .lit 5, .lit 0]
def exSameV : Variable (MInt .i32) := ⟨[.lit 0, .lit 5, .lit 10, .lit 15, .lit 20, .lit 25, .lit 30, .lit 35, .lit 40, .lit 45, .lit 50]⟩
theorem exSameV_new : Variable.new exSameEdges = .ok (.ok exSameV) := by decide +kernel
theorem exSame_perm : (exSameEdges.map MInt.val).Perm ((List.range (10 + 1)).map fun k : Nat => (MInt.lit 0 : MInt .i32).val + k * (MInt.lit 5 : MInt .i32).val) := by decide +kernel
theorem exSame : Coarser exUni 12 (BinInterval.Covers (T := MInt .i32)) exSameV 12 (BinInterval.Covers (T := MInt .i32)) id (fun _ => True) id ∧ ∀ i, i < 12 → exUni.bin i = exSameV.bin i :=
  C83_uniform_variable_int (num := 10) (low := .lit 0) (step := .lit 5) rfl (fun h => absurd h (by decide)) (by decide) (by decide) exSameV_new exSame_perm
example : exUni.bin 3 = .ok (some (.Bin (.lit 10) (.lit 15))) ∧ exSameV.bin 3 = .ok (some (.Bin (.lit 10) (.lit 15))) := by decide +kernel
example : Coarser (UniformNoFlow.mk exUni) 10 (BinInterval.Covers (T := MInt .i32)) (VariableNoFlow.mk exSameV) 10 (BinInterval.Covers (T := MInt .i32)) id (fun _ => True) id ∧
    ∀ i, i < 10 → (UniformNoFlow.mk exUni).bin i = (VariableNoFlow.mk exSameV).bin i :=
  C83_uniform_variable_noflow_int (num := 10) (low := .lit 0) (step := .lit 5) rfl (fun h => absurd h (by decide)) (by decide) (by decide) (edges := exSameEdges) (by decide +kernel) exSame_perm
example : Coarser exUniCyc 10 (BinInterval.CoversTurns (τ := .i32) (10 * 5)) (VariableCyclic.mk ⟨exSameV⟩) 10 (BinInterval.CoversTurns (τ := .i32) (10 * 5)) id
    (fun c : MInt .i32 => IntTy.min .i32 ≤ c.val - 0 ∧ c.val - 0 ≤ IntTy.max .i32) id ∧ ∀ i, i < 10 → exUniCyc.bin i = (VariableCyclic.mk ⟨exSameV⟩).bin i :=
  C83_uniform_variable_cyclic_int (num := 10) (low := .lit 0) (step := .lit 5) rfl (fun h => absurd h (by decide)) (by decide) (by decide) (edges := exSameEdges) (by decide +kernel) exSame_perm

/-- the contents are equal bin by bin -/
def exSameNew : VecHistogram (Variable (MInt .i32)) (MInt .u8) := ⟨exSameV, List.replicate 12 (.lit 0)⟩
def exSameCalls : List (Call (MInt .u8) (MInt .i32)) := exRebinCoords.map .fill
example : (exSameNew.callAllCaught (exSameCalls.map (Call.mapCoord id))).valueAtIndex 2 = (exUniNew.callAllCaught exSameCalls).valueAtIndex 2 :=
  C83_dense exSame.1 (fun _ _ _ _ h => h) exUniNew_new (h' := exSameNew) rfl exSameCalls (fun _ _ => trivial) (i := 2) (by decide)
example : (exUniNew.callAllCaught exSameCalls).valueAtIndex 2 = some (.lit 2) := by decide +kernel
example : ((HashHistogram.new exSameV : HashHistogram _ (MInt .u8)).callAllCaught (exSameCalls.map (Call.mapCoord id))).valueAtIndex 2 =
    ((HashHistogram.new exUni : HashHistogram _ (MInt .u8)).callAllCaught exSameCalls).valueAtIndex 2 :=
  C83_sparse exSame.1 (fun _ _ _ _ h => h) exSameCalls (fun _ _ => trivial) (i := 2) (by decide)
example : (exSameNew.callAllCaught (exSameCalls.map (Call.mapCoord id))).value (id (.lit 8 : MInt .i32)) = (exUniNew.callAllCaught exSameCalls).value (.lit 8 : MInt .i32) :=
  C83_value exSame.1 (fun _ _ _ _ h => h) exUniNew_new (h' := exSameNew) rfl exSameCalls (fun _ _ => trivial) (.lit 8 : MInt .i32) trivial

/-- categories in another order -/
def exFruit' : List String := ["plum", "apple", "pear"]
theorem exFruit_perm : exFruit'.Perm exFruit := by decide
example : Coarser (Category.new exFruit) 4 (SingleValueBinInterval.Covers exFruit) (Category.new exFruit') 4 (SingleValueBinInterval.Covers exFruit') id (fun _ => True)
      (mergeCategories exFruit exFruit' id) ∧
    ∀ i j, i < 4 → j < 4 → mergeCategories exFruit exFruit' id i = mergeCategories exFruit exFruit' id j → i = j := C83_category (by decide) exFruit_perm (by decide)
example : (List.range 4).map (mergeCategories exFruit exFruit' id) = [1, 2, 0, 3] := by decide
theorem exFruit_same : Coarser (CategoryNoFlow.new exFruit) 3 (SingleValueBinInterval.Covers exFruit) (CategoryNoFlow.new exFruit') 3 (SingleValueBinInterval.Covers exFruit') id (fun _ => True)
      (mergeCategories exFruit exFruit' id) ∧
    ∀ i j, i < 3 → j < 3 → mergeCategories exFruit exFruit' id i = mergeCategories exFruit exFruit' id j → i = j := C83_category_noflow (by decide) exFruit_perm (by decide)

/-- two axes, the first replaced by a `Variable` axis and the second with its categories in another order -/
abbrev exTVs : AxTy := ⟨Variable (MInt .i32), inferInstance⟩
def exSamePair : AxesTuple exTVs exTC [] := ⟨(exSameV, CategoryNoFlow.new exFruit', ()), [12, 36]⟩
example : Coarser exRebinPair 36 (CoversAll (ts := [exTU, exTC]) (BinInterval.Covers (T := MInt .i32), SingleValueBinInterval.Covers exFruit, ())) exSamePair 36
    (CoversAll (ts := [exTVs, exTC]) (BinInterval.Covers (T := MInt .i32), SingleValueBinInterval.Covers exFruit', ())) (fun (c : MInt .i32 × String × Unit) => (c.1, c.2.1, ()))
    (InDom (ts := [exTU, exTC]) (fun _ => True, fun _ => True, ())) (mergeCells [12, 3] [12, 3] [id, mergeCategories exFruit exFruit' id]) ∧
    ∀ i j, i < 36 → j < 36 → mergeCells [12, 3] [12, 3] [id, mergeCategories exFruit exFruit' id] i = mergeCells [12, 3] [12, 3] [id, mergeCategories exFruit exFruit' id] j → i = j :=
  C83_tuple (t₀ := exTU) (t₁ := exTC) (ts := []) (t₀' := exTVs) (t₁' := exTC) (ts' := []) (t := (exUni, CategoryNoFlow.new exFruit, ())) (t' := (exSameV, CategoryNoFlow.new exFruit', ()))
    (ns := [12, 3]) (ns' := [12, 3])
    ⟨12, [3], 12, [3], _, _, id, fun c => (c.1, ()), rfl, rfl, rfl, fun _ _ => rfl, exSame.1, 3, [], 3, [], _, _, id, id, rfl, rfl, rfl, fun _ _ => rfl, exFruit_same.1, rfl, rfl, rfl⟩
    (by decide) (by decide) (by decide) (by decide) (.cons (fun _ _ _ _ h => h) (.cons exFruit_same.2 .nil)) rfl rfl
example : mergeCells [12, 3] [12, 3] [id, mergeCategories exFruit exFruit' id] 17 = 29 := by decide +kernel

/-- ten float bins of width ten -/
def exTenEdges : List F64 := [f64 0, f64 10, f64 20, f64 30, f64 40, f64 50, f64 60, f64 70, f64 80, f64 90, f64 100]
example : Coarser exGridTen 12 BinInterval.Covers (Variable.mk exTenEdges) 12 BinInterval.Covers id (GridCoord 0 (f64 0) (f64 100)) id :=
  C83_uniform_variable_float (num := 10) exTen_fits (by decide +kernel) (by decide +kernel) (by decide +kernel) (by decide +kernel) (by decide) exGridTen_new (edges := exTenEdges)
    (by decide +kernel) (by decide +kernel) (by decide +kernel)
end
end NdHist.Examples
