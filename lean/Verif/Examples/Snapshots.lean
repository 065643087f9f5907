import Verif.Props.Snapshots
import Verif.Examples.Content
import Verif.Examples.FloatExact
import Verif.Examples.WrapOps
/-!
# Concrete cases of the theorems in `Props/Snapshots.lean`
-/
namespace NdHist.Examples
open NdHist

section
attribute [local instance] dbg64
def exSnapHist₁ : List (MInt .i32 × Option (MInt .u8)) := [(.lit 7, none), (.lit 60, some (.lit 9))]
def exSnapHist₂ : List (MInt .i32 × Option (MInt .u8)) := [(.lit 60, some (.lit 4)), (.lit (-3), none), (.lit 60, none)]
def exSnapS : VecHistogram (Uniform (MInt .i32)) (MInt .u8) := (exUniNew.callAll (numCalls exSnapHist₁)).1
def exSnapT : VecHistogram (Uniform (MInt .i32)) (MInt .u8) := (exSnapS.callAll (numCalls exSnapHist₂)).1
def exSnapF : VecHistogram (Uniform (MInt .i32)) (MInt .u8) := (exUniNew.callAll (numCalls exSnapHist₂)).1
theorem exSnapS_run : exUniNew.callAll (numCalls exSnapHist₁) = (exSnapS, none) := Prod.ext rfl (by decide +kernel)
theorem exUniNew_ok : exUniNew.Ok 12 := ⟨exUni_faithful.lawful, rfl⟩
example : exSnapT.opBorrow .sub exSnapS = .ok (.ok exSnapF) ∧ exSnapT.opOwned .sub exSnapS = .ok (.ok exSnapF) ∧ exSnapT.opAssign .sub exSnapS = (exSnapF, none) :=
  C94_snapshots exUni_faithful.lawful (by decide) exUniNew_new (VecHistogram.callAll_none_ok exUniNew_ok exSnapS_run).1 (VecHistogram.callAll_none_ok exUniNew_ok exSnapS_run).2 exSnapHist₂
    (Prod.ext rfl (by decide +kernel)) (Prod.ext rfl (by decide +kernel))
example : ∃ f, exUniNew.callAll (numCalls exSnapHist₂) = (f, none) ∧ exSnapT.opBorrow .sub exSnapS = .ok (.ok f) :=
  C94_snapshots_counts exUni_faithful.lawful (by decide) exUniNew_new (VecHistogram.callAll_none_ok exUniNew_ok exSnapS_run).1 (VecHistogram.callAll_none_ok exUniNew_ok exSnapS_run).2 exSnapHist₂
    (fun _ => ⟨fun _ _ w _ => w.min_le, fun v _ => v.min_le⟩) (Prod.ext rfl (by decide +kernel))
example : exSnapF.valuesIter.map MInt.val = [1, 0, 0, 0, 0, 0, 0, 0, 0, 0, 0, 5] := by decide +kernel

def exUndoHist : List (String × Option (MInt .i8)) := [("a", some (.lit 100)), ("b", none), ("a", some (.lit (-90))), ("c", some (.lit 3)), ("a", some (.lit 110))]
def exUndoBack : List (String × Option (MInt .i8)) := [("a", some (.lit (-110))), ("c", some (.lit (-3))), ("a", some (.lit 90)), ("b", some (.lit (-1))), ("a", some (.lit (-100)))]
theorem exUndoBack_back : TakesBack exUndoHist.reverse exUndoBack :=
  .cons ⟨rfl, rfl⟩ (.cons ⟨rfl, rfl⟩ (.cons ⟨rfl, rfl⟩ (.cons ⟨rfl, rfl⟩ (.cons ⟨rfl, rfl⟩ .nil))))
def exUndoH : VecHistogram (CategoryNoFlow String) (MInt .i8) := ⟨exAxis, [.lit 5, .lit 6]⟩
def exUndoH1 : VecHistogram (CategoryNoFlow String) (MInt .i8) := ⟨exAxis, [.lit 125, .lit 7]⟩
example : exUndoH1.callAll (numCalls exUndoBack) = (exUndoH, none) := C94_undo (h := exUndoH) (hist := exUndoHist) rfl exUndoBack_back
/-- another order that does not overflow either -/
example (h2) (r : exUndoH1.callAll (numCalls ([("a", some (.lit (-110))), ("a", some (.lit (-100)))] ++ [("c", some (.lit (-3))), ("a", some (.lit 90)), ("b", some (.lit (-1)))])) = (h2, none)) : h2 = exUndoH :=
  C94_undo_any (h := exUndoH) (hist := exUndoHist) rfl exUndoBack_back (by
    have : exUndoBack.Perm _ := List.Perm.cons _ (List.perm_append_comm (l₁ := [_, _, _]) (l₂ := [_]))
    exact this) r
example : exUndoH1.callAll (numCalls ([("a", some (.lit (-110))), ("a", some (.lit (-100)))] ++ [("c", some (.lit (-3))), ("a", some (.lit 90)), ("b", some (.lit (-1)))])) = (exUndoH, none) := rfl
def exUndoSp : HashHistogram (CategoryNoFlow String) (MInt .i8) := ((HashHistogram.new exAxis).callAll (numCalls exUndoHist)).1
example : ∃ h2, exUndoSp.callAll (numCalls exUndoBack) = (h2, none) ∧ h2.axes = exAxis ∧ ((h2.valueAtIndex 0).map MInt.val).getD 0 = 0 ∧ h2.valueAtIndex 0 ≠ none := by
  obtain ⟨h2, a1, a2, a3⟩ := C94_undo_sparse (h := (HashHistogram.new exAxis)) (h1 := exUndoSp) (hist := exUndoHist) rfl exUndoBack_back
  exact ⟨h2, a1, a2, (a3 0).1, fun h => absurd ((a3 0).2.1 h) (by decide)⟩

def exSpS : HashHistogram (CategoryNoFlow String) (MInt .i8) := ((HashHistogram.new exAxis).callAll (numCalls [("a", some (.lit 100))])).1
def exSpHist : List (String × Option (MInt .i8)) := [("b", some (.lit 4)), ("a", some (.lit 20))]
theorem exSpNew_ok : (HashHistogram.new exAxis : HashHistogram _ (MInt .i8)).Ok 2 := ⟨exAxis_faithful.lawful, HMap.nodup_empty, by simp [HashHistogram.new, HMap.empty, HMap.keys]⟩
theorem exSpS_ok : exSpS.Ok 2 := (HashHistogram.callAll_none_ok exSpNew_ok (calls := numCalls [("a", some (.lit 100))]) rfl).1
example (ko) (ro) := C94_snapshots_sparse (by decide) exSpS_ok (axes := exAxis) rfl exSpHist (t := (exSpS.callAll (numCalls exSpHist)).1) (f := ((HashHistogram.new exAxis).callAll (numCalls exSpHist)).1) rfl rfl ko ro

example := C94_float exGrid_e exAxis_faithful (by decide) exFltNew_new (exGridHist.take 1) (exGridHist.drop 1) (fun _ _ => trivial) (by rw [List.take_append_drop]; exact exGridHist_fin)
  (by rw [List.take_append_drop]; exact exGridHist_grid)
end

section
attribute [local instance] rel64
/-- unsigned weights taken back modulo 256 -/
example : TakesBack [("a", some (.lit 100 : MInt .u8))] [("a", some (.lit 156 : MInt .u8))] := .cons ⟨rfl, ⟨1, rfl⟩⟩ .nil
def exUndoRelH : VecHistogram (CategoryNoFlow String) (MInt .u8) := ⟨exAxis, [.lit 200, .lit 6]⟩
def exUndoRelH1 : VecHistogram (CategoryNoFlow String) (MInt .u8) := ⟨exAxis, [.lit 44, .lit 6]⟩
example : exUndoRelH1.callAll (numCalls [("a", some (.lit 156 : MInt .u8))]) = (exUndoRelH, none) :=
  C94_undo (h := exUndoRelH) (hist := [("a", some (.lit 100 : MInt .u8))]) rfl (.cons ⟨rfl, ⟨1, rfl⟩⟩ .nil)
end
end NdHist.Examples
