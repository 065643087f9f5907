import Verif.Props.Iter
import Verif.Examples.Fill
import Verif.Examples.UniformInt
/-!
# Concrete cases of C67
-/
namespace NdHist.Examples
open NdHist
section
attribute [local instance] dbg64 numPEq

/-- the axis `exU8` of 22 bins, of which the bins 13 to 20 cannot be computed: the call number 12 yields, number 13 panics, number 21 yields again -/
example : ((Axis.iterL exU8).pull 23 (0, 22)).1[12]? = some (.ok (some (12, .Bin (.lit 11) (.lit 12)))) ∧
    ((Axis.iterL exU8).pull 23 (0, 22)).1[13]? = some (.error .overflow) ∧ ((Axis.iterL exU8).pull 23 (0, 22)).1[21]? = some (.ok (some (21, .Overflow (.lit 20)))) ∧
    ((Axis.iterL exU8).pull 23 (0, 22)).1[22]? = some (.ok none) := by
  rw [(C67_axis (a := exU8) (n := 22) rfl 23).2.2.1]
  exact ⟨rfl, rfl, rfl, rfl⟩
/-- the whole iteration panics -/
example : (Axis.iterL exU8).collect 23 (0, 22) = .error .overflow := by
  rw [(C67_axis_collect (a := exU8) (n := 22) rfl (by decide)).2.1]
  rfl
example : (exD.iterL.pull 3 (0, 2)).1 = [.ok (some ⟨0, SingleValueBinInterval.Bin "a", .lit 255⟩), .ok (some ⟨1, SingleValueBinInterval.Bin "b", .lit 9⟩), .ok none] := by
  rw [(C67_dense_iter (h := exD) (n := 2) rfl (by decide) 3).1]
  rfl
example : (exD.iterMutL.pull 3 ((0, 2), List.range exD.values.length)).1 = [.ok (some ⟨0, SingleValueBinInterval.Bin "a", 0⟩), .ok (some ⟨1, SingleValueBinInterval.Bin "b", 1⟩), .ok none] := by
  rw [(C67_dense_iter_mut (h := exD) (n := 2) rfl (by decide) 3).2.1]
  rfl
example : exD.loopMut 3 (fun _ _ => noBreak (addAssign (MInt.lit 1))) = exD.iterMut fun _ _ => addAssign (MInt.lit 1) :=
  (C67_dense_loop (h := exD) (by decide)).1 _
/-- a loop that subtracts 5 from the first bin and breaks there -/
example : (exD.loopMut 3 fun i _ v => if i = 0 then (.lit 250, .stop) else (v, .next)).1.values = [.lit 250, .lit 9] := by rfl
example : ∃ k, k ≤ 2 ∧ (∀ i, k ≤ i → (exD.loopMut 3 fun i _ v => if i = 0 then (.lit 250, .stop) else (v, .next)).1.valueAtIndex i = exD.valueAtIndex i) := by
  obtain ⟨k, h1, -, -, -, -, h6⟩ := (C67_dense_break exD_ok (fuel := 3) (by decide) (bin := fun i => if i = 0 then SingleValueBinInterval.Bin "a" else SingleValueBinInterval.Bin "b")
    (val := fun i => if i = 0 then .lit 255 else .lit 9)
    (by intro i hi; obtain rfl | rfl : i = 0 ∨ i = 1 := by omega
        · rfl
        · rfl)
    (by intro i hi; obtain rfl | rfl : i = 0 ∨ i = 1 := by omega
        · rfl
        · rfl)).1 fun i _ v => if i = 0 then (.lit 250, .stop) else (v, .next)
  exact ⟨k, h1, h6⟩
/-- a sparse histogram with two bins, stored in this order -/
def exS2 : HashHistogram (CategoryNoFlow String) (MInt .u8) := ⟨exAxis, ⟨[(1, .lit 7), (0, .lit 3)]⟩⟩
def exS2o : exS2.values.Order := ⟨[(1, .lit 7), (0, .lit 3)], List.Perm.refl _⟩
example : (exS2.iterL.pull 3 exS2o.list).1 = [.ok (some ⟨1, SingleValueBinInterval.Bin "b", .lit 7⟩), .ok (some ⟨0, SingleValueBinInterval.Bin "a", .lit 3⟩), .ok none] := by
  rw [(C67_sparse exS2o 3).1]
  rfl
example : exS2.loopMut exS2o 3 (fun _ _ => noBreak (addAssign (MInt.lit 1))) = exS2.iterMut exS2o fun _ _ => addAssign (MInt.lit 1) :=
  (C67_sparse_loop exS2o (by decide)).1 _
/-- a loop that breaks at the first stored bin -/
example : ((exS2.loopValuesMut exS2o 3 fun _ => (.lit 8, .stop)).1.values.entries) = [(1, .lit 8), (0, .lit 3)] := rfl
example : ∃ vis rest, [1, 0] = vis ++ rest ∧ ∀ i, i ∉ vis → (exS2.loopValuesMut exS2o 3 fun _ => (.lit 8, .stop)).1.valueAtIndex i = exS2.valueAtIndex i := by
  obtain ⟨vis, rest, h1, -, -, -, h5⟩ := (C67_sparse_break (h := exS2) (by unfold HMap.NodupKeys; decide) exS2o (fuel := 3) (by decide)
    (bin := fun i => if i = 0 then SingleValueBinInterval.Bin "a" else SingleValueBinInterval.Bin "b") (val := fun i => if i = 0 then .lit 3 else .lit 7)
    (by intro i hi; obtain rfl | rfl : i = 1 ∨ i = 0 := by simpa [exS2, HMap.keys] using hi
        · rfl
        · rfl)
    (by intro i hi; obtain rfl | rfl : i = 1 ∨ i = 0 := by simpa [exS2, HMap.keys] using hi
        · rfl
        · rfl)).2 fun _ => (.lit 8, .stop)
  exact ⟨vis, rest, h1, h5⟩
end
example := C67_counterexample_caught_panic dbg64 rfl rfl
end NdHist.Examples
