import Verif.Examples.Fill
import Verif.Props.Reachable
import Verif.Props.MergeTree
import Verif.Props.Parallel
/-!
# Concrete cases of the theorems in `Props/Merge.lean`, `MergeFill.lean`, `MergeTree.lean`, `Reachable.lean` and `Parallel.lean`
-/
namespace NdHist.Examples
open NdHist
section
attribute [local instance] dbg64

/-- another dense histogram on the same axis -/
def exD2 : VecHistogram (CategoryNoFlow String) (MInt .u8) := ⟨exAxis, [.lit 0, .lit 4]⟩
theorem exD2_ok : exD2.Ok 2 := ⟨exAxis_lawful, rfl⟩
/-- a histogram on another axis -/
def exD3 : VecHistogram (CategoryNoFlow String) (MInt .u8) := ⟨CategoryNoFlow.new ["a", "c"], [.lit 0, .lit 4]⟩
theorem exL_ok : exL.Ok 2 := C35_counterexample_mul.1
theorem exR_ok : exR.Ok 2 := C35_counterexample_mul.2.1
/-- the keys of `exL` and `exS` -/
def exKeysLS : HashHistogram.KeyOrder exL exS := ⟨[1, 0], by decide, by intro k; simp [exL, exS, HMap.keys]; omega⟩
/-- a sparse histogram on another axis -/
def exS3 : HashHistogram (CategoryNoFlow String) (MInt .u8) := ⟨CategoryNoFlow.new ["a", "c"], ⟨[(1, .lit 7)]⟩⟩

/-! ## C34, C33, C35, C36 -/

example : exD.opBorrow .add exD3 = .ok (.error .mk) ∧ exD.opOwned .mul exD3 = .ok (.error .mk) ∧ exD.opAssign .add exD3 = (exD, some .incompatibleAxes) :=
  ⟨(C34_dense .add exD exD3).1.2 (by decide), (C34_dense .mul exD exD3).2.1.2 (by decide), (C34_dense .add exD exD3).2.2.1 (by decide)⟩
example : exS.opBorrow .add exS3 ⟨[1], by decide, by intro k; simp [exS, exS3, HMap.keys]⟩ = .ok (.error .mk) ∧
    exS.opAssign .sub exS3 ⟨_, List.Perm.refl _⟩ = (exS, some .incompatibleAxes) :=
  ⟨(C34_sparse .add exS exS3 _ ⟨_, List.Perm.refl _⟩).1.2 (by decide),
    (C34_sparse .sub exS exS3 ⟨[1], by decide, by intro k; simp [exS, exS3, HMap.keys]⟩ ⟨_, List.Perm.refl _⟩).2.2.1 (by decide)⟩
/-- 255 + 0, 9 + 4 -/
example : ∃ m, exD.opBorrow .add exD2 = .ok (.ok m) ∧ ∀ i, i < 2 → ∃ x y z, exD.valueAtIndex i = some x ∧ exD2.valueAtIndex i = some y ∧
    ROps.op .add x y = .ok z ∧ m.valueAtIndex i = some z := by
  rcases C33_binwise_dense .add exD_ok exD2_ok (by decide) with ⟨m, h1, -, -, h4⟩ | ⟨p, i, x, y, h1, -⟩
  · exact ⟨m, h1, h4⟩
  · cases h1
/-- 9 - 255 does not exist in `u8` -/
example : ∃ p i x y, exD2.opBorrow .sub exD = .error p ∧ exD2.valueAtIndex i = some x ∧ exD.valueAtIndex i = some y ∧ ROps.op .sub x y = .error p := by
  rcases C33_binwise_dense .sub exD2_ok exD_ok (by decide) with ⟨m, h1, -, -, h4⟩ | h
  · cases h1
  · exact h
example : ∃ m, exL.opBorrow .add exS exKeysLS = .ok (.ok m) ∧ m.valueAtIndex 0 = some (MInt.lit 5) ∧ m.valueAtIndex 1 = some (MInt.lit 7) := by
  refine ⟨⟨exAxis, ⟨[(1, .lit 7), (0, .lit 5)]⟩⟩, rfl, ?_⟩
  obtain ⟨-, -, h⟩ := C33_binwise_sparse .add exL_ok exS_ok exKeysLS (m := ⟨exAxis, ⟨[(1, .lit 7), (0, .lit 5)]⟩⟩) rfl
  exact ⟨Except.ok.inj (h 0).symm, Except.ok.inj (h 1).symm⟩
example : ∃ m, exL.opAssign .add exS ⟨_, List.Perm.refl _⟩ = (m, none) ∧ m.valueAtIndex 0 = exL.valueAtIndex 0 ∧
    ∃ z, ROps.op .add RDefault.dflt (MInt.lit 7 : MInt .u8) = .ok z ∧ m.valueAtIndex 1 = some z := by
  obtain ⟨-, -, h1, h2⟩ := C33_assign_sparse .add exL_ok exS_ok ⟨_, List.Perm.refl _⟩ (m := ⟨exAxis, ⟨[(0, .lit 5), (1, .lit 7)]⟩⟩) rfl
  exact ⟨_, rfl, h1 0 rfl, h2 1 _ rfl⟩
example : exD.opAssign .sub exD2 = (⟨exAxis, [.lit 255, .lit 5]⟩, none) ∧ (exD2.opAssign .sub exD).2 = some .overflow :=
  ⟨(C35_dense .sub exD_ok exD2_ok).2.1 _ rfl, (C35_dense .sub exD2_ok exD_ok).2.2 _ rfl⟩
example : exL.opOwned .mul exS ⟨_, List.Perm.refl _⟩ = .ok (.ok ⟨exAxis, ⟨[(0, .lit 5), (1, .lit 0)]⟩⟩) :=
  (C35_sparse_owned_assign .mul ⟨_, List.Perm.refl _⟩ _ (by decide)).1.2 rfl
example : ∃ m m', exL.opBorrow .add exS exKeysLS = .ok (.ok m) ∧ exL.opAssign .add exS ⟨_, List.Perm.refl _⟩ = (m', none) ∧
    ∀ i, m'.valueAtIndex i = m.valueAtIndex i :=
  ⟨_, _, rfl, rfl, (C35_sparse_neutral .add (int_neutral .add (.inl rfl)) exL_ok exS_ok exKeysLS ⟨_, List.Perm.refl _⟩ rfl rfl).2⟩
example : ∃ m m', exS.opBorrow .sub exS ⟨[1], by decide, by intro k; simp [exS, HMap.keys]⟩ = .ok (.ok m) ∧
    exS.opAssign .sub exS ⟨_, List.Perm.refl _⟩ = (m', none) ∧ ∀ i, m'.valueAtIndex i = m.valueAtIndex i :=
  ⟨_, _, rfl, rfl, (C35_sparse_int .sub (.inr rfl) exS_ok exS_ok ⟨[1], by decide, by intro k; simp [exS, HMap.keys]⟩ ⟨_, List.Perm.refl _⟩ rfl rfl).2⟩
example : ∃ m, exD2.opScalar .mul (MInt.lit 3) = .ok m ∧ m.valueAtIndex 1 = some (MInt.lit 12) := by
  rcases C36_scalar .mul exD2_ok (MInt.lit 3) with ⟨m, h1, -, -, h4⟩ | ⟨p, i, v, h1, -⟩
  · obtain ⟨z, hz, h5⟩ := h4 1 (MInt.lit 4) rfl
    cases hz
    exact ⟨m, h1, h5⟩
  · cases h1

/-! ## histories: C29, C30, C33 -/

/-- a history of `u8` fills, and the same fills in other orders -/
def exH : List (String × Option (MInt .u8)) := [("a", some (MInt.lit 200)), ("b", none), ("a", some (MInt.lit 50))]
def exH' : List (String × Option (MInt .u8)) := [("a", some (MInt.lit 50)), ("a", some (MInt.lit 200)), ("b", none)]
theorem exH_perm : exH.Perm exH' := List.perm_append_singleton _ [_, _]

/-- two orders that both succeed -/
example : ∃ h' h'', exNew.callAll (numCalls exH) = (h', none) ∧ exNew.callAll (numCalls exH') = (h'', none) ∧ h' = h'' :=
  ⟨_, _, rfl, rfl, C29_int_dense (h := exNew) exH_perm rfl rfl⟩
example : ∃ h' h'', exS.callAll (numCalls exH) = (h', none) ∧ exS.callAll (numCalls exH') = (h'', none) ∧ ∀ j, h'.valueAtIndex j = h''.valueAtIndex j :=
  ⟨_, _, rfl, rfl, (C29_int_sparse (h := exS) exH_perm rfl rfl).2⟩
example : ∃ h' h'', exNew.callAll (numCalls exH) = (h', none) ∧ exNew.callAll (numCalls exH') = (h'', none) ∧ h' = h'' :=
  ⟨_, _, rfl, rfl, C29_additive_dense (h := exNew) (μ := fun x : MInt .u8 => residue x) (fun x y h => residue_inj x y h) (List.Perm.map _ exH_perm)
    (fun call hm => someWeight_adds (numCalls_adds residue int_addAssign_residue _ call hm)) rfl rfl⟩
example : ∃ h' h'', exS.callAll (numCalls exH) = (h', none) ∧ exS.callAll (numCalls exH') = (h'', none) ∧ ∀ j, h'.valueAtIndex j = h''.valueAtIndex j :=
  ⟨_, _, rfl, rfl, (C29_additive_sparse (h := exS) (μ := fun x : MInt .u8 => residue x) (fun x y h => residue_inj x y h) (List.Perm.map _ exH_perm)
    (fun call hm => someWeight_adds (numCalls_adds residue int_addAssign_residue _ call hm)) rfl rfl).2⟩
/-- 200 + 1 + 50, the fill of "zzz" not being counted -/
example : ∃ h', exNew.callAll (numCalls [("a", some (MInt.lit 200)), ("b", none), ("zzz", none), ("a", some (MInt.lit 50))]) = (h', none) ∧
    (h'.values.map MInt.val).sum = 251 :=
  ⟨_, rfl, ((C30_int_total exAxis_lawful [("a", some (MInt.lit 200)), ("b", none), ("zzz", none), ("a", some (MInt.lit 50))] exNew_new rfl).1 rfl).trans (by decide +kernel)⟩
/-- two parts -/
def exP : List (String × Option (MInt .u8)) := [("a", none), ("b", some (MInt.lit 7))]
def exQ : List (String × Option (MInt .u8)) := [("x", none), ("b", some (MInt.lit 3))]
example : ∃ h₁ h₂ h₁₂, exNew.callAll (numCalls exP) = (h₁, none) ∧ exNew.callAll (numCalls exQ) = (h₂, none) ∧ h₁.opBorrow .add h₂ = .ok (.ok h₁₂) :=
  ⟨_, _, _, rfl, rfl, C33_merge_int_dense exAxis_lawful (by decide) exP exQ exNew_new rfl rfl rfl⟩
example : ∃ h₁ h₂ h₁₂, exNew.callAll (numCalls exP) = (h₁, none) ∧ exNew.callAll (numCalls exQ) = (h₂, none) ∧ h₁.opBorrow .add h₂ = .ok (.ok h₁₂) :=
  ⟨_, _, _, rfl, rfl, C33_merge_dense (calls₁ := numCalls exP) (calls₂ := numCalls exQ) (int_sumLike_checked rfl) exAxis_lawful (by decide)
    (fun call hm => someWeight_adds (numCalls_adds MInt.val (int_addAssign_val rfl) (exP ++ exQ) call hm)) exNew_new rfl rfl rfl⟩
/-- sparse, with a bin that only one of the parts has -/
def exPs : HashHistogram (CategoryNoFlow String) (MInt .u8) := ⟨exAxis, ⟨[(0, .lit 1), (1, .lit 7)]⟩⟩
def exQs : HashHistogram (CategoryNoFlow String) (MInt .u8) := ⟨exAxis, ⟨[(1, .lit 3)]⟩⟩
def exPQs : HashHistogram (CategoryNoFlow String) (MInt .u8) := ⟨exAxis, ⟨[(0, .lit 1), (1, .lit 10)]⟩⟩
def exPQkeys : HashHistogram.KeyOrder exPs exQs := ⟨[1, 0], by decide, by intro k; simp [exPs, exQs, HMap.keys]; omega⟩
theorem exPs_ok : exPs.Ok 2 := ⟨exAxis_lawful, by unfold HMap.NodupKeys; decide, by decide⟩
theorem exPs_run : (HashHistogram.new exAxis).callAll (numCalls exP) = (exPs, none) := rfl
theorem exQs_run : (HashHistogram.new exAxis).callAll (numCalls exQ) = (exQs, none) := rfl
theorem exPQs_run : (HashHistogram.new exAxis).callAll (numCalls (exP ++ exQ)) = (exPQs, none) := rfl
example : ∃ m, exPs.opBorrow .add exQs exPQkeys = .ok (.ok m) ∧ m.axes = exPQs.axes ∧ ∀ i, m.valueAtIndex i = exPQs.valueAtIndex i :=
  (C33_merge_int_sparse exAxis_lawful (by decide) exP exQ exPs_run exQs_run exPQs_run exPQkeys ⟨_, List.Perm.refl _⟩).1
example : ∃ m, exPs.opAssign .add exQs ⟨_, List.Perm.refl _⟩ = (m, none) ∧ m.axes = exPQs.axes ∧ ∀ i, m.valueAtIndex i = exPQs.valueAtIndex i :=
  (C33_merge_sparse (int_sumLike_checked rfl) exAxis_lawful (by decide)
    (fun call hm => someWeight_adds (numCalls_adds MInt.val (int_addAssign_val rfl) (exP ++ exQ) call hm)) exPs_run exQs_run exPQs_run exPQkeys ⟨_, List.Perm.refl _⟩).2

/-! ## C54, C55, C56 -/

/-- `exPlan` merges three shares in another grouping and order than the data came -/
def exPlanHist : List (String × Option (MInt .u8)) := [("a", none), ("b", none), ("b", none), ("x", none)]
def exMerged : VecHistogram (CategoryNoFlow String) (MInt .u8) := ⟨exAxis, [.lit 1, .lit 2]⟩
theorem exPlan_perm : (numCalls exPlanHist).Perm exPlan.calls :=
  (List.perm_append_comm : ([.fill "a", .fill "b"] ++ [.fill "b", .fill "x"] : List (Call (MInt .u8) String)).Perm _)
theorem exPlan_run : MergePlan.run (A := CategoryNoFlow String) exNew exPlan = .ok (.ok exMerged) := rfl
example : ∃ h', exNew.callAll (numCalls exPlanHist) = (h', none) ∧ exMerged = h' :=
  ⟨_, rfl, C54_plan_int exAxis_lawful exNew_new exPlan_perm exPlan_run rfl⟩
example : ∃ h', exNew.callAll (numCalls exPlanHist) = (h', none) ∧ exMerged = h' :=
  ⟨_, rfl, C54_plan_dense int_additive exAxis_lawful exNew_new exPlan_perm
    (fun call hm => someWeight_adds (numCalls_adds residue int_addAssign_residue _ call hm)) exPlan_run rfl⟩
example : ∃ m items, MergePlan.run (A := CategoryNoFlow String) exNew exPlan = .ok (.ok m) ∧ m.iter = .ok items ∧ items.length = 2 := by
  obtain ⟨m, items, h1, h2, h3, -⟩ := C54_count (C51_category_noflow ["a", "b"] (by decide) (by decide)) (by decide) exNew_new exPlan ["b", "x", "a", "b"] rfl
    (fun _ _ => trivial) (by decide)
  exact ⟨m, items, h1, h2, h3⟩

/-- `+=` panics at bin 1, after bin 0 was updated -/
example := C55_assign_dense .add (l := ⟨exAxis, [MInt.lit 1, MInt.lit 250]⟩) (r := ⟨exAxis, [MInt.lit 2, (MInt.lit 10 : MInt .u8)]⟩)
  (m := ⟨exAxis, [MInt.lit 3, MInt.lit 250]⟩) (p := .overflow) (n := 2) ⟨exAxis_lawful, rfl⟩ (by decide) rfl
/-- `-=` on a bin the left histogram does not have: it is created with the default and the subtraction panics -/
example := C55_assign_sparse .sub (l := exL) (r := exS) (m := ⟨exAxis, ⟨[(0, .lit 5), (1, .lit 0)]⟩⟩) (p := .overflow) exL_ok exS_ok (le_refl 2) (by decide)
  ⟨_, List.Perm.refl _⟩ rfl
example := C55_values_mut_sparse exPs_ok ⟨_, List.Perm.refl _⟩ (addAssign (MInt.lit 250 : MInt .u8)) (p := .overflow) rfl
/-- a histogram reached by `from_vec` and a fill -/
example : ∃ h : VecHistogram (CategoryNoFlow String) (MInt .u8), h.values = [.lit 255, .lit 10] ∧ ∃ items, h.iter = .ok items ∧ items.map (·.index) = [0, 1] :=
  ⟨_, rfl, (C56_dense exMade_same (P := exMade) (.fill (.fill "b") (.fromVec (vs := [MInt.lit 255, (MInt.lit 9 : MInt .u8)]) ⟨["a", "b"], rfl⟩ rfl)) exAxis_lawful).2.2.2⟩
example : ∃ h : HashHistogram (CategoryNoFlow String) (MInt .u8), h.valueAtIndex 1 = some (MInt.lit 7) ∧ h.Ok 2 :=
  ⟨_, rfl, (C56_sparse exMade_same (P := exMade) (.fill (.fillWith "b" (MInt.lit 7 : MInt .u8)) (.new ⟨["a", "b"], rfl⟩)) exAxis_lawful).2.1⟩

/-! ## C39: two bins, two steps each, interleaved -/

/-- add 1, then 2 -/
def exBody : Nat → SingleValueBinInterval String → List (Upd (MInt .u8)) := fun _ _ => [addAssign (MInt.lit 1), addAssign (MInt.lit 2)]
theorem exDone (sched : List Nat) (h : sched = [1, 0, 1, 0] ∨ sched = [0, 0, 1, 1]) : AllDone (runSchedule sched (exD2.parIterMutTasks exBody)) := by
  intro t ht
  rcases h with rfl | rfl <;>
  · simp [exD2, VecHistogram.parIterMutTasks, VecHistogram.itemWork, runSchedule, List.mapIdx_cons] at ht
    rcases ht with rfl | rfl <;> rfl
example : (exD2.parIterMut exBody [1, 0, 1, 0]).1.valueAtIndex 1 = some (MInt.lit 7) :=
  ((C39_par_iter_mut exD2_ok exBody [1, 0, 1, 0] (exDone _ (.inl rfl))).2.2 1 _ _ rfl rfl).1
example : (exD2.parIterMut exBody [1, 0, 1, 0]).1 = (exD2.iterMut fun i b => runSteps (exBody i b)).1 :=
  (C39_par_iter_mut_sequential exD2_ok exBody [1, 0, 1, 0] (exDone _ (.inl rfl))).2 rfl
example : exD2.parIterMut exBody [1, 0, 1, 0] = exD2.parIterMut exBody [0, 0, 1, 1] :=
  C39_schedule_independent exD2_ok exBody _ _ (exDone _ (.inl rfl)) (exDone _ (.inr rfl))
/-- interrupted after one step of bin 1 -/
example : ∃ k, (exD2.parIterMut exBody [1]).1.valueAtIndex 1 = some (runSteps ((exBody 1 (.Bin "b")).take k) (MInt.lit 4)).1 :=
  (C39_interrupted exD2_ok exBody [1] (b := .Bin "b") rfl rfl).2
example : (exD2.parValuesMut (fun _ => [addAssign (MInt.lit 1)]) [1, 0]).1.valueAtIndex 1 = some (MInt.lit 5) := by
  refine ((C39_par_values_mut exD2_ok (fun _ => [addAssign (MInt.lit 1)]) [1, 0] ?_).2.2 1).1
  intro t ht
  simp [exD2, VecHistogram.parValuesMutTasks, runSchedule, List.mapIdx_cons] at ht
  rcases ht with rfl | rfl <;> rfl
example : ∃ items, exD2.iter = .ok items ∧ exD2.parIter = items.map .ok := by
  obtain ⟨items, h1, h2, -⟩ := C39_par_iter exD2_ok
  exact ⟨items, h1, h2⟩
example : (exS.parIterMut exBody [0, 0]).1.valueAtIndex 1 = some (MInt.lit 10) ∧ (exS.parIterMut exBody [0, 0]).1.valueAtIndex 0 = none := by
  have h := C39_par_iter_mut_sparse exS_ok exBody [0, 0] (by
    intro t ht
    simp [exS, HashHistogram.parIterMutTasks, VecHistogram.itemWork, runSchedule] at ht
    subst ht; rfl)
  exact ⟨h.2.2.2.1 1 _ _ rfl rfl, h.2.2.1 0 rfl⟩
example : (exS.parValuesMut [addAssign (MInt.lit 1)] [0]).1.valueAtIndex 1 = some (MInt.lit 8) := by
  refine (C39_par_values_mut_sparse exS_ok [addAssign (MInt.lit 1)] [0] ?_).2.2.1 1
  intro t ht
  simp [exS, runSchedule] at ht
  subst ht; rfl
example : ∃ items, exS.iter ⟨_, List.Perm.refl _⟩ = .ok items ∧ exS.parIter ⟨_, List.Perm.refl _⟩ = items.map .ok := C39_par_iter_sparse exS_ok _
end
end NdHist.Examples
