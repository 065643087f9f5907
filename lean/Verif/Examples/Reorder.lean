import Verif.Props.ReorderMore
import Verif.Examples.Group
/-! # Examples: C97 -/
namespace NdHist.Examples
section
attribute [local instance] dbg64

abbrev exTys : List AxTy := [⟨Category String, inferInstance⟩, ⟨CategoryNoFlow Nat, inferInstance⟩, ⟨Category Nat, inferInstance⟩]
theorem exOrder : IsOrder [(2 : Fin 3), 0, 1] := ⟨by decide, by decide⟩
example : ¬ IsOrder [(2 : Fin 3), 0] := fun h => by have := h.2 1; revert this; decide

-- (x, y, z) as (z, x, y)
theorem exReordered : ∃ a', AxesTuple.fromTuple (exFlat.select [(2 : Fin 3), 0, 1]) = .ok a' ∧ LawfulAxis exFlatAxes 12 ∧ LawfulAxis a' 12 ∧
    Renumbered exFlatAxes a' 12 (fun c : Coords exTys => Coords.select c [(2 : Fin 3), 0, 1]) (fun b => Intervals.select b [(2 : Fin 3), 0, 1]) (TupTotal exFlat) (selectBin [3, 2, 2] [(2 : Fin 3), 0, 1]) :=
  C97_tuple (σ := [1]) exFlat_lawful (by decide) (by decide) exFlat_from exOrder
-- the bin (1, 1, 0) has number 1 + 3 * 1 + 6 * 0 = 4 and becomes (0, 1, 1) with number 0 + 2 * 1 + 6 * 1 = 8
example : selectBin [3, 2, 2] [(2 : Fin 3), 0, 1] 4 = 8 := by decide
example : selectBin [5, 7] [(1 : Fin 2), 0] (2 + 5 * 3) = 3 + 7 * 2 := C97_two 5 7 2 3 (by decide) (by decide)
theorem exCat_total (c : Nat) : IndexTotal exCat c := by
  obtain ⟨h1, h2⟩ := C18_category_noflow_index [10, 20] (by decide) c
  by_cases h : c ∈ [10, 20]
  · obtain ⟨i, hi, -⟩ := (h1 h).2
    exact ⟨_, hi⟩
  · exact ⟨_, h2 h⟩
theorem exCat'_total {T : Type} [DecidableEq T] (a : Category T) (c : T) : IndexTotal a c := ⟨_, rfl⟩
theorem exFlat_total (c) : TupTotal exFlat c := ⟨exCat'_total _ _, exCat_total c.2.1, exCat'_total _ _, trivial⟩
theorem exNewOk {A : Type} [Axis A] {a : A} {n : Nat} (h : LawfulAxis a n) : (HashHistogram.new a : HashHistogram A (MInt .i32)).Ok n :=
  ⟨h, List.nodup_nil, fun _ hi => nomatch hi⟩

-- the two histograms agree when new, after filling, and when they are read and added
example (calls : List (Call (MInt .i32) (Coords exTys))) : ∃ a', AxesTuple.fromTuple (exFlat.select [(2 : Fin 3), 0, 1]) = .ok a' ∧
    ∃ (h : VecHistogram _ (MInt .i32)) (h' : VecHistogram _ (MInt .i32)), VecHistogram.new exFlatAxes = .ok h ∧ VecHistogram.new a' = .ok h' ∧
      (h'.callAll (calls.map (Call.mapCoord fun c : Coords exTys => Coords.select c [(2 : Fin 3), 0, 1]))).2 = (h.callAll calls).2 ∧
      (∃ items items', h.iter = .ok items ∧ h'.iter = .ok items' ∧ items'.Perm (items.map fun it => ⟨selectBin [3, 2, 2] [(2 : Fin 3), 0, 1] it.index, Intervals.select (ts := exTys) it.bin [(2 : Fin 3), 0, 1], it.value⟩)) ∧
      h'.value (Coords.select (ts := exTys) exFlatC [(2 : Fin 3), 0, 1]) = h.value exFlatC := by
  obtain ⟨a', h1, l1, l2, hs⟩ := exReordered
  obtain ⟨h, h', e1, e2, e3, e4, o1, o2, hv⟩ := C97_new (V := MInt .i32) hs l1 l2
  subst e4; rw [← e3] at hs
  have hr := C97_dense_read hs o1 o2 hv
  exact ⟨h'.axes, h1, h, h', e1, e2, (C97_dense hs o1 o2 hv calls fun call _ => exFlat_total _).1, hr.2, hr.1 _ (exFlat_total _)⟩
example : ∃ a', AxesTuple.fromTuple (exFlat.select [(2 : Fin 3), 0, 1]) = .ok a' ∧ ∀ calls : List (Call (MInt .i32) (Coords exTys)), ∀ i, i < 12 →
    ((HashHistogram.new a' : HashHistogram _ (MInt .i32)).callAllCaught (calls.map (Call.mapCoord fun c : Coords exTys => Coords.select c [(2 : Fin 3), 0, 1]))).valueAtIndex (selectBin [3, 2, 2] [(2 : Fin 3), 0, 1] i)
      = ((HashHistogram.new exFlatAxes : HashHistogram _ (MInt .i32)).callAllCaught calls).valueAtIndex i := by
  obtain ⟨a', h1, l1, l2, hs⟩ := exReordered
  refine ⟨a', h1, fun calls => ?_⟩
  have hs' : Renumbered (HashHistogram.new exFlatAxes : HashHistogram _ (MInt .i32)).axes (HashHistogram.new a' : HashHistogram _ (MInt .i32)).axes 12 _ _ _ _ := hs
  exact (C97_sparse hs' (exNewOk l1) (exNewOk l2) (fun i _ => rfl) calls fun call _ => exFlat_total _).2.2
example : ∃ a', AxesTuple.fromTuple (exFlat.select [(2 : Fin 3), 0, 1]) = .ok a' ∧
    ∀ (_ : (HashHistogram.new exFlatAxes : HashHistogram _ (MInt .i32)).values.Order) (o' : (HashHistogram.new a' : HashHistogram _ (MInt .i32)).values.Order),
      ∃ items', (HashHistogram.new a' : HashHistogram _ (MInt .i32)).iter o' = .ok items' := by
  obtain ⟨a', h1, l1, l2, hs⟩ := exReordered
  refine ⟨a', h1, fun o o' => ?_⟩
  have hs' : Renumbered (HashHistogram.new exFlatAxes : HashHistogram _ (MInt .i32)).axes (HashHistogram.new a' : HashHistogram _ (MInt .i32)).axes 12 _ _ _ _ := hs
  obtain ⟨_, items', _, h, _⟩ := (C97_sparse_read hs' (exNewOk l1) (exNewOk l2) fun i _ => rfl).2 o o'
  exact ⟨items', h⟩

-- adding: the axes are equal, 3 + 3 in the bin of "b", 20, 7
local instance : PEq (AxTy.A ⟨Category String, inferInstance⟩) := inferInstanceAs (PEq (Category String))
local instance : PEq (AxTy.A ⟨CategoryNoFlow Nat, inferInstance⟩) := inferInstanceAs (PEq (CategoryNoFlow Nat))
local instance : PEq (AxTy.A ⟨Category Nat, inferInstance⟩) := inferInstanceAs (PEq (Category Nat))
def exReAxes : AxesTuple ⟨Category Nat, inferInstance⟩ ⟨Category String, inferInstance⟩ [⟨CategoryNoFlow Nat, inferInstance⟩] := ⟨exFlat.select [(2 : Fin 3), 0, 1], [2, 6, 12]⟩
def exRe1 : VecHistogram (AxesTuple ⟨Category String, inferInstance⟩ ⟨CategoryNoFlow Nat, inferInstance⟩ [⟨Category Nat, inferInstance⟩]) (MInt .i32) := ⟨exFlatAxes, (List.replicate 12 (MInt.lit 0)).set 4 (MInt.lit 3)⟩
def exRe2 : VecHistogram (AxesTuple ⟨Category Nat, inferInstance⟩ ⟨Category String, inferInstance⟩ [⟨CategoryNoFlow Nat, inferInstance⟩]) (MInt .i32) := ⟨exReAxes, (List.replicate 12 (MInt.lit 0)).set 8 (MInt.lit 3)⟩
example : ∃ m', exRe2.opBorrow .add exRe2 = .ok m' := by
  obtain ⟨a', h1, l1, l2, hs⟩ := exReordered
  have e : AxesTuple.fromTuple (exFlat.select [(2 : Fin 3), 0, 1]) = .ok exReAxes := rfl
  rw [e] at h1
  cases h1
  have hs' : Renumbered exRe1.axes exRe2.axes 12 _ _ _ _ := hs
  have hv : ∀ i, i < 12 → exRe2.valueAtIndex (selectBin [3, 2, 2] [(2 : Fin 3), 0, 1] i) = exRe1.valueAtIndex i := by decide +kernel
  exact (C97_binary .add hs' ⟨l1, rfl⟩ ⟨l1, rfl⟩ ⟨l2, rfl⟩ ⟨l2, rfl⟩ (by decide +kernel) (by decide +kernel) hv hv).1.1 ⟨_, rfl⟩
theorem exRe : LawfulAxis exRe1.axes 12 ∧ LawfulAxis exRe2.axes 12 ∧ Renumbered exRe1.axes exRe2.axes 12 (fun c : Coords exTys => Coords.select c [(2 : Fin 3), 0, 1]) (fun b => Intervals.select b [(2 : Fin 3), 0, 1])
    (TupTotal exFlat) (selectBin [3, 2, 2] [(2 : Fin 3), 0, 1]) ∧ ∀ i, i < 12 → exRe2.valueAtIndex (selectBin [3, 2, 2] [(2 : Fin 3), 0, 1] i) = exRe1.valueAtIndex i := by
  obtain ⟨a', h1, l1, l2, hs⟩ := exReordered
  have e : AxesTuple.fromTuple (exFlat.select [(2 : Fin 3), 0, 1]) = .ok exReAxes := rfl
  rw [e] at h1
  cases h1
  exact ⟨l1, l2, hs, by decide +kernel⟩
example : (exRe2.opAssign .add exRe2).2 = none := by
  obtain ⟨l1, l2, hs, hv⟩ := exRe
  exact (C97_forms .add hs ⟨l1, rfl⟩ ⟨l1, rfl⟩ ⟨l2, rfl⟩ ⟨l2, rfl⟩ (by decide +kernel) (by decide +kernel) hv hv).2.2.1.1 (by decide +kernel)
example : ∃ m', exRe2.opScalar .mul (MInt.lit 7) = .ok m' := by
  obtain ⟨l1, l2, hs, hv⟩ := exRe
  exact (C97_scalar .mul hs ⟨l1, rfl⟩ ⟨l2, rfl⟩ hv (MInt.lit 7)).1.1 ⟨_, rfl⟩
example [PEq (MInt .i32)] : exRe2.beq exRe2 = exRe1.beq exRe1 := by
  obtain ⟨l1, l2, hs, hv⟩ := exRe
  exact C97_equal hs ⟨l1, rfl⟩ ⟨l1, rfl⟩ ⟨l2, rfl⟩ ⟨l2, rfl⟩ (by decide +kernel) hv hv
-- sparse: bin 4, renumbered 8
def exReS1 : HashHistogram (AxesTuple ⟨Category String, inferInstance⟩ ⟨CategoryNoFlow Nat, inferInstance⟩ [⟨Category Nat, inferInstance⟩]) (MInt .i32) := ⟨exFlatAxes, ⟨[(4, MInt.lit 3)]⟩⟩
def exReS2 : HashHistogram (AxesTuple ⟨Category Nat, inferInstance⟩ ⟨Category String, inferInstance⟩ [⟨CategoryNoFlow Nat, inferInstance⟩]) (MInt .i32) := ⟨exReAxes, ⟨[(8, MInt.lit 3)]⟩⟩
theorem exReS1_ok : exReS1.Ok 12 := ⟨exRe.1, by unfold HMap.NodupKeys; decide, by decide⟩
theorem exReS2_ok : exReS2.Ok 12 := ⟨exRe.2.1, by unfold HMap.NodupKeys; decide, by decide⟩
theorem exReS_get : ∀ i, i < 12 → exReS2.valueAtIndex (selectBin [3, 2, 2] [(2 : Fin 3), 0, 1] i) = exReS1.valueAtIndex i := by decide +kernel
def exReKo : HashHistogram.KeyOrder exReS1 exReS1 := ⟨[4], by decide, by simp [exReS1, HMap.keys]⟩
example (ko' : HashHistogram.KeyOrder exReS2 exReS2) (ro : exReS1.values.Order) (ro' : exReS2.values.Order) : ∃ m', exReS2.opBorrow .sub exReS2 ko' = .ok (.ok m') :=
  (C97_binary_sparse .sub exRe.2.2.1 exReS1_ok exReS1_ok exReS2_ok exReS2_ok (by decide +kernel) (by decide +kernel) exReS_get exReS_get exReKo ko' ro ro').1.1 ⟨_, rfl⟩
example [PEq (MInt .i32)] : exReS2.beq exReS2 = exReS1.beq exReS1 :=
  C97_equal_sparse exRe.2.2.1 exReS1_ok exReS1_ok exReS2_ok exReS2_ok (by decide +kernel) exReS_get exReS_get
end
end NdHist.Examples
