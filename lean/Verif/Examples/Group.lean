import Verif.Props.Group
import Verif.Examples.Axes
/-! # Examples: C95 -/
namespace NdHist.Examples
section
attribute [local instance] dbg64

theorem exFlat_lawful : TupLawful exFlat [3, 2, 2] :=
  ⟨3, [2, 2], rfl, C25_lawful_category _ (by decide), 2, [2], rfl, C25_lawful_category_noflow _ (by decide), 2, [], rfl, C25_lawful_category _ (by decide), rfl⟩
def exFlatAxes : AxesTuple ⟨Category String, inferInstance⟩ ⟨CategoryNoFlow Nat, inferInstance⟩ [⟨Category Nat, inferInstance⟩] := ⟨exFlat, [3, 6, 12]⟩
theorem exFlat_from : AxesTuple.fromTuple exFlat = .ok exFlatAxes := rfl

-- ((x, y), z)
theorem exGrouped : ∃ item' a', exGroups.build exFlat = .ok item' ∧ AxesTuple.fromTuple item' = .ok a' ∧ SameBins exFlatAxes a' exGroups.coords exGroups.intervals :=
  C95_tuple exGroups exFlat_lawful (by decide) (by decide) exFlat_from
def exFlatC : Coords [⟨Category String, inferInstance⟩, ⟨CategoryNoFlow Nat, inferInstance⟩, ⟨Category Nat, inferInstance⟩] := ("b", (20 : Nat), (7 : Nat), ())
def exGroupC : Coords [nestTy ⟨Category String, inferInstance⟩ ⟨CategoryNoFlow Nat, inferInstance⟩ [], ⟨Category Nat, inferInstance⟩] := (("b", (20 : Nat), ()), (7 : Nat), ())
example : exGroups.coords exFlatC = exGroupC := rfl
-- ((x,), ((y, z)))
def exGroups2 : Grouping [⟨Category String, inferInstance⟩, ⟨CategoryNoFlow Nat, inferInstance⟩, ⟨Category Nat, inferInstance⟩]
    [nestTy1 ⟨Category String, inferInstance⟩, nestTy ⟨CategoryNoFlow Nat, inferInstance⟩ ⟨Category Nat, inferInstance⟩ []] :=
  .group1 (hs := [⟨Category String, inferInstance⟩]) (.keep .nil) (.group (hs := [⟨CategoryNoFlow Nat, inferInstance⟩, ⟨Category Nat, inferInstance⟩]) (ts := []) (.keep (.keep .nil)) .nil)
example : ∃ item' a', exGroups2.build exFlat = .ok item' ∧ AxesTuple.fromTuple item' = .ok a' ∧ SameBins exFlatAxes a' exGroups2.coords exGroups2.intervals :=
  C95_tuple exGroups2 exFlat_lawful (by decide) (by decide) exFlat_from
example : Function.Bijective exGroups2.coords := C95_coords _
-- a tuple of one axis; the grouped tuple in a tuple of one axis
example {a : AxesTuple1 (Category String)} (ha : AxesTuple1.fromTuple (Category.new ["a", "b"]) = .ok a) : SameBins (Category.new ["a", "b"]) a id id := C95_single ha
example : ∃ (a' : AxesTuple _ _ _) (a'' : AxesTuple1 (AxesTuple _ _ _)), AxesTuple1.fromTuple a' = .ok a'' ∧ SameBins exFlatAxes a'' (id ∘ exGroups.coords) (id ∘ exGroups.intervals) := by
  obtain ⟨item', a', h1, h2, h3⟩ := exGrouped
  obtain ⟨a'', h4⟩ : ∃ a'', AxesTuple1.fromTuple a' = .ok a'' := by
    have hn : Axis.numBins a' = .ok 12 := h3.numBins
    exact ⟨⟨a', [12]⟩, by unfold AxesTuple1.fromTuple; rw [hn]; rfl⟩
  exact ⟨a', a'', h4, C95_trans (A' := AxesTuple _ _ _) (a' := a') (a'' := a'') (f' := id) (g' := id) h3 (C95_single (X := AxesTuple _ _ _) h4)⟩

-- the histograms count the same
example : ∃ item' a', exGroups.build exFlat = .ok item' ∧ AxesTuple.fromTuple item' = .ok a' ∧
    ∃ (h : VecHistogram _ (MInt .i32)) (h' : VecHistogram _ (MInt .i32)), VecHistogram.new exFlatAxes = .ok h ∧ VecHistogram.new a' = .ok h' ∧
      (h'.callAllCaught [.fill exGroupC]).values = [MInt.lit 0, MInt.lit 0, MInt.lit 0, MInt.lit 0, MInt.lit 1, MInt.lit 0, MInt.lit 0, MInt.lit 0, MInt.lit 0, MInt.lit 0, MInt.lit 0, MInt.lit 0] ∧
      h'.iter = h.iter.map (List.map fun it => ⟨it.index, exGroups.intervals it.bin, it.value⟩) := by
  obtain ⟨item', a', h1, h2, h3⟩ := exGrouped
  obtain ⟨h, hnew⟩ : ∃ h : VecHistogram _ (MInt .i32), VecHistogram.new exFlatAxes = .ok h := ⟨⟨exFlatAxes, List.replicate 12 (MInt.lit 0)⟩, by rfl⟩
  obtain ⟨e, h', e1, e2, e3⟩ := C95_new (V := MInt .i32) h3 hnew
  have hs : SameBins h.axes h'.axes exGroups.coords exGroups.intervals := by rw [e, e2]; exact h3
  refine ⟨item', a', h1, h2, h, h', hnew, e1, ?_, (C95_dense_read hs e3).2.1⟩
  have hd := (C95_dense hs e3 [.fill exFlatC]).2.2
  refine Eq.trans hd ?_
  have : h = ⟨exFlatAxes, List.replicate 12 (MInt.lit 0)⟩ := by
    have : VecHistogram.new (V := MInt .i32) exFlatAxes = .ok ⟨exFlatAxes, List.replicate 12 (MInt.lit 0)⟩ := by rfl
    rw [this] at hnew; cases hnew; rfl
  subst this
  decide +kernel
example : ∃ item' a', exGroups.build exFlat = .ok item' ∧ AxesTuple.fromTuple item' = .ok a' ∧ Axis.bins a' = (Axis.bins exFlatAxes).map (List.map exGroups.intervals) ∧
    ∀ calls : List (Call (MInt .i32) (Coords _)),
      ((HashHistogram.new a' : HashHistogram _ (MInt .i32)).callAllCaught (calls.map (Call.mapCoord exGroups.coords))).values = ((HashHistogram.new exFlatAxes : HashHistogram _ (MInt .i32)).callAllCaught calls).values ∧
      (HashHistogram.new a' : HashHistogram _ (MInt .i32)).value (exGroups.coords exFlatC) = .ok none := by
  obtain ⟨item', a', h1, h2, h3⟩ := exGrouped
  refine ⟨item', a', h1, h2, (C95_axis_iter h3).2.1, fun calls => ?_⟩
  have hs : SameBins (HashHistogram.new exFlatAxes : HashHistogram _ (MInt .i32)).axes (HashHistogram.new a' : HashHistogram _ (MInt .i32)).axes exGroups.coords exGroups.intervals := h3
  exact ⟨(C95_sparse hs rfl calls).2.2, ((C95_sparse_read hs rfl).1 _).trans (by decide +kernel)⟩
end
end NdHist.Examples
