import Verif.Props.Checkpoint
import Verif.Examples.Rest
import Verif.Examples.SparseFill
/-!
# Concrete cases of the theorems in `Props/Checkpoint.lean`
-/
namespace NdHist.Examples
open NdHist
section
attribute [local instance] dbg64 stdNew numPEq

theorem exAxis_forever : RoundTripsForever exAxis := (C91_axis_category C46_string ["a", "b"] (by decide)).2
example : RoundTripsForever (UniformNoFlow.mk exU) := C91_axis_exact (C46_uniform_noflow (C46_int _) _ (by decide))
example : RoundTripsForever (⟨exAxis, [2]⟩ : AxesTuple1 (CategoryNoFlow String)) := C91_axis_tuple1 _ exAxis_forever (by decide)
example (a : AxesTuple ⟨Uniform (MInt .i32), inferInstance⟩ ⟨Category String, inferInstance⟩ []) (hax : a.axes = (exU, Category.new ["x", "y"], ()))
    (hs : ∀ n ∈ a.shape, n < usizeSize) : RoundTripsForever a :=
  C91_axis_tuple a (by rw [hax]; exact ⟨C91_axis_exact (C46_uniform (C46_int _) exU (by decide)), (C91_axis_category C46_string ["x", "y"] (by decide)).1, trivial⟩) hs

def exJobNew : VecHistogram (CategoryNoFlow String) (MInt .u8) := ⟨exAxis, [.lit 0, .lit 0]⟩
def exJobCs : List String := ["b", "a", "c", "b"]
/-- two calls, a checkpoint, one more call, a crash, and the last two calls -/
theorem exJob_run : ∃ v j, Serde.ser exJobNew v ∧ Job.Run (fun h c => (h.call c).1) (exJobCs.map Call.fill) ⟨exJobNew, 0, v, 0⟩ j ∧ j.pos = 4 := by
  obtain ⟨v, hv⟩ := (vec_forever (C46_int .u8) (h := exJobNew) exAxis_forever).1
  let calls : List (Call (MInt .u8) String) := exJobCs.map Call.fill
  let j2 : Job (VecHistogram (CategoryNoFlow String) (MInt .u8)) := ⟨((exJobNew.call (.fill "b")).1.call (.fill "a")).1, 2, v, 0⟩
  have r2 : Job.Run (fun h c => (VecHistogram.call h c).1) calls ⟨exJobNew, 0, v, 0⟩ j2 :=
    (Relation.ReflTransGen.single (.call _ (Call.fill "b") rfl)).tail (.call _ (Call.fill "a") rfl)
  obtain ⟨w, hw⟩ := (C91_dense (C46_int .u8) exAxis_forever hv calls r2).2.2.2.1
  have r3 : Job.Run (fun h c => (VecHistogram.call h c).1) calls ⟨exJobNew, 0, v, 0⟩ { j2 with file := w, filePos := 2 } := r2.tail (.save _ w hw)
  have r4 := r3.tail (.call _ (Call.fill "c") rfl)
  obtain ⟨m, hm, -⟩ := (C91_dense (C46_int .u8) exAxis_forever hv calls r4).2.2.2.2
  have r5 := r4.tail (.restart _ m hm)
  have r6 := (r5.tail (.call _ (Call.fill "c") rfl)).tail (.call _ (Call.fill "b") rfl)
  exact ⟨v, _, hv, r6, rfl⟩
/-- "b" is counted twice, not three times -/
example : ∃ j : Job (VecHistogram (CategoryNoFlow String) (MInt .u8)), ∃ items, j.mem.iter = .ok items ∧ items.length = 2 := by
  obtain ⟨v, j, hv, run, hp⟩ := exJob_run
  obtain ⟨items, h1, h2, -⟩ := C91_count exAxis_faithful exAxis_forever (h := exJobNew) rfl hv exJobCs (fun _ _ => trivial) (by decide) run hp
  exact ⟨j, items, h1, h2⟩
example : ∃ v j, Serde.ser exJobNew v ∧ Job.Run (fun h c => (h.call c).1) (exJobCs.map Call.fill) ⟨exJobNew, 0, v, 0⟩ j ∧ j.mem.values = [.lit 1, .lit 2] := by
  obtain ⟨v, j, hv, run, hp⟩ := exJob_run
  refine ⟨v, j, hv, run, ?_⟩
  have := (C91_dense (C46_int .u8) exAxis_forever hv _ run).2.2.1.values
  rw [this, hp]
  decide
example : ∃ h' : VecHistogram (CategoryNoFlow String) (MInt .u8), h'.value "b" = exJobNew.value "b" := ⟨_, (C91_indist_dense (IndistVec.refl exJobNew)).1 "b"⟩

/-! ## Sparse -/

def exJobS : HashHistogram (CategoryNoFlow String) (MInt .u8) := .new exAxis
theorem exJobS_ok : exJobS.Ok 2 := ⟨exAxis_lawful, HMap.nodup_empty, by simp [exJobS, HashHistogram.new, HMap.empty, HMap.keys]⟩
theorem exJobS_run : ∃ v j, Serde.ser exJobS v ∧ Job.Run (fun h c => (h.call c).1) (["b", "b"].map Call.fill) ⟨exJobS, 0, v, 0⟩ j ∧ j.pos = 2 := by
  obtain ⟨v, hv⟩ := (hash_forever (C46_int .u8) exJobS_ok exAxis_forever).1
  let calls : List (Call (MInt .u8) String) := ["b", "b"].map Call.fill
  have r1 : Job.Run (fun h c => (HashHistogram.call h c).1) calls ⟨exJobS, 0, v, 0⟩ _ := Relation.ReflTransGen.single (.call _ (Call.fill "b") rfl)
  obtain ⟨w, hw⟩ := (C91_sparse (C46_int .u8) exJobS_ok exAxis_forever hv calls r1).2.2.2.1
  have r2 := r1.tail (.save _ w hw)
  obtain ⟨m, hm, -⟩ := (C91_sparse (C46_int .u8) exJobS_ok exAxis_forever hv calls r2).2.2.2.2
  exact ⟨v, _, hv, (r2.tail (.restart _ m hm)).tail (.call _ (Call.fill "b") rfl), rfl⟩
example : ∃ j : Job (HashHistogram (CategoryNoFlow String) (MInt .u8)), j.mem.valueAtIndex 7 = none := by
  obtain ⟨v, j, hv, run, hp⟩ := exJobS_run
  exact ⟨j, (C91_count_sparse exAxis_faithful (by decide) exAxis_forever hv ["b", "b"] (fun _ _ => trivial) (by decide) run hp).1 7 (by decide)⟩
example : ∃ h' : HashHistogram (CategoryNoFlow String) (MInt .u8), h'.value "b" = exJobS.value "b" := ⟨_, (C91_indist_sparse (IndistHash.refl exJobS)).1 "b"⟩
end
end NdHist.Examples
