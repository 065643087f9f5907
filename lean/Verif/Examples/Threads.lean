import Verif.Props.ThreadsValue
import Verif.Examples.Wrap
import Verif.Examples.FloatExact
/-!
# Concrete cases of the theorems in `Props/Threads.lean` and `Props/ThreadsValue.lean`

Two threads that fill "a", "b" and "a", "a".
-/
namespace NdHist.Examples
open NdHist
section
attribute [local instance] dbg64 stdNew

theorem exTwo {α : Type u} (a b c d : α) : Interleaving [[a, b], [c, d]] [c, a, d, b] :=
  .step (k := 1) rfl (.step (k := 0) rfl (.step (k := 1) rfl (.step (k := 0) rfl (.done (by simp)))))
def exThrNew : VecHistogram (CategoryNoFlow String) (MInt .u8) := ⟨exAxis, [.lit 0, .lit 0]⟩
def exThr : List (List (String × Option (MInt .u8))) := [[("a", some (.lit 3)), ("b", some (.lit 200))], [("a", none), ("a", some (.lit 5))]]
def exThrRun : List (String × Option (MInt .u8)) := [("a", none), ("a", some (.lit 3)), ("a", some (.lit 5)), ("b", some (.lit 200))]
theorem exThrRun_ok : Interleaving exThr exThrRun := exTwo _ _ _ _
theorem exThr_nonneg : Cfg.checked = true → ∀ t ∈ exThr, NonNegWeights t := by
  rintro - t ht cw hcw w rfl'
  exact w.min_le

/-- the first two calls -/
example : ∃ ps qs, exThr = List.zipWith (· ++ ·) ps qs ∧ Interleaving ps (exThrRun.take 2) ∧ Interleaving qs (exThrRun.drop 2) := by
  obtain ⟨ps, qs, -, h1, h2, h3⟩ := C92_any_moment (pre := exThrRun.take 2) (post := exThrRun.drop 2) exThrRun_ok
  exact ⟨ps, qs, h1, h2, h3⟩
example : (exThrNew.callAllCaught (numCalls exThrRun)).Ok 2 := (C92_bins exAxis_lawful (h := exThrNew) rfl (exThrRun_ok.map _)).1
example : ∃ r : List (Call (MInt .u8) String), ((HashHistogram.new exAxis).callAllCaught (numCalls exThrRun)).valueAtIndex 0 = if r = [] then none else some (filledWith r (RDefault.dflt : MInt .u8)) :=
  let ⟨r, _, h⟩ := C92_bins_sparse exAxis (exThrRun_ok.map _) 0
  ⟨r, h⟩
example : exThrNew.callAll (numCalls exThr.flatten) = exThrNew.callAll (numCalls exThrRun) :=
  (C92_order exThrNew (numCalls_perm exThrRun_ok.perm) (numCalls_int_swappable (interleaving_nonneg exThrRun_ok exThr_nonneg))).2 (by decide +kernel)
example : ((HashHistogram.new exAxis).callAll (numCalls exThr.flatten)).2 = none :=
  (C92_order_sparse (HashHistogram.new exAxis) (numCalls_perm exThrRun_ok.perm) (numCalls_int_swappable (interleaving_nonneg exThrRun_ok exThr_nonneg))).1.1 (by decide +kernel)
def exThrFills : List (List (Call (MInt .u8) String)) := [[.fill "a", .fill "b"], [.fill "a", .fill "a"]]
theorem exThrFills_swap : ∀ t ∈ exThrFills, ∀ a ∈ t, ∀ u ∈ exThrFills, ∀ b ∈ u, Swappable a b := by
  have h : ∀ t ∈ exThrFills, ∀ a ∈ t, a.on = addAssign (@RNum.one (MInt .u8) dbg64 _) := by
    intro t ht a ha
    simp only [exThrFills, List.mem_cons, List.not_mem_nil, or_false] at ht
    rcases ht with rfl | rfl <;> simp only [List.mem_cons, List.not_mem_nil, or_false] at ha <;> rcases ha with rfl | rfl <;> rfl
  intro t ht a ha u hu b hb
  exact AddSwaps.swappable addSwaps_one (h t ht a ha) (h u hu b hb)
example : exThrNew.callAll [.fill "a", .fill "a", .fill "a", .fill "b"] = exThrNew.callAll exThrFills.flatten :=
  (C92_schedules exThrNew exThrFills_swap (exTwo _ _ _ _)).2 (by decide +kernel)
example : ((HashHistogram.new exAxis : HashHistogram _ (MInt .u8)).callAll [.fill "a", .fill "a", .fill "a", .fill "b"]).2 = none :=
  (C92_schedules_sparse (HashHistogram.new exAxis) exThrFills_swap (exTwo _ _ _ _)).1.2 (by decide +kernel)

example : exThrNew.callAll (numCalls exThrRun) = exThrNew.callAll (numCalls exThr.flatten) := (C92_int exThrNew exThr_nonneg exThrRun_ok).2 (by decide +kernel)
example : (exThrNew.callAll (numCalls exThrRun)).1.valuesIter = [.lit 9, .lit 200] := by decide +kernel
example : ((HashHistogram.new exAxis).callAll (numCalls exThrRun)).2 = none := (C92_int_sparse (HashHistogram.new exAxis) exThr_nonneg exThrRun_ok).1.2 (by decide +kernel)
/-- "a" wraps around -/
example : exWrapNew.callAll (numCalls [("a", some (exW 255)), ("b", some (exW 7)), ("a", none)]) = exWrapNew.callAll (numCalls [[("a", some (exW 255)), ("a", none)], [("b", some (exW 7))]].flatten) :=
  (C92_wrapping exWrapNew (fun _ _ cw _ => (exAxis_faithful.total cw.1 trivial)) (.step (k := 0) rfl (.step (k := 1) rfl (.step (k := 0) rfl (.done (by simp)))))).2

def exThrWs : VecHistogram (CategoryNoFlow String) (WeightedSum (MInt .u32)) := ⟨exAxis, [⟨.lit 0, .lit 0⟩, ⟨.lit 0, .lit 0⟩]⟩
def exThrW : List (List (String × Option (MInt .u32))) := [[("a", some (.lit 3)), ("b", some (.lit 200))], [("a", none), ("a", some (.lit 5))]]
example : exThrWs.callAll (weightedSumCalls [("a", none), ("a", some (.lit 3)), ("a", some (.lit 5)), ("b", some (.lit 200))]) = exThrWs.callAll (weightedSumCalls exThrW.flatten) :=
  (C92_weighted_sum (ts := exThrW) exThrWs (by rintro - t ht cw hcw w -; exact w.min_le) (exTwo _ _ _ _)).2 (by decide +kernel)
def exThrMean : VecHistogram (CategoryNoFlow String) (Mean (MInt .u32) F64 (MInt .u32)) := ⟨exAxis, [⟨.lit 0, .lit 0, .lit 0⟩, ⟨.lit 0, .lit 0, .lit 0⟩]⟩
def exThrM : List (List (String × MInt .u32)) := [[("a", .lit 3), ("b", .lit 200)], [("a", .lit 1), ("a", .lit 5)]]
example : (exThrMean.callAll (([("a", .lit 1), ("a", .lit 3), ("a", .lit 5), ("b", .lit 200)] : List (String × MInt .u32)).map fun cx => .fillWith cx.1 cx.2)).2 = none :=
  (C92_mean (ts := exThrM) exThrMean (by rintro - t ht cw hcw; exact cw.2.min_le) (exTwo _ _ _ _)).1.2 (by decide +kernel)
def exThrWMean : VecHistogram (CategoryNoFlow String) (WeightedMean (MInt .u32) (MInt .u32) F64 (MInt .u32)) :=
  ⟨exAxis, [⟨.lit 0, .lit 0, .lit 0, .lit 0, .lit 0⟩, ⟨.lit 0, .lit 0, .lit 0, .lit 0, .lit 0⟩]⟩
def exThrWM : List (List (String × MInt .u32 × MInt .u32)) := [[("a", .lit 3, .lit 2), ("b", .lit 10, .lit 4)], [("a", .lit 1, .lit 1), ("a", .lit 5, .lit 3)]]
example : (exThrWMean.callAll (([("a", .lit 1, .lit 1), ("a", .lit 3, .lit 2), ("a", .lit 5, .lit 3), ("b", .lit 10, .lit 4)] : List (String × MInt .u32 × MInt .u32)).map fun cx => .fillWithWeighted cx.1 cx.2.1 cx.2.2)).2 = none :=
  (C92_weighted_mean (ts := exThrWM) exThrWMean (by rintro - t ht cw hcw; exact ⟨cw.2.1.min_le, cw.2.2.min_le⟩) (exTwo _ _ _ _)).1.2 (by decide +kernel)

example : ∃ h' items, exThrNew.callAll (["b", "a", "b", "c"].map .fill) = (h', none) ∧ h'.iter = .ok items ∧ items.length = 2 := by
  obtain ⟨h', items, h1, h2, h3, -⟩ := C92_count exAxis_faithful (h := exThrNew) (ts := [["a", "c"], ["b", "b"]]) rfl (fun _ _ _ _ => trivial) (by decide) (exTwo _ _ _ _)
  exact ⟨h', items, h1, h2, h3⟩
/-- 200 and 100 do not fit: the second thread panics with its first call -/
def exThrBad : List (List (String × Option (MInt .u8))) := [[("a", some (.lit 200)), ("b", none)], [("a", some (.lit 100))]]
theorem exThrBad_run : Interleaving exThrBad [("a", some (.lit 200)), ("a", some (.lit 100)), ("b", none)] :=
  .step (k := 0) rfl (.step (k := 1) rfl (.step (k := 0) rfl (.done (by simp [exThrBad]))))
example : ∃ h' p ps qs, exThrNew.callAll (numCalls [("a", some (.lit 200)), ("a", some (.lit 100)), ("b", none)]) = (h', p) ∧ exThrBad = List.zipWith (· ++ ·) ps qs := by
  obtain ⟨h', p, pre, post, ps, qs, items, h1, -, -, h2, -⟩ := C92_poisoned rfl exAxis_faithful (h := exThrNew) rfl (fun _ _ _ _ => trivial) exThrBad_run
  exact ⟨h', p, ps, qs, h1, h2⟩
example : (exThrNew.callAll (numCalls [("a", some (.lit 200)), ("a", some (.lit 100)), ("b", none)])).2 = some .overflow := by decide +kernel

/-- the fills of `exFltHist`, each by a thread of its own, last first -/
def exFltThr : List (List (String × Option F64)) := exFltHist.map fun cw => [cw]
theorem exFltThr_flat : exFltThr.flatten = exFltHist := by
  unfold exFltThr; rw [List.flatten_eq_flatMap]; simp [List.flatMap_map]
example : ∃ m m', exFltNew.callAll (numCalls exFltHist) = (m, none) ∧ exFltNew.callAll (numCalls exFltHist) = (m', none) := by
  have hi : Interleaving exFltThr exFltHist := by have := Interleaving.sequential exFltThr; rwa [exFltThr_flat] at this
  obtain ⟨m, m', -, -, h1, h2, -⟩ := C92_float exAxis_faithful exFltNew_new (ts := exFltThr) (fun _ _ _ _ => trivial)
    (fun t ht cw hc => exFltHist_fin cw (exFltThr_flat ▸ List.mem_flatten.2 ⟨t, ht, hc⟩)) (by rw [exFltThr_flat]; exact exFltHist_range) hi hi
  exact ⟨m, m', h1, h2⟩
def exGridThr : List (List (String × Option F64)) := [exGridHist.take 1, exGridHist.drop 1]
theorem exGridThr_mem {t cw} (ht : t ∈ exGridThr) (hc : cw ∈ t) : cw ∈ exGridHist := by
  simp only [exGridThr, List.mem_cons, List.not_mem_nil, or_false] at ht
  rcases ht with rfl | rfl
  · exact List.mem_of_mem_take hc
  · exact List.mem_of_mem_drop hc
example : ∃ h', exFltNew.callAll (numCalls exGridThr.flatten) = (h', none) := by
  obtain ⟨h', -, h1, -⟩ := C92_float_exact exGrid_e exAxis_faithful exFltNew_new (ts := exGridThr) (fun _ _ _ _ => trivial) (fun t ht cw hc => exGridHist_fin cw (exGridThr_mem ht hc))
    (fun t ht cw hc => exGridHist_grid cw (exGridThr_mem ht hc)) (.sequential _)
  exact ⟨h', h1⟩
end
end NdHist.Examples
