import Verif.Props.BlameNum
import Verif.Examples.Rest
import Verif.Examples.Axes
import Verif.Examples.Prog
/-! # Examples: C107 -/
namespace NdHist.Examples
section
attribute [local instance] dbg64 stdNew numPEq

-- the axes
theorem exTen_total : TotalAxis exTen 12 := C107_axis_uniform_float_new exTen_new (by decide +kernel) (by decide +kernel) (by decide) (by decide) (fun _ _ => by decide +kernel)
example : TotalAxis exStep 12 := C107_axis_uniform_float_step exStep_new (by decide +kernel) (by decide +kernel) (by decide) (by decide)
example : TotalAxis exU 5 := C107_axis_uniform_int exU_new (fun h => absurd h (by decide)) (by decide) (by decide)
example : TotalAxis (UniformNoFlow.mk exTen) 10 := C107_axis_uniform_noflow (u := exTen) exTen_total
theorem exTenCyc_total : TotalAxis (UniformCyclic.mk (UniformNoFlow.mk exTen)) 10 := C107_axis_uniform_cyclic_float (u := exTen) exTen_total
example : TotalAxis exV 4 := C107_axis_variable exV_new (by decide)
example : TotalAxis exVN 2 := C107_axis_variable_noflow exVN_new (by decide)
def exVCF : VariableCyclic F64 := ⟨⟨⟨[f64 0, f64 1, f64 3]⟩⟩⟩
theorem exVCF_new : VariableCyclic.new (T := F64) [f64 0, f64 3, f64 1] = .ok (.ok exVCF) := by decide +kernel
example : TotalAxis exVCF 2 := C107_axis_variable_cyclic_float exVCF_new (by decide)
theorem exCN_total : TotalAxis (CategoryNoFlow.new ["a", "b"]) 2 := C107_axis_category_noflow ["a", "b"] (by decide)
example : TotalAxis (Category.new ["a", "b"]) 3 := C107_axis_category ["a", "b"] (by decide)
example : TotalAxis exTup 6 := C107_axis_tuple exItem_lawful (fun _ => ⟨⟨_, rfl⟩, (C107_axis_category_noflow _ (by decide)).total _, trivial⟩) exPos exProd exTup_new

/-- `x.fill(c); x.fill_with(nan, inf); y = &x / &x; y *= &x; for v in y { *v = NaN }; y.value(c).is_nan()` -/
def exFloatProg : HistProg (Uniform F64) F64 Bool :=
  .call 0 (.fill (f64 3)) fun _ =>
  .call 0 (.fillWith (.nan : F64) (.inf false : F64)) fun _ =>
  .borrow .div 0 0 1 fun _ =>
  .assign .mul 1 0 <|
  .forEach 1 (fun _ _ _ => (.nan, none)) <|
  .owned .sub 1 0 2 fun _ =>
  .clone 2 3 <|
  .valueMut 3 (f64 (-1)) (fun _ => (f64 0, none)) fun _ =>
  .valueAt 3 0 fun _ =>
  .value 3 (f64 3) fun r => .done (match r with | .ok .nan => true | _ => false)
theorem exFloatProg_num : exFloatProg.Numeric fun _ => True :=
  ⟨.inl ⟨_, rfl⟩, fun _ => ⟨.inr ⟨_, _, rfl⟩, fun _ => ⟨trivial, fun _ => ⟨trivial, fun _ _ _ => rfl, trivial, fun _ => ⟨fun _ => rfl, fun _ _ _ => trivial⟩⟩⟩⟩⟩
-- 0 / 0, infinite weights, NaN coordinates: no panic, dense or sparse
example : exFloatProg.panicsDense (fun _ => ⟨exTen, List.replicate 12 (f64 0)⟩) = [] :=
  ((C107_floats exTen_total (by decide +kernel) exFloatProg exFloatProg_num).1 _ fun _ => ⟨rfl, rfl⟩).1
example (w) : ∃ fin r, exFloatProg.runSparse w (fun _ => HashHistogram.new exTen) = .ok (fin, r) :=
  ((C107_floats exTen_total (by decide +kernel) exFloatProg exFloatProg_num).2 w _ fun _ => ⟨rfl, fun _ h => by cases h⟩).2

/-- `x.fill_with("a", 200)` twice, then `x / y` with an empty `y` -/
def exIntProg : HistProg (CategoryNoFlow String) (MInt .u8) Nat :=
  .call 0 (.fillWith "a" (.lit 200 : MInt .u8)) fun _ =>
  .call 0 (.fillWith "a" (.lit 200 : MInt .u8)) fun _ =>
  .borrow .div 0 1 2 fun _ => .done 7
theorem exIntProg_num : exIntProg.Numeric fun o => o = .div := ⟨.inr ⟨_, _, rfl⟩, fun _ => ⟨.inr ⟨_, _, rfl⟩, fun _ => ⟨rfl, fun _ => trivial⟩⟩⟩
theorem exIntProg_panics : exIntProg.panicsDense (fun _ => ⟨CategoryNoFlow.new ["a", "b"], List.replicate 2 (.lit 0)⟩) = [.overflow, .divZero] := by decide +kernel
-- both of the possible panics do occur
example : ∀ p ∈ [Panic.overflow, Panic.divZero], (p = .overflow ∧ (Cfg.checked = true ∨ Op.div = .div)) ∨ (p = .divZero ∧ Op.div = .div) := by
  rw [← exIntProg_panics]
  exact (C107_integers exCN_total (by decide +kernel) exIntProg exIntProg_num).1 _ fun _ => ⟨rfl, rfl⟩
example (w) : ∀ p ∈ exIntProg.panicsSparse w (fun _ => HashHistogram.new (CategoryNoFlow.new ["a", "b"])), (p = .overflow ∧ (Cfg.checked = true ∨ Op.div = .div)) ∨ (p = .divZero ∧ Op.div = .div) :=
  (C107_integers exCN_total (by decide +kernel) exIntProg exIntProg_num).2 w _ fun _ => ⟨rfl, fun _ h => by cases h⟩

-- the other value types
example (s : WeightedSum F64) : (FillWith.fillWith (Flt.nan : F64) s).2 = none := C107_fills_floats (O := F64).2.2.2.1 _ s
example : (FillWith.fillWith (f64 2) (⟨f64 1, f64 1, .lit 255⟩ : Mean F64 F64 (MInt .u8))).2 = some .overflow := (C107_fills_counter.1 _ _ _).2 ⟨rfl, rfl, rfl⟩
example : (FillWithWeighted.fillWithWeighted (f64 2) (f64 3) (⟨f64 1, f64 1, f64 1, f64 1, .lit 254⟩ : WeightedMean F64 F64 F64 (MInt .u8))).2 = none :=
  Option.eq_none_iff_forall_ne_some.2 fun p h => absurd ((C107_fills_counter.2 _ _ _ _).1 h).2.2 (by decide)

-- a closure that panics: that panic, and no other
def exOwnProg : HistProg (CategoryNoFlow String) (MInt .u8) Nat :=
  .valueMut 0 "a" (fun v => (v, some .expectNone)) fun _ => .forEach 0 (fun i _ v => (v, if i = 1 then some .sortOrder else none)) <| .done 3
theorem exOwnProg_own : exOwnProg.OwnPanics fun p => p = .expectNone ∨ p = .sortOrder := by
  refine ⟨fun v p h => ?_, fun _ => ⟨fun i b v p h => ?_, trivial⟩⟩
  · cases h; exact .inl rfl
  · simp only at h
    split at h
    · cases h; exact .inr rfl
    · cases h
theorem exOwnProg_panics : exOwnProg.panicsDense (fun _ => ⟨CategoryNoFlow.new ["a", "b"], List.replicate 2 (.lit 0)⟩) = [.expectNone, .sortOrder] := by decide +kernel
example : ∀ p ∈ [Panic.expectNone, .sortOrder], p = .expectNone ∨ p = .sortOrder := by
  rw [← exOwnProg_panics]
  exact (C107_dense exCN_total (by decide +kernel) exOwnProg exOwnProg_own _ fun _ => ⟨rfl, rfl⟩).1
example (w) : ∀ p, exOwnProg.runSparse w (fun _ => HashHistogram.new (CategoryNoFlow.new ["a", "b"])) = .error p → p = .expectNone ∨ p = .sortOrder :=
  (C107_sparse exCN_total (by decide +kernel) exOwnProg exOwnProg_own w _ fun _ => ⟨rfl, fun _ h => by cases h⟩).2.1
end

section
attribute [local instance] rel64 numPEq
/-- the same without the division, in a release build -/
def exRelProg : HistProg (CategoryNoFlow String) (MInt .u8) (MInt .u8) :=
  .call 0 (.fillWith "a" (.lit 200 : MInt .u8)) fun _ =>
  .call 0 (.fillWith "a" (.lit 200 : MInt .u8)) fun _ =>
  .assign .sub 1 0 <| .borrow .mul 0 1 2 fun _ => .valueAt 2 0 fun v => .done v
theorem exRelProg_num : exRelProg.Numeric fun o => o ≠ .div := ⟨.inr ⟨_, _, rfl⟩, fun _ => ⟨.inr ⟨_, _, rfl⟩, fun _ => ⟨by decide, by decide, fun _ _ => trivial⟩⟩⟩
example : exRelProg.panicsDense (fun _ => ⟨CategoryNoFlow.new ["a", "b"], List.replicate 2 (.lit 0)⟩) = [] :=
  ((C107_integers_unchecked rfl (by decide) (C107_axis_category_noflow ["a", "b"] (by decide)) (by decide +kernel) exRelProg exRelProg_num).1 _ fun _ => ⟨rfl, rfl⟩).1
end
end NdHist.Examples
