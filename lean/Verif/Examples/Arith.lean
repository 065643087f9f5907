import Verif.Props.Arith
import Verif.Examples.Merge
import Verif.Examples.FloatExact
/-!
# Concrete cases of the theorems in `Props/Arith.lean`
-/
namespace NdHist.Examples
open NdHist HExpr

/-- variable 0 is `[200, 3]`, the others `[50, 4]` -/
def exVars : Nat → VecHistogram (CategoryNoFlow String) (MInt .u8) := fun j => if j = 0 then ⟨exAxis, [.lit 200, .lit 3]⟩ else ⟨exAxis, [.lit 50, .lit 4]⟩
def exBins (j i : Nat) : MInt .u8 := if j = 0 then (if i = 0 then .lit 200 else .lit 3) else (if i = 0 then .lit 50 else .lit 4)
theorem exVars_bins (j i : Nat) (hi : i < 2) : (exVars j).valueAtIndex i = some (exBins j i) := by
  have : i = 0 ∨ i = 1 := by omega
  unfold exVars exBins
  by_cases h : j = 0 <;> rcases this with rfl | rfl <;> simp [h] <;> rfl
theorem exVars_axes (j : Nat) : (exVars j).axes = exAxis := by
  unfold exVars; by_cases h : j = 0 <;> simp [h]

/-- `(a + b) - b`, which is `a` -/
def exAddSub : HExpr (MInt .u8) := .op .sub (.op .add (.var 0) (.var 1)) (.var 1)
/-- `(a - b) * 2`, and the same multiplied out -/
def exDist : HExpr (MInt .u8) := .scalar .mul (.op .sub (.var 0) (.var 1)) (.lit 2)
def exDist' : HExpr (MInt .u8) := .op .sub (.scalar .mul (.var 0) (.lit 2)) (.scalar .mul (.var 1) (.lit 2))
theorem exDist_eq (x : Nat → ℤ) : exDist.inInt x = exDist'.inInt x := by
  show (x 0 - x 1) * (2 : ℤ) = x 0 * 2 - x 1 * 2; ring
theorem exAddSub_eq (x : Nat → ℤ) : exAddSub.inInt x = (HExpr.var (V := MInt .u8) 0).inInt x := by
  show x 0 + x 1 - x 1 = x 0; ring

section
attribute [local instance] dbg64
theorem exVars_ok (j : Nat) : (exVars j).Ok 2 := by
  unfold exVars; by_cases h : j = 0 <;> simp only [h] <;> exact ⟨exAxis_lawful, rfl⟩

example := C87_binwise (by decide) exVars_ok exVars_axes exBins exVars_bins exAddSub
example := C87_checked rfl (by decide) exVars_ok exVars_axes exBins exVars_bins exAddSub
/-- returns, with `a` -/
example : exAddSub.eval exVars = .ok (.ok (exVars 0)) := rfl
/-- 3 - 4 panics in u8 -/
example : exDist.eval exVars = .error .overflow := rfl
example : ¬ ∃ m, exDist.eval exVars = .ok (.ok m) := by
  rw [(C87_checked rfl (by decide) exVars_ok exVars_axes exBins exVars_bins exDist).1]
  intro h
  have := (h 1 (by decide)).1.2.2.2.1
  revert this; decide
/-- (a + b) - b is a if the former returns -/
example : ∀ m, exAddSub.eval exVars = .ok (.ok m) → m = exVars 0 := fun m hm =>
  (C87_laws (by decide) exVars_ok exVars_axes exAddSub (.var 0) (by simp [exAddSub, HExpr.NoDiv]) trivial exAddSub_eq).1 rfl m _ hm rfl
/-- integer division -/
example : (HExpr.op .div (.var 0) (.var 1)).eval exVars = .ok (.ok ⟨exAxis, [.lit 4, .lit 0]⟩) := rfl

example : (exVars 0).opBorrow .add (exVars 1) = (exVars 1).opBorrow .add (exVars 0) := C87_commutes .add (fun x y => by show MInt.arith _ = MInt.arith _; rw [add_comm]) rfl
example : (exVars 0).opBorrow .mul (exVars 1) = (exVars 1).opBorrow .mul (exVars 0) := C87_commutes_int (.inr rfl) rfl

/-! ## Floats -/

def exFVars : Nat → VecHistogram (CategoryNoFlow String) F64 := fun j => if j = 0 then ⟨exAxis, [f64 7, f64 0.1]⟩ else ⟨exAxis, [f64 2, f64 0.3]⟩
def exFBins (j i : Nat) : F64 := if j = 0 then (if i = 0 then f64 7 else f64 0.1) else (if i = 0 then f64 2 else f64 0.3)
theorem exFVars_bins (j i : Nat) (hi : i < 2) : (exFVars j).valueAtIndex i = some (exFBins j i) := by
  have : i = 0 ∨ i = 1 := by omega
  unfold exFVars exFBins
  by_cases h : j = 0 <;> rcases this with rfl | rfl <;> simp [h] <;> rfl
theorem exFVars_axes (j : Nat) : (exFVars j).axes = exAxis := by
  unfold exFVars; by_cases h : j = 0 <;> simp [h]
theorem exFVars_ok (j : Nat) : (exFVars j).Ok 2 := by
  unfold exFVars; by_cases h : j = 0 <;> simp only [h] <;> exact ⟨exAxis_lawful, rfl⟩
/-- `(a - b) / b` -/
def exRel : HExpr F64 := .op .div (.op .sub (.var 0) (.var 1)) (.var 1)
/-- exact in bin 0: 7, 2 ↦ 5 ↦ 2.5 -/
example : ∃ m, exRel.eval exFVars = .ok (.ok m) ∧ ∃ v, m.valueAtIndex 0 = some v ∧ v.isFin ∧ v.val = 5 / 2 := by
  obtain ⟨m, m1, -, -, m2⟩ := C87_float (by decide) exFVars_ok exFVars_axes exFBins exFVars_bins exRel
  obtain ⟨v, v1, v2, v3⟩ := m2 0 (by decide) (by
      intro j hj; by_cases h : j = 0 <;> simp only [exFBins, h] <;> decide +kernel)
    ⟨⟨trivial, trivial, fun h => (by cases h), f64 5, by decide +kernel, by decide +kernel⟩, trivial, fun _ => by decide +kernel, f64 2.5, by decide +kernel, by decide +kernel⟩
  exact ⟨m, m1, v, v1, v2, v3.trans (by decide +kernel)⟩
example := C87_float_rounded .sub (exFVars_ok 0) (exFVars_ok 1) (by decide)
/-- 0.1 - 0.3 is not -0.2 -/
example : (((exFVars 0).opBorrow .sub (exFVars 1)).toOption.bind Except.toOption).map (fun m : VecHistogram (CategoryNoFlow String) F64 => m.values) ≠ some [f64 5, f64 (-0.2)] := by decide +kernel
example : (exFVars 0).opBorrow .add (exFVars 1) = (exFVars 1).opBorrow .add (exFVars 0) := C87_commutes_float (.inl rfl) rfl

/-! ## Sparse histograms -/

/-- `a` has bin 0, `b` bin 1 -/
def exSVars : Nat → HashHistogram (CategoryNoFlow String) (MInt .u8) := fun j => if j = 0 then ⟨exAxis, ⟨[(0, .lit 1)]⟩⟩ else ⟨exAxis, ⟨[(1, .lit 7)]⟩⟩
theorem exSVars_axes (j : Nat) : (exSVars j).axes = exAxis := by
  unfold exSVars; by_cases h : j = 0 <;> simp [h]
theorem exSVars_ok (j : Nat) : (exSVars j).Ok 2 := by
  unfold exSVars; by_cases h : j = 0 <;> simp only [h] <;> exact ⟨exAxis_lawful, by unfold HMap.NodupKeys; decide, by decide⟩
def exSum : HashHistogram (CategoryNoFlow String) (MInt .u8) := ⟨exAxis, ⟨[(0, .lit 1), (1, .lit 7)]⟩⟩
theorem exSum_eval : EvalSparse exSVars (.op .add (.var 0) (.var 1)) exSum :=
  .op (a := exSVars 0) (b := exSVars 1) ⟨[0, 1], by decide, fun k => by simp [HMap.keys, exSVars]⟩ (.var 0) (.var 1) rfl
theorem exAddSub_eval : EvalSparse exSVars exAddSub ⟨exAxis, ⟨[(0, .lit 1), (1, .lit 0)]⟩⟩ :=
  .op (a := exSum) (b := exSVars 1) ⟨[0, 1], by decide, fun k => by simp [HMap.keys, exSVars, exSum]⟩ exSum_eval (.var 1) rfl
theorem exAddSub_noDiv : exAddSub.NoDiv := by simp [exAddSub, HExpr.NoDiv]
example := C87_sparse op_zero_int exSVars_ok exSVars_axes exAddSub_noDiv exAddSub_eval
example := C87_sparse_int exSVars_ok exSVars_axes exAddSub_noDiv exAddSub_eval
example := C87_laws_sparse exSVars_ok exSVars_axes exAddSub_noDiv (e' := .var 0) trivial exAddSub_eq exAddSub_eval (.var 0)
example (ko : HashHistogram.KeyOrder exSum (exSVars 1)) : ∃ m, exSum.opBorrow .sub (exSVars 1) ko = .ok (.ok m) :=
  C87_sparse_returns (by decide) exSVars_ok exSVars_axes exAddSub_noDiv exSum_eval (.var 1) (fun _ i => by
    have H : ∀ x y : MInt .u8, x.val ≤ 1 → y.val ≤ 7 → 0 ≤ x.val → 0 ≤ y.val → exAddSub.Fits fun j => (if j = 0 then x else y).val := by
      intro x y h1 h2 h3 h4
      have e1 : IntTy.u8.min = 0 := by decide
      have e2 : IntTy.u8.max = 255 := by decide
      have e3 : ((HExpr.op .add (.var 0) (.var 1) : HExpr (MInt .u8)).inInt fun j => (if j = 0 then x else y).val) = x.val + y.val := rfl
      have e4 : (exAddSub.inInt fun j => (if j = 0 then x else y).val) = x.val + y.val - y.val := rfl
      refine ⟨⟨trivial, trivial, fun h => (by cases h), ?_, ?_⟩, trivial, fun h => (by cases h), ?_, ?_⟩
      · rw [e1, e3]; omega
      · rw [e2, e3]; omega
      · rw [e1]; show 0 ≤ x.val + y.val - y.val; omega
      · rw [e2]; show x.val + y.val - y.val ≤ 255; omega
    have e : (fun j => (((exSVars j).valueAtIndex i).getD RDefault.dflt).val) = fun j => (if j = 0 then (((exSVars 0).valueAtIndex i).getD RDefault.dflt) else (((exSVars 1).valueAtIndex i).getD RDefault.dflt)).val := by
      funext j; by_cases h : j = 0 <;> simp [h, exSVars]
    have b0 : ∀ i, (((exSVars 0).valueAtIndex i).getD RDefault.dflt).val ≤ 1 := by
      intro i; rcases i with _ | i
      · decide
      · rw [show (exSVars 0).valueAtIndex (i + 1) = none from by simp [exSVars, HashHistogram.valueAtIndex, HMap.get, HMap.find]]; decide
    have b1 : ∀ i, (((exSVars 1).valueAtIndex i).getD RDefault.dflt).val ≤ 7 := by
      intro i; rcases i with _ | _ | i
      · decide
      · decide
      · rw [show (exSVars 1).valueAtIndex (i + 1 + 1) = none from by simp [exSVars, HashHistogram.valueAtIndex, HMap.get, HMap.find]]; decide
    have p : ∀ v : MInt .u8, 0 ≤ v.val := fun v => v.min_le
    rw [e]; exact H _ _ (b0 i) (b1 i) (p _) (p _)) ko

def exSFVars : Nat → HashHistogram (CategoryNoFlow String) F64 := fun _ => ⟨exAxis, ⟨[(0, f64 1.5)]⟩⟩
example := C87_sparse_float (hs := exSFVars) (axes := exAxis) (n := 2) (fun j => by unfold exSFVars; exact ⟨exAxis_lawful, by unfold HMap.NodupKeys; exact List.nodup_singleton _, by intro i hi; simp [HMap.keys] at hi; omega⟩) (fun _ => rfl)
  (e := .op .mul (.var 0) (.var 1)) ⟨(by decide), trivial, trivial⟩ (m := ⟨exAxis, ⟨[(0, Flt.mul (f64 1.5) (f64 1.5))]⟩⟩)
  (.op (a := exSFVars 0) (b := exSFVars 1) ⟨[0], by decide, fun k => by simp [HMap.keys, exSFVars]⟩ (.var 0) (.var 1) rfl)
end

section
attribute [local instance] rel64
theorem exVars_ok_rel (j : Nat) : (exVars j).Ok 2 := by
  unfold exVars; by_cases h : j = 0 <;> simp only [h] <;> exact ⟨C25_lawful_category_noflow ["a", "b"] (by decide), rfl⟩
example := C87_release rfl (by decide) exVars_ok_rel exVars_axes exBins exVars_bins exDist (by simp [exDist, HExpr.NoDiv])
/-- (200 - 50) * 2 = 300 = 44, (3 - 4) * 2 = -2 = 254 -/
example : exDist.eval exVars = .ok (.ok ⟨exAxis, [.lit 44, .lit 254]⟩) := rfl
/-- also if it is multiplied out -/
example : ∃ m, exDist.eval exVars = .ok (.ok m) ∧ exDist'.eval exVars = .ok (.ok m) :=
  (C87_laws (by decide) exVars_ok_rel exVars_axes exDist exDist' (by simp [exDist, HExpr.NoDiv]) (by simp [exDist', HExpr.NoDiv]) exDist_eq).2 rfl
end
end NdHist.Examples
