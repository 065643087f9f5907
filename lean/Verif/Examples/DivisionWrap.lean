import Verif.Props.DivisionWrap
import Verif.Examples.Division
/-!
# Concrete cases of the theorems in `Props/DivisionWrap.lean`
-/
namespace NdHist.Examples
open NdHist
section
attribute [local instance] rel64
abbrev exWi (n : Int) (h : IntTy.i8.min ≤ n ∧ n ≤ IntTy.i8.max := by decide) : WInt .i8 := ⟨.lit n h⟩
example : ∃ q r, @RNum.div _ rel64 _ (exWi (-7)) (exWi 2) = .ok q ∧ @RNum.rem _ rel64 _ (exWi (-7)) (exWi 2) = .ok r ∧ q.val * 2 + r.val = -7 ∧ |r.val| < 2 := by
  obtain ⟨q, r, h1, h2, -, h4, -, h6⟩ := (C73_wrapping_division (exWi (-7)) (exWi 2)).2 (by decide)
  rw [if_neg (by decide)] at h6
  exact ⟨q, r, h1, h2, h6, h4⟩
example : @RNum.div _ rel64 _ (exWi (-7)) (exWi 2) = .ok (exWi (-3)) ∧ @RNum.rem _ rel64 _ (exWi (-7)) (exWi 2) = .ok (exWi (-1)) := by decide
example : @RNum.div _ rel64 _ (exWi (-128)) (exWi (-1)) = .ok (exWi (-128)) ∧ @RNum.div _ rel64 _ (exWi 5) (exWi 0) = .error .divZero := by decide

def exWDivL : VecHistogram (CategoryNoFlow String) (WInt .i8) := ⟨exAxis, [exWi (-128), exWi (-7)]⟩
def exWDivR : VecHistogram (CategoryNoFlow String) (WInt .i8) := ⟨exAxis, [exWi (-1), exWi 2]⟩
def exWDivX (i : Nat) : WInt .i8 := if i = 0 then exWi (-128) else exWi (-7)
def exWDivY (i : Nat) : WInt .i8 := if i = 0 then exWi (-1) else exWi 2
theorem exWDivX_bins (i : Nat) (hi : i < 2) : exWDivL.valueAtIndex i = some (exWDivX i) := by
  have : i = 0 ∨ i = 1 := by omega
  rcases this with rfl | rfl <;> rfl
theorem exWDivY_bins (i : Nat) (hi : i < 2) : exWDivR.valueAtIndex i = some (exWDivY i) := by
  have : i = 0 ∨ i = 1 := by omega
  rcases this with rfl | rfl <;> rfl
example : ∃ m, exWDivL.opBorrow .div exWDivR = .ok m := by
  refine (C87_division_wrapping (n := 2) ⟨exAxis_rel, rfl⟩ ⟨exAxis_rel, rfl⟩ (by decide) exWDivX exWDivY exWDivX_bins exWDivY_bins).1.2 fun i hi => ?_
  have : i = 0 ∨ i = 1 := by omega
  rcases this with rfl | rfl <;> decide
/-- -128 / -1 wraps around, unlike for the primitive type -/
example : exWDivL.opBorrow .div exWDivR = .ok (.ok ⟨exAxis, [exWi (-128), exWi (-3)]⟩) := by rfl
end
end NdHist.Examples
