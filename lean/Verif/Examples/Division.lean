import Verif.Props.Division
import Verif.Examples.WrapOps
/-!
# Concrete cases of the theorems in `Props/Division.lean`
-/
namespace NdHist.Examples
open NdHist
section
attribute [local instance] rel64

def exDivL : VecHistogram (CategoryNoFlow String) (MInt .i8) := ⟨exAxis, [.lit (-128), .lit (-7)]⟩
def exDivR : VecHistogram (CategoryNoFlow String) (MInt .i8) := ⟨exAxis, [.lit 3, .lit 2]⟩
def exDivBad : VecHistogram (CategoryNoFlow String) (MInt .i8) := ⟨exAxis, [.lit (-1), .lit 2]⟩
def exDivX (i : Nat) : MInt .i8 := if i = 0 then .lit (-128) else .lit (-7)
def exDivY (i : Nat) : MInt .i8 := if i = 0 then .lit 3 else .lit 2
def exDivZ (i : Nat) : MInt .i8 := if i = 0 then .lit (-1) else .lit 2
theorem exDivX_bins (i : Nat) (hi : i < 2) : exDivL.valueAtIndex i = some (exDivX i) := by
  have : i = 0 ∨ i = 1 := by omega
  rcases this with rfl | rfl <;> rfl
theorem exDivY_bins (i : Nat) (hi : i < 2) : exDivR.valueAtIndex i = some (exDivY i) := by
  have : i = 0 ∨ i = 1 := by omega
  rcases this with rfl | rfl <;> rfl
theorem exDivZ_bins (i : Nat) (hi : i < 2) : exDivBad.valueAtIndex i = some (exDivZ i) := by
  have : i = 0 ∨ i = 1 := by omega
  rcases this with rfl | rfl <;> rfl
theorem exAxis_rel : LawfulAxis exAxis 2 := exAxis_faithful_rel.lawful

/-- -128 / 3 and -7 / 2, truncated -/
example : ∃ m, exDivL.opBorrow .div exDivR = .ok m := by
  refine (C87_division (n := 2) ⟨exAxis_rel, rfl⟩ ⟨exAxis_rel, rfl⟩ (by decide) exDivX exDivY exDivX_bins exDivY_bins).1.2 fun i hi => ?_
  have : i = 0 ∨ i = 1 := by omega
  rcases this with rfl | rfl <;> decide
example : exDivL.opBorrow .div exDivR = .ok (.ok ⟨exAxis, [.lit (-42), .lit (-3)]⟩) := rfl
/-- -128 / -1 does not wrap in a build without overflow checks -/
example : ∀ m, exDivL.opBorrow .div exDivBad ≠ .ok m := by
  intro m hm
  have := (C87_division (n := 2) ⟨exAxis_rel, rfl⟩ ⟨exAxis_rel, rfl⟩ (by decide) exDivX exDivZ exDivX_bins exDivZ_bins).1.1 ⟨m, hm⟩ 0 (by decide)
  exact this.2 (by decide)
example : exDivL.opBorrow .div exDivBad = .error .overflow := rfl
example : exDivL.opBorrow .mul exDivBad = .ok (.ok ⟨exAxis, [.lit (-128), .lit (-14)]⟩) := rfl

example : ∃ m, exDivL.opScalar .div (.lit 5) = .ok m := by
  refine (C87_division_scalar (n := 2) ⟨exAxis_rel, rfl⟩ (.lit 5) exDivX exDivX_bins).1.2 fun i hi => ?_
  have : i = 0 ∨ i = 1 := by omega
  rcases this with rfl | rfl <;> decide
example : exDivL.opScalar .div (.lit 5) = .ok ⟨exAxis, [.lit (-25), .lit (-1)]⟩ := rfl
example : exDivL.opScalar .div (.lit (-1)) = .error .overflow := rfl
example : exDivL.opScalar .div (.lit 0) = .error .divZero := rfl
end
end NdHist.Examples
