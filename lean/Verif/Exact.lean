import Verif.SpecHist
import Mathlib.Algebra.Order.Field.Basic
import Mathlib.Algebra.Order.Floor.Ring
import Mathlib.Data.Rat.Floor
import Mathlib.Algebra.BigOperators.Group.List.Basic
/-!
# Exact arithmetic

Several properties (means, variances, conservation) are about numbers, not about their rounding. Here the numeric traits are
instantiated with exact arithmetic in an ordered field `K` (e.g. `ℚ` or `ℝ`), and `Faithful` says what a machine type must
satisfy for the exact statements to carry over.
-/
namespace NdHist

/-- the integer part, toward zero -/
def truncInt {K : Type} [Field K] [LinearOrder K] [FloorRing K] (x : K) : Int :=
  if 0 ≤ x then ⌊x⌋ else ⌈x⌉

/-- Exact arithmetic; a division by zero panics, as it does for exact Rust types (`num-rational`). -/
@[reducible] def exactNum (K : Type) [Cfg] [Field K] [LinearOrder K] [FloorRing K] : RNum K where
  pcmp a b := some (compare a b)
  zero := 0
  one := 1
  add a b := .ok (a + b)
  sub a b := .ok (a - b)
  mul a b := .ok (a * b)
  div a b := if b = 0 then .error .divZero else .ok (a / b)
  rem a b := if b = 0 then .error .divZero else .ok (a - b * (truncInt (a / b) : K))
  ofUsize n := some (n : K)
  toUsize a := if -1 < a ∧ a < (usizeSize : K) then some (truncInt a).toNat else none

/-- `conv` computes in `K` what the operations of `T` compute, whenever they do not panic. -/
class Faithful (T K : Type) [Cfg] [RNum T] [Field K] [RFrom T K] : Prop where
  zero : RFrom.conv (RNum.zero : T) = (0 : K)
  one : RFrom.conv (RNum.one : T) = (1 : K)
  add : ∀ a b c : T, RNum.add a b = .ok c → (RFrom.conv c : K) = RFrom.conv a + RFrom.conv b
  mul : ∀ a b c : T, RNum.mul a b = .ok c → (RFrom.conv c : K) = RFrom.conv a * RFrom.conv b

/-- exact numbers are themselves -/
@[reducible] def exactFrom (K : Type) : RFrom K K := ⟨id⟩

theorem exact_faithful (K : Type) [Cfg] [Field K] [LinearOrder K] [FloorRing K] :
    @Faithful K K _ (exactNum K) _ (exactFrom K) :=
  @Faithful.mk K K _ (exactNum K) _ (exactFrom K) rfl rfl
    (fun _ _ _ h => (Except.ok.inj h).symm) (fun _ _ _ h => (Except.ok.inj h).symm)

/-- the number an integer stands for -/
@[reducible] def intFrom (τ : IntTy) (K : Type) [Field K] : RFrom (MInt τ) K := ⟨fun a => (a.val : K)⟩

/-- machine integers in a build with overflow checks -/
theorem int_faithful (τ : IntTy) (K : Type) [cfg : Cfg] (hc : Cfg.checked = true) [Field K] :
    @Faithful (MInt τ) K _ _ _ (intFrom τ K) := by
  have key : ∀ (n : Int) (c : MInt τ), MInt.arith n = .ok c → c.val = n := by
    intro n c h
    unfold MInt.arith at h
    split at h
    · cases h; rfl
    · simp [hc] at h
  refine @Faithful.mk (MInt τ) K _ _ _ (intFrom τ K) ?_ ?_ ?_ ?_
  · show ((0 : Int) : K) = 0
    simp
  · show ((1 : Int) : K) = 1
    simp
  · intro a b c h
    have := key _ _ h
    simp only [RFrom.conv, this, Int.cast_add]
  · intro a b c h
    have := key _ _ h
    simp only [RFrom.conv, this, Int.cast_mul]

end NdHist
