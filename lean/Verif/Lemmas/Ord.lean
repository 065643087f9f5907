import Verif.Model.Float
import Verif.Lemmas.Basic
import Mathlib.Order.WithBot
import Mathlib.Order.Compare
/-!
# Lawful partial orders

The `PartialOrd` types the axes are used with: a total order on the comparable values, plus possibly
incomparable ones (NaN).
-/
namespace NdHist
open POrd

/-- `PartialOrd` is a linear order on a part of the type; the remaining values (NaN) compare with nothing. -/
class LawfulPOrd (T : Type) [POrd T] where
  K : Type
  [ord : LinearOrder K]
  key : T → Option K
  pcmp_eq : ∀ a b : T, pcmp a b =
    match key a, key b with
    | some x, some y => some (cmp x y)
    | _, _ => none

set_option warn.classDefReducibility false in
attribute [instance] LawfulPOrd.ord

namespace LawfulPOrd
variable {T : Type} [POrd T] [LawfulPOrd T]

theorem lt_iff {a b : T} : POrd.lt a b = true ↔ ∃ x y, key a = some x ∧ key b = some y ∧ x < y := by
  rw [POrd.lt, pcmp_eq]
  cases ha : key a <;> cases hb : key b <;> simp [cmp_eq_lt_iff]

theorem gt_iff {a b : T} : POrd.gt a b = true ↔ ∃ x y, key a = some x ∧ key b = some y ∧ y < x := by
  rw [POrd.gt, pcmp_eq]
  cases ha : key a <;> cases hb : key b <;> simp [cmp_eq_gt_iff]

theorem eq_iff {a b : T} : POrd.eq a b = true ↔ ∃ x, key a = some x ∧ key b = some x := by
  rw [POrd.eq, pcmp_eq]
  cases ha : key a <;> cases hb : key b <;> simp [cmp_eq_eq_iff]
  exact eq_comm

theorem le_iff {a b : T} : POrd.le a b = true ↔ ∃ x y, key a = some x ∧ key b = some y ∧ x ≤ y := by
  rw [POrd.le, pcmp_eq]
  cases ha : key a <;> cases hb : key b <;> simp [cmp_eq_lt_iff, cmp_eq_eq_iff, le_iff_lt_or_eq]

theorem ge_iff {a b : T} : POrd.ge a b = true ↔ ∃ x y, key a = some x ∧ key b = some y ∧ y ≤ x := by
  rw [POrd.ge, pcmp_eq]
  cases ha : key a <;> cases hb : key b <;> simp [cmp_eq_gt_iff, cmp_eq_eq_iff, le_iff_lt_or_eq, @eq_comm _ (_ : K T)]

/-- a value is comparable (not NaN) iff it equals itself -/
theorem eq_self_iff {a : T} : POrd.eq a a = true ↔ ∃ x, key a = some x := by
  rw [eq_iff]; simp

end LawfulPOrd

instance [Cfg] {τ : IntTy} : LawfulPOrd (MInt τ) where
  K := ℤ
  key a := some a.val
  pcmp_eq a b := by
    rw [MInt.pcmp_eq]
    simp [cmp_eq_compare]

namespace Flt
variable {F : FFmt}
/-- position of a float on the extended number line; none for NaN -/
def key : Flt F → Option (WithBot (WithTop ℚ))
  | .nan => none
  | .inf true => some ⊥
  | .inf false => some ((⊤ : WithTop ℚ) : WithBot (WithTop ℚ))
  | .fin s m _ => some (((sval s m : ℚ) : WithTop ℚ) : WithBot (WithTop ℚ))

theorem coe_lt {x y : ℚ} : (((x : ℚ) : WithTop ℚ) : WithBot (WithTop ℚ)) < ((y : WithTop ℚ) : WithBot _) ↔ x < y := by
  rw [WithBot.coe_lt_coe, WithTop.coe_lt_coe]

theorem coe_le {x y : ℚ} : (((x : ℚ) : WithTop ℚ) : WithBot (WithTop ℚ)) ≤ ((y : WithTop ℚ) : WithBot _) ↔ x ≤ y := by
  rw [WithBot.coe_le_coe, WithTop.coe_le_coe]

theorem pcmp_key (a b : Flt F) : Flt.pcmp a b =
    match key a, key b with
    | some x, some y => some (cmp x y)
    | _, _ => none := by
  have top (x : ℚ) : ((x : WithTop ℚ) : WithBot (WithTop ℚ)) < ((⊤ : WithTop ℚ) : WithBot (WithTop ℚ)) := by
    rw [WithBot.coe_lt_coe]; exact WithTop.coe_lt_top x
  have bot (x : ℚ) : (⊥ : WithBot (WithTop ℚ)) < ((x : WithTop ℚ) : WithBot (WithTop ℚ)) := WithBot.bot_lt_coe _
  have bt : (⊥ : WithBot (WithTop ℚ)) < ((⊤ : WithTop ℚ) : WithBot (WithTop ℚ)) := WithBot.bot_lt_coe _
  match a, b with
  | .nan, _ => rfl
  | .inf true, .nan => rfl
  | .inf false, .nan => rfl
  | .fin _ _ _, .nan => rfl
  | .inf true, .inf true => simp [Flt.pcmp, key]
  | .inf true, .inf false => simp only [Flt.pcmp, key]; rw [cmp_eq_lt_iff _ _ |>.mpr bt]; rfl
  | .inf false, .inf true => simp only [Flt.pcmp, key]; rw [cmp_eq_gt_iff _ _ |>.mpr bt]; rfl
  | .inf false, .inf false => simp [Flt.pcmp, key]
  | .inf true, .fin s m h => simp only [Flt.pcmp, key]; rw [cmp_eq_lt_iff _ _ |>.mpr (bot _)]; rfl
  | .inf false, .fin s m h => simp only [Flt.pcmp, key]; rw [cmp_eq_gt_iff _ _ |>.mpr (top _)]; rfl
  | .fin s m h, .inf true => simp only [Flt.pcmp, key]; rw [cmp_eq_gt_iff _ _ |>.mpr (bot _)]; rfl
  | .fin s m h, .inf false => simp only [Flt.pcmp, key]; rw [cmp_eq_lt_iff _ _ |>.mpr (top _)]; rfl
  | .fin s m h, .fin t n h' =>
    simp only [Flt.pcmp, key]
    congr 1
    rw [← cmp_eq_compare]
    rcases lt_trichotomy (sval s m) (sval t n) with hlt | heq | hgt
    · rw [(cmp_eq_lt_iff _ _).mpr hlt, (cmp_eq_lt_iff _ _).mpr (coe_lt.mpr hlt)]
    · rw [heq]; simp
    · rw [(cmp_eq_gt_iff _ _).mpr hgt, (cmp_eq_gt_iff _ _).mpr (coe_lt.mpr hgt)]

instance [Cfg] : LawfulPOrd (Flt F) where
  K := WithBot (WithTop ℚ)
  key := key
  pcmp_eq a b := by
    show Flt.pcmp a b = _
    rw [pcmp_key]
    cases key a <;> cases key b <;> rfl
end Flt
end NdHist
