import Verif.Model.Num
/-! Helper lemmas about `Res`, `usize` and integer arithmetic. -/
set_option linter.unusedSectionVars false
set_option linter.unusedSimpArgs false
namespace NdHist

@[simp] theorem Res.ok_bind {α β : Type} (a : α) (f : α → Res β) : (Except.ok a : Res α) >>= f = f a := rfl
@[simp] theorem Res.error_bind {α β : Type} (p : Panic) (f : α → Res β) :
    (Except.error p : Res α) >>= f = .error p := rfl
@[simp] theorem Res.pure_eq {α : Type} (a : α) : (pure a : Res α) = .ok a := rfl
@[simp] theorem Res.throw_eq {α : Type} (p : Panic) : (throw p : Res α) = .error p := rfl

theorem Res.bind_eq_ok {α β : Type} {r : Res α} {f : α → Res β} {b : β} :
    r >>= f = .ok b ↔ ∃ a, r = .ok a ∧ f a = .ok b := by
  cases r <;> simp

section
variable [Cfg]

theorem two_le_usizeSize : 2 ^ 16 ≤ usizeSize := Nat.pow_le_pow_right (by decide) Cfg.bits_ge

theorem uwrap_ok {n : Nat} (h : n < usizeSize) : uwrap n = .ok n := by simp [uwrap, h]

theorem uadd_ok {a b : Nat} (h : a + b < usizeSize) : uadd a b = .ok (a + b) := uwrap_ok h

theorem umul_ok {a b : Nat} (h : a * b < usizeSize) : umul a b = .ok (a * b) := uwrap_ok h

theorem usub_ok {a b : Nat} (h : b ≤ a) : usub a b = .ok (a - b) := by simp [usub, h]

theorem uwrap_checked (hc : Cfg.checked = true) {n m : Nat} (h : uwrap n = .ok m) : n < usizeSize ∧ m = n := by
  unfold uwrap at h
  split at h
  · simp at h; exact ⟨by assumption, h.symm⟩
  · simp [hc] at h
end

section
variable [cfg : Cfg] {τ : IntTy}
open RNum

namespace MInt
theorem arith_ok {n : Int} (h1 : τ.min ≤ n) (h2 : n ≤ τ.max) :
    (arith n : Res (MInt τ)) = .ok ⟨n, h1, h2⟩ := by simp [arith, h1, h2]

theorem arithDiv_ok {n : Int} (h1 : τ.min ≤ n) (h2 : n ≤ τ.max) :
    (arithDiv n : Res (MInt τ)) = .ok ⟨n, h1, h2⟩ := by simp [arithDiv, h1, h2]

theorem arith_checked (hc : Cfg.checked = true) {n : Int} {m : MInt τ} (h : arith n = .ok m) :
    τ.min ≤ n ∧ n ≤ τ.max ∧ m.val = n := by
  unfold arith at h
  split at h
  · rename_i hn; simp at h; subst h; exact ⟨hn.1, hn.2, rfl⟩
  · simp [hc] at h

theorem wrapVal_id {n : Int} (h1 : τ.min ≤ n) (h2 : n ≤ τ.max) : wrapVal τ n = n := by
  have := τ.size_eq
  unfold wrapVal
  rw [Int.emod_eq_of_lt] <;> omega

/-- wrap-around preserves congruence -/
theorem wrapVal_mod (n : Int) : ∃ k : Int, wrapVal τ n = n + k * 2 ^ τ.bits := by
  refine ⟨-((n - τ.min) / 2 ^ τ.bits), ?_⟩
  unfold wrapVal
  have := Int.emod_add_mul_ediv (n - τ.min) (2 ^ τ.bits)
  have h3 := Int.mul_comm (2 ^ τ.bits : Int) ((n - τ.min) / 2 ^ τ.bits)
  have h4 := Int.neg_mul ((n - τ.min) / 2 ^ τ.bits) (2 ^ τ.bits)
  omega

/-- in an unchecked build `+ - *` always succeed and wrap -/
theorem arith_unchecked (hc : Cfg.checked = false) (n : Int) :
    (arith n : Res (MInt τ)) = .ok (wrapping n) := by
  unfold arith
  split
  · rename_i hn
    congr 1
    ext
    simp [wrapping, wrapVal_id hn.1 hn.2]
  · simp [hc]

theorem ofInt?_eq_some {n : Int} {m : MInt τ} : ofInt? n = some m ↔ m.val = n := by
  unfold ofInt?
  split
  · rename_i h
    simp only [Option.some.injEq]
    constructor
    · intro hh; rw [← hh]
    · intro hh; ext; simp [hh]
  · rename_i h
    simp only [reduceCtorEq, false_iff]
    intro hh
    exact h ⟨hh ▸ m.min_le, hh ▸ m.le_max⟩

theorem ofInt?_eq_none {n : Int} : (ofInt? n : Option (MInt τ)) = none ↔ n < τ.min ∨ τ.max < n := by
  unfold ofInt?
  split <;> simp <;> omega
end MInt

/-! The operations of the `RNum` instance, unfolded. -/
theorem MInt.pcmp_eq (a b : MInt τ) : @POrd.pcmp (MInt τ) (@RNum.toPOrd (MInt τ) cfg MInt.instRNum) a b = some (compare a.val b.val) := rfl
theorem MInt.lt_iff (a b : MInt τ) : @POrd.lt (MInt τ) (@RNum.toPOrd (MInt τ) cfg MInt.instRNum) a b = decide (a.val < b.val) := by
  rw [POrd.lt, MInt.pcmp_eq, Bool.eq_iff_iff]; simp [Int.compare_eq_lt]
theorem MInt.gt_iff (a b : MInt τ) : @POrd.gt (MInt τ) (@RNum.toPOrd (MInt τ) cfg MInt.instRNum) a b = decide (b.val < a.val) := by
  rw [POrd.gt, MInt.pcmp_eq, Bool.eq_iff_iff]; simp [Int.compare_eq_gt]
theorem MInt.eq_iff (a b : MInt τ) : @POrd.eq (MInt τ) (@RNum.toPOrd (MInt τ) cfg MInt.instRNum) a b = decide (a.val = b.val) := by
  rw [POrd.eq, MInt.pcmp_eq, Bool.eq_iff_iff]; simp [Int.compare_eq_eq]
theorem MInt.le_iff (a b : MInt τ) : @POrd.le (MInt τ) (@RNum.toPOrd (MInt τ) cfg MInt.instRNum) a b = decide (a.val ≤ b.val) := by
  rw [POrd.le, MInt.pcmp_eq, Bool.eq_iff_iff]; simp [Int.compare_eq_lt, Int.compare_eq_eq]; omega
theorem MInt.ge_iff (a b : MInt τ) : @POrd.ge (MInt τ) (@RNum.toPOrd (MInt τ) cfg MInt.instRNum) a b = decide (b.val ≤ a.val) := by
  rw [POrd.ge, MInt.pcmp_eq, Bool.eq_iff_iff]; simp [Int.compare_eq_gt, Int.compare_eq_eq]; omega
theorem MInt.add_def (a b : MInt τ) : @RNum.add (MInt τ) cfg MInt.instRNum a b = MInt.arith (a.val + b.val) := rfl
theorem MInt.sub_def (a b : MInt τ) : @RNum.sub (MInt τ) cfg MInt.instRNum a b = MInt.arith (a.val - b.val) := rfl
theorem MInt.mul_def (a b : MInt τ) : @RNum.mul (MInt τ) cfg MInt.instRNum a b = MInt.arith (a.val * b.val) := rfl
theorem MInt.zero_val : (@RNum.zero (MInt τ) cfg MInt.instRNum).val = 0 := rfl
theorem MInt.one_val : (@RNum.one (MInt τ) cfg MInt.instRNum).val = 1 := rfl
theorem MInt.ofUsize_def (n : Nat) : @RNum.ofUsize (MInt τ) cfg MInt.instRNum n = MInt.ofInt? (n : Int) := rfl
theorem MInt.toUsize_def (a : MInt τ) :
    @RNum.toUsize (MInt τ) cfg MInt.instRNum a = if 0 ≤ a.val ∧ a.val < usizeSize then some a.val.toNat else none := rfl
theorem MInt.div_def (a b : MInt τ) :
    @RNum.div (MInt τ) cfg MInt.instRNum a b = if b.val = 0 then .error .divZero else MInt.arithDiv (a.val.tdiv b.val) := rfl
theorem MInt.rem_def (a b : MInt τ) :
    @RNum.rem (MInt τ) cfg MInt.instRNum a b = if b.val = 0 then .error .divZero
      else if a.val = τ.min ∧ b.val = -1 ∧ τ.signed then .error .overflow
      else MInt.arithDiv (a.val.tmod b.val) := rfl
end
end NdHist
