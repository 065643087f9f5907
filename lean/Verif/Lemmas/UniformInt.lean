import Verif.Lemmas.Basic
import Verif.Model.Uniform
import Mathlib.Tactic.Linarith
import Mathlib.Tactic.Ring
import Mathlib.Algebra.Order.Ring.Int
/-! Uniform axes over machine integers: helper lemmas. -/
set_option linter.unusedSectionVars false
set_option linter.unusedSimpArgs false
namespace NdHist
open RNum
variable [cfg : Cfg] {τ : IntTy}

namespace Uniform

/-- The parameters do not overflow the coordinate type: automatic in a checked build. -/
def Fits (num : Nat) (low step : MInt τ) : Prop :=
  (num : ℤ) * step.val ≤ τ.max ∧ low.val + num * step.val ≤ τ.max

theorem withStepSize_fits {num : Nat} {low step : MInt τ} {a : Uniform (MInt τ)}
    (h : Uniform.withStepSize num low step = .ok (.ok a)) (hc : Cfg.checked = true) :
    Fits num low step := by
  unfold Uniform.withStepSize at h
  rw [MInt.ofUsize_def] at h
  cases hn : (MInt.ofInt? (num : ℤ) : Option (MInt τ)) with
  | none => rw [hn] at h; simp at h
  | some n =>
    rw [hn] at h
    have hnv := MInt.ofInt?_eq_some.mp hn
    simp only [MInt.mul_def, MInt.add_def] at h
    rw [Res.bind_eq_ok] at h
    obtain ⟨prod, hp, h⟩ := h
    rw [Res.bind_eq_ok] at h
    obtain ⟨high, hh, _⟩ := h
    obtain ⟨_, p2, p3⟩ := MInt.arith_checked hc hp
    obtain ⟨_, q2, _⟩ := MInt.arith_checked hc hh
    rw [p3] at q2
    rw [hnv] at p2 q2
    exact ⟨p2, by linarith⟩

/-- What a successful `with_step_size` returns. -/
theorem withStepSize_ok {num : Nat} {low step : MInt τ} {a : Uniform (MInt τ)}
    (h : Uniform.withStepSize num low step = .ok (.ok a))
    (hfit : Cfg.checked = false → Fits num low step) :
    0 < num ∧ (num : ℤ) ≤ τ.max ∧ 0 < step.val ∧ Fits num low step ∧
      a.num = num ∧ a.low = low ∧ a.step = step ∧ a.high.val = low.val + num * step.val := by
  have hf : Fits num low step := by
    cases hc : Cfg.checked with
    | true => exact withStepSize_fits h hc
    | false => exact hfit hc
  obtain ⟨hf1, hf2⟩ := hf
  unfold Uniform.withStepSize at h
  rw [MInt.ofUsize_def] at h
  cases hn : (MInt.ofInt? (num : ℤ) : Option (MInt τ)) with
  | none => rw [hn] at h; simp at h
  | some n =>
    rw [hn] at h
    have hnv := MInt.ofInt?_eq_some.mp hn
    have hnmax : (num : ℤ) ≤ τ.max := hnv ▸ n.le_max
    simp only [MInt.mul_def, MInt.add_def, hnv] at h
    by_cases hs : step.val ≤ 0
    · -- rejected (or panicked)
      rw [Res.bind_eq_ok] at h
      obtain ⟨prod, hp, h⟩ := h
      rw [Res.bind_eq_ok] at h
      obtain ⟨high, hh, h⟩ := h
      have : (decide (step.val ≤ (@RNum.zero (MInt τ) cfg MInt.instRNum).val)) = true := by
        simpa [MInt.zero_val] using hs
      by_cases h0 : num = 0
      · simp [h0] at h
      · simp [h0, MInt.le_iff, this] at h
    · have hs' : 0 < step.val := by omega
      have hp0 : (0 : ℤ) ≤ num * step.val := by positivity
      have hmin := τ.min_le_zero
      rw [MInt.arith_ok (by omega) hf1] at h
      simp only [Res.ok_bind] at h
      have hl := low.min_le
      rw [MInt.arith_ok (by omega) (by omega)] at h
      simp only [Res.ok_bind] at h
      by_cases h0 : num = 0
      · simp [h0] at h
      · have h1 : ¬ (num * step.val + low.val < low.val) := by omega
        have hz : ¬ (step.val ≤ (@RNum.zero (MInt τ) cfg MInt.instRNum).val) := by
          rw [MInt.zero_val]; omega
        simp only [h0, if_false, MInt.le_iff, MInt.gt_iff, hz, h1, decide_false,
          Bool.false_eq_true, Res.pure_eq] at h
        simp at h
        subst h
        refine ⟨Nat.pos_of_ne_zero h0, hnmax, hs', ⟨hf1, hf2⟩, rfl, rfl, rfl, ?_⟩
        simp [add_comm]

/-- A successful construction always exists for valid parameters. -/
theorem withStepSize_of_valid {num : Nat} {low step : MInt τ} (h0 : 0 < num) (hs : 0 < step.val)
    (hnmax : (num : ℤ) ≤ τ.max) (hf : Fits num low step) :
    ∃ a, Uniform.withStepSize num low step = .ok (.ok a) := by
  obtain ⟨hf1, hf2⟩ := hf
  unfold Uniform.withStepSize
  have hmin := τ.min_le_zero
  have hn : (MInt.ofInt? (num : ℤ) : Option (MInt τ)) = some ⟨num, by omega, hnmax⟩ := by
    rw [MInt.ofInt?_eq_some]
  have hp0 : (0 : ℤ) ≤ num * step.val := by positivity
  have hl := low.min_le
  have hz : ¬ (step.val ≤ (@RNum.zero (MInt τ) cfg MInt.instRNum).val) := by
    rw [MInt.zero_val]; omega
  rw [MInt.ofUsize_def, hn]
  simp only [MInt.mul_def, MInt.add_def]
  rw [MInt.arith_ok (by omega) hf1]
  simp only [Res.ok_bind]
  rw [MInt.arith_ok (by omega) (by omega)]
  have h0' : num ≠ 0 := by omega
  simp only [Res.ok_bind, h0', if_false, MInt.le_iff, MInt.gt_iff, hz, decide_false,
          Bool.false_eq_true, Res.pure_eq]
  exact ⟨_, rfl⟩

/-- `index` of an integer axis computes the exact floor division. -/
theorem index_int {a : Uniform (MInt τ)} {num : Nat} {low step : MInt τ}
    (hs : 0 < step.val) (hf : Fits num low step) (e1 : a.num = num) (e2 : a.low = low)
    (e3 : a.step = step) (e4 : a.high.val = low.val + num * step.val)
    (hnum : num + 1 < usizeSize) (c : MInt τ) :
    a.index c = .ok (some (
      if c.val < low.val then 0
      else if low.val + num * step.val ≤ c.val then num + 1
      else ((c.val - low.val) / step.val).toNat + 1)) := by
  unfold Uniform.index
  simp only [MInt.lt_iff, MInt.ge_iff, e1, e2, e3, e4, decide_eq_true_eq]
  by_cases h1 : c.val < low.val
  · simp [h1]
  · simp only [h1, if_false]
    by_cases h2 : low.val + num * step.val ≤ c.val
    · simp only [h2, if_true]
      rw [uadd_ok hnum]; rfl
    · simp only [h2, if_false]
      obtain ⟨hf1, hf2⟩ := hf
      have hmin := τ.min_le_zero
      have hd0 : 0 ≤ c.val - low.val := by omega
      have hd1 : c.val - low.val < num * step.val := by omega
      rw [MInt.sub_def, MInt.arith_ok (by omega) (by omega)]
      simp only [Res.ok_bind]
      have hq0 : 0 ≤ (c.val - low.val) / step.val := Int.ediv_nonneg hd0 hs.le
      have hq1 : (c.val - low.val) / step.val < num := Int.ediv_lt_of_lt_mul hs hd1
      have hqle : (c.val - low.val) / step.val ≤ c.val - low.val := Int.ediv_le_self _ hd0
      rw [MInt.div_def]
      simp only [show step.val ≠ 0 by omega, if_false]
      rw [Int.tdiv_eq_ediv_of_nonneg hd0, MInt.arithDiv_ok (by omega) (by omega)]
      simp only [Res.ok_bind, MInt.toUsize_def]
      have hus : (c.val - low.val) / step.val < (usizeSize : ℤ) := by omega
      simp only [hq0, hus, and_self, if_true, Option.getD_some]
      rw [uadd_ok (by omega)]
      rfl

end Uniform
end NdHist

namespace NdHist
open RNum
variable [cfg : Cfg] {τ : IntTy}
namespace Uniform

/-- `edge` of an integer axis, when the intermediate product fits -/
theorem edge_int {a : Uniform (MInt τ)} {num : Nat} {low step : MInt τ}
    (h0 : 0 < num) (hnmax : (num : ℤ) ≤ τ.max)
    (hs : 0 < step.val) (hf : Fits num low step) (e1 : a.num = num) (e2 : a.low = low)
    (e4 : a.high.val = low.val + num * step.val) {k : Nat} (hk : k ≤ num)
    (hprod : (k : ℤ) * (num * step.val) ≤ τ.max) :
    ∃ e : MInt τ, a.edge k = .ok (some e) ∧ e.val = low.val + k * step.val := by
  obtain ⟨hf1, hf2⟩ := hf
  have hmin := τ.min_le_zero
  have hl := low.min_le
  have hr0 : (0 : ℤ) ≤ num * step.val := by positivity
  have hks : (k : ℤ) * step.val ≤ num * step.val := by
    apply mul_le_mul_of_nonneg_right _ hs.le; exact_mod_cast hk
  have hks0 : (0 : ℤ) ≤ k * step.val := by positivity
  have hp0 : (0 : ℤ) ≤ k * (num * step.val) := by positivity
  unfold Uniform.edge
  have hkz : (k : ℤ) ≤ num := by exact_mod_cast hk
  have hkt : (MInt.ofInt? (k : ℤ) : Option (MInt τ)) = some ⟨k, by omega, by omega⟩ := by
    rw [MInt.ofInt?_eq_some]
  have hnt : (MInt.ofInt? (num : ℤ) : Option (MInt τ)) = some ⟨num, by omega, hnmax⟩ := by
    rw [MInt.ofInt?_eq_some]
  rw [MInt.ofUsize_def, hkt]
  simp only [MInt.sub_def, MInt.mul_def, MInt.add_def, MInt.div_def, MInt.ofUsize_def, e1, e2, e4,
    add_sub_cancel_left, hnt]
  rw [MInt.arith_ok (by omega) hf1]
  simp only [Res.ok_bind]
  rw [MInt.arith_ok (by omega) hprod]
  simp only [Res.ok_bind, show (num : ℤ) ≠ 0 by omega, if_false]
  have hdiv : ((k : ℤ) * (num * step.val)).tdiv num = k * step.val := by
    rw [Int.tdiv_eq_ediv_of_nonneg hp0,
      show (k : ℤ) * (num * step.val) = (k * step.val) * num by ring,
      Int.mul_ediv_cancel _ (by omega)]
  rw [MInt.arithDiv_ok (by rw [hdiv]; omega) (by rw [hdiv]; omega)]
  simp only [Res.ok_bind]
  rw [MInt.arith_ok (by rw [hdiv]; omega) (by rw [hdiv]; omega)]
  exact ⟨_, rfl, by simp only [hdiv]⟩

/-- in a checked build, `edge` panics when the intermediate product overflows -/
theorem edge_int_panic {a : Uniform (MInt τ)} {num : Nat} {low step : MInt τ}
    (hc : Cfg.checked = true) (h0 : 0 < num) (hnmax : (num : ℤ) ≤ τ.max)
    (hs : 0 < step.val) (hf : Fits num low step) (e2 : a.low = low)
    (e4 : a.high.val = low.val + num * step.val) {k : Nat} (hk : k ≤ num)
    (hprod : ¬ (k : ℤ) * (num * step.val) ≤ τ.max) :
    a.edge k = .error .overflow := by
  obtain ⟨hf1, hf2⟩ := hf
  have hmin := τ.min_le_zero
  have hr0 : (0 : ℤ) ≤ num * step.val := by positivity
  unfold Uniform.edge
  have hkz : (k : ℤ) ≤ num := by exact_mod_cast hk
  have hkt : (MInt.ofInt? (k : ℤ) : Option (MInt τ)) = some ⟨k, by omega, by omega⟩ := by
    rw [MInt.ofInt?_eq_some]
  rw [MInt.ofUsize_def, hkt]
  simp only [MInt.sub_def, MInt.mul_def, e2, e4, add_sub_cancel_left]
  rw [MInt.arith_ok (by omega) hf1]
  simp only [Res.ok_bind]
  unfold MInt.arith
  simp [hprod, hc]

end Uniform

namespace UniformNoFlow
variable {T : Type} [RNum T]

/-- `index` without flow bins, from the index with flow bins -/
theorem index_of {u : Uniform T} {c : T} {i : Nat} (hn : u.num + 2 < usizeSize)
    (hi : u.index c = .ok (some i)) (hle : i ≤ u.num + 1) :
    UniformNoFlow.index ⟨u⟩ c = .ok (if i = 0 ∨ i = u.num + 1 then none else some (i - 1)) := by
  unfold UniformNoFlow.index
  rw [hi]
  simp only [Res.ok_bind]
  by_cases h0 : i = 0
  · simp [h0]
  · simp only [h0, if_false, false_or]
    rw [uadd_ok (by omega), Uniform.numBins, uadd_ok hn]
    simp only [Res.ok_bind]
    by_cases h1 : i = u.num + 1
    · simp [h1]
    · have : ¬ (i + 1 = u.num + 2) := by omega
      rw [usub_ok (by omega)]
      simp [h1, this]

theorem numBins_eq {u : Uniform T} (hn : u.num + 2 < usizeSize) :
    UniformNoFlow.numBins ⟨u⟩ = .ok u.num := by
  unfold UniformNoFlow.numBins
  rw [Uniform.numBins, uadd_ok hn]
  simp only [Res.ok_bind]
  rw [usub_ok (by omega)]
  simp
end UniformNoFlow

/-- the wrap-around on integers computes the representative in `[lo, hi)` -/
theorem wrapAround_int {lo hi x : MInt τ} (hlt : lo.val < hi.val) (hr : hi.val - lo.val ≤ τ.max)
    (h1 : τ.min ≤ x.val - lo.val) (h2 : x.val - lo.val ≤ τ.max) :
    ∃ y : MInt τ, wrapAround lo hi x = .ok y ∧
      y.val = lo.val + (x.val - lo.val) % (hi.val - lo.val) := by
  unfold wrapAround
  have hmin := τ.min_le_zero
  have hmax := τ.max_ge
  have hl := lo.min_le
  have hh := hi.le_max
  rw [MInt.sub_def, MInt.arith_ok (by omega) hr, MInt.sub_def, MInt.arith_ok h1 h2]
  simp only [Res.ok_bind, MInt.rem_def]
  have hb0 : hi.val - lo.val ≠ 0 := by omega
  have hb1 : ¬ (x.val - lo.val = τ.min ∧ hi.val - lo.val = -1 ∧ τ.signed = true) := by omega
  simp only [hb0, hb1, if_false]
  have hbp : 0 < hi.val - lo.val := by omega
  have ht1 := Int.lt_tmod_of_pos (x.val - lo.val) hbp
  have ht2 := Int.tmod_lt_of_pos (x.val - lo.val) hbp
  have he1 := Int.emod_nonneg (x.val - lo.val) hb0
  have he2 := Int.emod_lt_of_pos (x.val - lo.val) hbp
  have hlow : τ.min ≤ (x.val - lo.val).tmod (hi.val - lo.val) := by
    by_cases hd0 : 0 ≤ x.val - lo.val
    · have := Int.tmod_nonneg (hi.val - lo.val) hd0; omega
    · have h3 := Int.neg_tmod (-(x.val - lo.val)) (hi.val - lo.val)
      rw [neg_neg] at h3
      have h4 := Int.tmod_eq_emod_of_nonneg (a := -(x.val - lo.val)) (b := hi.val - lo.val) (by omega)
      have h5 : -(x.val - lo.val) % (hi.val - lo.val) ≤ -(x.val - lo.val) := by
        have e1 := Int.emod_add_mul_ediv (-(x.val - lo.val)) (hi.val - lo.val)
        have e2 := mul_nonneg hbp.le (Int.ediv_nonneg (show 0 ≤ -(x.val - lo.val) by omega) hbp.le)
        linarith
      omega
  rw [MInt.arithDiv_ok hlow (by omega)]
  have hcase : (x.val - lo.val) % (hi.val - lo.val) = (x.val - lo.val).tmod (hi.val - lo.val) ∧
        0 ≤ (x.val - lo.val).tmod (hi.val - lo.val) ∨
      (x.val - lo.val) % (hi.val - lo.val) =
        (hi.val - lo.val) + (x.val - lo.val).tmod (hi.val - lo.val) ∧
        (x.val - lo.val).tmod (hi.val - lo.val) < 0 := by
    have h3 := Int.tmod_eq_emod (a := x.val - lo.val) (b := hi.val - lo.val)
    rw [h3]
    have habs : ((hi.val - lo.val).natAbs : ℤ) = hi.val - lo.val := Int.natAbs_of_nonneg hbp.le
    split
    · left; omega
    · right; rw [habs]; omega
  simp only [Res.ok_bind, MInt.lt_iff, MInt.zero_val, decide_eq_true_eq]
  rcases hcase with ⟨hc1, hc2⟩ | ⟨hc1, hc2⟩
  · rw [if_neg (by omega)]
    simp only [Res.pure_eq, Res.ok_bind, MInt.add_def]
    rw [MInt.arith_ok (by omega) (by omega)]
    exact ⟨_, rfl, by simp only [hc1]; omega⟩
  · rw [if_pos hc2]
    simp only [MInt.add_def]
    rw [MInt.arith_ok (by omega) (by omega)]
    simp only [Res.ok_bind]
    rw [MInt.arith_ok (by omega) (by omega)]
    exact ⟨_, rfl, by simp only [hc1]; omega⟩
end NdHist
