import Verif.Props.Access
/-!
# C43 for sparse histograms
-/
namespace NdHist
open POrd RNum
section
variable [Cfg] {A : Type} [Axis A]

/-- C43, sparse: the same as `C43_int_fill`, a missing bin counting as 0. With overflow checks the panicking call leaves every bin and the set of stored bins as they were. -/
theorem C43_int_fill_sparse {τ : IntTy} {h : HashHistogram A (MInt τ)} {n : Nat} (ok : h.Ok n) (c : Axis.Coordinate A) (w : MInt τ)
    {i : Nat} (hi : Axis.index h.axes c = .ok (some i)) :
    let v : ℤ := match h.valueAtIndex i with
      | some v => v.val
      | none => 0
    (h.fillWith c w).1.axes = h.axes ∧
    (∀ j, j ≠ i → (h.fillWith c w).1.valueAtIndex j = h.valueAtIndex j) ∧
    (τ.min ≤ v + w.val ∧ v + w.val ≤ τ.max → (h.fillWith c w).2 = none ∧
      ∃ v', (h.fillWith c w).1.valueAtIndex i = some v' ∧ v'.val = v + w.val) ∧
    (¬ (τ.min ≤ v + w.val ∧ v + w.val ≤ τ.max) →
      (Cfg.checked = true → (h.fillWith c w).2 = some .overflow ∧ ∀ j, (h.fillWith c w).1.valueAtIndex j = h.valueAtIndex j) ∧
      (Cfg.checked = false → (h.fillWith c w).2 = none ∧
        ∃ v', (h.fillWith c w).1.valueAtIndex i = some v' ∧ (2 ^ τ.bits : Int) ∣ v'.val - (v + w.val))) := by
  intro v
  obtain ⟨h1, -, h3, -, -⟩ := C27_sparse ok (.fillWith c w : Call (MInt τ) (Axis.Coordinate A))
  obtain ⟨h4, h5, h6⟩ := h3 i hi
  obtain ⟨x, hx⟩ : ∃ x : MInt τ, x = (h.valueAtIndex i).getD RDefault.dflt := ⟨_, rfl⟩
  have hxv : x.val = v := by
    subst hx
    simp only [v]
    cases h.valueAtIndex i with
    | none => exact MInt.zero_val
    | some y => rfl
  have hon : (Call.fillWith c w : Call (MInt τ) (Axis.Coordinate A)).on x = match MInt.arith (x.val + w.val) with
      | .ok s => (s, none) | .error p => (x, some p) := by
    show Upd.store (fun s : MInt τ => MInt.arith (s.val + w.val)) x = _
    simp only [Upd.store]
    cases MInt.arith (τ := τ) (x.val + w.val) <;> rfl
  rw [← hx, hon, hxv] at h4 h5
  refine ⟨h1, h6, ?_, ?_⟩
  · rintro hfit
    rw [MInt.arith, dif_pos hfit] at h4 h5
    exact ⟨h5, _, h4, rfl⟩
  · intro hfit
    constructor
    · intro hc
      rw [MInt.arith, dif_neg hfit, if_pos hc] at h4 h5
      refine ⟨h5, fun j => ?_⟩
      by_cases hj : j = i
      · subst hj
        cases hv : h.valueAtIndex j with
        | none =>
          exfalso
          apply hfit
          simp only [v, hv, zero_add]
          exact ⟨w.min_le, w.le_max⟩
        | some y =>
          rw [hv] at hx
          have : x = y := by rw [hx]; rfl
          rw [← this]; exact h4
      · exact h6 j hj
    · intro hc
      rw [MInt.arith, dif_neg hfit, if_neg (by simp [hc])] at h4 h5
      refine ⟨h5, _, h4, ?_⟩
      simp only [MInt.wrapping, MInt.wrapVal]
      have := Int.mul_ediv_add_emod (v + w.val - τ.min) (2 ^ τ.bits)
      exact ⟨-((v + w.val - τ.min) / 2 ^ τ.bits), by rw [Int.mul_neg]; omega⟩
end
end NdHist
