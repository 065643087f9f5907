import Verif.Props.Division
import Verif.Props.WrapOps
/-!
# C73, C87: division and remainder of `Wrapping<T>`
-/
namespace NdHist
open RNum

section
variable [cfg : Cfg] {A : Type} [Axis A] {τ : IntTy} {n : Nat}

theorem wrapping_of_fits {k : ℤ} (h1 : τ.min ≤ k) (h2 : k ≤ τ.max) : (MInt.wrapping k : MInt τ).val = k := by
  have := MInt.wrapping_modEq (τ := τ) k
  exact MInt.eq_of_modEq this ⟨h1, h2⟩

/-- **C73 (division of Wrapping).** In both build profiles: dividing a `Wrapping<T>` by zero panics, and so does taking the remainder; by another number, both return. The quotient is the one
truncated toward zero, except that the least value of a signed type divided by -1 wraps around to itself; quotient times divisor plus remainder is the dividend modulo 2^bits, and the remainder
is smaller in size than the divisor and zero or of the sign of the dividend. -/
theorem C73_wrapping_division (a b : WInt τ) :
    (b.val = 0 → @div _ cfg _ a b = .error .divZero ∧ @rem _ cfg _ a b = .error .divZero) ∧
    (b.val ≠ 0 → ∃ q r : WInt τ, @div _ cfg _ a b = .ok q ∧ @rem _ cfg _ a b = .ok r ∧ q.val * b.val + r.val ≡ a.val [ZMOD 2 ^ τ.bits] ∧ |r.val| < |b.val| ∧ 0 ≤ r.val * a.val ∧
      (if τ.signed = true ∧ a.val = τ.min ∧ b.val = -1 then q.val = τ.min ∧ r.val = 0 else q.val * b.val + r.val = a.val)) := by
  have hd : @div _ cfg _ a b = (if b.val = 0 then .error .divZero else .ok ⟨MInt.wrapping (a.val.tdiv b.val)⟩ : Res (WInt τ)) := rfl
  have hm : @rem _ cfg _ a b = (if b.val = 0 then .error .divZero else .ok ⟨MInt.wrapping (a.val.tmod b.val)⟩ : Res (WInt τ)) := rfl
  refine ⟨fun h => by rw [hd, hm, if_pos h, if_pos h]; exact ⟨rfl, rfl⟩, fun h => ?_⟩
  rw [hd, hm, if_neg h, if_neg h]
  have h1 : |a.val.tmod b.val| < |b.val| := by
    rw [Int.abs_eq_natAbs, Int.abs_eq_natAbs, Int.natAbs_tmod]
    exact_mod_cast Nat.mod_lt _ (Int.natAbs_pos.2 h)
  have hneg : a.val ≤ 0 → a.val.tmod b.val ≤ 0 := by
    intro ha
    have := Int.tmod_nonneg b.val (show 0 ≤ -a.val by omega)
    rw [Int.neg_tmod] at this
    omega
  have h2 : 0 ≤ a.val.tmod b.val * a.val := by
    rcases le_total 0 a.val with ha | ha
    · exact mul_nonneg (Int.tmod_nonneg _ ha) ha
    · exact mul_nonneg_of_nonpos_of_nonpos (hneg ha) ha
  have h3 : a.val.tdiv b.val * b.val + a.val.tmod b.val = a.val := Int.tdiv_mul_add_tmod _ _
  have ha1 := a.inner.2
  have ha2 := a.inner.3
  have hb1 := b.inner.2
  have hb2 := b.inner.3
  change τ.min ≤ a.val at ha1
  change a.val ≤ τ.max at ha2
  change τ.min ≤ b.val at hb1
  change b.val ≤ τ.max at hb2
  have hmm := τ.min_le_zero
  have hmx := τ.max_ge
  have hr : τ.min ≤ a.val.tmod b.val ∧ a.val.tmod b.val ≤ τ.max := by
    have e : |a.val.tmod b.val| ≤ |a.val| := by
      rw [Int.abs_eq_natAbs, Int.abs_eq_natAbs, Int.natAbs_tmod]
      exact_mod_cast Nat.mod_le _ _
    rcases le_total 0 a.val with ha | ha
    · have := Int.tmod_nonneg b.val ha
      rw [abs_of_nonneg this, abs_of_nonneg ha] at e
      omega
    · have := hneg ha
      rw [abs_of_nonpos this, abs_of_nonpos ha] at e
      omega
  have er : (MInt.wrapping (a.val.tmod b.val) : MInt τ).val = a.val.tmod b.val := wrapping_of_fits hr.1 hr.2
  refine ⟨_, _, rfl, rfl, ?_, ?_, ?_, ?_⟩
  · change (MInt.wrapping (a.val.tdiv b.val) : MInt τ).val * b.val + (MInt.wrapping (a.val.tmod b.val) : MInt τ).val ≡ _ [ZMOD _]
    rw [er]
    calc _ ≡ a.val.tdiv b.val * b.val + a.val.tmod b.val [ZMOD 2 ^ τ.bits] := ((MInt.wrapping_modEq _).mul_right _).add_right _
      _ = a.val := h3
  · change |(MInt.wrapping (a.val.tmod b.val) : MInt τ).val| < _
    rwa [er]
  · change 0 ≤ (MInt.wrapping (a.val.tmod b.val) : MInt τ).val * _
    rwa [er]
  · change if _ then (MInt.wrapping (a.val.tdiv b.val) : MInt τ).val = _ ∧ (MInt.wrapping (a.val.tmod b.val) : MInt τ).val = 0 else
      (MInt.wrapping (a.val.tdiv b.val) : MInt τ).val * b.val + (MInt.wrapping (a.val.tmod b.val) : MInt τ).val = a.val
    rw [er]
    split
    · rename_i hov
      obtain ⟨hs, hm, hb⟩ := hov
      have hmin : τ.min = -(2 ^ (τ.bits - 1)) := by simp [IntTy.min, hs]
      refine ⟨?_, by rw [hb]; simp⟩
      have e : a.val.tdiv b.val = -a.val := by rw [hb]; simp
      refine MInt.eq_of_modEq ((MInt.wrapping_modEq _).trans ?_) ⟨le_refl _, by omega⟩
      rw [e, hm, hmin, neg_neg, Int.modEq_iff_dvd]
      have hbits : 2 ^ τ.bits = 2 * (2 : ℤ) ^ (τ.bits - 1) := by
        rw [← pow_succ']; congr 1
        have := τ.bits_ge; omega
      rw [hbits]
      exact ⟨-1, by ring⟩
    · rename_i hov
      have := tdiv_fits a.inner b.inner h hov
      rw [wrapping_of_fits (k := a.val.tdiv b.val) this.1 this.2]
      exact h3

/-- **C87 (dividing histograms of Wrapping).** In both build profiles: `&l / &r` for dense histograms of `Wrapping<T>` with equal axes returns exactly if no bin of `r` is zero, and every bin is
then the quotient truncated toward zero, or the least value where that is divided by -1. -/
theorem C87_division_wrapping [PEq A] {l r : VecHistogram A (WInt τ)} (hl : l.Ok n) (hr : r.Ok n) (hax : PEq.peq l.axes r.axes = true)
    (x y : Nat → WInt τ) (hx : ∀ i, i < n → l.valueAtIndex i = some (x i)) (hy : ∀ i, i < n → r.valueAtIndex i = some (y i)) :
    ((∃ m, l.opBorrow .div r = .ok m) ↔ ∀ i, i < n → (y i).val ≠ 0) ∧
    (∀ m, l.opBorrow .div r = .ok m → ∃ m', m = .ok m' ∧ m'.axes = l.axes ∧ m'.Ok n ∧ ∀ i, i < n → ∃ v, m'.valueAtIndex i = some v ∧
      v.val = if τ.signed = true ∧ (x i).val = τ.min ∧ (y i).val = -1 then τ.min else (x i).val.tdiv (y i).val) ∧
    (∀ p, l.opBorrow .div r = .error p → p = .divZero) := by
  have hz : ∀ a b : WInt τ, b.val = 0 → ROps.op .div a b = .error .divZero := fun a b h => ((C73_wrapping_division a b).1 h).1
  have hq : ∀ a b : WInt τ, b.val ≠ 0 → ∃ c, ROps.op .div a b = .ok c ∧ c.val = if τ.signed = true ∧ a.val = τ.min ∧ b.val = -1 then τ.min else a.val.tdiv b.val := by
    intro a b h
    obtain ⟨q, r, h1, -, -, h4, h5, h6⟩ := (C73_wrapping_division a b).2 h
    refine ⟨q, h1, ?_⟩
    split at h6
    · rw [if_pos (by assumption)]; exact h6.1
    · rw [if_neg (by assumption)]
      have h3 : a.val.tdiv b.val * b.val + a.val.tmod b.val = a.val := Int.tdiv_mul_add_tmod _ _
      have hd : @div _ cfg _ a b = (if b.val = 0 then .error .divZero else .ok ⟨MInt.wrapping (a.val.tdiv b.val)⟩ : Res (WInt τ)) := rfl
      rw [hd, if_neg h] at h1
      cases h1
      have := tdiv_fits a.inner b.inner h (by assumption)
      exact wrapping_of_fits (k := a.val.tdiv b.val) this.1 this.2
  rcases C33_binwise_dense .div hl hr hax with ⟨m, m1, m2, m3, m4⟩ | ⟨p, i, u, v, e1, e2, e3, e4⟩
  · have hb : ∀ i, i < n → (y i).val ≠ 0 ∧ ∃ v, m.valueAtIndex i = some v ∧ v.val = if τ.signed = true ∧ (x i).val = τ.min ∧ (y i).val = -1 then τ.min else (x i).val.tdiv (y i).val := by
      intro i hi
      obtain ⟨u, v, w, q1, q2, q3, q4⟩ := m4 i hi
      rw [hx i hi] at q1; rw [hy i hi] at q2
      cases q1; cases q2
      by_cases h0 : (y i).val = 0
      · rw [hz _ _ h0] at q3; cases q3
      · obtain ⟨c, h3, h4⟩ := hq (x i) (y i) h0
        rw [h3] at q3; cases q3
        exact ⟨h0, _, q4, h4⟩
    refine ⟨⟨fun _ i hi => (hb i hi).1, fun _ => ⟨_, m1⟩⟩, fun m' hm => ?_, fun p hp => ?_⟩
    · rw [m1] at hm; cases hm
      exact ⟨m, rfl, m3, m2, fun i hi => (hb i hi).2⟩
    · rw [m1] at hp; cases hp
  · have hi : i < n := by
      have := (List.getElem?_eq_some_iff.1 (show l.values[i]? = some u from e2)).1
      rwa [hl.size] at this
    rw [hx i hi] at e2; rw [hy i hi] at e3
    cases e2; cases e3
    have h0 : (y i).val = 0 := by
      by_contra h0
      obtain ⟨c, h3, -⟩ := hq (x i) (y i) h0
      rw [h3] at e4; cases e4
    refine ⟨⟨fun hm => (by obtain ⟨m, hm⟩ := hm; rw [e1] at hm; cases hm), fun h => absurd h0 (h i hi)⟩, fun m hm => (by rw [e1] at hm; cases hm), fun q hq' => ?_⟩
    rw [e1] at hq'; cases hq'
    rw [hz _ _ h0] at e4; cases e4
    rfl
end
end NdHist
