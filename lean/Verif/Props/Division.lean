import Verif.Props.Arith
/-!
# C87: dividing histograms of integers

Division of primitive integers can fail in two ways, in both build profiles: division by zero, and `MIN / -1` (signed types), whose result does not fit.
-/
namespace NdHist
open RNum

section
variable [cfg : Cfg] {A : Type} [Axis A] {τ : IntTy} {n : Nat}

omit cfg in
theorem tdiv_abs_le (a b : ℤ) : |a.tdiv b| ≤ |a| := by
  have h := Int.natAbs_tdiv a b
  have h2 : (a.tdiv b).natAbs ≤ a.natAbs := by rw [h]; exact Nat.div_le_self _ _
  rw [Int.abs_eq_natAbs, Int.abs_eq_natAbs]
  exact_mod_cast h2

theorem tdiv_fits (a b : MInt τ) (h0 : b.val ≠ 0) (hov : ¬(τ.signed = true ∧ a.val = τ.min ∧ b.val = -1)) : τ.min ≤ a.val.tdiv b.val ∧ a.val.tdiv b.val ≤ τ.max := by
  have h1 := tdiv_abs_le a.val b.val
  have ha1 := a.2
  have ha2 := a.3
  have hb1 := b.2
  cases hs : τ.signed with
  | false =>
    have hmin : τ.min = 0 := by simp [IntTy.min, hs]
    have ha : 0 ≤ a.val := by omega
    have hb : 0 ≤ b.val := by omega
    have := Int.tdiv_nonneg ha hb
    rw [abs_of_nonneg this, abs_of_nonneg ha] at h1
    omega
  | true =>
    have hmin : τ.min = -(2 ^ (τ.bits - 1)) := by simp [IntTy.min, hs]
    have hmax : τ.max = 2 ^ (τ.bits - 1) - 1 := by simp [IntTy.max, hs]
    have hhalf := τ.half_ge
    generalize (2 : ℤ) ^ (τ.bits - 1) = k at *
    rcases abs_le.1 h1 with ⟨l, u⟩
    by_cases hm : a.val = τ.min
    · have hb' : b.val ≠ -1 := fun h => hov ⟨hs, hm, h⟩
      have haneg : a.val ≤ 0 := by omega
      have habs : |a.val| = k := by rw [abs_of_nonpos haneg]; omega
      refine ⟨by omega, ?_⟩
      rcases lt_or_gt_of_ne h0 with hb | hb
      · -- a divisor below -1 at least halves it
        have h3 : (a.val.tdiv b.val).natAbs ≤ a.val.natAbs / 2 := by
          rw [Int.natAbs_tdiv]
          exact Nat.div_le_div_left (by omega) (by decide)
        omega
      · have h4 := Int.tdiv_nonneg (show 0 ≤ -a.val by omega) (show 0 ≤ b.val by omega)
        rw [Int.neg_tdiv] at h4
        omega
    · have habs : |a.val| ≤ k - 1 := by rw [abs_le]; omega
      omega

/-- Division of two primitive integers, in both build profiles. -/
theorem MInt.div_cases (a b : MInt τ) :
    (b.val = 0 ∧ ROps.op .div a b = .error .divZero) ∨
    ((τ.signed = true ∧ a.val = τ.min ∧ b.val = -1) ∧ ROps.op .div a b = .error .overflow) ∨
    (b.val ≠ 0 ∧ ¬(τ.signed = true ∧ a.val = τ.min ∧ b.val = -1) ∧ ∃ c : MInt τ, ROps.op .div a b = .ok c ∧ c.val = a.val.tdiv b.val) := by
  have hd : ROps.op .div a b = (if b.val = 0 then .error .divZero else MInt.arithDiv (a.val.tdiv b.val) : Res (MInt τ)) := rfl
  rw [hd]
  by_cases h0 : b.val = 0
  · exact .inl ⟨h0, if_pos h0⟩
  · rw [if_neg h0]
    by_cases hov : τ.signed = true ∧ a.val = τ.min ∧ b.val = -1
    · refine .inr (.inl ⟨hov, ?_⟩)
      obtain ⟨hs, hm, hb⟩ := hov
      have hmin : τ.min = -(2 ^ (τ.bits - 1)) := by simp [IntTy.min, hs]
      have hmax : τ.max = 2 ^ (τ.bits - 1) - 1 := by simp [IntTy.max, hs]
      have ht : a.val.tdiv b.val = -a.val := by rw [hb]; simp
      rw [MInt.arithDiv, dif_neg]
      rw [ht]; omega
    · obtain ⟨h1, h2⟩ := tdiv_fits a b h0 hov
      exact .inr (.inr ⟨h0, hov, ⟨_, h1, h2⟩, MInt.arithDiv_ok h1 h2, rfl⟩)

/-- **C87 (dividing histograms of integers).** In both build profiles: `&l / &r` for dense histograms of primitive integers with equal axes returns exactly if no bin of `r` is zero and no bin
divides the least value of a signed type by -1; every bin is then the quotient truncated toward zero. Otherwise it panics: with a division by zero only if some bin of `r` is zero, and with an
overflow only if some bin divides the least value by -1 (so a build without overflow checks does not wrap here). -/
theorem C87_division [PEq A] {l r : VecHistogram A (MInt τ)} (hl : l.Ok n) (hr : r.Ok n) (hax : PEq.peq l.axes r.axes = true)
    (x y : Nat → MInt τ) (hx : ∀ i, i < n → l.valueAtIndex i = some (x i)) (hy : ∀ i, i < n → r.valueAtIndex i = some (y i)) :
    ((∃ m, l.opBorrow .div r = .ok m) ↔ ∀ i, i < n → (y i).val ≠ 0 ∧ ¬(τ.signed = true ∧ (x i).val = τ.min ∧ (y i).val = -1)) ∧
    (∀ m, l.opBorrow .div r = .ok m → ∃ m', m = .ok m' ∧ m'.axes = l.axes ∧ m'.Ok n ∧ ∀ i, i < n → ∃ v, m'.valueAtIndex i = some v ∧ v.val = (x i).val.tdiv (y i).val) ∧
    (∀ p, l.opBorrow .div r = .error p →
      (p = .divZero ∧ ∃ i, i < n ∧ (y i).val = 0) ∨ (p = .overflow ∧ ∃ i, i < n ∧ τ.signed = true ∧ (x i).val = τ.min ∧ (y i).val = -1)) := by
  rcases C33_binwise_dense .div hl hr hax with ⟨m, m1, m2, m3, m4⟩ | ⟨p, i, u, v, e1, e2, e3, e4⟩
  · have hb : ∀ i, i < n → ((y i).val ≠ 0 ∧ ¬(τ.signed = true ∧ (x i).val = τ.min ∧ (y i).val = -1)) ∧ ∃ v, m.valueAtIndex i = some v ∧ v.val = (x i).val.tdiv (y i).val := by
      intro i hi
      obtain ⟨u, v, w, q1, q2, q3, q4⟩ := m4 i hi
      rw [hx i hi] at q1; rw [hy i hi] at q2
      cases q1; cases q2
      rcases MInt.div_cases (x i) (y i) with ⟨-, h⟩ | ⟨-, h⟩ | ⟨h1, h2, c, h3, h4⟩
      · rw [h] at q3; cases q3
      · rw [h] at q3; cases q3
      · rw [h3] at q3; cases q3
        exact ⟨⟨h1, h2⟩, _, q4, h4⟩
    refine ⟨⟨fun _ i hi => (hb i hi).1, fun _ => ⟨_, m1⟩⟩, fun m' hm => ?_, fun p hp => ?_⟩
    · rw [m1] at hm; cases hm
      exact ⟨m, rfl, m3, m2, fun i hi => (hb i hi).2⟩
    · rw [m1] at hp; cases hp
  · have hi : i < n := by
      have := (List.getElem?_eq_some_iff.1 (show l.values[i]? = some u from e2)).1
      rwa [hl.size] at this
    rw [hx i hi] at e2; rw [hy i hi] at e3
    cases e2; cases e3
    refine ⟨⟨fun hm => (by obtain ⟨m, hm⟩ := hm; rw [e1] at hm; cases hm), fun h => ?_⟩, fun m hm => (by rw [e1] at hm; cases hm), fun q hq => ?_⟩
    · rcases MInt.div_cases (x i) (y i) with ⟨h0, -⟩ | ⟨h0, -⟩ | ⟨-, -, c, h3, -⟩
      · exact absurd h0 (h i hi).1
      · exact absurd h0 (h i hi).2
      · rw [h3] at e4; cases e4
    · rw [e1] at hq; cases hq
      rcases MInt.div_cases (x i) (y i) with ⟨h0, h⟩ | ⟨h0, h⟩ | ⟨-, -, c, h3, -⟩
      · rw [h] at e4; cases e4
        exact .inl ⟨rfl, i, hi, h0⟩
      · rw [h] at e4; cases e4
        exact .inr ⟨rfl, i, hi, h0⟩
      · rw [h3] at e4; cases e4

/-- **C87 (dividing by a number).** The same for `&h / c`. -/
theorem C87_division_scalar {h : VecHistogram A (MInt τ)} (ok : h.Ok n) (c : MInt τ) (x : Nat → MInt τ) (hx : ∀ i, i < n → h.valueAtIndex i = some (x i)) :
    ((∃ m, h.opScalar .div c = .ok m) ↔ ∀ i, i < n → c.val ≠ 0 ∧ ¬(τ.signed = true ∧ (x i).val = τ.min ∧ c.val = -1)) ∧
    (∀ m, h.opScalar .div c = .ok m → m.axes = h.axes ∧ m.Ok n ∧ ∀ i, i < n → ∃ v, m.valueAtIndex i = some v ∧ v.val = (x i).val.tdiv c.val) ∧
    (∀ p, h.opScalar .div c = .error p →
      (p = .divZero ∧ c.val = 0) ∨ (p = .overflow ∧ ∃ i, i < n ∧ τ.signed = true ∧ (x i).val = τ.min ∧ c.val = -1)) := by
  rcases C36_scalar .div ok c with ⟨m, m1, m2, m3, m4⟩ | ⟨p, i, u, e1, e2, e3⟩
  · have hb : ∀ i, i < n → (c.val ≠ 0 ∧ ¬(τ.signed = true ∧ (x i).val = τ.min ∧ c.val = -1)) ∧ ∃ v, m.valueAtIndex i = some v ∧ v.val = (x i).val.tdiv c.val := by
      intro i hi
      obtain ⟨w, q3, q4⟩ := m4 i _ (hx i hi)
      rcases MInt.div_cases (x i) c with ⟨-, h⟩ | ⟨-, h⟩ | ⟨h1, h2, c', h3, h4⟩
      · rw [h] at q3; cases q3
      · rw [h] at q3; cases q3
      · rw [h3] at q3; cases q3
        exact ⟨⟨h1, h2⟩, _, q4, h4⟩
    refine ⟨⟨fun _ i hi => (hb i hi).1, fun _ => ⟨_, m1⟩⟩, fun m' hm => ?_, fun p hp => ?_⟩
    · rw [m1] at hm; cases hm
      exact ⟨m3, m2, fun i hi => (hb i hi).2⟩
    · rw [m1] at hp; cases hp
  · have hi : i < n := by
      have := (List.getElem?_eq_some_iff.1 (show h.values[i]? = some u from e2)).1
      rwa [ok.size] at this
    rw [hx i hi] at e2
    cases e2
    refine ⟨⟨fun hm => (by obtain ⟨m, hm⟩ := hm; rw [e1] at hm; cases hm), fun h => ?_⟩, fun m hm => (by rw [e1] at hm; cases hm), fun q hq => ?_⟩
    · rcases MInt.div_cases (x i) c with ⟨h0, -⟩ | ⟨h0, -⟩ | ⟨-, -, c, h3, -⟩
      · exact absurd h0 (h i hi).1
      · exact absurd h0 (h i hi).2
      · rw [h3] at e3; cases e3
    · rw [e1] at hq; cases hq
      rcases MInt.div_cases (x i) c with ⟨h0, h⟩ | ⟨h0, h⟩ | ⟨-, -, c, h3, -⟩
      · rw [h] at e3; cases e3
        exact .inl ⟨rfl, h0⟩
      · rw [h] at e3; cases e3
        exact .inr ⟨rfl, i, hi, h0⟩
      · rw [h3] at e3; cases e3
end
end NdHist
