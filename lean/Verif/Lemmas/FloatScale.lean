import Verif.SpecScale
/-!
# Rounding commutes with multiplication by a power of two
-/
namespace NdHist

theorem ilog2_scale {x : ℚ} (hx : 0 < x) (k : ℤ) : ilog2 (x * pow2 k) = ilog2 x + k := by
  obtain ⟨h1, h2⟩ := ilog2_spec hx
  apply ilog2_eq_of
  · rw [pow2_add]; exact mul_le_mul_of_nonneg_right h1 (pow2_pos k).le
  · rw [show ilog2 x + k + 1 = (ilog2 x + 1) + k by ring, pow2_add]
    exact mul_lt_mul_of_pos_right h2 (pow2_pos k)

namespace FFmt
variable (F : FFmt)

theorem emin_le_ilog2 {x : ℚ} (h : pow2 F.emin ≤ x) : F.emin ≤ ilog2 x := by
  have hx : 0 < x := lt_of_lt_of_le (pow2_pos _) h
  have := pow2_lt.mp (lt_of_le_of_lt h (ilog2_spec hx).2)
  omega

theorem rnd_scale {x : ℚ} {k : ℤ} (h1 : pow2 F.emin ≤ x) (h2 : pow2 F.emin ≤ x * pow2 k) : F.rnd (x * pow2 k) = F.rnd x * pow2 k := by
  have hx : 0 < x := lt_of_lt_of_le (pow2_pos _) h1
  have a := F.emin_le_ilog2 h1
  have b := F.emin_le_ilog2 h2
  have hq : F.qexp (x * pow2 k) = F.qexp x + k := by
    unfold qexp; rw [ilog2_scale hx] at b ⊢; omega
  unfold rnd
  rw [hq, pow2_add, mul_div_mul_right _ _ (pow2_ne k), mul_assoc]

theorem mult_lt_repU {n : ℕ} (h : (n : ℚ) * pow2 F.qmin < pow2 F.emin) : F.RepU (n * pow2 F.qmin) := by
  refine ⟨n, F.qmin, rfl, ?_, le_rfl⟩
  have hp := F.p_ge
  have h2 : pow2 F.emin = ((2 ^ (F.p - 1) : ℕ) : ℚ) * pow2 F.qmin := by
    rw [← pow2_nat, ← pow2_add]; congr 1; unfold qmin; omega
  rw [h2] at h
  have h3 : (n : ℚ) < ((2 ^ (F.p - 1) : ℕ) : ℚ) := lt_of_mul_lt_mul_right h (pow2_pos _).le
  have h4 : n < 2 ^ (F.p - 1) := by exact_mod_cast h3
  exact h4.trans (Nat.pow_lt_pow_right (by norm_num) (by omega))

/-- sums of floats: below the normal range nothing is rounded -/
theorem rnd_scale_mult {x : ℚ} {k : ℤ} {n m : ℕ} (h1 : x = n * pow2 F.qmin) (h2 : x * pow2 k = m * pow2 F.qmin) : F.rnd (x * pow2 k) = F.rnd x * pow2 k := by
  -- an exactly representable number stays so when its unit grows
  have up : ∀ {y : ℚ} {j : ℤ} {b : ℕ}, F.RepU y → y * pow2 j = b * pow2 F.qmin → F.RepU (y * pow2 j) := by
    intro y j b hy hb
    obtain ⟨a, e, hae, ha, he⟩ := hy
    by_cases hj : F.qmin ≤ e + j
    · exact ⟨a, e + j, by rw [hae, pow2_add]; ring, ha, hj⟩
    · -- the unit would be too small, but the number is a multiple of the smallest unit
      refine ⟨b, F.qmin, hb, ?_, le_rfl⟩
      have : (b : ℚ) ≤ a := by
        have h3 : (b : ℚ) * pow2 F.qmin = a * pow2 (e + j) := by rw [← hb, hae, pow2_add]; ring
        have h4 : pow2 (e + j) ≤ pow2 F.qmin := pow2_le.mpr (by omega)
        have h5 : (b : ℚ) * pow2 F.qmin ≤ a * pow2 F.qmin := by rw [h3]; exact mul_le_mul_of_nonneg_left h4 (by positivity)
        exact le_of_mul_le_mul_right h5 (pow2_pos _)
      have : b ≤ a := by exact_mod_cast this
      omega
  by_cases c1 : pow2 F.emin ≤ x
  · by_cases c2 : pow2 F.emin ≤ x * pow2 k
    · exact F.rnd_scale c1 c2
    · have r2 : F.RepU (x * pow2 k) := by rw [h2]; exact F.mult_lt_repU (by rw [← h2]; exact not_le.mp c2)
      have e1 : x * pow2 k * pow2 (-k) = x := by rw [mul_assoc, ← pow2_add]; simp [pow2_zero]
      have r1 : F.RepU x := by
        have := up (y := x * pow2 k) (j := -k) (b := n) r2 (by rw [e1, h1])
        rwa [e1] at this
      rw [F.rnd_repU r1, F.rnd_repU r2]
  · have r1 : F.RepU x := by rw [h1]; exact F.mult_lt_repU (by rw [← h1]; exact not_le.mp c1)
    rw [F.rnd_repU r1, F.rnd_repU (up r1 h2)]

theorem rs_scale_abs {x : ℚ} {k : ℤ} (h : F.rnd (|x| * pow2 k) = F.rnd |x| * pow2 k) : F.rs (x * pow2 k) = F.rs x * pow2 k := by
  have hp := pow2_pos k
  unfold rs
  by_cases hx : x < 0
  · have : x * pow2 k < 0 := mul_neg_of_neg_of_pos hx hp
    rw [if_pos this, if_pos hx]
    rw [abs_of_neg hx] at h
    rw [← neg_mul, h]; ring
  · have h0 := not_lt.mp hx
    have : ¬ x * pow2 k < 0 := not_lt.mpr (mul_nonneg h0 hp.le)
    rw [if_neg this, if_neg hx]
    rwa [abs_of_nonneg h0] at h
end FFmt

namespace Flt
variable {F : FFmt} {k : ℤ} {x x' y y' : Flt F}

/-- sign bit of a finite float (`false` for others) -/
def sgn : Flt F → Bool
  | .fin s _ _ => s
  | _ => false

theorem Scaled.isFin_iff (h : x.Scaled k x') : x.isFin ↔ x'.isFin := by
  cases x <;> cases x' <;> simp_all [Scaled, isFin]

theorem Scaled.val_eq (h : x.Scaled k x') : x'.val = x.val * pow2 k := by
  cases x <;> cases x' <;> simp_all [Scaled, val]
  rename_i s a ha t b
  cases s <;> cases t <;> simp_all [sval]

theorem Scaled.sgn_eq (h : x.Scaled k x') : x'.sgn = x.sgn := by
  cases x <;> cases x' <;> simp_all [Scaled, sgn]

theorem scaled_iff (hx : x.isFin) (hx' : x'.isFin) : x.Scaled k x' ↔ x'.sgn = x.sgn ∧ x'.val = x.val * pow2 k := by
  constructor
  · intro h; exact ⟨h.sgn_eq, h.val_eq⟩
  · rintro ⟨h1, h2⟩
    cases x with
    | nan => exact hx.elim
    | inf => exact hx.elim
    | fin s a ha =>
      cases x' with
      | nan => exact hx'.elim
      | inf => exact hx'.elim
      | fin t b hb =>
        simp only [sgn] at h1
        subst h1
        refine ⟨rfl, ?_⟩
        cases t <;> simpa [val, sval] using h2

/-- the sign of a nonzero finite float is that of its value -/
theorem sgn_of_ne (h : x.val ≠ 0) : x.sgn = decide (x.val < 0) := by
  cases x with
  | nan => simp [val] at h
  | inf => simp [val] at h
  | fin s a ha =>
    have h0 := ha.nonneg
    cases s
    · simp [sgn, val, sval, h0]
    · simp only [val, sval, if_true] at h
      have : 0 < a := lt_of_le_of_ne h0 (by intro hc; exact h (by simp [← hc]))
      simp [sgn, val, sval, this]

theorem Scaled.eq_zero (h : x.Scaled 0 x') : x = x' := by
  cases x <;> cases x' <;> simp_all [Scaled, pow2_zero]

theorem Scaled.refl_zero (x : Flt F) : x.Scaled 0 x := by
  cases x <;> simp [Scaled, pow2_zero]

theorem Scaled.neg (h : x.Scaled k x') : (neg x).Scaled k (neg x') := by
  cases x <;> cases x' <;> simp_all [Scaled, Flt.neg]

theorem zero_scaled (s : Bool) : (zero s : Flt F).Scaled k (zero s) := by simp [zero, Scaled]

theorem val_mult_qmin (x : Flt F) : ∃ n : ℕ, |x.val| = n * pow2 F.qmin := x.val_rep.repU.mult

/-- the sum of two floats is a multiple of the smallest unit -/
theorem sum_mult (x y : Flt F) : ∃ n : ℕ, |x.val + y.val| = n * pow2 F.qmin := by
  obtain ⟨n, hn⟩ := x.val_mult_qmin
  obtain ⟨m, hm⟩ := y.val_mult_qmin
  have key : ∀ z : ℚ, ∀ j : ℕ, |z| = j * pow2 F.qmin → ∃ i : ℤ, z = i * pow2 F.qmin := by
    intro z j hz
    rcases abs_choice z with h | h
    · exact ⟨j, by rw [← h, hz]; norm_cast⟩
    · exact ⟨-j, by push_cast; rw [neg_mul, ← hz, h]; ring⟩
  obtain ⟨a, ha⟩ := key _ _ hn
  obtain ⟨b, hb⟩ := key _ _ hm
  refine ⟨(a + b).natAbs, ?_⟩
  rw [ha, hb, ← add_mul, abs_mul, abs_of_pos (pow2_pos _)]
  congr 1
  rw [Nat.cast_natAbs]; push_cast; rfl

theorem isFin_of_ofRat (r : ℚ) (h : (ofRat r : Flt F).isFin) : (ofRat r : Flt F).sgn = decide (r < 0) := by
  unfold ofRat round at h ⊢
  split at h
  · next hc => rw [dif_pos hc]; rfl
  · exact h.elim

theorem isFin_of_add (h : (Flt.add x y).isFin) : x.isFin ∧ y.isFin := by
  cases x with
  | nan => exact h.elim
  | inf s =>
    cases y with
    | nan => exact h.elim
    | inf t => simp only [Flt.add] at h; split at h <;> exact h.elim
    | fin t b hb => exact h.elim
  | fin s a ha =>
    cases y with
    | nan => exact h.elim
    | inf t => exact h.elim
    | fin t b hb => exact ⟨trivial, trivial⟩

theorem isFin_of_mul (h : (Flt.mul x y).isFin) : x.isFin ∧ y.isFin := by
  cases x with
  | nan => exact h.elim
  | inf s =>
    cases y with
    | nan => exact h.elim
    | inf t => exact h.elim
    | fin t b hb => simp only [Flt.mul] at h; split at h <;> exact h.elim
  | fin s a ha =>
    cases y with
    | nan => exact h.elim
    | inf t => simp only [Flt.mul] at h; split at h <;> exact h.elim
    | fin t b hb => exact ⟨trivial, trivial⟩

/-- addition commutes with the change of unit, unless it overflows -/
theorem Scaled.add (hx : x.Scaled k x') (hy : y.Scaled k y') : (Flt.add x y).ScaledFin k (Flt.add x' y') := by
  intro h1 h2
  obtain ⟨fx, fy⟩ := isFin_of_add h1
  have fx' := hx.isFin_iff.mp fx
  have fy' := hy.isFin_iff.mp fy
  have e : x'.val + y'.val = (x.val + y.val) * pow2 k := by rw [hx.val_eq, hy.val_eq]; ring
  rw [scaled_iff h1 h2]
  constructor
  · have sx := hx.sgn_eq
    have sy := hy.sgn_eq
    cases x with
    | nan => exact fx.elim
    | inf => exact fx.elim
    | fin s a ha =>
    cases y with
    | nan => exact fy.elim
    | inf => exact fy.elim
    | fin t b hb =>
    cases x' with
    | nan => exact fx'.elim
    | inf => exact fx'.elim
    | fin s' a' ha' =>
    cases y' with
    | nan => exact fy'.elim
    | inf => exact fy'.elim
    | fin t' b' hb' =>
      simp only [sgn] at sx sy
      subst sx; subst sy
      simp only [val] at e
      simp only [Flt.add] at h1 h2 ⊢
      by_cases h0 : sval s' a + sval t' b = 0
      · have h0' : sval s' a' + sval t' b' = 0 := by rw [e, h0, zero_mul]
        rw [if_pos h0, if_pos h0']
      · have h0' : sval s' a' + sval t' b' ≠ 0 := by rw [e]; exact mul_ne_zero h0 (pow2_ne k)
        rw [if_neg h0] at h1 ⊢
        rw [if_neg h0'] at h2 ⊢
        rw [isFin_of_ofRat _ h1, isFin_of_ofRat _ h2, e]
        congr 1
        exact propext ⟨fun h => by
          by_contra hc
          exact absurd h (not_lt.mpr (mul_nonneg (not_lt.mp hc) (pow2_pos k).le)), fun h => mul_neg_of_neg_of_pos h (pow2_pos k)⟩
  · rw [(add_rounds fx fy).of_isFin h1, (add_rounds fx' fy').of_isFin h2, e]
    apply F.rs_scale_abs
    obtain ⟨n, hn⟩ := sum_mult x y
    obtain ⟨m, hm⟩ := sum_mult x' y'
    rw [e, abs_mul, abs_of_pos (pow2_pos k)] at hm
    exact F.rnd_scale_mult hn hm

theorem Scaled.sub (hx : x.Scaled k x') (hy : y.Scaled k y') : (Flt.sub x y).ScaledFin k (Flt.sub x' y') := hx.add hy.neg

theorem sgn_round {s : Bool} {m : ℚ} {h : 0 ≤ m} (hf : (round s m h : Flt F).isFin) : (round s m h : Flt F).sgn = s := by
  unfold round at hf ⊢
  split at hf
  · next hc => rw [dif_pos hc]; rfl
  · exact hf.elim

/-- multiplication: the units multiply, unless it overflows or a result falls below the normal range -/
theorem Scaled.mul {j : ℤ} (hx : x.Scaled k x') (hy : y.Scaled j y') (hn : x.val * y.val = 0 ∨ pow2 F.emin ≤ |x.val * y.val| ∧ pow2 F.emin ≤ |x'.val * y'.val|) :
    (Flt.mul x y).ScaledFin (k + j) (Flt.mul x' y') := by
  intro h1 h2
  obtain ⟨fx, fy⟩ := isFin_of_mul h1
  have fx' := hx.isFin_iff.mp fx
  have fy' := hy.isFin_iff.mp fy
  have e : x'.val * y'.val = (x.val * y.val) * pow2 (k + j) := by rw [hx.val_eq, hy.val_eq, pow2_add]; ring
  rw [scaled_iff h1 h2]
  constructor
  · have sx := hx.sgn_eq
    have sy := hy.sgn_eq
    cases x with
    | nan => exact fx.elim
    | inf => exact fx.elim
    | fin s a ha =>
    cases y with
    | nan => exact fy.elim
    | inf => exact fy.elim
    | fin t b hb =>
    cases x' with
    | nan => exact fx'.elim
    | inf => exact fx'.elim
    | fin s' a' ha' =>
    cases y' with
    | nan => exact fy'.elim
    | inf => exact fy'.elim
    | fin t' b' hb' =>
      simp only [sgn] at sx sy
      subst sx; subst sy
      simp only [Flt.mul] at h1 h2 ⊢
      rw [sgn_round h1, sgn_round h2]
  · rw [(mul_rounds fx fy).of_isFin h1, (mul_rounds fx' fy').of_isFin h2, e]
    apply F.rs_scale_abs
    rcases hn with h0 | ⟨ha, hb⟩
    · rw [h0]; simp [F.rnd_zero]
    · rw [e, abs_mul, abs_of_pos (pow2_pos _)] at hb
      exact F.rnd_scale ha hb

/-- division -/
theorem Scaled.div {j : ℤ} (hx : x.Scaled k x') (hy : y.Scaled j y') (hfx : x.isFin) (hfy : y.isFin) (hy0 : y.val ≠ 0)
    (hn : x.val / y.val = 0 ∨ pow2 F.emin ≤ |x.val / y.val| ∧ pow2 F.emin ≤ |x'.val / y'.val|) : (Flt.div x y).ScaledFin (k - j) (Flt.div x' y') := by
  intro h1 h2
  have fx' := hx.isFin_iff.mp hfx
  have fy' := hy.isFin_iff.mp hfy
  have hy0' : y'.val ≠ 0 := by rw [hy.val_eq]; exact mul_ne_zero hy0 (pow2_ne j)
  have e : x'.val / y'.val = (x.val / y.val) * pow2 (k - j) := by
    rw [hx.val_eq, hy.val_eq, pow2_sub]; field_simp [pow2_ne j]
  rw [scaled_iff h1 h2]
  constructor
  · have sx := hx.sgn_eq
    have sy := hy.sgn_eq
    cases x with
    | nan => exact hfx.elim
    | inf => exact hfx.elim
    | fin s a ha =>
    cases y with
    | nan => exact hfy.elim
    | inf => exact hfy.elim
    | fin t b hb =>
    cases x' with
    | nan => exact fx'.elim
    | inf => exact fx'.elim
    | fin s' a' ha' =>
    cases y' with
    | nan => exact fy'.elim
    | inf => exact fy'.elim
    | fin t' b' hb' =>
      simp only [sgn] at sx sy
      subst sx; subst sy
      have b0 : b ≠ 0 := by rintro rfl; apply hy0; cases t' <;> simp [val, sval]
      have b0' : b' ≠ 0 := by rintro rfl; apply hy0'; cases t' <;> simp [val, sval]
      simp only [Flt.div, b0, b0', if_false] at h1 h2 ⊢
      rw [sgn_round h1, sgn_round h2]
  · rw [(div_rounds hfx hfy hy0).of_isFin h1, (div_rounds fx' fy' hy0').of_isFin h2, e]
    apply F.rs_scale_abs
    rcases hn with h0 | ⟨ha, hb⟩
    · rw [h0]; simp [F.rnd_zero]
    · rw [e, abs_mul, abs_of_pos (pow2_pos _)] at hb
      exact F.rnd_scale ha hb

/-- quotients of numbers in the same unit are the same, bit for bit -/
theorem Scaled.div_same (hx : x.Scaled k x') (hy : y.Scaled k y') : Flt.div x' y' = Flt.div x y := by
  cases x <;> cases x' <;> simp only [Scaled] at hx <;> cases y <;> cases y' <;> simp only [Scaled] at hy
  all_goals first | rfl | (subst hx; subst hy; rfl) | skip
  all_goals (try (subst hx)) 
  all_goals (try (subst hy))
  all_goals (try rfl)
  all_goals (try (obtain ⟨rfl, hx⟩ := hx))
  all_goals (try (obtain ⟨rfl, hy⟩ := hy))
  all_goals (try rfl)
  rename_i a ha s a' ha' b hb t b' hb'
  subst hx; subst hy
  simp only [Flt.div, mul_eq_zero, pow2_ne k, or_false]
  split
  · rfl
  · congr 1; rw [mul_div_mul_right _ _ (pow2_ne k)]

/-- remainders are exact, so they are scaled with their operands -/
theorem Scaled.rem (hx : x.Scaled k x') (hy : y.Scaled k y') : (Flt.rem x y).Scaled k (Flt.rem x' y') := by
  cases x <;> cases x' <;> simp only [Scaled] at hx <;> cases y <;> cases y' <;> simp only [Scaled] at hy
  all_goals (try trivial)
  · rename_i s a ha s' a' ha' t b hb t' b' hb'
    obtain ⟨rfl, hx⟩ := hx
    obtain ⟨rfl, hy⟩ := hy
    subst hx; subst hy
    by_cases b0 : b = 0
    · subst b0; simp [Flt.rem, Scaled]
    · have b0' : b * pow2 k ≠ 0 := mul_ne_zero b0 (pow2_ne k)
      obtain ⟨h1, e1⟩ := rem_exact (s := s) (t := t) (ha := ha) (hb := hb) b0
      obtain ⟨h2, e2⟩ := rem_exact (s := s) (t := t) (ha := ha') (hb := hb') b0'
      rw [e1, e2]
      refine ⟨rfl, ?_⟩
      rw [mul_div_mul_right _ _ (pow2_ne k)]; ring

section
variable [Cfg]
theorem Scaled.pcmp (hx : x.Scaled k x') (hy : y.Scaled k y') : POrd.pcmp x' y' = POrd.pcmp x y := by
  show Flt.pcmp x' y' = Flt.pcmp x y
  cases x <;> cases x' <;> simp only [Scaled] at hx <;> cases y <;> cases y' <;> simp only [Scaled] at hy
  all_goals (try rfl)
  all_goals (try (subst hx))
  all_goals (try (subst hy))
  all_goals (try rfl)
  rename_i s a ha s' a' ha' t b hb t' b' hb'
  obtain ⟨rfl, hx⟩ := hx
  obtain ⟨rfl, hy⟩ := hy
  subst hx; subst hy
  simp only [Flt.pcmp]
  congr 1
  have e : ∀ (s : Bool) (a : ℚ), sval s (a * pow2 k) = sval s a * pow2 k := by intro s a; cases s <;> simp [sval]
  rw [e, e]
  have hp := pow2_pos k
  rcases lt_trichotomy (sval s a) (sval t b) with h | h | h
  · rw [compare_lt_iff_lt.mpr h, compare_lt_iff_lt.mpr (mul_lt_mul_of_pos_right h hp)]
  · rw [compare_eq_iff_eq.mpr h, compare_eq_iff_eq.mpr (by rw [h])]
  · rw [compare_gt_iff_gt.mpr h, compare_gt_iff_gt.mpr (mul_lt_mul_of_pos_right h hp)]
end
end Flt
end NdHist
