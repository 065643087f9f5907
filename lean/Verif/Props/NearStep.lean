import Verif.Props.Near
/-!
# C78 for axes with a given step size

`Uniform::with_step_size` computes the upper bound from the step, the lookup uses the step and the reported edges use the bounds; they agree up to rounding.
-/
namespace NdHist
open POrd RNum

section
variable [cfg : Cfg] {F : FFmt}

omit cfg in
theorem FFmt.rs_mult' (x : ℚ) : F.Mult (F.rs x) := by
  have main : ∀ y : ℚ, F.Mult (F.rnd y) := by
    intro y
    obtain ⟨d, hd⟩ : ∃ d : ℕ, F.qexp y = F.qmin + d := ⟨(F.qexp y - F.qmin).toNat, by
      have : F.qmin ≤ F.qexp y := by unfold FFmt.qexp FFmt.qmin; omega
      omega⟩
    refine ⟨rne (y / pow2 (F.qexp y)) * 2 ^ d, ?_⟩
    unfold FFmt.rnd
    rw [hd, pow2_add, pow2_nat]
    push_cast; ring
  rcases le_total 0 x with h | h
  · rw [F.rs_nonneg h]; exact main x
  · have h2 : F.rs x = -F.rnd (-x) := by
      rw [← F.rs_nonneg (x := -x) (by linarith), F.rs_neg]; ring
    rw [h2]; exact (main _).neg

omit cfg in
/-- the error of the upper bound, in real numbers: `H` is `P + L` and `P` is `n` steps, up to rounding -/
theorem step_error {u n s P L H : ℚ} (hu : 0 < u) (hu4 : u ≤ 1 / 4) (hns : 0 ≤ n * s) (hP : |P - n * s| ≤ n * s * u) (hH : |H - (P + L)| ≤ |P + L| * u) :
    |H - L - n * s| ≤ 4 * (u * (|L| + |H|)) := by
  have hA := abs_nonneg (P + L)
  have p1 : |P + L| * u ≤ 1 / 4 * |P + L| := by linarith [mul_le_mul_of_nonneg_left hu4 hA]
  have p2 : n * s * u ≤ 1 / 4 * (n * s) := by linarith [mul_le_mul_of_nonneg_left hu4 hns]
  have a1 : |P + L| - |H| ≤ |H - (P + L)| := by rw [abs_sub_comm]; exact abs_sub_abs_le_abs_sub _ _
  have a2 : |P + L| ≤ 4 / 3 * |H| := by linarith
  have a3 : P ≤ |P + L| + |L| := by linarith [le_abs_self (P + L), neg_abs_le L]
  have hP' := abs_le.1 hP
  have hH' := abs_le.1 hH
  have a4 : n * s ≤ 16 / 9 * (|L| + |H|) := by linarith [hP'.1, abs_nonneg L, abs_nonneg H]
  have q1 : n * s * u ≤ 16 / 9 * (u * (|L| + |H|)) := by linarith [mul_le_mul_of_nonneg_right a4 hu.le]
  have q2 : |P + L| * u ≤ 4 / 3 * (u * (|L| + |H|)) := by
    have := mul_le_mul_of_nonneg_right (show |P + L| ≤ 4 / 3 * (|L| + |H|) by linarith [abs_nonneg L]) hu.le
    linarith
  have q3 : 0 ≤ u * (|L| + |H|) := mul_nonneg hu.le (by positivity)
  rw [abs_le]
  constructor <;> linarith [hP'.1, hP'.2, hH'.1, hH'.2]

/-- what `with_step_size` constructs: the given number of bins, lower bound and step, and an upper bound that is the given number of steps away, up to rounding -/
theorem Uniform.step_facts {num : Nat} {low step : Flt F} {a : Uniform (Flt F)} (hnew : Uniform.withStepSize num low step = .ok (.ok a))
    (hl : low.isFin) (hs : step.isFin) (hh : a.high.isFin) (hp : num < 2 ^ (F.p - 1)) :
    a.num = num ∧ a.low = low ∧ a.step = step ∧ 0 < num ∧ 0 < step.val ∧
      |a.high.val - a.low.val - num * step.val| ≤ 4 * (F.u * (|a.low.val| + |a.high.val|)) := by
  have hpp : num ≤ 2 ^ F.p := hp.le.trans (Nat.pow_le_pow_right (by norm_num) (by omega))
  obtain ⟨r, hr, -, -, hok, hax⟩ := C03_with_step_size_float_partial num low step
  have hra : r = .ok a := by rw [hr] at hnew; injection hnew
  obtain ⟨hnum, hrest⟩ := hax a hra
  obtain ⟨e1, e2, e3⟩ := hrest hl hs hpp hh
  obtain ⟨hnum0, hpos⟩ := hok.1 ⟨a, hra⟩
  have hstep : a.step = step := by
    rw [Uniform.withStepSize_flt] at hr
    injection hr with hr
    rw [← hr, if_neg hnum0, if_neg (by simp [hpos])] at hra
    split at hra <;> cases hra <;> rfl
  have hs0 : 0 < step.val := by
    by_contra hc
    rw [Flt.le_fin hs (by trivial)] at hpos
    have := of_decide_eq_false hpos
    apply this
    have z : (Flt.zero false : Flt F).val = 0 := by simp [Flt.zero, Flt.val, Flt.sval]
    rw [z]; exact not_lt.1 hc
  refine ⟨hnum, e1, hstep, Nat.pos_of_ne_zero hnum0, hs0, ?_⟩
  rw [e1]
  have hns : 0 ≤ (num : ℚ) * step.val := by positivity
  have k1 := F.rs_rel_mult ((Flt.val_mult step).nat_mul num)
  rw [abs_of_nonneg hns] at k1
  have k2 : |a.high.val - (F.rs (num * step.val) + low.val)| ≤ |F.rs (num * step.val) + low.val| * F.u := by
    rw [e2]
    apply F.rs_rel_mult
    exact FFmt.Mult.add (F.rs_mult' _) (Flt.val_mult low)
  exact step_error F.u_pos F.u_le hns k1 k2

/-- the computed bin number is close to the exact position -/
theorem Uniform.step_pos {num : Nat} {low step : Flt F} {a : Uniform (Flt F)} (hnew : Uniform.withStepSize num low step = .ok (.ok a))
    (hl : low.isFin) (hs : step.isFin) (hh : a.high.isFin) (hn2 : num + 2 < usizeSize) (hp : num < 2 ^ (F.p - 1))
    (hM : 4 * (|a.low.val| + |a.high.val|) ≤ F.maxFin) (hd : num * (12 * (F.u * (|a.low.val| + |a.high.val|))) < a.high.val - a.low.val)
    {c : Flt F} (hc : c.isFin) (h1 : a.low.val ≤ c.val) (h2 : c.val < a.high.val) {i : Nat} (hi : a.index c = .ok (some i)) : 1 ≤ i ∧
    a.low.val + (i - 1 : ℕ) * ((a.high.val - a.low.val) / num) - 7 * (F.u * (|a.low.val| + |a.high.val|)) ≤ c.val ∧
    (i ≤ num → c.val ≤ a.low.val + i * ((a.high.val - a.low.val) / num) + 5 * (F.u * (|a.low.val| + |a.high.val|))) := by
  obtain ⟨hnum, elow, estep, num_pos, hs0, herr⟩ := Uniform.step_facts hnew hl hs hh hp
  obtain ⟨-, h5⟩ := C05_with_step_size hnew hl hs hn2 hp
  obtain ⟨i', hi', hilt, -⟩ := h5 c
  rw [hi] at hi'
  cases hi'
  have hlf : a.low.isFin := by rw [elow]; exact hl
  have hpp : num ≤ 2 ^ F.p := hp.le.trans (Nat.pow_le_pow_right (by norm_num) (by omega))
  have hn1 : (1 : ℚ) ≤ num := by exact_mod_cast num_pos
  have hn : (0 : ℚ) < num := by linarith
  have hu := F.u_pos
  have hu4 := F.u_le
  obtain ⟨R, hR⟩ : ∃ R, R = a.high.val - a.low.val := ⟨_, rfl⟩
  obtain ⟨E, hE⟩ : ∃ E, E = F.u * (|a.low.val| + |a.high.val|) := ⟨_, rfl⟩
  rw [← hE, ← hR] at hd herr ⊢
  have hE0 : 0 ≤ E := by rw [hE]; exact mul_nonneg hu.le (by positivity)
  have hRM : R ≤ |a.low.val| + |a.high.val| := by rw [hR]; linarith [neg_abs_le a.low.val, le_abs_self a.high.val]
  have hR0 : 0 < R := by
    have : 0 ≤ (num : ℚ) * (12 * E) := by positivity
    linarith
  have huR : F.u * R ≤ E := by rw [hE]; exact mul_le_mul_of_nonneg_left hRM hu.le
  have hnu : (num : ℚ) * F.u ≤ 1 / 12 := by
    -- `num * 12 * u * R ≤ num * 12 * E < R`
    have k1 : (num : ℚ) * (12 * (F.u * R)) ≤ num * (12 * E) := mul_le_mul_of_nonneg_left (by linarith) hn.le
    have k2 : ((num : ℚ) * F.u) * R ≤ 1 / 12 * R := by linarith
    exact le_of_mul_le_mul_right k2 hR0
  have herr' := abs_le.1 herr
  -- the offset
  set t := c.val - a.low.val with ht
  have ht0 : 0 ≤ t := by linarith
  have htR : t ≤ R := by linarith
  have hdf := (Flt.sub_rounds hc hlf).fin_of (by
    rw [← ht, abs_of_nonneg ht0]
    have : 0 ≤ |a.low.val| + |a.high.val| := by positivity
    linarith)
  have hdrel := F.rs_rel_mult (c.val_mult.sub a.low.val_mult)
  rw [← hdf.2, ← ht, abs_of_nonneg ht0] at hdrel
  rw [← ht] at hdf
  set d := (Flt.sub c a.low).val with hdd
  obtain ⟨d1, d2⟩ := abs_le.1 hdrel
  have hd0 : 0 ≤ d := by rw [hdf.2]; exact F.rs_pos_le ht0
  have htu' : t * F.u ≤ R * F.u := mul_le_mul_of_nonneg_right htR hu.le
  -- the quotient is in range
  have hqle : d / step.val ≤ ((num + 1 : ℕ) : ℚ) := by
    rw [div_le_iff₀ hs0]
    push_cast
    -- `d ≤ R + R u`, `R ≤ num * step + 4 E`, `12 num E < R`
    have e1 : d ≤ R + R * F.u := by linarith
    have e2 : R ≤ num * step.val + 4 * E := by linarith [herr'.2]
    have e3 : (num : ℚ) * (R * F.u) ≤ 1 / 12 * R := by
      have := mul_le_mul_of_nonneg_right hnu hR0.le
      linarith
    -- everything in steps: `R ≤ 3/2 num step`
    have e4 : 12 * E ≤ num * (12 * E) := by
      have : 0 ≤ 12 * E := by linarith
      exact le_mul_of_one_le_left this hn1
    have e5 : R ≤ 3 / 2 * (num * step.val) := by linarith
    have e6 : (num : ℚ) * (4 * E + R * F.u) ≤ num * step.val := by
      have : (num : ℚ) * (4 * E + R * F.u) = 1 / 3 * (num * (12 * E)) + num * (R * F.u) := by ring
      rw [this]; linarith
    have e7 := le_of_mul_le_mul_left e6 hn
    linarith
  have hq0 : 0 ≤ d / step.val := div_nonneg hd0 hs0.le
  have hpp1 : num + 1 ≤ 2 ^ F.p := by
    have : 2 ^ (F.p - 1) ≤ 2 ^ F.p := Nat.pow_le_pow_right (by norm_num) (by omega)
    omega
  have hrep := F.rep_nat (n := num + 1) hpp1
  have hq := (Flt.div_rounds hdf.1 hs hs0.ne').fin_of (by
    rw [abs_of_nonneg hq0]; exact hqle.trans hrep.le_maxFin)
  have hqu : F.rs (d / step.val) ≤ ((num + 1 : ℕ) : ℚ) := by
    have := F.rs_mono hqle
    rwa [F.rs_of_rep (x := ((num + 1 : ℕ) : ℚ)) (by rw [abs_of_nonneg (by positivity)]; exact hrep.repU)] at this
  have hus : ((num + 2 : Nat) : ℚ) < (usizeSize : ℚ) := by exact_mod_cast hn2
  push_cast at hus hqu
  have htu : Flt.toUsize (Flt.div (Flt.sub c a.low) a.step) = some ⌊F.rs (d / step.val)⌋.toNat := by
    rw [estep]
    have := Flt.toUsize_val hq.1 (by rw [hq.2]; exact F.rs_pos_le hq0) (by rw [hq.2]; linarith)
    rw [this, hq.2]
  have hfl0 : 0 ≤ ⌊F.rs (d / step.val)⌋ := Int.floor_nonneg.2 (F.rs_pos_le hq0)
  have hfl : ⌊F.rs (d / step.val)⌋ ≤ (num : ℤ) + 1 := by
    have := Int.floor_le_floor hqu
    have e : ⌊(num : ℚ) + 1⌋ = (num : ℤ) + 1 := by
      rw [show (num : ℚ) + 1 = (((num : ℤ) + 1 : ℤ) : ℚ) by push_cast; ring, Int.floor_intCast]
    rwa [e] at this
  have hidx := Uniform.index_mid (a := a) (c := c) (by rw [Flt.lt_fin hc hlf]; exact decide_eq_false (not_lt.2 h1))
    (by rw [Flt.ge_fin hc hh]; exact decide_eq_false (not_le.2 h2)) (by rw [htu, Option.getD_some]; omega)
  rw [hi, htu, Option.getD_some] at hidx
  have hii : i = ⌊F.rs (d / step.val)⌋.toNat + 1 := by
    injection hidx with hh; injection hh
  set k := ⌊F.rs (d / step.val)⌋.toNat with hk
  have hkz : ((k : ℕ) : ℤ) = ⌊F.rs (d / step.val)⌋ := by omega
  have hk1 : (k : ℚ) ≤ F.rs (d / step.val) := by
    have := Int.floor_le (F.rs (d / step.val))
    rw [← hkz] at this; exact_mod_cast this
  have hk2 : F.rs (d / step.val) < k + 1 := by
    have := Int.lt_floor_add_one (F.rs (d / step.val))
    rw [← hkz] at this; exact_mod_cast this
  have hkn : k ≤ num := by omega
  -- steps and exact bin widths
  have hstepw : ∀ j : ℕ, j ≤ num → (j : ℚ) * (R / num) ≤ j * step.val + 4 * E ∧ (j : ℚ) * step.val ≤ j * (R / num) + 4 * E := by
    intro j hj
    have hjq : (j : ℚ) / num ≤ 1 := by rw [div_le_one hn]; exact_mod_cast hj
    have hj0 : (0 : ℚ) ≤ (j : ℚ) / num := by positivity
    have e1 : (j : ℚ) * (R / num) - j * step.val = j / num * (R - num * step.val) := by field_simp
    have e2 : |(j : ℚ) / num * (R - num * step.val)| ≤ 1 * (4 * E) := by
      rw [abs_mul, abs_of_nonneg hj0]
      exact mul_le_mul hjq herr (abs_nonneg _) (by norm_num)
    rw [← e1, abs_le] at e2
    constructor <;> linarith [e2.1, e2.2]
  refine ⟨by omega, ?_, ?_⟩
  · have hi1 : i - 1 = k := by omega
    rw [hi1]
    rcases Nat.eq_zero_or_pos k with h0 | h0
    · rw [h0]; simp only [Nat.cast_zero, zero_mul, add_zero]
      linarith
    · have hk1' : (1 : ℚ) ≤ k := by exact_mod_cast h0
      have hnorm : pow2 F.emin ≤ d / step.val := by
        by_contra hcon
        have h3 := F.rs_mono (not_le.1 hcon).le
        have hp2 := F.p_ge
        rw [F.rs_nonneg (x := pow2 F.emin) (pow2_pos _).le, F.rnd_repU (x := pow2 F.emin)
          ⟨1, F.emin, by simp, Nat.one_lt_two_pow (by omega), by unfold FFmt.qmin; omega⟩] at h3
        have := Uniform.emin_le_max F
        linarith
      have hrel := (abs_le.1 (F.rs_rel_normal hnorm)).2
      have g1 : (k : ℚ) * step.val ≤ d * (1 + F.u) := by
        have : (k : ℚ) ≤ d / step.val * (1 + F.u) := by linarith
        have h3 := mul_le_mul_of_nonneg_right this hs0.le
        have e : d / step.val * (1 + F.u) * step.val = d * (1 + F.u) := by field_simp
        rwa [e] at h3
      have g3 : d * (1 + F.u) ≤ t * (1 + F.u) * (1 + F.u) := mul_le_mul_of_nonneg_right (by linarith) (by linarith)
      have g4 : t * (1 + F.u) * (1 + F.u) ≤ t + 9 / 4 * F.u * R := by
        have e : t * (1 + F.u) * (1 + F.u) = t + t * (F.u * (2 + F.u)) := by ring
        have f : F.u * (2 + F.u) ≤ 9 / 4 * F.u := F.u_c
        have g : t * (F.u * (2 + F.u)) ≤ R * (9 / 4 * F.u) := mul_le_mul htR f (by positivity) hR0.le
        linarith
      have := (hstepw k hkn).1
      linarith
  · intro hin
    have hik : (i : ℚ) = k + 1 := by rw [hii]; push_cast; ring
    have g1 : d < i * step.val := by
      by_contra hcon
      have h3 : (i : ℚ) ≤ d / step.val := by rw [le_div_iff₀ hs0]; linarith
      have h4 := F.rs_mono h3
      have hrepi := F.rep_nat (n := i) (hin.trans hpp)
      rw [F.rs_of_rep (x := (i : ℚ)) (by rw [abs_of_nonneg (by positivity)]; exact hrepi.repU)] at h4
      linarith
    have := (hstepw i hin).2
    linarith

/-- the bins of an axis do not depend on how it was constructed -/
theorem Uniform.bin_new {a b : Uniform (Flt F)} (h1 : b.num = a.num) (h2 : b.low = a.low) (h3 : b.high = a.high) : b.bin = a.bin := by
  funext i
  unfold Uniform.bin Uniform.edge
  rw [h1, h2, h3]

/-- **C78 (`Uniform::with_step_size`).** A float axis `Uniform::with_step_size(num, low, step)` whose upper bound is finite (with the same conditions as for
`Uniform::new`, in terms of `high()`): all coordinates but NaN are counted according to the reported intervals, up to `19 * 2^-p * (|low| + |high|)` at the edges. -/
theorem C78_uniform_step {num : Nat} {low step : Flt F} {a : Uniform (Flt F)} (hnew : Uniform.withStepSize num low step = .ok (.ok a))
    (hl : low.isFin) (hs : step.isFin) (hh : a.high.isFin) (hn : num + 2 < usizeSize) (hp : num < 2 ^ (F.p - 1))
    (hw : num * pow2 F.emin ≤ a.high.val - low.val) (hsm : 4 * (num * (|low.val| + |a.high.val|)) ≤ F.maxFin)
    (hd : num * (12 * pow2 (-(F.p : ℤ)) * (|low.val| + |a.high.val|)) < a.high.val - low.val) :
    RoughAxis a (num + 2) (BinInterval.Inside (F := F) (19 * pow2 (-(F.p : ℤ)) * (|low.val| + |a.high.val|)))
      (BinInterval.Near (19 * pow2 (-(F.p : ℤ)) * (|low.val| + |a.high.val|))) (fun c : Flt F => c ≠ .nan) := by
  obtain ⟨hnum, elow, estep, num_pos, hs0, herr⟩ := Uniform.step_facts hnew hl hs hh hp
  have hn1 : (1 : ℚ) ≤ num := by exact_mod_cast num_pos
  have hn0 : (0 : ℚ) < num := by linarith
  have hR0 : 0 < a.high.val - low.val := lt_of_lt_of_le (mul_pos hn0 (pow2_pos _)) hw
  obtain ⟨b, hb, b1, b2, b3⟩ : ∃ b, Uniform.new num low a.high = .ok (.ok b) ∧ b.num = a.num ∧ b.low = a.low ∧ b.high = a.high := by
    refine ⟨⟨num, low, a.high, Flt.div (Flt.sub a.high low) (Flt.ofRat num)⟩, ?_, hnum.symm, elow.symm, rfl⟩
    rw [Uniform.new_flt, if_neg (by omega), if_neg, if_neg]
    · rw [Flt.gt_fin hl hh, decide_eq_true_iff]; linarith
    · rw [Flt.eq_fin hl hh, decide_eq_true_iff]; linarith
  have hw' : num * pow2 F.emin ≤ |a.high.val - low.val| := by rwa [abs_of_pos hR0]
  obtain ⟨e0, eN, -, ed, eb, ev, em, -⟩ := C47_float_bins hb hl hh hn hp hw' hsm
  rw [Uniform.bin_new b1 b2 b3] at e0 eN eb
  rw [b2, b3] at *
  obtain ⟨-, h5⟩ := C05_with_step_size hnew hl hs hn hp
  obtain ⟨E, hE⟩ : ∃ E, E = F.u * (|a.low.val| + |a.high.val|) := ⟨_, rfl⟩
  have hE0 : 0 ≤ E := by rw [hE]; exact mul_nonneg F.u_pos.le (by positivity)
  have se : ∀ n : ℚ, n * pow2 (-(F.p : ℤ)) * (|low.val| + |a.high.val|) = n * E := by intro n; rw [hE, elow]; unfold FFmt.u; ring
  have zN := abs_le.1 (ev num le_rfl).2
  have z0 := abs_le.1 (ev 0 (by omega)).2
  rw [se, mul_div_cancel₀ _ (by linarith : (num : ℚ) ≠ 0)] at zN
  rw [se] at z0 hd
  rw [se]
  rw [← elow] at hd hsm hR0
  have hwid : 12 * E < (a.high.val - a.low.val) / num := by
    rw [lt_div_iff₀ hn0]; linarith
  have hlf : a.low.isFin := by rw [elow]; exact hl
  refine Uniform.rough (δ := 13 * E) (ρ := 6 * E) (C25_lawful_uniform_float_step hnew hl hs hn hp) hlf hh ed e0 eN eb ?_
    (by linarith) (by linarith) (by linarith) (by simp at z0; linarith [z0.1]) (by linarith [zN.2]) ?_ ?_
  · intro i hi
    have y1 := abs_le.1 (ev i hi.le).2
    have y2 := abs_le.1 (ev (i + 1) hi).2
    rw [se] at y1 y2
    push_cast at y2
    linarith [y1.2, y2.1]
  · intro c
    obtain ⟨i, h1, h2, h3, h4, -⟩ := h5 c
    exact ⟨i, h1, h2, h3, h4⟩
  · intro c hc1 hc2
    obtain ⟨i, i1, i2, -⟩ := h5 c
    have hcf : c.isFin := by
      cases c with
      | nan => obtain ⟨_, _, -, h, -⟩ := LawfulPOrd.le_iff.1 hc1; cases h
      | inf s =>
        exfalso
        cases hlow : a.low with
        | nan => rw [hlow] at hlf; exact hlf
        | inf => rw [hlow] at hlf; exact hlf
        | fin =>
          cases hhi : a.high with
          | nan => rw [hhi] at hh; exact hh
          | inf => rw [hhi] at hh; exact hh
          | fin =>
            rw [hlow] at hc1; rw [hhi] at hc2
            cases s
            · cases hc2
            · cases hc1
      | fin => trivial
    have h1 : a.low.val ≤ c.val := by rw [Flt.le_fin hlf hcf] at hc1; exact of_decide_eq_true hc1
    have h2 : c.val < a.high.val := by rw [Flt.lt_fin hcf hh] at hc2; exact of_decide_eq_true hc2
    obtain ⟨p1, p2, p3⟩ := Uniform.step_pos hnew hl hs hh hn hp (by
      have : 0 ≤ |a.low.val| + |a.high.val| := by positivity
      nlinarith) (by rw [← hE]; linarith) hcf h1 h2 i1
    rw [← hE] at p2 p3
    refine ⟨i, i1, p1, ?_⟩
    by_cases hin : i ≤ num
    · have y1 := abs_le.1 (ev (i - 1) (by omega)).2
      have y2 := abs_le.1 (ev i hin).2
      rw [se] at y1 y2
      exact .inl ⟨hin, by linarith [y1.2], by linarith [y2.1, p3 hin]⟩
    · have : i = num + 1 := by omega
      subst this
      rw [Nat.add_sub_cancel, mul_div_cancel₀ _ (by linarith : (num : ℚ) ≠ 0)] at p2
      exact .inr ⟨rfl, by linarith⟩
end
end NdHist
