import Verif.Props.IntMean
import Verif.Props.FloatVar
/-!
# Rounding of the variance formula of `WeightedMean` over whole numbers
-/
namespace NdHist
open RNum

/-- the rounding errors of the variance formula of `WeightedMean` add up -/
theorem wvar_rounding {u A μ q m2 Y Z r : ℚ} (u0 : 0 < u) (u1 : u ≤ 1 / 256) (hμA : μ ^ 2 ≤ A) (hq : |q - μ| ≤ u * |μ|) (hm2 : |m2 - q * q| ≤ u * (q * q))
    (hY : |Y - 2 * μ * q| ≤ u * |2 * μ * q|) (hZ : |Z - (A - Y)| ≤ u * |A - Y|) (hr : |r - Z| ≤ u * |Z| + u * A) :
    |m2 + r - (A - μ ^ 2)| ≤ 11 * u * A := by
  have A0 : 0 ≤ A := (sq_nonneg μ).trans hμA
  have M0 := sq_nonneg μ
  have hqa : |q| ≤ (1 + u) * |μ| := by
    have := abs_add_le (q - μ) μ
    rw [sub_add_cancel] at this
    linarith
  have hmm : |μ| * |μ| = μ ^ 2 := by rw [abs_mul_abs_self, pow_two]
  have hqq : |q * q - μ ^ 2| ≤ (2 * u + u ^ 2) * μ ^ 2 := by
    rw [show q * q - μ ^ 2 = (q - μ) * (q + μ) by ring, abs_mul]
    have h1 : |q + μ| ≤ (2 + u) * |μ| := (abs_add_le _ _).trans (by linarith)
    calc |q - μ| * |q + μ| ≤ (u * |μ|) * ((2 + u) * |μ|) := mul_le_mul hq h1 (abs_nonneg _) (by positivity)
      _ = (2 * u + u ^ 2) * (|μ| * |μ|) := by ring
      _ = _ := by rw [hmm]
  have uu : u ^ 2 ≤ u / 256 := by rw [pow_two]; nlinarith
  have e1 : |m2 - μ ^ 2| ≤ 31 / 10 * u * A := by
    have t := abs_add_le (m2 - q * q) (q * q - μ ^ 2)
    rw [sub_add_sub_cancel] at t
    have hq2 : q * q ≤ (1 + (2 * u + u ^ 2)) * μ ^ 2 := by have := (abs_le.1 hqq).2; linarith
    have h1 : u * (q * q) ≤ u * ((1 + (2 * u + u ^ 2)) * μ ^ 2) := mul_le_mul_of_nonneg_left hq2 u0.le
    have h2 : u * ((1 + (2 * u + u ^ 2)) * μ ^ 2) + (2 * u + u ^ 2) * μ ^ 2 ≤ 31 / 10 * u * μ ^ 2 := by
      have h3 : u * (1 + (2 * u + u ^ 2)) + (2 * u + u ^ 2) ≤ 31 / 10 * u := by nlinarith
      have := mul_le_mul_of_nonneg_right h3 M0
      linarith
    have h4 : 31 / 10 * u * μ ^ 2 ≤ 31 / 10 * u * A := mul_le_mul_of_nonneg_left hμA (by positivity)
    linarith
  have e2 : |Y - 2 * μ ^ 2| ≤ 41 / 10 * u * A := by
    have t := abs_add_le (Y - 2 * μ * q) (2 * μ * q - 2 * μ ^ 2)
    rw [sub_add_sub_cancel] at t
    have h1 : |2 * μ * q - 2 * μ ^ 2| ≤ 2 * u * μ ^ 2 := by
      rw [show 2 * μ * q - 2 * μ ^ 2 = 2 * μ * (q - μ) by ring, abs_mul, abs_mul, abs_two]
      calc 2 * |μ| * |q - μ| ≤ 2 * |μ| * (u * |μ|) := mul_le_mul_of_nonneg_left hq (by positivity)
        _ = 2 * u * (|μ| * |μ|) := by ring
        _ = _ := by rw [hmm]
    have h2 : u * |2 * μ * q| ≤ 2 * (u + u ^ 2) * μ ^ 2 := by
      rw [abs_mul, abs_mul, abs_two]
      calc u * (2 * |μ| * |q|) ≤ u * (2 * |μ| * ((1 + u) * |μ|)) := by gcongr
        _ = 2 * (u + u ^ 2) * (|μ| * |μ|) := by ring
        _ = _ := by rw [hmm]
    have h3 : 2 * (u + u ^ 2) * μ ^ 2 + 2 * u * μ ^ 2 ≤ 41 / 10 * u * μ ^ 2 := by
      have h3 : 2 * (u + u ^ 2) + 2 * u ≤ 41 / 10 * u := by linarith
      have := mul_le_mul_of_nonneg_right h3 M0
      linarith
    have h4 : 41 / 10 * u * μ ^ 2 ≤ 41 / 10 * u * A := mul_le_mul_of_nonneg_left hμA (by positivity)
    linarith
  have uA : u * A ≤ A / 256 := by have := mul_le_mul_of_nonneg_right u1 A0; linarith
  have e3 : |A - Y| ≤ 21 / 20 * A := by
    have t := abs_add_le (A - 2 * μ ^ 2) (2 * μ ^ 2 - Y)
    rw [sub_add_sub_cancel, abs_sub_comm (2 * μ ^ 2)] at t
    have h1 : |A - 2 * μ ^ 2| ≤ A := abs_le.2 ⟨by linarith, by linarith⟩
    linarith
  have e4 : |Z - (A - Y)| ≤ 21 / 20 * u * A := hZ.trans (by have := mul_le_mul_of_nonneg_left e3 u0.le; linarith)
  have e5 : |Z| ≤ 11 / 10 * A := by
    have t := abs_add_le (Z - (A - Y)) (A - Y)
    rw [sub_add_cancel] at t
    linarith
  have e6 : |r - Z| ≤ 21 / 10 * u * A := hr.trans (by have := mul_le_mul_of_nonneg_left e5 u0.le; linarith)
  rw [abs_le] at e1 e2 e4 e6 ⊢
  have huA : 0 ≤ u * A := by positivity
  constructor <;> linarith

/-- whole numbers `x` with whole non-negative weights `w`, `W = Σ w`, `S = Σ w x`, `Q = Σ w x²`: the variance is zero, or at least `1/(2W)` -/
theorem int_var_gap (l : List (ℤ × ℤ)) (hw : ∀ x ∈ l, 0 ≤ x.2) {W S Q : ℤ} (hW : W = (l.map fun x => x.2).sum) (hS : S = (l.map fun x => x.2 * x.1).sum)
    (hQ : Q = (l.map fun x => x.2 * x.1 ^ 2).sum) (hW0 : 0 < W) :
    (∃ c, S = W * c ∧ Q = W * c ^ 2 ∧ ∀ x ∈ l, x.2 ≠ 0 → x.1 = c) ∨ W ≤ 2 * (W * Q - S ^ 2) := by
  have key : ∀ k : ℤ, (l.map fun x => x.2 * (x.1 - k) ^ 2).sum = Q - 2 * k * S + k ^ 2 * W ∧ (l.map fun x => x.2 * ((x.1 - k) * (x.1 - k - 1))).sum = Q - 2 * k * S + k ^ 2 * W - (S - k * W) := by
    intro k
    rw [hW, hS, hQ]
    clear hW hS hQ hw
    induction l with
    | nil => simp
    | cons x l ih => obtain ⟨i1, i2⟩ := ih; simp only [List.map_cons, List.sum_cons]; rw [i1, i2]; constructor <;> ring
  set k := S / W with hk
  set T := S % W with hT
  have hST : S = W * k + T := (Int.mul_ediv_add_emod S W).symm
  have T0 : 0 ≤ T := Int.emod_nonneg _ hW0.ne'
  have TW : T < W := Int.emod_lt_of_pos _ hW0
  obtain ⟨k1, k2⟩ := key k
  have p2 : 0 ≤ (l.map fun x => x.2 * ((x.1 - k) * (x.1 - k - 1))).sum := by
    apply List.sum_nonneg
    intro y hy
    obtain ⟨x, hx, rfl⟩ := List.mem_map.1 hy
    refine mul_nonneg (hw x hx) ?_
    rcases le_or_gt (x.1 - k) 0 with h | h
    · nlinarith
    · exact mul_nonneg (by omega) (by omega)
  set D := (l.map fun x => x.2 * (x.1 - k) ^ 2).sum with hD
  have hWQ : W * Q - S ^ 2 = W * D - T ^ 2 := by rw [k1, hST]; ring
  have D0 : T ≤ D := by rw [k2] at p2; rw [k1]; linarith [hST]
  rcases T0.eq_or_lt with h0 | h0
  · rcases eq_or_ne D 0 with hD0 | hD0
    · left
      refine ⟨k, by rw [hST]; omega, by rw [hD0] at k1; rw [hST, ← h0] at k1; linarith, ?_⟩
      intro x hx hne
      have : x.2 * (x.1 - k) ^ 2 = 0 := by
        exact List.all_zero_of_le_zero_le_of_sum_eq_zero (l := l.map fun x => x.2 * (x.1 - k) ^ 2) (by
          intro y hy
          obtain ⟨x, hx, rfl⟩ := List.mem_map.1 hy
          exact mul_nonneg (hw x hx) (sq_nonneg _)) hD0 (List.mem_map.2 ⟨x, hx, rfl⟩)
      rcases mul_eq_zero.1 this with h | h
      · exact absurd h hne
      · have := pow_eq_zero_iff (two_ne_zero) |>.1 h; omega
    · right
      rw [hWQ, ← h0]
      have : 1 ≤ D := by omega
      nlinarith
  · right
    rw [hWQ]
    have h1 : T * (W - T) ≤ W * D - T ^ 2 := by nlinarith
    have h2 : W - 1 ≤ T * (W - T) := by nlinarith
    omega

theorem FFmt.pow2_emax_le (F : FFmt) : pow2 F.emax ≤ F.maxFin := by
  unfold FFmt.maxFin
  have e : pow2 F.emax = 2 ^ (F.p - 1) * pow2 (F.emax - (F.p - 1)) := by
    have h : ((2 : ℚ) ^ (F.p - 1)) = pow2 ((F.p : ℤ) - 1) := by
      rw [pow2_eq, ← zpow_natCast]; congr 1; have := F.p_ge; omega
    rw [h, ← pow2_add]; congr 1; ring
  rw [e]
  refine mul_le_mul_of_nonneg_right ?_ (pow2_pos _).le
  have h2 : (2 : ℚ) ^ F.p = 2 * 2 ^ (F.p - 1) := by rw [← pow_succ']; congr 1; have := F.p_ge; omega
  have h1 : (1 : ℚ) ≤ 2 ^ (F.p - 1) := one_le_pow₀ (by norm_num)
  push_cast
  rw [h2]; linarith

section
variable {F : FFmt}
set_option maxHeartbeats 1000000 in
/-- the rounding errors of the variance of a weighted mean -/
theorem wvom_rounding {w P : ℤ} (hw : 0 < w) (hP : 0 < P) (hw2 : 32 * (w : ℚ) ≤ 2 ^ F.p) (hP2 : 32 * (P : ℚ) ≤ 2 ^ F.p) (hp8 : 8 ≤ F.p)
    (hem : F.emin + 3 * F.p + 2 ≤ 0) (hex : 2 * F.p ≤ F.emax) {v p wf : Flt F} (v2 : v.isFin) (hvlow : v.val = 0 ∨ 1 / (16 * (w : ℚ)) ≤ v.val)
    (vA : v.val ≤ 2 ^ F.p) (h3 : wf.isFin ∧ wf.val = w) (h4 : p.isFin ∧ p.val = P) :
    (Flt.div (Flt.mul v p) (Flt.mul wf wf)).isFin ∧ 0 ≤ (Flt.div (Flt.mul v p) (Flt.mul wf wf)).val ∧
      |(Flt.div (Flt.mul v p) (Flt.mul wf wf)).val - v.val * P / w ^ 2| ≤ 4 * F.u * (v.val * P / w ^ 2) := by
  have u0 := F.u_pos
  have u1 : F.u ≤ 1 / 256 := by
    have : pow2 (-(F.p : Int)) ≤ pow2 (-8) := pow2_le.mpr (by omega)
    have h2 : pow2 (-8) = 1 / 256 := by rw [pow2_eq]; norm_num
    unfold FFmt.u; linarith
  have hwq : (0 : ℚ) < w := by exact_mod_cast hw
  have hw1 : (1 : ℚ) ≤ w := by exact_mod_cast hw
  have hpp : (0 : ℚ) < 2 ^ F.p := by positivity
  have hv0 : 0 ≤ v.val := by
    rcases hvlow with h | h
    · rw [h]
    · exact le_trans (by positivity) h
  have hPq : (1 : ℚ) ≤ P := by exact_mod_cast hP
  have vP0' : 0 ≤ v.val * P := mul_nonneg hv0 (by linarith)
  have two2 : (2 : ℚ) ^ F.p * 2 ^ F.p ≤ F.maxFin := by
    refine le_trans ?_ F.pow2_emax_le
    rw [← pow_add, pow2_eq, ← zpow_natCast]
    exact zpow_le_zpow_right₀ (by norm_num) (by push_cast; omega)
  -- the variance of the mean
  have a1 := Flt.mul_rounds v2 h4.1
  rw [h4.2] at a1
  obtain ⟨a2, a3⟩ := a1.fin_of (by
    rw [abs_of_nonneg vP0']
    exact (mul_le_mul vA (show (P : ℚ) ≤ 2 ^ F.p by linarith) (by linarith) hpp.le).trans two2)
  have ae := F.rs_rel_mult (x := v.val * P) (by
    have := v.val_mult.nat_mul P.toNat
    rw [mul_comm] at this
    have e : ((P.toNat : ℕ) : ℚ) = P := by
      have : ((P.toNat : ℕ) : ℤ) = P := Int.toNat_of_nonneg hP.le
      exact_mod_cast this
    rwa [e] at this)
  rw [← a3, abs_of_nonneg vP0'] at ae
  set a := Flt.mul v p with ha
  have b1 := Flt.mul_rounds h3.1 h3.1
  rw [h3.2] at b1
  obtain ⟨b2, b3⟩ := b1.fin_of (by
    rw [abs_of_nonneg (by positivity)]
    exact (mul_le_mul (show (w : ℚ) ≤ 2 ^ F.p by linarith) (show (w : ℚ) ≤ 2 ^ F.p by linarith) (by linarith) hpp.le).trans two2)
  have be := F.rs_rel' (x := (w : ℚ) * w) (.inr (by
    rw [abs_of_nonneg (by positivity)]
    have h0 : pow2 F.emin ≤ pow2 0 := pow2_le.2 (by omega)
    have h1 : pow2 0 = 1 := by rw [pow2_eq]; norm_num
    nlinarith))
  rw [← b3, abs_of_nonneg (a := (w : ℚ) * w) (by positivity)] at be
  set b := Flt.mul wf wf with hb
  have ww : (1 : ℚ) ≤ (w : ℚ) * w := by nlinarith
  have bl : (w : ℚ) * w * (1 - F.u) ≤ b.val := by have := (abs_le.1 be).1; linarith
  have bu : b.val ≤ (w : ℚ) * w * (1 + F.u) := by have := (abs_le.1 be).2; linarith
  have b0 : 0 < b.val := lt_of_lt_of_le (mul_pos (by linarith) (by linarith)) bl
  have al : v.val * P * (1 - F.u) ≤ a.val := by have := (abs_le.1 ae).1; linarith
  have au : a.val ≤ v.val * P * (1 + F.u) := by have := (abs_le.1 ae).2; linarith
  have vP0 : 0 ≤ v.val * P := by positivity
  have a0 : 0 ≤ a.val := le_trans (mul_nonneg vP0 (by linarith)) al
  have c1 := Flt.div_rounds a2 b2 b0.ne'
  have rU : a.val / b.val ≤ (1 + F.u) / (1 - F.u) * (v.val * P / w ^ 2) := by
    rw [div_le_iff₀ b0]
    have h1u : (0 : ℚ) < 1 - F.u := by linarith
    calc a.val ≤ v.val * P * (1 + F.u) := au
      _ = (1 + F.u) / (1 - F.u) * (v.val * P / w ^ 2) * (w * w * (1 - F.u)) := by field_simp
      _ ≤ _ := mul_le_mul_of_nonneg_left bl (by positivity)
  have rL : (1 - F.u) / (1 + F.u) * (v.val * P / w ^ 2) ≤ a.val / b.val := by
    rw [le_div_iff₀ b0]
    have h1u : (0 : ℚ) < 1 - F.u := by linarith
    calc _ ≤ (1 - F.u) / (1 + F.u) * (v.val * P / w ^ 2) * (w * w * (1 + F.u)) := mul_le_mul_of_nonneg_left bu (by positivity)
      _ = v.val * P * (1 - F.u) := by field_simp
      _ ≤ _ := al
  set R : ℚ := v.val * P / w ^ 2 with hR
  have R0 : 0 ≤ R := by positivity
  have k1 : (1 + F.u) / (1 - F.u) ≤ 1 + 5 / 2 * F.u := by rw [div_le_iff₀ (by linarith)]; nlinarith
  have k2 : 1 - 5 / 2 * F.u ≤ (1 - F.u) / (1 + F.u) := by rw [le_div_iff₀ (by linarith)]; nlinarith
  have rU' : a.val / b.val ≤ (1 + 5 / 2 * F.u) * R := rU.trans (mul_le_mul_of_nonneg_right k1 R0)
  have rL' : (1 - 5 / 2 * F.u) * R ≤ a.val / b.val := le_trans (mul_le_mul_of_nonneg_right k2 R0) rL
  have ab0 : 0 ≤ a.val / b.val := div_nonneg a0 b0.le
  have RvP : R ≤ v.val * P := div_le_self vP0 (by nlinarith)
  obtain ⟨c2, c3⟩ := c1.fin_of (by
    rw [abs_of_nonneg ab0]
    have hPp : 32 * (v.val * P) ≤ 2 ^ F.p * 2 ^ F.p := by
      have := mul_le_mul vA hP2 (by linarith) hpp.le
      linarith
    nlinarith)
  have ce := F.rs_rel' (x := a.val / b.val) (by
    rcases hvlow with h | h
    · left
      have : a.val = 0 := le_antisymm (by rw [h] at au; linarith) a0
      rw [this, zero_div]
    · right
      rw [abs_of_nonneg ab0]
      refine le_trans ?_ rL'
      have h1 : 1 / (16 * (w : ℚ)) / (w * w) ≤ R := by
        rw [hR, pow_two]
        refine div_le_div_of_nonneg_right ?_ (by positivity)
        nlinarith
      have h2 : pow2 (-(3 * F.p : ℤ)) ≤ 1 / (16 * (w : ℚ)) / (w * w) * (1 / 2) := by
        rw [pow2_eq, zpow_neg, div_div, div_mul_div_comm, one_mul, one_div]
        apply inv_anti₀ (by positivity)
        have e : (2 : ℚ) ^ (3 * F.p : ℤ) = 2 ^ F.p * (2 ^ F.p * 2 ^ F.p) := by
          rw [← pow_add, ← pow_add, ← zpow_natCast]; congr 1; push_cast; ring
        rw [e]
        have w2 : (w : ℚ) ≤ 2 ^ F.p := by linarith
        calc 16 * (w : ℚ) * (w * w) * 2 = (32 * w) * (w * w) := by ring
          _ ≤ _ := mul_le_mul hw2 (mul_le_mul w2 w2 hwq.le hpp.le) (by positivity) hpp.le
      have h3 : pow2 F.emin ≤ pow2 (-(3 * F.p : ℤ)) := pow2_le.2 (by omega)
      have h4 : 1 / 2 * R ≤ (1 - 5 / 2 * F.u) * R := mul_le_mul_of_nonneg_right (by linarith) R0
      linarith)
  rw [← c3, abs_of_nonneg ab0] at ce
  refine ⟨c2, ?_, ?_⟩
  · rw [c3]; exact F.rs_pos_le ab0
  · have h1 : a.val / b.val * F.u ≤ (1 + 5 / 2 * F.u) * R * F.u := mul_le_mul_of_nonneg_right rU' u0.le
    have h2 : (1 + 5 / 2 * F.u) * R * F.u ≤ 5 / 4 * R * F.u := by
      refine mul_le_mul_of_nonneg_right (mul_le_mul_of_nonneg_right (by linarith) R0) u0.le
    rw [abs_le] at ce ⊢
    have uR : 0 ≤ F.u * R := by positivity
    constructor <;> nlinarith [ce.1, ce.2]
end

section
variable [cfg : Cfg] {F : FFmt} {T W C : Type} [RFrom T (Flt F)] [RFrom W (Flt F)]

set_option maxHeartbeats 1000000 in
/-- from exact sums of whole numbers to the weighted variance -/
theorem wmean_exact (m : WeightedMean T W (Flt F) C) {S Q w P : ℤ} (hw : 0 < w) (hP : 0 < P) (hw2 : 32 * (w : ℚ) ≤ 2 ^ F.p) (hS2 : 32 * |(S : ℚ)| ≤ 2 ^ F.p)
    (hQ2 : 32 * (Q : ℚ) ≤ 2 ^ F.p) (hP2 : 32 * (P : ℚ) ≤ 2 ^ F.p)
    (hp8 : 8 ≤ F.p) (hem : F.emin + 3 * F.p + 2 ≤ 0) (hex : 2 * F.p ≤ F.emax)
    (h1 : (RFrom.conv m.sumwt : Flt F).isFin ∧ (RFrom.conv m.sumwt : Flt F).val = S)
    (h2 : (RFrom.conv m.sumwt2 : Flt F).isFin ∧ (RFrom.conv m.sumwt2 : Flt F).val = Q)
    (h3 : (RFrom.conv m.sumw : Flt F).isFin ∧ (RFrom.conv m.sumw : Flt F).val = w)
    (h4 : (RFrom.conv m.sumw2 : Flt F).isFin ∧ (RFrom.conv m.sumw2 : Flt F).val = P)
    (hCS : (S : ℚ) ^ 2 ≤ w * Q) (hgap : (∃ c : ℤ, S = w * c ∧ Q = w * c ^ 2) ∨ w ≤ 2 * (w * Q - S ^ 2)) :
    ∃ q v vm, m.get = .ok q ∧ Closest (S / w) q ∧ m.varianceOfSamples = .ok v ∧ v.isFin ∧ 0 ≤ v.val ∧
      |v.val - (Q / w - (S / w) ^ 2)| ≤ 13 * F.u * (Q / w) ∧ (v.val = 0 ↔ w * Q = S ^ 2) ∧
      m.varianceOfMean = .ok vm ∧ vm.isFin ∧ 0 ≤ vm.val ∧ |vm.val - v.val * P / w ^ 2| ≤ 4 * F.u * (v.val * P / w ^ 2) := by
  have u0 := F.u_pos
  have u1 : F.u ≤ 1 / 256 := by
    have : pow2 (-(F.p : Int)) ≤ pow2 (-8) := pow2_le.mpr (by omega)
    have h2 : pow2 (-8) = 1 / 256 := by rw [pow2_eq]; norm_num
    unfold FFmt.u; linarith
  have hup : F.u * 2 ^ F.p = 1 := by
    unfold FFmt.u
    rw [pow2_eq, zpow_neg, zpow_natCast]
    exact inv_mul_cancel₀ (by positivity)
  have hwq : (0 : ℚ) < w := by exact_mod_cast hw
  have hw1 : (1 : ℚ) ≤ w := by exact_mod_cast hw
  have hmax := F.two_pow_le_maxFin
  have hpp : (0 : ℚ) < 2 ^ F.p := by positivity
  have hQ0 : (0 : ℚ) ≤ Q := by
    have := (sq_nonneg (S : ℚ)).trans hCS
    exact nonneg_of_mul_nonneg_right this hwq
  have quot : ∀ k : ℤ, (k : ℚ) / w = 0 ∨ pow2 (-(F.p : ℤ)) ≤ |(k : ℚ) / w| := by
    intro k
    rcases eq_or_ne k 0 with rfl | hk
    · left; simp
    · right
      rw [abs_div, abs_of_pos hwq, le_div_iff₀ hwq, pow2_eq, zpow_neg, zpow_natCast]
      have h1 : (1 : ℚ) ≤ |(k : ℚ)| := by
        have : (1 : ℤ) ≤ |k| := Int.one_le_abs hk
        exact_mod_cast this
      calc ((2 : ℚ) ^ F.p)⁻¹ * w ≤ (2 ^ F.p)⁻¹ * 2 ^ F.p := by gcongr; linarith
        _ = 1 := inv_mul_cancel₀ hpp.ne'
        _ ≤ _ := h1
  have hwne : (RFrom.conv m.sumw : Flt F).val ≠ 0 := by rw [h3.2]; exact hwq.ne'
  -- the mean
  have qr := Flt.div_rounds h1.1 h3.1 hwne
  rw [h1.2, h3.2] at qr
  set q := Flt.div (RFrom.conv m.sumwt : Flt F) (RFrom.conv m.sumw : Flt F) with hq
  set μ : ℚ := S / w with hμ
  set A : ℚ := Q / w with hA
  have A0 : 0 ≤ A := div_nonneg hQ0 hwq.le
  have hSμ : (S : ℚ) = μ * w := by rw [hμ, div_mul_cancel₀ _ hwq.ne']
  have hμS : |μ| ≤ |(S : ℚ)| := by rw [hμ, abs_div, abs_of_pos hwq]; exact div_le_self (abs_nonneg _) hw1
  have hμ2 : 32 * |μ| ≤ 2 ^ F.p := by linarith
  have hAQ : A ≤ Q := div_le_self hQ0 hw1
  have qmax : |μ| ≤ F.maxFin := by have := abs_nonneg μ; linarith
  obtain ⟨q1, q2⟩ := qr.fin_of qmax
  have qc := qr.closest qmax
  have qe := F.rs_rel' (x := μ) ((quot S).imp id fun h => le_trans (pow2_le.2 (by have := F.p_ge; omega)) h)
  rw [← q2] at qe
  have hμA : μ ^ 2 ≤ A := by
    rw [hμ, hA, div_pow, div_le_div_iff₀ (by positivity) hwq]
    nlinarith
  have qup : |q.val| ≤ (1 + F.u) * |μ| := by
    have := abs_add_le (q.val - μ) μ
    rw [sub_add_cancel] at this
    linarith
  have qlow : (1 - F.u) * |μ| ≤ |q.val| := by
    have := abs_add_le (μ - q.val) q.val
    rw [sub_add_cancel, abs_sub_comm] at this
    linarith
  have qsmall : μ = 0 ∧ q.val = 0 ∨ pow2 (-(F.p : ℤ) - 1) ≤ |q.val| := by
    rcases quot S with h | h
    · left
      have h' : μ = 0 := h
      exact ⟨h', by rw [q2, h', F.rs_zero]⟩
    · right
      refine le_trans ?_ qlow
      have e1 : pow2 (-(F.p : ℤ)) = 2 * pow2 (-(F.p : ℤ) - 1) := by rw [← pow2_succ]; ring_nf
      have h0 := pow2_pos (-(F.p : ℤ) - 1)
      have : pow2 (-(F.p : ℤ)) ≤ |μ| := h
      nlinarith
  have hqq : q.val * q.val ≤ 2 * A := by
    have h := mul_self_le_mul_self (abs_nonneg _) qup
    rw [abs_mul_abs_self] at h
    have : (1 + F.u) * |μ| * ((1 + F.u) * |μ|) = (1 + F.u) ^ 2 * μ ^ 2 := by rw [← sq_abs μ]; ring
    rw [this] at h
    have h5 : (1 + F.u) ^ 2 ≤ 2 := by nlinarith
    exact h.trans (mul_le_mul h5 hμA (sq_nonneg _) (by norm_num))
  -- its square
  have pr := Flt.mul_rounds q1 q1
  obtain ⟨p1, p2⟩ := pr.fin_of (by rw [abs_mul_self]; linarith)
  have pe := F.rs_rel' (x := q.val * q.val) (by
    rcases qsmall with ⟨-, h⟩ | h
    · left; rw [h]; ring
    · right
      rw [abs_mul_self]
      have := mul_self_le_mul_self (pow2_pos _).le h
      rw [abs_mul_abs_self, ← pow2_add] at this
      exact le_trans (pow2_le.2 (by omega)) this)
  rw [← p2, abs_mul_self] at pe
  set m2 := Flt.mul q q with hm2
  -- twice the sum
  have o1 : (@RNum.one (Flt F) cfg _).isFin ∧ (@RNum.one (Flt F) cfg _).val = 1 := by
    have := Flt.ofInt_spec (F := F) (k := 1) (by norm_num; exact one_le_pow₀ (by norm_num))
    rw [Int.cast_one] at this
    exact this
  have t1 := (Flt.add_rounds o1.1 o1.1)
  rw [o1.2] at t1
  have rep2 : F.RepU |(1 + 1 : ℚ)| := by
    have := (F.rep_nat (n := 2) (by calc 2 = 2 ^ 1 := rfl
                                      _ ≤ 2 ^ F.p := Nat.pow_le_pow_right (by norm_num) (by omega))).repU
    norm_num at this ⊢
    exact this
  obtain ⟨t2, t3⟩ := t1.fin_of (by
    have : (2 : ℚ) ^ 8 ≤ 2 ^ F.p := pow_le_pow_right₀ (by norm_num) hp8
    norm_num at this ⊢; linarith)
  rw [F.rs_of_rep rep2] at t3
  set two := Flt.add (@RNum.one (Flt F) cfg _) (@RNum.one (Flt F) cfg _) with htwo
  have x1 := Flt.mul_rounds t2 h1.1
  rw [t3, h1.2, show ((1 : ℚ) + 1) * S = ((2 * S : ℤ) : ℚ) by push_cast; ring] at x1
  have h2S : |((2 * S : ℤ) : ℚ)| ≤ 2 ^ F.p := by
    push_cast; rw [abs_mul, abs_two]; have := abs_nonneg (S : ℚ); linarith
  obtain ⟨x2, x3⟩ := x1.fin_of (h2S.trans hmax)
  have rep2S : F.RepU |((2 * S : ℤ) : ℚ)| := by
    obtain ⟨g1, g2⟩ := Flt.ofInt_spec (F := F) h2S
    have := (Flt.ofRat ((2 * S : ℤ) : ℚ) : Flt F).val_rep.repU
    rwa [g2] at this
  rw [F.rs_of_rep rep2S] at x3
  set x := Flt.mul two (RFrom.conv m.sumwt : Flt F) with hx
  -- times the mean
  have y1 := Flt.mul_rounds x2 q1
  rw [x3] at y1
  have hy0 : |((2 * S : ℤ) : ℚ) * q.val| ≤ 3 * Q := by
    push_cast
    rw [abs_mul, abs_mul, abs_two]
    have e : |(S : ℚ)| = |μ| * w := by rw [hSμ, abs_mul, abs_of_pos hwq]
    have e2 : |μ| * |μ| = μ ^ 2 := by rw [abs_mul_abs_self, pow_two]
    calc 2 * |(S : ℚ)| * |q.val| ≤ 2 * |(S : ℚ)| * ((1 + F.u) * |μ|) := by gcongr
      _ = 2 * (1 + F.u) * ((|μ| * |μ|) * w) := by rw [e]; ring
      _ = 2 * (1 + F.u) * (μ ^ 2 * w) := by rw [e2]
      _ ≤ 3 * (A * w) := mul_le_mul (by linarith) (mul_le_mul_of_nonneg_right hμA hwq.le) (by positivity) (by norm_num)
      _ = 3 * Q := by rw [hA, div_mul_cancel₀ _ hwq.ne']
  obtain ⟨y2, y3⟩ := y1.fin_of (hy0.trans (by linarith))
  have ye := F.rs_rel' (x := ((2 * S : ℤ) : ℚ) * q.val) (by
    rcases qsmall with ⟨-, h⟩ | h
    · left; rw [h]; ring
    · rcases eq_or_ne S 0 with hS0 | hS0
      · left; rw [hS0]; simp
      · right
        rw [abs_mul]
        have hb : (1 : ℚ) ≤ |((2 * S : ℤ) : ℚ)| := by
          have : (1 : ℤ) ≤ |2 * S| := Int.one_le_abs (by omega)
          exact_mod_cast this
        have h0 := pow2_pos (-(F.p : ℤ) - 1)
        have h6 : pow2 F.emin ≤ pow2 (-(F.p : ℤ) - 1) := pow2_le.2 (by have := F.p_ge; omega)
        calc pow2 F.emin ≤ 1 * pow2 (-(F.p : ℤ) - 1) := by linarith
          _ ≤ _ := mul_le_mul hb h h0.le (abs_nonneg _))
  rw [← y3] at ye
  set y := Flt.mul x q with hy
  have yb : |y.val| ≤ 4 * Q := by
    have t := abs_add_le (y.val - ((2 * S : ℤ) : ℚ) * q.val) (((2 * S : ℤ) : ℚ) * q.val)
    rw [sub_add_cancel] at t
    have : |((2 * S : ℤ) : ℚ) * q.val| * F.u ≤ 3 * Q * (1 / 256) := mul_le_mul hy0 u1 u0.le (by linarith)
    linarith
  -- the difference
  have z1 := Flt.sub_rounds h2.1 y2
  rw [h2.2] at z1
  have zb : |(Q : ℚ) - y.val| ≤ 5 * Q := by
    refine (abs_sub _ _).trans ?_
    rw [abs_of_nonneg hQ0]; linarith
  obtain ⟨z2, z3⟩ := z1.fin_of (zb.trans (by linarith))
  have ze := F.rs_rel_mult (x := (Q : ℚ) - y.val) (by
    have := (RFrom.conv m.sumwt2 : Flt F).val_mult
    rw [h2.2] at this
    exact this.sub y.val_mult)
  rw [← z3] at ze
  set z := Flt.sub (RFrom.conv m.sumwt2 : Flt F) y with hz
  have zb2 : |z.val| ≤ 6 * Q := by
    have t := abs_add_le (z.val - (Q - y.val)) (Q - y.val)
    rw [sub_add_cancel] at t
    have : |(Q : ℚ) - y.val| * F.u ≤ 5 * Q * (1 / 256) := mul_le_mul zb u1 u0.le (by linarith)
    linarith
  -- the quotient
  have r1 := Flt.div_rounds z2 h3.1 hwne
  rw [h3.2] at r1
  have rb : |z.val / w| ≤ 6 * Q := by
    rw [abs_div, abs_of_pos hwq]
    exact (div_le_self (abs_nonneg _) hw1).trans zb2
  obtain ⟨r2, r3⟩ := r1.fin_of (rb.trans (by linarith))
  have re : |F.rs (z.val / w) - z.val / w| ≤ |z.val / w| * F.u + F.u * A := by
    rcases eq_or_lt_of_le hQ0 with h | h
    · rw [← h] at zb2
      have : z.val = 0 := abs_nonpos_iff.1 (by simpa using zb2)
      rw [this, zero_div, F.rs_zero]
      simp
      positivity
    · have := F.rs_err (z.val / w)
      have hb : F.eta ≤ F.u * A := by
        rw [F.eta_eq, mul_comm]
        refine mul_le_mul_of_nonneg_left ?_ u0.le
        rcases quot Q with h' | h'
        · exfalso
          have h'' : (Q : ℚ) / w = 0 := h'
          rw [div_eq_zero_iff] at h''
          rcases h'' with h'' | h'' <;> linarith
        · rw [abs_of_nonneg (by positivity)] at h'
          exact (pow2_le.2 (by have := F.p_ge; omega)).trans h'
      linarith
  rw [← r3] at re
  set r := Flt.div z (RFrom.conv m.sumw : Flt F) with hr
  -- the total error
  have herr : |m2.val + r.val - (A - μ ^ 2)| ≤ 11 * F.u * A := by
    refine wvar_rounding (Y := y.val / w) (Z := z.val / w) u0 u1 hμA (by linarith) (by linarith) ?_ ?_ (by linarith)
    · have e : y.val / w - 2 * μ * q.val = (y.val - ((2 * S : ℤ) : ℚ) * q.val) / w := by
        push_cast; rw [hSμ]; field_simp
      have e2 : 2 * μ * q.val = (((2 * S : ℤ) : ℚ) * q.val) / w := by push_cast; rw [hSμ]; field_simp
      rw [e, e2, abs_div, abs_div, abs_of_pos hwq, ← mul_div_assoc]
      exact div_le_div_of_nonneg_right (by linarith) hwq.le
    · have e : A - y.val / w = (Q - y.val) / w := by rw [hA]; ring
      rw [e, ← sub_div, abs_div, abs_div, abs_of_pos hwq, ← mul_div_assoc]
      exact div_le_div_of_nonneg_right (by linarith) hwq.le
  -- the sum
  have uA : F.u * A ≤ A * (1 / 256) := by rw [mul_comm]; exact mul_le_mul_of_nonneg_left u1 A0
  have v1 := Flt.add_rounds p1 r2
  have V0 : 0 ≤ A - μ ^ 2 := by linarith
  have VA : A - μ ^ 2 ≤ A := by have := sq_nonneg μ; linarith
  have vb : |m2.val + r.val| ≤ 21 / 20 * A := by
    have t := abs_add_le (m2.val + r.val - (A - μ ^ 2)) (A - μ ^ 2)
    rw [sub_add_cancel, abs_of_nonneg V0] at t
    linarith
  obtain ⟨v2, v3⟩ := v1.fin_of (vb.trans (by linarith))
  have ve := F.rs_rel_mult (x := m2.val + r.val) (m2.val_mult.add r.val_mult)
  rw [← v3] at ve
  set v := Flt.add m2 r with hv
  have verr : |v.val - (A - μ ^ 2)| ≤ 13 * F.u * A := by
    have t := abs_add_le (v.val - (m2.val + r.val)) (m2.val + r.val - (A - μ ^ 2))
    rw [sub_add_sub_cancel] at t
    have : |m2.val + r.val| * F.u ≤ 21 / 20 * A * F.u := mul_le_mul_of_nonneg_right vb u0.le
    have : 0 ≤ F.u * A := by positivity
    linarith
  have hsign : (v.val = 0 ∨ 1 / (16 * w) ≤ v.val) ∧ (v.val = 0 ↔ w * Q = S ^ 2) := by
    rcases hgap with ⟨c, c1, c2⟩ | hg
    · have c1q : (S : ℚ) = w * c := by exact_mod_cast c1
      have c2q : (Q : ℚ) = w * c ^ 2 := by exact_mod_cast c2
      have hμc : μ = c := by rw [hμ, c1q]; field_simp
      have hAc : A = c ^ 2 := by rw [hA, c2q]; field_simp
      have ex : ∀ k : ℤ, |(k : ℚ)| ≤ 2 ^ F.p → F.rs (k : ℚ) = k := by
        intro k hk
        obtain ⟨g1, g2⟩ := Flt.ofInt_spec (F := F) hk
        have := (Flt.ofRat (k : ℚ) : Flt F).val_rep.repU
        rw [g2] at this
        exact F.rs_of_rep this
      have qc' : q.val = c := by rw [q2, hμc]; exact ex c (by rw [← hμc]; have := abs_nonneg μ; linarith)
      have mc : m2.val = (c : ℚ) ^ 2 := by
        rw [p2, qc', ← pow_two]
        have := ex (c ^ 2) (by push_cast; rw [abs_of_nonneg (sq_nonneg _), ← hAc]; linarith)
        push_cast at this; exact this
      have yc : y.val = 2 * Q := by
        rw [y3, qc']
        have e : ((2 * S : ℤ) : ℚ) * c = ((2 * Q : ℤ) : ℚ) := by push_cast; rw [c1q, c2q]; ring
        rw [e]
        have := ex (2 * Q) (by push_cast; rw [abs_of_nonneg (by positivity)]; linarith)
        push_cast at this ⊢; exact this
      have zc : z.val = -Q := by
        rw [z3, yc]
        have := ex (-Q) (by push_cast; rw [abs_neg, abs_of_nonneg hQ0]; linarith)
        push_cast at this
        rw [show (Q : ℚ) - 2 * Q = -Q by ring]; exact this
      have rc : r.val = -(c : ℚ) ^ 2 := by
        rw [r3, zc, neg_div]
        have := ex (-c ^ 2) (by push_cast; rw [abs_neg, abs_of_nonneg (sq_nonneg _), ← hAc]; linarith)
        push_cast at this
        rw [show (Q : ℚ) / w = c ^ 2 from hAc]; exact this
      have hv0 : v.val = 0 := by rw [v3, mc, rc, show (c : ℚ) ^ 2 + -(c : ℚ) ^ 2 = 0 by ring, F.rs_zero]
      exact ⟨.inl hv0, ⟨fun _ => by rw [c1, c2]; ring, fun _ => hv0⟩⟩
    · have hgq : (w : ℚ) ≤ 2 * (w * Q - S ^ 2) := by exact_mod_cast hg
      have hlow : 1 / (2 * w) ≤ A - μ ^ 2 := by
        have e : A - μ ^ 2 = (w * Q - S ^ 2) / w ^ 2 := by rw [hA, hμ]; field_simp
        rw [e, div_le_div_iff₀ (by positivity) (by positivity)]
        nlinarith
      have hsm : 11 * F.u * A ≤ 22 / 32 * (1 / (2 * w)) := by
        have e : 11 * F.u * A * (2 * w) = 22 * (F.u * Q) := by rw [hA]; field_simp; ring
        have h5 : F.u * (32 * Q) ≤ F.u * 2 ^ F.p := mul_le_mul_of_nonneg_left hQ2 u0.le
        have h6 : 11 * F.u * A * (2 * w) ≤ 22 / 32 := by rw [e]; linarith
        rw [← le_div_iff₀ (by positivity)] at h6
        calc _ ≤ _ := h6
          _ = _ := by field_simp
      have hpos : 10 / 32 * (1 / (2 * w)) ≤ m2.val + r.val := by have := (abs_le.1 herr).1; linarith
      have hiw : 0 < 1 / (2 * (w : ℚ)) := by positivity
      have hvpos : 1 / (16 * w) ≤ v.val := by
        rw [abs_of_pos (a := m2.val + r.val) (lt_of_lt_of_le (by positivity) hpos)] at ve
        have h7 := (abs_le.1 ve).1
        have h8 : (m2.val + r.val) * F.u ≤ (m2.val + r.val) * (1 / 256) := mul_le_mul_of_nonneg_left u1 (le_trans (by positivity) hpos)
        have h9 : 1 / (16 * (w : ℚ)) = 1 / 8 * (1 / (2 * w)) := by field_simp; norm_num
        rw [h9]; linarith
      have hvpos' : 0 < v.val := lt_of_lt_of_le (by positivity) hvpos
      refine ⟨.inr hvpos, ⟨fun h => absurd h hvpos'.ne', fun h => ?_⟩⟩
      rw [h] at hg
      omega
  obtain ⟨hvlow, hviff⟩ := hsign
  have hv0 : 0 ≤ v.val := by
    rcases hvlow with h | h
    · rw [h]
    · exact le_trans (by positivity) h
  have vA : v.val ≤ 2 ^ F.p := by
    have := (abs_le.1 verr).2
    linarith
  obtain ⟨c1, c2, c3⟩ := wvom_rounding hw hP hw2 hP2 hp8 hem hex v2 hvlow vA h3 h4
  exact ⟨q, v, _, rfl, qc, rfl, v2, hv0, verr, hviff, rfl, c1, c2, c3⟩
end

end NdHist
