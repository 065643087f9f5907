import Verif.Props.UniformFloatBins
import Verif.Props.Variable
/-!
# Float axes where the arithmetic is exact, and cyclic float axes
-/
namespace NdHist
open POrd RNum
variable [cfg : Cfg] {F : FFmt}

/-- dividing a float by a power of two and rounding does not change the integer part -/
theorem FFmt.floor_rs_div {x : ℚ} (h : F.RepU x) (e : Int) : ⌊F.rs (x / pow2 e)⌋ = ⌊x / pow2 e⌋ := by
  have hp := F.p_ge
  obtain ⟨m, e', hx, hm, he⟩ := h
  have hx0 : 0 ≤ x := by rw [hx]; exact mul_nonneg (by positivity) (pow2_pos _).le
  have hq0 : 0 ≤ x / pow2 e := div_nonneg hx0 (pow2_pos _).le
  have hq : x / pow2 e = m * pow2 (e' - e) := by rw [hx, pow2_sub]; ring
  by_cases h1 : F.qmin ≤ e' - e
  · rw [F.rs_of_rep (x := x / pow2 e)]
    rw [abs_of_nonneg hq0]
    exact ⟨m, e' - e, hq, hm, h1⟩
  · -- the quotient is tiny, both integer parts are 0
    have hlt : x / pow2 e ≤ pow2 F.emin := by
      rw [hq]
      have h2 : pow2 (e' - e) ≤ pow2 (F.qmin - 1) := pow2_le.mpr (by omega)
      have h3 : (m : ℚ) ≤ pow2 (F.p : Int) := by rw [pow2_nat]; exact_mod_cast hm.le
      have h4 : pow2 (F.p : Int) * pow2 (F.qmin - 1) = pow2 F.emin := by
        rw [← pow2_add]; congr 1; unfold qmin; ring
      calc (m : ℚ) * pow2 (e' - e) ≤ pow2 (F.p : Int) * pow2 (F.qmin - 1) :=
            mul_le_mul h3 h2 (pow2_pos _).le (pow2_pos _).le
        _ = _ := h4
    have hr := F.rs_mono hlt
    rw [F.rs_nonneg (x := pow2 F.emin) (pow2_pos _).le, F.rnd_repU (x := pow2 F.emin)
      ⟨1, F.emin, by simp, Nat.one_lt_two_pow (by omega), by unfold qmin; omega⟩] at hr
    have hh := Uniform.emin_le_max F
    have a1 : ⌊F.rs (x / pow2 e)⌋ = 0 := Int.floor_eq_iff.2 ⟨by simpa using F.rs_pos_le hq0, by push_cast; linarith⟩
    have a2 : ⌊x / pow2 e⌋ = 0 := Int.floor_eq_iff.2 ⟨by simpa using hq0, by push_cast; linarith⟩
    rw [a1, a2]

/-- an axis from `z * 2^e` to `(z + num) * 2^e`: the bins have the width `2^e`, which is exact -/
theorem Uniform.exact_edges {num : Nat} {low high : Flt F} {e z : Int} {a : Uniform (Flt F)} (hnew : Uniform.new num low high = .ok (.ok a))
    (hl : low.isFin) (hl0 : low.val = z * pow2 e) (hh : high.isFin) (hh0 : high.val = (z + num) * pow2 e) (he : F.qmin ≤ e)
    (hz : |z| ≤ 2 ^ F.p) (hz' : |z + num| ≤ 2 ^ F.p) (hp : num * num < 2 ^ F.p) (hmax : num * (num * pow2 e) ≤ F.maxFin) :
    a.num = num ∧ 0 < num ∧ a.low = low ∧ a.high = high ∧ a.step.isFin ∧ a.step.val = pow2 e ∧
    ∀ k, k ≤ num → (a.fedge k).isFin ∧ (a.fedge k).val = (z + k) * pow2 e := by
  obtain ⟨r, hr, -, -, hok, hax⟩ := C03_new_float num low high
  have hra : r = .ok a := by rw [hr] at hnew; injection hnew
  obtain ⟨hnum, -, hns, -⟩ := hax a hra
  obtain ⟨hnum0, hne⟩ := hok.1 ⟨a, hra⟩
  have hnQ : (0 : ℚ) < num := by exact_mod_cast Nat.pos_of_ne_zero hnum0
  have hn1 : (1 : ℚ) ≤ num := by exact_mod_cast Nat.pos_of_ne_zero hnum0
  have hpe := pow2_pos e
  have hR : high.val - low.val = num * pow2 e := by rw [hl0, hh0]; ring
  have hRpos : 0 < (num : ℚ) * pow2 e := mul_pos hnQ hpe
  have hgt : POrd.gt low high = false := by
    rw [Flt.gt_fin hl hh]; exact decide_eq_false (by linarith)
  obtain ⟨e1, e2⟩ := hns hgt
  have hstep : a.step = Flt.div (Flt.sub a.high a.low) (Flt.ofRat num) := by
    rw [Uniform.new_flt] at hr
    injection hr with hr
    rw [← hr, if_neg hnum0, if_neg (by simp [hne])] at hra
    split at hra <;> cases hra <;> rfl
  have hp' : num < 2 ^ F.p := lt_of_le_of_lt (Nat.le_mul_self num) hp
  obtain ⟨n1, n2⟩ := Flt.ofNat_spec (F := F) hp'.le
  subst hnum
  have repn : ∀ k : Nat, k < 2 ^ F.p → F.rs (k * pow2 e) = k * pow2 e := fun k hk =>
    F.rs_of_rep (by rw [abs_of_nonneg (mul_nonneg (by positivity) (pow2_pos _).le)]; exact ⟨k, e, rfl, hk, he⟩)
  have hple : (a.num : ℚ) * pow2 e ≤ F.maxFin := by
    refine le_trans ?_ hmax
    have := mul_le_mul_of_nonneg_right hn1 hRpos.le
    linarith
  have hple1 : pow2 e ≤ F.maxFin := by
    refine le_trans ?_ hple
    have := mul_le_mul_of_nonneg_right hn1 hpe.le
    linarith
  have hrange := (Flt.sub_rounds (a := a.high) (b := a.low) (by rw [e2]; exact hh) (by rw [e1]; exact hl)).fin_of (by
    rw [e1, e2, hR, abs_of_pos hRpos]; exact hple)
  rw [e1, e2, hR, repn _ hp'] at hrange
  rw [e1, e2] at hstep
  have hdiv : (a.num : ℚ) * pow2 e / a.num = pow2 e := by field_simp
  have hs := (Flt.div_rounds hrange.1 n1 (by rw [n2]; exact hnQ.ne')).fin_of (by
    rw [n2, hrange.2, hdiv, abs_of_pos (pow2_pos _)]; exact hple1)
  rw [n2, hrange.2, hdiv, ← hstep] at hs
  have hstepv : a.step.val = pow2 e := by
    have := repn 1 (Nat.one_lt_two_pow (by have := F.p_ge; omega))
    rw [hs.2]; simpa using this
  refine ⟨rfl, Nat.pos_of_ne_zero hnum0, e1, e2, hs.1, hstepv, ?_⟩
  intro k hk
  have hkq : (k : ℚ) ≤ a.num := by exact_mod_cast hk
  obtain ⟨k1, k2⟩ := Flt.ofNat_spec (F := F) (hk.trans hp'.le)
  have hkle : (k : ℚ) * (a.num * pow2 e) ≤ F.maxFin :=
    le_trans (mul_le_mul_of_nonneg_right hkq hRpos.le) hmax
  have hm := (Flt.mul_rounds k1 hrange.1).fin_of (by
    rw [k2, hrange.2, abs_of_nonneg (mul_nonneg (by positivity) hRpos.le)]; exact hkle)
  have e3 : (k : ℚ) * (a.num * pow2 e) = ((k * a.num : Nat) : ℚ) * pow2 e := by push_cast; ring
  rw [k2, hrange.2, e3, repn _ (lt_of_le_of_lt (Nat.mul_le_mul_right _ hk) hp)] at hm
  have e4 : ((k * a.num : Nat) : ℚ) * pow2 e / a.num = k * pow2 e := by push_cast; field_simp
  have hk0 : 0 ≤ (k : ℚ) * pow2 e := mul_nonneg (by positivity) (pow2_pos _).le
  have hkm : (k : ℚ) * pow2 e ≤ F.maxFin := le_trans (mul_le_mul_of_nonneg_right hkq hpe.le) hple
  have hd := (Flt.div_rounds hm.1 n1 (by rw [n2]; exact hnQ.ne')).fin_of (by
    rw [n2, hm.2, e4, abs_of_nonneg hk0]; exact hkm)
  rw [n2, hm.2, e4, repn k (by omega)] at hd
  have e5 : low.val + k * pow2 e = (z + k) * pow2 e := by rw [hl0]; ring
  -- the edge lies between the bounds
  have hbet : |((z : ℚ) + k) * pow2 e| ≤ F.maxFin := by
    have b1 := abs_le.1 low.abs_val_le
    have b2 := abs_le.1 high.abs_val_le
    rw [hl0] at b1
    rw [hh0] at b2
    have c1 := mul_le_mul_of_nonneg_right hkq hpe.le
    rw [abs_le]
    constructor
    · have : ((z : ℚ) + k) * pow2 e = z * pow2 e + k * pow2 e := by ring
      linarith [b1.1]
    · have : ((z : ℚ) + k) * pow2 e = z * pow2 e + k * pow2 e := by ring
      have : ((z : ℚ) + a.num) * pow2 e = z * pow2 e + a.num * pow2 e := by ring
      linarith [b2.2]
  have hzk : |z + (k : ℤ)| ≤ 2 ^ F.p := by
    rw [abs_le] at *
    have : (k : ℤ) ≤ a.num := by exact_mod_cast hk
    constructor
    · have : (0 : ℤ) ≤ k := by positivity
      linarith [hz.1]
    · linarith [hz'.2]
  have hrep : F.rs (((z : ℚ) + k) * pow2 e) = (z + k) * pow2 e := by
    apply F.rs_of_rep
    rw [abs_mul, abs_of_pos hpe]
    have hcast : |(z : ℚ) + k| = ((z + k : ℤ).natAbs : ℚ) := by
      rw [← Int.cast_natCast (R := ℚ) (Int.natAbs _), Int.natCast_natAbs]; push_cast; rfl
    rw [hcast]
    have hle : (z + k : ℤ).natAbs ≤ 2 ^ F.p := by
      have : ((z + k : ℤ).natAbs : ℤ) ≤ 2 ^ F.p := by rw [Int.natCast_natAbs]; exact hzk
      exact_mod_cast this
    rcases lt_or_eq_of_le hle with h | h
    · exact ⟨_, e, rfl, h, he⟩
    · refine ⟨1, e + F.p, ?_, Nat.one_lt_two_pow (by have := F.p_ge; omega), by omega⟩
      rw [h, pow2_add, pow2_nat]; push_cast; ring
  have hadd := (Flt.add_rounds hl hd.1).fin_of (by rw [hd.2, e5]; exact hbet)
  rw [hd.2, e5, hrep] at hadd
  unfold Uniform.fedge
  rw [e1, e2]
  exact hadd

/-- subtracting the lower bound of an axis on the positive side is exact -/
theorem FFmt.rs_sub_grid {c : Flt F} {e z : Int} {n : Nat} (hz : 0 ≤ z) (he : F.qmin ≤ e) (hn : n ≤ 2 ^ F.p)
    (h1 : z * pow2 e ≤ c.val) (h2 : c.val < (z + n) * pow2 e) : F.rs (c.val - z * pow2 e) = c.val - z * pow2 e := by
  have hpe := pow2_pos e
  have hzQ : (0 : ℚ) ≤ z := by exact_mod_cast hz
  have hc0 : 0 ≤ c.val := (mul_nonneg hzQ hpe.le).trans h1
  obtain ⟨m, e', hm, hmp, he'⟩ := c.val_rep.repU
  rw [abs_of_nonneg hc0] at hm
  apply F.rs_of_rep
  rw [abs_of_nonneg (by linarith)]
  have hzn : ((z.toNat : ℕ) : ℚ) = z := by
    rw [← Int.cast_natCast, Int.toNat_of_nonneg hz]
  rcases le_total e' e with hle | hle
  · obtain ⟨j, rfl⟩ : ∃ j : Nat, e = e' + j := ⟨(e - e').toNat, by omega⟩
    have hle2 : z.toNat * 2 ^ j ≤ m := by
      have : ((z.toNat * 2 ^ j : ℕ) : ℚ) * pow2 e' ≤ m * pow2 e' := by
        push_cast; rw [hzn, ← hm]
        rw [pow2_add, pow2_nat] at h1
        push_cast at h1; linarith
      exact_mod_cast le_of_mul_le_mul_right this (pow2_pos e')
    refine ⟨m - z.toNat * 2 ^ j, e', ?_, by omega, he'⟩
    rw [Nat.cast_sub hle2, hm, pow2_add, pow2_nat]; push_cast; rw [hzn]; ring
  · obtain ⟨j, rfl⟩ : ∃ j : Nat, e' = e + j := ⟨(e' - e).toNat, by omega⟩
    have hm' : c.val = ((m * 2 ^ j : ℕ) : ℚ) * pow2 e := by rw [hm, pow2_add, pow2_nat]; push_cast; ring
    have hle2 : z.toNat ≤ m * 2 ^ j := by
      have : ((z.toNat : ℕ) : ℚ) * pow2 e ≤ ((m * 2 ^ j : ℕ) : ℚ) * pow2 e := by rw [hzn, ← hm']; exact h1
      exact_mod_cast le_of_mul_le_mul_right this hpe
    have hlt2 : m * 2 ^ j < z.toNat + n := by
      have : ((m * 2 ^ j : ℕ) : ℚ) * pow2 e < ((z.toNat + n : ℕ) : ℚ) * pow2 e := by
        rw [← hm']; push_cast; rw [hzn]; exact h2
      exact_mod_cast lt_of_mul_lt_mul_right this hpe.le
    refine ⟨m * 2 ^ j - z.toNat, e, ?_, by omega, he⟩
    rw [Nat.cast_sub hle2, hm', hzn]; ring

/-- **C06 (partial: exact case).** On an axis `Uniform::new(num, low, high)` whose bins have a power of two as width and whose bounds are multiples of
the width, `low = z * 2^e` and `high = (z + num) * 2^e`: if the axis starts at or above zero, every coordinate except NaN lies exactly in the bin
reported for it, flow bins included; if it starts below zero, so does every coordinate whose distance from `low` is not rounded (for the others see
`C06_within_rounding_partial`, and the counterexample `C06_counterexample`). Bounds: `num^2 < 2^p`, `num` times the range is finite, and the bounds are at most `2^p` widths from zero. -/
theorem C06_exact_partial {num : Nat} {low high : Flt F} {e z : Int} {a : Uniform (Flt F)} (hnew : Uniform.new num low high = .ok (.ok a))
    (hl : low.isFin) (hl0 : low.val = z * pow2 e) (hh : high.isFin) (hh0 : high.val = (z + num) * pow2 e) (he : F.qmin ≤ e)
    (hz : |z| ≤ 2 ^ F.p) (hz' : |z + num| ≤ 2 ^ F.p)
    (hn : num + 2 < usizeSize) (hp : num * num < 2 ^ F.p) (hmax : num * (num * pow2 e) ≤ F.maxFin)
    (c : Flt F) (hc : c ≠ .nan) (hx : 0 ≤ z ∨ F.rs (c.val - low.val) = c.val - low.val) :
    ∃ i b, a.index c = .ok (some i) ∧ a.bin i = .ok (some b) ∧ b.Covers c := by
  obtain ⟨hnum, hnum0, e1, e2, hs1, hstepv, hedge⟩ := Uniform.exact_edges hnew hl hl0 hh hh0 he hz hz' hp hmax
  subst hnum
  have hnQ : (0 : ℚ) < a.num := by exact_mod_cast hnum0
  have hp' : a.num < 2 ^ F.p := lt_of_le_of_lt (Nat.le_mul_self a.num) hp
  by_cases h1 : POrd.lt c a.low = true
  · exact ⟨0, .Underflow a.low, Uniform.index_low h1, by rw [Uniform.bin_flt a (by omega)]; simp, h1⟩
  by_cases h2 : POrd.ge c a.high = true
  · refine ⟨a.num + 1, .Overflow a.high, Uniform.index_high (by omega) (by simpa using h1) h2, by rw [Uniform.bin_flt a (by omega)]; simp, ?_⟩
    obtain ⟨x, y, hx, hy, h⟩ := LawfulPOrd.ge_iff.1 h2
    exact LawfulPOrd.le_iff.2 ⟨y, x, hy, hx, h⟩
  have h1' : POrd.lt c a.low = false := by simpa using h1
  have h2' : POrd.ge c a.high = false := by simpa using h2
  rcases Uniform.mid_cases (by rw [e1]; exact hl) (by rw [e2]; rintro rfl; exact hh) h1' h2' with rfl | ⟨hcf, hc1⟩
  · exact absurd rfl hc
  rw [e1] at hc1
  have hc2 : c.val < high.val := by
    rw [e2, Flt.ge_fin hcf hh] at h2'
    exact not_le.1 (of_decide_eq_false h2')
  have hx' : F.rs (c.val - low.val) = c.val - low.val := by
    rcases hx with hx | hx
    · rw [hl0] at hc1 ⊢
      rw [hh0] at hc2
      exact F.rs_sub_grid hx he hp'.le hc1 hc2
    · exact hx
  have hR : high.val - low.val = a.num * pow2 e := by rw [hl0, hh0]; ring
  have hRm : (a.num : ℚ) * pow2 e ≤ F.maxFin := by
    refine le_trans ?_ hmax
    have h3 : (1 : ℚ) ≤ a.num := by exact_mod_cast hnum0
    have := mul_le_mul_of_nonneg_right h3 (mul_pos hnQ (pow2_pos e)).le
    linarith
  have hd := (Flt.sub_rounds hcf hl).fin_of (by rw [abs_of_nonneg (by linarith)]; linarith)
  rw [hx'] at hd
  have hd0 : 0 ≤ c.val - low.val := by linarith
  have hcm : (c.val - low.val) / pow2 e < a.num := by rw [div_lt_iff₀ (pow2_pos _), ← hR]; linarith
  have hq0 : 0 ≤ (c.val - low.val) / pow2 e := div_nonneg hd0 (pow2_pos _).le
  have hq := (Flt.div_rounds hd.1 hs1 (by rw [hstepv]; exact pow2_ne _)).fin_of (by
    rw [hd.2, hstepv, abs_of_nonneg hq0]
    exact hcm.le.trans (F.rep_nat hp'.le).le_maxFin)
  rw [hd.2, hstepv] at hq
  have hqn : F.rs ((c.val - low.val) / pow2 e) ≤ a.num := by
    have := F.rs_mono hcm.le
    rwa [F.rs_of_rep (x := (a.num : ℚ)) (by rw [abs_of_pos hnQ]; exact (F.rep_nat hp'.le).repU)] at this
  have hus : ((a.num + 2 : Nat) : ℚ) < (usizeSize : ℚ) := by exact_mod_cast hn
  push_cast at hus
  have htu : Flt.toUsize (Flt.div (Flt.sub c a.low) a.step) = some ⌊(c.val - low.val) / pow2 e⌋.toNat := by
    rw [e1, Flt.toUsize_val hq.1 (by rw [hq.2]; exact F.rs_pos_le hq0) (by rw [hq.2]; linarith), hq.2]
    rw [F.floor_rs_div (by
      have := (Flt.sub c low).val_rep.repU
      rwa [hd.2, abs_of_nonneg hd0] at this)]
  have hfl : ⌊(c.val - low.val) / pow2 e⌋ < (a.num : ℤ) := Int.floor_lt.2 (by exact_mod_cast hcm)
  have hfl0 : 0 ≤ ⌊(c.val - low.val) / pow2 e⌋ := Int.floor_nonneg.2 hq0
  set k := ⌊(c.val - low.val) / pow2 e⌋.toNat with hk
  have hkz : ((k : ℕ) : ℤ) = ⌊(c.val - low.val) / pow2 e⌋ := by omega
  have hidx := Uniform.index_mid h1' h2' (by rw [htu, Option.getD_some]; omega)
  rw [htu, Option.getD_some] at hidx
  have hkn : k < a.num := by omega
  obtain ⟨f1, g1⟩ := hedge k hkn.le
  obtain ⟨f2, g2⟩ := hedge (k + 1) hkn
  refine ⟨k + 1, .Bin (a.fedge k) (a.fedge (k + 1)), hidx, ?_, ?_⟩
  · rw [Uniform.bin_flt a (by omega), if_neg (by omega), if_neg (by omega), if_neg (by omega)]; rfl
  · have k1 : (k : ℚ) ≤ (c.val - low.val) / pow2 e := by
      have := Int.floor_le ((c.val - low.val) / pow2 e)
      rw [← hkz] at this; exact_mod_cast this
    have k2 : (c.val - low.val) / pow2 e < k + 1 := by
      have := Int.lt_floor_add_one ((c.val - low.val) / pow2 e)
      rw [← hkz] at this; exact_mod_cast this
    rw [le_div_iff₀ (pow2_pos _), hl0] at k1
    rw [div_lt_iff₀ (pow2_pos _), hl0] at k2
    constructor
    · rw [Flt.le_fin f1 hcf, g1]; exact decide_eq_true (by linarith)
    · rw [Flt.lt_fin hcf f2, g2]; push_cast; exact decide_eq_true (by linarith)

/-- non-vacuity: `Uniform::new(100, 0.0, 25.0)` has bins of width 1/4 -/
example : ∃ a, @Uniform.new F64 dbg64 _ 100 (f64 0) (f64 25) = .ok (.ok a) ∧ (f64 0).val = (0 : Int) * pow2 (-2) ∧
    (f64 25).val = ((0 : Int) + (100 : Nat)) * pow2 (-2) ∧ (100 : Nat) * ((100 : Nat) * pow2 (-2)) ≤ FFmt.f64.maxFin := by
  refine ⟨⟨100, f64 0, f64 25, f64 (1/4)⟩, ?_, ?_, ?_, ?_⟩ <;> decide +kernel

/-- non-vacuity: `Uniform::new(10, -5.0, 5.0)` and the coordinate 0.1, whose distance from -5 is rounded, and 0.125, for which it is not -/
example : ∃ a, @Uniform.new F64 dbg64 _ 10 (f64 (-5)) (f64 5) = .ok (.ok a) ∧ (f64 (-5)).val = (-5 : Int) * pow2 0 ∧
    (f64 5).val = ((-5 : Int) + (10 : Nat)) * pow2 0 ∧ (10 : Nat) * ((10 : Nat) * pow2 0) ≤ FFmt.f64.maxFin ∧
    FFmt.f64.rs ((f64 (1/10)).val - (f64 (-5)).val) ≠ (f64 (1/10)).val - (f64 (-5)).val ∧
    FFmt.f64.rs ((f64 (1/8)).val - (f64 (-5)).val) = (f64 (1/8)).val - (f64 (-5)).val := by
  refine ⟨⟨10, f64 (-5), f64 5, f64 1⟩, ?_, ?_, ?_, ?_, ?_, ?_⟩ <;> decide +kernel

/-! ## Cyclic float axes -/

/-- the two zeros are counted alike -/
theorem Uniform.index_congr (a : Uniform (Flt F)) {c c' : Flt F} (hc : c.isFin) (hc' : c'.isFin) (h : c.val = c'.val) :
    a.index c = a.index c' := by
  cases c with
  | nan => exact hc.elim
  | inf => exact hc.elim
  | fin s m hm =>
    cases c' with
    | nan => exact hc'.elim
    | inf => exact hc'.elim
    | fin s' m' hm' =>
      have habs : m = m' := by
        have := congrArg abs h
        simpa only [Flt.val, Flt.abs_sval _ hm.nonneg, Flt.abs_sval _ hm'.nonneg] using this
      subst habs
      by_cases hs : s = s'
      · subst hs; rfl
      have hm0 : m = 0 := by
        have h' : Flt.sval s m = Flt.sval s' m := h
        cases s <;> cases s' <;> simp [Flt.sval] at h' hs ⊢ <;> linarith
      subst hm0
      have key : ∀ x : Flt F, POrd.lt (.fin s 0 hm) x = POrd.lt (.fin s' 0 hm') x ∧ POrd.ge (.fin s 0 hm) x = POrd.ge (.fin s' 0 hm') x := by
        intro x
        have e : ∀ t, Flt.pcmp (.fin t 0 hm : Flt F) x = Flt.pcmp (Flt.zero false) x := by
          intro t
          cases x with
          | nan => rfl
          | inf => rfl
          | fin => simp only [Flt.pcmp, Flt.zero]; cases t <;> simp [Flt.sval]
        constructor
        · show (Flt.pcmp _ x == _) = (Flt.pcmp _ x == _)
          rw [e s, e s']
        · show (Flt.pcmp _ x == _ || Flt.pcmp _ x == _) = (Flt.pcmp _ x == _ || Flt.pcmp _ x == _)
          rw [e s, e s']
      have hsub : Flt.sub (.fin s 0 hm) a.low = Flt.sub (.fin s' 0 hm') a.low ∨
          (∃ t, Flt.sub (.fin s 0 hm) a.low = Flt.zero t) ∧ ∃ t, Flt.sub (.fin s' 0 hm') a.low = Flt.zero t := by
        cases hlow : a.low with
        | nan => exact .inl rfl
        | inf => exact .inl rfl
        | fin t n hn =>
          have z : ∀ b, Flt.sval b (0 : ℚ) = 0 := by intro b; cases b <;> simp [Flt.sval]
          by_cases hn0 : Flt.sval (!t) n = 0
          · right
            refine ⟨⟨(s && !t), ?_⟩, ⟨(s' && !t), ?_⟩⟩ <;> simp [Flt.sub, Flt.neg, Flt.add, z, hn0]
          · left
            simp [Flt.sub, Flt.neg, Flt.add, z, hn0]
      have hus : Flt.toUsize (Flt.div (Flt.sub (.fin s 0 hm) a.low) a.step) = Flt.toUsize (Flt.div (Flt.sub (.fin s' 0 hm') a.low) a.step) := by
        rcases hsub with h | ⟨⟨t, ht⟩, ⟨t', ht'⟩⟩
        · rw [h]
        · rw [ht, ht']
          have : ∀ t : Bool, Flt.toUsize (Flt.div (Flt.zero t) a.step) = Flt.toUsize (Flt.div (Flt.zero false) a.step) := by
            intro t
            cases a.step with
            | nan => rfl
            | inf b =>
              have := two_le_usizeSize
              cases t <;> cases b <;> simp [Flt.div, Flt.zero, Flt.toUsize] <;> omega
            | fin b n hn =>
              by_cases hn0 : n = 0
              · simp [Flt.div, Flt.zero, hn0]
              · have := two_le_usizeSize
                have r0 : F.rnd 0 ≤ F.maxFin := by rw [F.rnd_zero]; exact F.maxFin_pos.le
                cases t <;> cases b <;> simp [Flt.div, Flt.zero, hn0, Flt.round, Flt.toUsize, F.rnd_zero, F.maxFin_pos.le] <;> omega
          rw [this t, this t']
      have e : ∀ x : Flt F, a.index x = if POrd.lt x a.low then .ok (some 0) else if POrd.ge x a.high then
          (uadd a.num 1 >>= fun i => pure (some i)) else
          (uadd ((Flt.toUsize (Flt.div (Flt.sub x a.low) a.step)).getD a.num) 1 >>= fun i => pure (some i)) := by
        intro x
        unfold Uniform.index
        cases POrd.lt x a.low <;> cases POrd.ge x a.high <;> rfl
      rw [e, e, (key a.low).1, (key a.high).2, hus]

end NdHist
