import Verif.Props.Content
import Verif.Props.FloatExact
import Verif.Props.CyclicFloat
/-!
# C76: float axes are exact for coordinates on a grid

Whole numbers, quarters, and in general multiples of a power of two: on a float axis whose bounds and bin width are such numbers, such coordinates are
counted exactly where they belong, although the axis computes with rounded arithmetic and the bin width need not be a power of two.
-/
namespace NdHist
open POrd RNum

/-! ## Vocabulary -/

/-- The axis has `num` bins of width `w * 2^e`, the first of which starts at `z * 2^e`, and these numbers fit: the exponent range of the format
contains `e` and `e + p`, the bounds are at most `2^p` units from zero, and so is `num` times the range. For `f64` and whole numbers (`e = 0`): everything is
below `2^53`. -/
structure GridFits (F : FFmt) (e z : ℤ) (w num : ℕ) : Prop where
  e_ge : F.qmin ≤ e
  e_le : e + F.p ≤ F.emax
  num_pos : 0 < num
  w_pos : 0 < w
  low_le : |z| ≤ 2 ^ F.p
  high_le : |z + num * w| ≤ 2 ^ F.p
  prod_le : num * (num * w) ≤ 2 ^ F.p

/-- Cyclic float axes: the bin `[start, stop)` contains the real number `c` moved by a whole number of turns of length `range`. -/
def BinInterval.CoversTurnsF {F : FFmt} (range : ℚ) : BinInterval (Flt F) → Flt F → Prop
  | .Bin start stop, c => ∃ t : ℤ, start.val ≤ c.val + t * range ∧ c.val + t * range < stop.val
  | _, _ => False

/-! ## Arithmetic -/

section
variable {F : FFmt} {e : ℤ}

theorem FFmt.exact_grid {z : ℤ} (h1 : F.qmin ≤ e) (h2 : e + F.p ≤ F.emax) (hz : |z| ≤ 2 ^ F.p) :
    F.rs (z * pow2 e) = z * pow2 e ∧ |(z : ℚ) * pow2 e| ≤ F.maxFin := by
  have rep : F.Rep |(z : ℚ) * pow2 e| := by
    refine FFmt.rep_grid h1 h2 ⟨z, by rw [pow2_eq]⟩ ?_
    rw [abs_mul, abs_of_pos (pow2_pos e), zpow_add₀ (by norm_num), ← pow2_eq, mul_comm (pow2 e), zpow_natCast]
    refine mul_le_mul_of_nonneg_right ?_ (pow2_pos e).le
    exact_mod_cast hz
  exact ⟨F.rs_of_rep rep.repU, rep.le_maxFin⟩

/-- a quotient of whole numbers is not rounded up to the next whole number, if these are below `2^p` -/
theorem FFmt.floor_rs_ratio [cfg : Cfg] {n w : ℕ} (hw : 0 < w) (h : (n / w + 1) * w ≤ 2 ^ F.p) : ⌊F.rs ((n : ℚ) / w)⌋ = ((n / w : ℕ) : ℤ) := by
  have hwq : (0 : ℚ) < w := by exact_mod_cast hw
  have hkp : n / w + 1 ≤ 2 ^ F.p := le_trans (Nat.le_mul_of_pos_right _ hw) h
  have hk1 : ((n / w : ℕ) : ℚ) ≤ (n : ℚ) / w := by
    rw [le_div_iff₀ hwq]; exact_mod_cast Nat.div_mul_le_self n w
  have hn : n + 1 ≤ (n / w + 1) * w := by
    have := Nat.lt_div_mul_add (a := n) hw
    rw [Nat.add_mul, one_mul]; exact this
  have hk2 : (n : ℚ) / w ≤ ((n / w : ℕ) + 1) - 1 / w := by
    rw [le_sub_iff_add_le, ← add_div, div_le_iff₀ hwq]; exact_mod_cast hn
  have hlo : ((n / w : ℕ) : ℚ) ≤ F.rs ((n : ℚ) / w) := by
    have := F.rs_mono hk1
    rwa [F.rs_of_rep (x := ((n / w : ℕ) : ℚ)) (by rw [abs_of_nonneg (by positivity)]; exact (F.rep_nat (by omega)).repU)] at this
  have hw1 : (0 : ℚ) < 1 / w := by positivity
  have hhi : F.rs ((n : ℚ) / w) < ((n / w : ℕ) : ℚ) + 1 := by
    rcases le_total (pow2 F.emin) ((n : ℚ) / w) with hx | hx
    · have hr := abs_le.1 (F.rs_rel_normal hx)
      have hu : F.u * 2 ^ F.p = 1 := by
        unfold FFmt.u
        rw [pow2_eq, zpow_neg, zpow_natCast]; exact inv_mul_cancel₀ (by positivity)
      have hpq : (((n / w : ℕ) : ℚ) + 1) * w ≤ 2 ^ F.p := by exact_mod_cast h
      have hb : ((n : ℚ) / w) * F.u < 1 / w := by
        rw [lt_div_iff₀ hwq]
        have e1 : (n : ℚ) / w * F.u * w = n * F.u := by field_simp
        rw [e1, ← hu, mul_comm]
        apply mul_lt_mul_of_pos_left _ F.u_pos
        have : ((n : ℚ)) + 1 ≤ (((n / w : ℕ) : ℚ) + 1) * w := by exact_mod_cast hn
        linarith
      linarith [hr.2]
    · have hr := F.rs_mono hx
      rw [F.rs_nonneg (x := pow2 F.emin) (pow2_pos _).le, F.rnd_repU (x := pow2 F.emin)
        ⟨1, F.emin, by simp, Nat.one_lt_two_pow (by have := F.p_ge; omega), by unfold FFmt.qmin; have := F.p_ge; omega⟩] at hr
      have := Uniform.emin_le_max F
      have : (0 : ℚ) ≤ ((n / w : ℕ) : ℚ) := by positivity
      linarith
  rw [Int.floor_eq_iff]
  constructor
  · exact_mod_cast hlo
  · exact_mod_cast hhi

end

/-! ## Uniform axes on a grid -/

section
variable [cfg : Cfg] {F : FFmt} {e z : ℤ} {w : ℕ} {a : Uniform (Flt F)}

/-- the fields of a constructed axis on a grid -/
structure Uniform.OnGrid (a : Uniform (Flt F)) (e z : ℤ) (w : ℕ) : Prop where
  fits : GridFits F e z w a.num
  low_fin : a.low.isFin
  low_val : a.low.val = z * pow2 e
  high_fin : a.high.isFin
  high_val : a.high.val = (z + a.num * w) * pow2 e
  step_fin : a.step.isFin
  step_val : a.step.val = w * pow2 e

omit cfg in
theorem GridFits.range_le {num : ℕ} (h : GridFits F e z w num) : num * w ≤ 2 ^ F.p :=
  le_trans (Nat.le_mul_of_pos_left _ h.num_pos) h.prod_le

omit cfg in
theorem GridFits.num_le {num : ℕ} (h : GridFits F e z w num) : num ≤ 2 ^ F.p :=
  le_trans (Nat.le_mul_of_pos_right _ h.w_pos) h.range_le

omit cfg in
theorem GridFits.nat {num k : ℕ} (h : GridFits F e z w num) (hk : k ≤ 2 ^ F.p) : F.rs (k * pow2 e) = k * pow2 e ∧ |(k : ℚ) * pow2 e| ≤ F.maxFin := by
  have := FFmt.exact_grid (z := (k : ℤ)) h.e_ge h.e_le (by rw [Nat.abs_cast]; exact_mod_cast hk)
  exact_mod_cast this

theorem Uniform.OnGrid.range (h : a.OnGrid e z w) : (Flt.sub a.high a.low).isFin ∧ (Flt.sub a.high a.low).val = (a.num * w : ℕ) * pow2 e := by
  have hR : a.high.val - a.low.val = (a.num * w : ℕ) * pow2 e := by rw [h.low_val, h.high_val]; push_cast; ring
  have g := h.fits.nat h.fits.range_le
  have := (Flt.sub_rounds h.high_fin h.low_fin).fin_of (by rw [hR]; exact g.2)
  rwa [hR, g.1] at this

theorem Uniform.grid_new {num : ℕ} {low high : Flt F} (hg : GridFits F e z w num) (hl : low.isFin) (hl0 : low.val = z * pow2 e) (hh : high.isFin)
    (hh0 : high.val = (z + num * w) * pow2 e) (hnew : Uniform.new num low high = .ok (.ok a)) : a.OnGrid e z w ∧ a.num = num ∧ a.low = low ∧ a.high = high := by
  have hnQ : (0 : ℚ) < num := by exact_mod_cast hg.num_pos
  have hwQ : (0 : ℚ) < w := by exact_mod_cast hg.w_pos
  have hpe := pow2_pos e
  have hpos : 0 < (num : ℚ) * w * pow2 e := by positivity
  have hgt : ¬ POrd.gt low high = true := by
    rw [Flt.gt_fin hl hh, hl0, hh0, decide_eq_true_eq]
    intro h; linarith [add_mul (z : ℚ) (num * w) (pow2 e)]
  rw [Uniform.new_flt, if_neg hg.num_pos.ne', if_neg hgt] at hnew
  split at hnew
  · cases hnew
  injection hnew with hnew
  injection hnew with hnew
  have hR : high.val - low.val = (num * w : ℕ) * pow2 e := by rw [hl0, hh0]; push_cast; ring
  have g := hg.nat hg.range_le
  have hr := (Flt.sub_rounds hh hl).fin_of (by rw [hR]; exact g.2)
  rw [hR, g.1] at hr
  obtain ⟨n1, n2⟩ := Flt.ofNat_spec (F := F) hg.num_le
  have g' := hg.nat (k := w) (le_trans (Nat.le_mul_of_pos_left _ hg.num_pos) hg.range_le)
  have hdiv : ((num * w : ℕ) : ℚ) * pow2 e / num = w * pow2 e := by push_cast; field_simp
  have hs := (Flt.div_rounds hr.1 n1 (by rw [n2]; exact hnQ.ne')).fin_of (by rw [n2, hr.2, hdiv]; exact g'.2)
  rw [n2, hr.2, hdiv, g'.1] at hs
  subst hnew
  exact ⟨⟨hg, hl, hl0, hh, hh0, hs.1, hs.2⟩, rfl, rfl, rfl⟩

theorem Uniform.grid_step {num : ℕ} {low step : Flt F} (hg : GridFits F e z w num) (hl : low.isFin) (hl0 : low.val = z * pow2 e) (hs : step.isFin)
    (hs0 : step.val = w * pow2 e) (hnew : Uniform.withStepSize num low step = .ok (.ok a)) : a.OnGrid e z w ∧ a.num = num ∧ a.low = low := by
  have hnQ : (0 : ℚ) < num := by exact_mod_cast hg.num_pos
  have hwQ : (0 : ℚ) < w := by exact_mod_cast hg.w_pos
  have hpe := pow2_pos e
  have hpos : 0 < (num : ℚ) * w * pow2 e := by positivity
  obtain ⟨n1, n2⟩ := Flt.ofNat_spec (F := F) hg.num_le
  have g := hg.nat hg.range_le
  have e1 : (num : ℚ) * step.val = (num * w : ℕ) * pow2 e := by rw [hs0]; push_cast; ring
  have hm := (Flt.mul_rounds n1 hs).fin_of (by rw [n2, e1]; exact g.2)
  rw [n2, e1, g.1] at hm
  have g' := FFmt.exact_grid (F := F) (z := z + num * w) hg.e_ge hg.e_le hg.high_le
  have e2 : ((num * w : ℕ) : ℚ) * pow2 e + low.val = ((z + num * w : ℤ) : ℚ) * pow2 e := by rw [hl0]; push_cast; ring
  have ha := (Flt.add_rounds hm.1 hl).fin_of (by rw [hm.2, e2]; exact g'.2)
  rw [hm.2, e2, g'.1] at ha
  have hgt : ¬ POrd.gt low (Flt.add (Flt.mul (Flt.ofRat num) step) low) = true := by
    rw [Flt.gt_fin hl ha.1, ha.2, hl0, decide_eq_true_eq]
    push_cast
    intro h; linarith [add_mul (z : ℚ) (num * w) (pow2 e)]
  rw [Uniform.withStepSize_flt] at hnew
  simp only [if_neg hg.num_pos.ne', if_neg hgt] at hnew
  split at hnew
  · cases hnew
  injection hnew with hnew
  injection hnew with hnew
  subst hnew
  exact ⟨⟨hg, hl, hl0, ha.1, by rw [ha.2]; push_cast; rfl, hs, hs0⟩, rfl, rfl⟩

/-- the edges are exact -/
theorem Uniform.OnGrid.edge (h : a.OnGrid e z w) {k : ℕ} (hk : k ≤ a.num) : (a.fedge k).isFin ∧ (a.fedge k).val = (z + k * w) * pow2 e := by
  have hnQ : (0 : ℚ) < a.num := by exact_mod_cast h.fits.num_pos
  obtain ⟨r1, r2⟩ := h.range
  obtain ⟨n1, n2⟩ := Flt.ofNat_spec (F := F) h.fits.num_le
  obtain ⟨k1, k2⟩ := Flt.ofNat_spec (F := F) (hk.trans h.fits.num_le)
  have g := h.fits.nat (k := k * (a.num * w)) (le_trans (Nat.mul_le_mul_right _ hk) h.fits.prod_le)
  have e1 : (k : ℚ) * ((a.num * w : ℕ) * pow2 e) = (k * (a.num * w) : ℕ) * pow2 e := by push_cast; ring
  have hm := (Flt.mul_rounds k1 r1).fin_of (by rw [k2, r2, e1]; exact g.2)
  rw [k2, r2, e1, g.1] at hm
  have g2 := h.fits.nat (k := k * w) (le_trans (Nat.mul_le_mul_right _ hk) h.fits.range_le)
  have e2 : ((k * (a.num * w) : ℕ) : ℚ) * pow2 e / a.num = (k * w : ℕ) * pow2 e := by push_cast; field_simp
  have hd := (Flt.div_rounds hm.1 n1 (by rw [n2]; exact hnQ.ne')).fin_of (by rw [n2, hm.2, e2]; exact g2.2)
  rw [n2, hm.2, e2, g2.1] at hd
  have hz : |z + k * w| ≤ 2 ^ F.p := by
    have l := abs_le.1 h.fits.low_le
    have r := abs_le.1 h.fits.high_le
    have : (k : ℤ) * w ≤ a.num * w := by exact_mod_cast Nat.mul_le_mul_right _ hk
    have : (0 : ℤ) ≤ k * w := by positivity
    rw [abs_le]; constructor <;> linarith [l.1, r.2]
  have g3 := FFmt.exact_grid (F := F) h.fits.e_ge h.fits.e_le hz
  have e3 : a.low.val + (k * w : ℕ) * pow2 e = ((z + k * w : ℤ) : ℚ) * pow2 e := by rw [h.low_val]; push_cast; ring
  have ha := (Flt.add_rounds h.low_fin hd.1).fin_of (by rw [hd.2, e3]; exact g3.2)
  rw [hd.2, e3, g3.1] at ha
  refine ⟨ha.1, ?_⟩
  unfold Uniform.fedge
  rw [ha.2]; push_cast; rfl

/-- a coordinate on the grid, within the bounds -/
theorem Uniform.OnGrid.index_mid (h : a.OnGrid e z w) (hn : a.num + 2 < usizeSize) {c : Flt F} (hc : c.isFin) {y : ℤ} (hy : c.val = y * pow2 e)
    (h1 : a.low.val ≤ c.val) (h2 : c.val < a.high.val) :
    ∃ k : ℕ, k < a.num ∧ a.index c = .ok (some (k + 1)) ∧ z + k * w ≤ y ∧ y < z + (k + 1) * w := by
  have hpe := pow2_pos e
  have hwQ : (0 : ℚ) < w := by exact_mod_cast h.fits.w_pos
  rw [h.low_val, hy] at h1
  rw [h.high_val, hy] at h2
  have y1 : z ≤ y := by exact_mod_cast le_of_mul_le_mul_right h1 hpe
  have y2 : y < z + a.num * w := by exact_mod_cast lt_of_mul_lt_mul_right h2 hpe.le
  obtain ⟨n, rfl⟩ : ∃ n : ℕ, y = z + n := ⟨(y - z).toNat, by omega⟩
  have hn2 : n < a.num * w := by exact_mod_cast (by linarith : (n : ℤ) < a.num * w)
  have hk : n / w < a.num := (Nat.div_lt_iff_lt_mul h.fits.w_pos).2 hn2
  have l1 : POrd.lt c a.low = false := by rw [Flt.lt_fin hc h.low_fin, h.low_val, hy]; exact decide_eq_false (not_lt.2 h1)
  have l2 : POrd.ge c a.high = false := by rw [Flt.ge_fin hc h.high_fin, h.high_val, hy]; exact decide_eq_false (not_le.2 h2)
  have e1 : c.val - a.low.val = n * pow2 e := by rw [hy, h.low_val]; push_cast; ring
  have g := h.fits.nat (k := n) (hn2.le.trans h.fits.range_le)
  have hd := (Flt.sub_rounds hc h.low_fin).fin_of (by rw [e1]; exact g.2)
  rw [e1, g.1] at hd
  have e2 : (n : ℚ) * pow2 e / (w * pow2 e) = n / w := mul_div_mul_right _ _ hpe.ne'
  have hq0 : (0 : ℚ) ≤ (n : ℚ) / w := by positivity
  have hqn : (n : ℚ) / w ≤ a.num := by
    rw [div_le_iff₀ hwQ]; exact_mod_cast hn2.le
  have hq := (Flt.div_rounds hd.1 h.step_fin (by rw [h.step_val]; exact (mul_pos hwQ hpe).ne')).fin_of (by
    rw [hd.2, h.step_val, e2, abs_of_nonneg hq0]
    exact hqn.trans (F.rep_nat h.fits.num_le).le_maxFin)
  rw [hd.2, h.step_val, e2] at hq
  have hqn' : F.rs ((n : ℚ) / w) ≤ a.num := by
    have := F.rs_mono hqn
    rwa [F.rs_of_rep (x := (a.num : ℚ)) (by rw [abs_of_nonneg (by positivity)]; exact (F.rep_nat h.fits.num_le).repU)] at this
  have hus : ((a.num + 2 : Nat) : ℚ) < (usizeSize : ℚ) := by exact_mod_cast hn
  push_cast at hus
  have htu : Flt.toUsize (Flt.div (Flt.sub c a.low) a.step) = some (n / w) := by
    rw [Flt.toUsize_val hq.1 (by rw [hq.2]; exact F.rs_pos_le hq0) (by rw [hq.2]; linarith), hq.2,
      FFmt.floor_rs_ratio h.fits.w_pos (le_trans (Nat.mul_le_mul_right _ hk) h.fits.range_le)]
    rfl
  have hidx := Uniform.index_mid l1 l2 (by rw [htu, Option.getD_some]; omega)
  rw [htu, Option.getD_some] at hidx
  refine ⟨n / w, hk, hidx, ?_, ?_⟩
  · have := Nat.div_mul_le_self n w
    have : ((n / w : ℕ) : ℤ) * w ≤ n := by exact_mod_cast this
    linarith
  · have := Nat.lt_div_mul_add (a := n) h.fits.w_pos
    have : (n : ℤ) < ((n / w : ℕ) : ℤ) * w + w := by exact_mod_cast this
    linarith

/-- A coordinate that is a float but not NaN and, if it is within the bounds of the axis, a multiple of `2^e`. -/
def GridCoord (e : ℤ) (low high c : Flt F) : Prop :=
  c ≠ .nan ∧ (POrd.le low c = true → POrd.lt c high = true → NdHist.OnGrid e c.val)

theorem Uniform.OnGrid.faithful (h : a.OnGrid e z w) (hn : a.num + 2 < usizeSize) :
    FaithfulAxis a (a.num + 2) BinInterval.Covers (GridCoord e a.low a.high) := by
  have hpe := pow2_pos e
  have hwQ : (0 : ℚ) < w := by exact_mod_cast h.fits.w_pos
  have hnQ : (0 : ℚ) < a.num := by exact_mod_cast h.fits.num_pos
  have hlh : a.low.val < a.high.val := by
    rw [h.low_val, h.high_val]
    have : (0 : ℚ) < a.num * w * pow2 e := by positivity
    linarith [add_mul (z : ℚ) (a.num * w) (pow2 e)]
  have hbin := Uniform.bin_flt a (by omega)
  have low0 : (a.fedge 0).val = a.low.val := by rw [(h.edge (Nat.zero_le _)).2, h.low_val]; simp
  have highN : (a.fedge a.num).val = a.high.val := by rw [(h.edge le_rfl).2, h.high_val]
  -- an interval and the values it covers
  have cov : ∀ i b, i < a.num + 2 → a.bin i = .ok (some b) → ∀ c : Flt F, b.Covers c →
      (0 < i → POrd.le (a.fedge (i - 1)) c = true) ∧ (i < a.num + 1 → POrd.lt c (a.fedge i) = true) := by
    intro i b hi hb c hc
    rw [hbin] at hb
    have hkey : ∀ x y : Flt F, x.isFin → y.isFin → x.val = y.val → (POrd.lt c x = POrd.lt c y) ∧ POrd.le x c = POrd.le y c := by
      intro x y hx hy hxy
      constructor
      · rw [Bool.eq_iff_iff, LawfulPOrd.lt_iff, LawfulPOrd.lt_iff]
        show (∃ p q, c.key = some p ∧ x.key = some q ∧ p < q) ↔ (∃ p q, c.key = some p ∧ y.key = some q ∧ p < q)
        rw [Flt.key_fin hx, Flt.key_fin hy, hxy]
      · rw [Bool.eq_iff_iff, LawfulPOrd.le_iff, LawfulPOrd.le_iff]
        show (∃ p q, x.key = some p ∧ c.key = some q ∧ p ≤ q) ↔ (∃ p q, y.key = some p ∧ c.key = some q ∧ p ≤ q)
        rw [Flt.key_fin hx, Flt.key_fin hy, hxy]
    by_cases c0 : i = 0
    · subst c0
      rw [if_pos rfl] at hb
      cases hb
      refine ⟨fun h => absurd h (by omega), fun _ => ?_⟩
      rw [← (hkey a.low (a.fedge 0) h.low_fin (h.edge (Nat.zero_le _)).1 low0.symm).1]
      exact hc
    by_cases c1 : i = a.num + 1
    · subst c1
      rw [if_neg (by omega), if_pos rfl] at hb
      cases hb
      refine ⟨fun _ => ?_, fun h => absurd h (by omega)⟩
      rw [Nat.add_sub_cancel, ← (hkey a.high (a.fedge a.num) h.high_fin (h.edge le_rfl).1 highN.symm).2]
      exact hc
    · rw [if_neg c0, if_neg c1, if_neg (by omega)] at hb
      cases hb
      exact ⟨fun _ => hc.1, fun _ => hc.2⟩
  have uniq : ∀ i j b b' c, i < j → j < a.num + 2 → a.bin i = .ok (some b) → a.bin j = .ok (some b') → b.Covers c → b'.Covers c → False := by
    intro i j b b' c hij hj hb hb' hc hc'
    have h1 := (cov i b (by omega) hb c hc).2 (by omega)
    have h2 := (cov j b' hj hb' c hc').1 (by omega)
    obtain ⟨f1, g1⟩ := h.edge (k := i) (by omega)
    obtain ⟨f2, g2⟩ := h.edge (k := j - 1) (by omega)
    obtain ⟨x, y, hx, hy, hlt⟩ := LawfulPOrd.lt_iff.1 h1
    obtain ⟨x', y', hx', hy', hle⟩ := LawfulPOrd.le_iff.1 h2
    change c.key = some x at hx
    change (a.fedge i).key = some y at hy
    change (a.fedge (j - 1)).key = some x' at hx'
    change c.key = some y' at hy'
    rw [Flt.key_fin f1, g1] at hy
    rw [Flt.key_fin f2, g2] at hx'
    rw [hx] at hy'
    cases hy'; cases hy; cases hx'
    have hlt2 := lt_of_le_of_lt hle hlt
    have hlt3 : ((z : ℚ) + (j - 1 : ℕ) * w) * pow2 e < (z + i * w) * pow2 e := WithTop.coe_lt_coe.1 (WithBot.coe_lt_coe.1 hlt2)
    have hlt4 := lt_of_mul_lt_mul_right hlt3 hpe.le
    have h5 : ((i : ℕ) : ℚ) ≤ ((j - 1 : ℕ) : ℚ) := by exact_mod_cast (by omega : i ≤ j - 1)
    have := mul_le_mul_of_nonneg_right h5 hwQ.le
    linarith
  have hex : ∀ c : Flt F, GridCoord e a.low a.high c → ∃ i b, i < a.num + 2 ∧ a.index c = .ok (some i) ∧ a.bin i = .ok (some b) ∧ b.Covers c := by
    rintro c ⟨hc, hx⟩
    by_cases h1 : POrd.lt c a.low = true
    · exact ⟨0, .Underflow a.low, by omega, Uniform.index_low h1, by rw [hbin]; simp, h1⟩
    by_cases h2 : POrd.ge c a.high = true
    · refine ⟨a.num + 1, .Overflow a.high, by omega, Uniform.index_high (by omega) (by simpa using h1) h2, by rw [hbin]; simp, ?_⟩
      obtain ⟨x, y, hx, hy, h⟩ := LawfulPOrd.ge_iff.1 h2
      exact LawfulPOrd.le_iff.2 ⟨y, x, hy, hx, h⟩
    have h1' : POrd.lt c a.low = false := by simpa using h1
    have h2' : POrd.ge c a.high = false := by simpa using h2
    rcases Uniform.mid_cases h.low_fin (by rintro he; have := h.high_fin; rw [he] at this; exact this) h1' h2' with rfl | ⟨hcf, hc1⟩
    · exact absurd rfl hc
    have hc2 : c.val < a.high.val := by
      rw [Flt.ge_fin hcf h.high_fin] at h2'
      exact not_le.1 (of_decide_eq_false h2')
    obtain ⟨y, hy⟩ := hx (by rw [Flt.le_fin h.low_fin hcf]; exact decide_eq_true hc1) (by rw [Flt.lt_fin hcf h.high_fin]; exact decide_eq_true hc2)
    rw [← pow2_eq] at hy
    obtain ⟨k, hk, hidx, y1, y2⟩ := h.index_mid hn hcf hy hc1 hc2
    obtain ⟨f1, g1⟩ := h.edge hk.le
    obtain ⟨f2, g2⟩ := h.edge (k := k + 1) hk
    refine ⟨k + 1, .Bin (a.fedge k) (a.fedge (k + 1)), by omega, hidx, ?_, ?_, ?_⟩
    · rw [hbin, if_neg (by omega), if_neg (by omega), if_neg (by omega)]; rfl
    · rw [Flt.le_fin f1 hcf, g1, hy]
      refine decide_eq_true (mul_le_mul_of_nonneg_right ?_ hpe.le)
      exact_mod_cast y1
    · rw [Flt.lt_fin hcf f2, g2, hy]
      refine decide_eq_true (mul_lt_mul_of_pos_right ?_ hpe)
      exact_mod_cast y2
  have hlt : ∀ c i, a.index c = .ok (some i) → i < a.num + 2 := by
    intro c i hi
    by_cases h1 : POrd.lt c a.low = true
    · rw [Uniform.index_low h1] at hi; cases hi; omega
    by_cases h2 : POrd.ge c a.high = true
    · rw [Uniform.index_high (by omega) (by simpa using h1) h2] at hi; cases hi; omega
    have h1' : POrd.lt c a.low = false := by simpa using h1
    have h2' : POrd.ge c a.high = false := by simpa using h2
    have hle : (Flt.toUsize (Flt.div (Flt.sub c a.low) a.step)).getD a.num ≤ a.num := by
      rcases Uniform.mid_cases h.low_fin (by rintro he; have := h.high_fin; rw [he] at this; exact this) h1' h2' with rfl | ⟨hcf, hc1⟩
      · rw [Uniform.nan_mid]; exact le_rfl
      have hc2 : c.val < a.high.val := by
        rw [Flt.ge_fin hcf h.high_fin] at h2'
        exact not_le.1 (of_decide_eq_false h2')
      obtain ⟨r1, r2⟩ := h.range
      have g := h.fits.nat h.fits.range_le
      have hR : a.high.val - a.low.val = (a.num * w : ℕ) * pow2 e := by rw [h.low_val, h.high_val]; push_cast; ring
      have hD : c.val - a.low.val ≤ (a.num * w : ℕ) * pow2 e := by linarith
      have hD0 : 0 ≤ c.val - a.low.val := by linarith
      have hd := (Flt.sub_rounds hcf h.low_fin).fin_of (by
        rw [abs_of_nonneg hD0]; exact hD.trans ((le_abs_self _).trans g.2))
      have hdle : (Flt.sub c a.low).val ≤ (a.num * w : ℕ) * pow2 e := by
        have := F.rs_mono hD
        rwa [g.1, ← hd.2] at this
      have hd0 : 0 ≤ (Flt.sub c a.low).val := by rw [hd.2]; exact F.rs_pos_le hD0
      have hs0 : 0 < a.step.val := by rw [h.step_val]; positivity
      have hq0 : 0 ≤ (Flt.sub c a.low).val / a.step.val := div_nonneg hd0 hs0.le
      have hqn : (Flt.sub c a.low).val / a.step.val ≤ a.num := by
        rw [div_le_iff₀ hs0, h.step_val]; push_cast at hdle; linarith
      have hq := (Flt.div_rounds hd.1 h.step_fin hs0.ne').fin_of (by
        rw [abs_of_nonneg hq0]; exact hqn.trans (F.rep_nat h.fits.num_le).le_maxFin)
      have hqn' : F.rs ((Flt.sub c a.low).val / a.step.val) ≤ a.num := by
        have := F.rs_mono hqn
        rwa [F.rs_of_rep (x := (a.num : ℚ)) (by rw [abs_of_nonneg (by positivity)]; exact (F.rep_nat h.fits.num_le).repU)] at this
      have hus : ((a.num + 2 : Nat) : ℚ) < (usizeSize : ℚ) := by exact_mod_cast hn
      push_cast at hus
      rw [Flt.toUsize_val hq.1 (by rw [hq.2]; exact F.rs_pos_le hq0) (by rw [hq.2]; linarith), hq.2, Option.getD_some]
      have := Int.floor_le_floor hqn'
      rw [Int.floor_natCast] at this
      omega
    rw [Uniform.index_mid h1' h2' (by omega)] at hi
    cases hi; omega
  refine ⟨⟨?_, hn, hlt, ?_⟩, ?_, ?_⟩
  · show a.numBins = _
    unfold Uniform.numBins
    rw [uadd_ok hn]
  · intro i hi
    show ∃ b, a.bin i = .ok (some b)
    rw [hbin]
    split
    · exact ⟨_, rfl⟩
    · split
      · exact ⟨_, rfl⟩
      · rw [if_neg (by omega)]; exact ⟨_, rfl⟩
  · intro c hc
    obtain ⟨i, b, -, h, -⟩ := hex c hc
    exact ⟨_, h⟩
  · intro c hc i b hi hb
    obtain ⟨j, b', hj, h1, h2, h3⟩ := hex c hc
    constructor
    · intro h
      have h' : a.index c = .ok (some i) := h
      rw [h1] at h'
      have : j = i := by simpa using h'
      subst this
      have hb' : a.bin j = .ok (some b) := hb
      rw [h2] at hb'
      cases hb'; exact h3
    · intro h
      rcases lt_trichotomy i j with hij | rfl | hij
      · exact (uniq i j b b' c hij hj hb h2 h h3).elim
      · exact h1
      · exact (uniq j i b' b c hij hi h2 hb h3 h).elim

/-- the bins between the bounds -/
theorem Uniform.OnGrid.bins (h : a.OnGrid e z w) (hn : a.num + 2 < usizeSize) (k : ℕ) (hk : k < a.num) :
    ∃ s t : Flt F, a.bin (k + 1) = .ok (some (.Bin s t)) ∧ s.isFin ∧ t.isFin ∧ s.val = (z + k * w) * pow2 e ∧ t.val = (z + (k + 1) * w) * pow2 e := by
  obtain ⟨f1, g1⟩ := h.edge hk.le
  obtain ⟨f2, g2⟩ := h.edge (k := k + 1) hk
  refine ⟨a.fedge k, a.fedge (k + 1), ?_, f1, f2, g1, by rw [g2]; push_cast; rfl⟩
  rw [Uniform.bin_flt a (by omega), if_neg (by omega), if_neg (by omega), if_neg (by omega)]; rfl

/-! ## Wrapping around on a grid -/

/-- the wrap-around of a cyclic axis is exact on a grid -/
theorem wrapAround_grid {lo hi c : Flt F} {N : ℕ} {y : ℤ} (h1 : F.qmin ≤ e) (h2 : e + F.p ≤ F.emax) (hlo : lo.isFin) (hlo0 : lo.val = z * pow2 e)
    (hhi : hi.isFin) (hhi0 : hi.val = (z + N) * pow2 e) (hN : 0 < N) (hNp : N ≤ 2 ^ F.p) (hz : |z| ≤ 2 ^ F.p) (hzN : |z + N| ≤ 2 ^ F.p)
    (hc : c.isFin) (hc0 : c.val = y * pow2 e) (hy : |y - z| ≤ 2 ^ F.p) :
    ∃ x : Flt F, wrapAround lo hi c = .ok x ∧ x.isFin ∧ x.val = (z + (y - z) % (N : ℤ) : ℤ) * pow2 e := by
  have hpe := pow2_pos e
  have hNq : (0 : ℚ) < N := by exact_mod_cast hN
  have gR := FFmt.exact_grid (F := F) (z := (N : ℤ)) h1 h2 (by rw [Nat.abs_cast]; exact_mod_cast hNp)
  have gD := FFmt.exact_grid (F := F) h1 h2 hy
  have eR : hi.val - lo.val = ((N : ℤ) : ℚ) * pow2 e := by rw [hlo0, hhi0]; push_cast; ring
  have eD : c.val - lo.val = ((y - z : ℤ) : ℚ) * pow2 e := by rw [hlo0, hc0]; push_cast; ring
  have hr := (Flt.sub_rounds hhi hlo).fin_of (by rw [eR]; exact gR.2)
  have hd := (Flt.sub_rounds hc hlo).fin_of (by rw [eD]; exact gD.2)
  rw [eR, gR.1] at hr
  rw [eD, gD.1] at hd
  have hpos : 0 < (Flt.sub hi lo).val := by rw [hr.2]; push_cast; positivity
  obtain ⟨x, w1, w2⟩ := wrapAround_float hlo hr.1 hd.1 hpos
  refine ⟨x, w1, ?_⟩
  have hf : ⌊((y - z : ℤ) : ℚ) / ((N : ℤ) : ℚ)⌋ = (y - z) / (N : ℤ) := by rw [Int.cast_natCast]; exact Rat.floor_intCast_div_natCast _ _
  rw [hr.2, hd.2, mul_div_mul_right _ _ hpe.ne', hf] at w2
  have hm0 := Int.emod_nonneg (y - z) (b := (N : ℤ)) (by omega)
  have hm1 := Int.emod_lt_of_pos (y - z) (b := (N : ℤ)) (by omega)
  have em : ((y - z : ℤ) : ℚ) * pow2 e - ((y - z) / (N : ℤ) : ℤ) * (((N : ℤ) : ℚ) * pow2 e) = ((y - z) % (N : ℤ) : ℤ) * pow2 e := by
    have := Int.emod_def (y - z) (N : ℤ)
    rw [this]; push_cast; ring
  have hm2 : |(y - z) % (N : ℤ)| ≤ 2 ^ F.p := by
    rw [abs_of_nonneg hm0]
    have : (N : ℤ) ≤ 2 ^ F.p := by exact_mod_cast hNp
    omega
  have gm := FFmt.exact_grid (F := F) h1 h2 hm2
  have hx : |z + (y - z) % (N : ℤ)| ≤ 2 ^ F.p := by
    have l := abs_le.1 hz
    have r := abs_le.1 hzN
    rw [abs_le]; constructor <;> linarith [l.1, r.2]
  have gx := FFmt.exact_grid (F := F) h1 h2 hx
  have ex : ((y - z) % (N : ℤ) : ℤ) * pow2 e + lo.val = ((z + (y - z) % (N : ℤ) : ℤ) : ℚ) * pow2 e := by rw [hlo0]; push_cast; ring
  rw [em, gm.1, ex] at w2
  have := w2.fin_of gx.2
  rwa [gx.1] at this

/-- a bin within the bounds contains the representative iff it contains some whole turn of the coordinate -/
theorem covers_turns_iff {s t x c : Flt F} {lo hi : ℚ} (hlh : lo < hi) (hs : s.isFin) (ht : t.isFin) (hx : x.isFin) (h1 : lo ≤ s.val) (h2 : t.val ≤ hi)
    (hx1 : lo ≤ x.val) (hx2 : x.val < hi) (k : ℤ) (hk : x.val = c.val + k * (hi - lo)) :
    (BinInterval.Bin s t).Covers x ↔ (BinInterval.Bin s t).CoversTurnsF (hi - lo) c := by
  have hR : 0 < hi - lo := by linarith
  have e : (BinInterval.Bin s t).Covers x ↔ s.val ≤ x.val ∧ x.val < t.val := by
    show POrd.le s x = true ∧ POrd.lt x t = true ↔ _
    rw [Flt.le_fin hs hx, Flt.lt_fin hx ht, decide_eq_true_eq, decide_eq_true_eq]
  rw [e]
  constructor
  · rintro ⟨a, b⟩
    exact ⟨k, by rw [← hk]; exact a, by rw [← hk]; exact b⟩
  · rintro ⟨k', a, b⟩
    have : k = k' := by
      have d1 : ((k - k' : ℤ) : ℚ) * (hi - lo) < (1 : ℤ) * (hi - lo) := by push_cast; linarith
      have d2 : ((k' - k : ℤ) : ℚ) * (hi - lo) < (1 : ℤ) * (hi - lo) := by push_cast; linarith
      have d1 := lt_of_mul_lt_mul_right d1 hR.le
      have d2 := lt_of_mul_lt_mul_right d2 hR.le
      have d1 : k - k' < 1 := by exact_mod_cast d1
      have d2 : k' - k < 1 := by exact_mod_cast d2
      omega
    subst this
    rw [hk]; exact ⟨a, b⟩

/-- the coordinates of a cyclic axis: finite multiples of `2^e`, at most `2^p` units from the lower bound -/
def GridTurns (e : ℤ) (low c : Flt F) : Prop := c.isFin ∧ NdHist.OnGrid e c.val ∧ |c.val - low.val| ≤ (2 : ℚ) ^ (e + F.p)

omit cfg in
theorem GridTurns.int {lo c : Flt F} (h : GridTurns e lo c) (hlo0 : lo.val = z * pow2 e) : ∃ y : ℤ, c.val = y * pow2 e ∧ |y - z| ≤ 2 ^ F.p := by
  obtain ⟨-, ⟨y, hy⟩, hb⟩ := h
  rw [← pow2_eq] at hy
  refine ⟨y, hy, ?_⟩
  have e1 : c.val - lo.val = ((y - z : ℤ) : ℚ) * pow2 e := by rw [hlo0, hy]; push_cast; ring
  rw [e1, abs_mul, abs_of_pos (pow2_pos e), zpow_add₀ (by norm_num), ← pow2_eq, mul_comm (pow2 e), zpow_natCast] at hb
  have := le_of_mul_le_mul_right hb (pow2_pos e)
  exact_mod_cast this

theorem Uniform.OnGrid.cyclic (h : a.OnGrid e z w) (hn : a.num + 2 < usizeSize) :
    FaithfulAxis (UniformCyclic.mk (UniformNoFlow.mk a)) a.num (BinInterval.CoversTurnsF (a.high.val - a.low.val)) (GridTurns e a.low) := by
  have hpe := pow2_pos e
  have hwQ : (0 : ℚ) < w := by exact_mod_cast h.fits.w_pos
  have hnQ : (0 : ℚ) < a.num := by exact_mod_cast h.fits.num_pos
  have hlh : a.low.val < a.high.val := by
    rw [h.low_val, h.high_val]
    have : (0 : ℚ) < a.num * w * pow2 e := by positivity
    linarith [add_mul (z : ℚ) (a.num * w) (pow2 e)]
  have hF := h.faithful hn
  have hNF := C51_uniform_noflow hF
  -- the wrapped coordinate
  have hw : ∀ c : Flt F, GridTurns e a.low c → ∃ x : Flt F, x.isFin ∧ GridCoord e a.low a.high x ∧ a.low.val ≤ x.val ∧ x.val < a.high.val ∧
      (∃ k : ℤ, x.val = c.val + k * (a.high.val - a.low.val)) ∧ UniformCyclic.index ⟨⟨a⟩⟩ c = UniformNoFlow.index ⟨a⟩ x := by
    intro c hc
    obtain ⟨y, hy, hyp⟩ := hc.int h.low_val
    obtain ⟨x, w1, x1, x2⟩ := wrapAround_grid (N := a.num * w) h.fits.e_ge h.fits.e_le h.low_fin h.low_val h.high_fin
      (by rw [h.high_val]; push_cast; rfl) (Nat.mul_pos h.fits.num_pos h.fits.w_pos) h.fits.range_le h.fits.low_le
      (by exact_mod_cast h.fits.high_le) hc.1 hy hyp
    have hN : (0 : ℤ) < (a.num * w : ℕ) := by exact_mod_cast Nat.mul_pos h.fits.num_pos h.fits.w_pos
    have hm0 := Int.emod_nonneg (y - z) hN.ne'
    have hm1 := Int.emod_lt_of_pos (y - z) hN
    refine ⟨x, x1, ⟨by rintro rfl; exact x1, fun _ _ => ⟨_, by rw [← pow2_eq]; exact x2⟩⟩, ?_, ?_, ⟨-((y - z) / ((a.num * w : ℕ) : ℤ)), ?_⟩, ?_⟩
    · rw [x2, h.low_val]
      refine mul_le_mul_of_nonneg_right ?_ hpe.le
      exact_mod_cast (by omega : z ≤ z + (y - z) % ((a.num * w : ℕ) : ℤ))
    · rw [x2, h.high_val]
      refine mul_lt_mul_of_pos_right ?_ hpe
      have : z + (y - z) % ((a.num * w : ℕ) : ℤ) < z + (a.num * w : ℕ) := by omega
      exact_mod_cast this
    · rw [x2, hy, h.low_val, h.high_val, Int.emod_def]; push_cast; ring
    · unfold UniformCyclic.index
      change (wrapAround a.low a.high c >>= _) = _
      rw [w1]; rfl
  refine ⟨C25_lawful_uniform_cyclic hF.lawful, ?_, ?_⟩
  · intro c hc
    obtain ⟨x, -, x2, -, -, -, hx⟩ := hw c hc
    obtain ⟨o, ho⟩ := hNF.total x x2
    exact ⟨o, hx.trans ho⟩
  · intro c hc i b hi hb
    obtain ⟨x, x1, x2, x3, x4, ⟨k, hk⟩, hx⟩ := hw c hc
    have hb' : UniformNoFlow.bin ⟨a⟩ i = .ok (some b) := hb
    have key := hNF.index_iff x x2 i b hi hb'
    show UniformCyclic.index ⟨⟨a⟩⟩ c = _ ↔ _
    rw [hx]
    refine key.trans ?_
    obtain ⟨s, t, hst, hs, ht, sv, tv⟩ := h.bins hn i hi
    rw [(C07_noflow_bin a i (by omega) (by omega)).1 hi, hst] at hb'
    cases hb'
    refine covers_turns_iff hlh hs ht x1 ?_ ?_ x3 x4 k hk
    · rw [sv, h.low_val]
      refine mul_le_mul_of_nonneg_right ?_ hpe.le
      have : (0 : ℚ) ≤ i * w := by positivity
      linarith
    · rw [tv, h.high_val]
      refine mul_le_mul_of_nonneg_right ?_ hpe.le
      have : ((i : ℚ) + 1) * w ≤ a.num * w := mul_le_mul_of_nonneg_right (by exact_mod_cast hi) hwQ.le
      linarith

/-! ## The theorems -/

/-- **C76 (`Uniform::new`).** On a float axis `Uniform::new(num, low, high)` with `low = z * 2^e` and `high = (z + num * w) * 2^e` (numbers as in `GridFits`), the bins
have exactly the edges `low + k * w * 2^e`, and every coordinate that is a multiple of `2^e` or outside the bounds is counted in a bin exactly if the
interval of that bin contains it. -/
theorem C76_uniform_new {num : ℕ} {low high : Flt F} (hg : GridFits F e z w num) (hl : low.isFin) (hl0 : low.val = z * pow2 e) (hh : high.isFin)
    (hh0 : high.val = (z + num * w) * pow2 e) (hn : num + 2 < usizeSize) (hnew : Uniform.new num low high = .ok (.ok a)) :
    FaithfulAxis a (num + 2) BinInterval.Covers (GridCoord e low high) ∧
    ∀ k, k < num → ∃ s t : Flt F, a.bin (k + 1) = .ok (some (.Bin s t)) ∧ s.isFin ∧ t.isFin ∧
      s.val = (z + k * w) * pow2 e ∧ t.val = (z + (k + 1) * w) * pow2 e := by
  obtain ⟨h, rfl, rfl, rfl⟩ := Uniform.grid_new hg hl hl0 hh hh0 hnew
  exact ⟨h.faithful hn, h.bins hn⟩

/-- **C76 (`Uniform::with_step_size`).** The same for `Uniform::with_step_size(num, low, step)` with `low = z * 2^e` and `step = w * 2^e`. -/
theorem C76_uniform_step {num : ℕ} {low step : Flt F} (hg : GridFits F e z w num) (hl : low.isFin) (hl0 : low.val = z * pow2 e) (hs : step.isFin)
    (hs0 : step.val = w * pow2 e) (hn : num + 2 < usizeSize) (hnew : Uniform.withStepSize num low step = .ok (.ok a)) :
    a.low = low ∧ a.high.isFin ∧ a.high.val = (z + num * w) * pow2 e ∧
    FaithfulAxis a (num + 2) BinInterval.Covers (GridCoord e low a.high) ∧
    ∀ k, k < num → ∃ s t : Flt F, a.bin (k + 1) = .ok (some (.Bin s t)) ∧ s.isFin ∧ t.isFin ∧
      s.val = (z + k * w) * pow2 e ∧ t.val = (z + (k + 1) * w) * pow2 e := by
  obtain ⟨h, rfl, rfl⟩ := Uniform.grid_step hg hl hl0 hs hs0 hnew
  exact ⟨rfl, h.high_fin, h.high_val, h.faithful hn, h.bins hn⟩

theorem UniformNoFlow.new_inv {T : Type} [RNum T] {num : ℕ} {low high : T} {a : UniformNoFlow T} (hnew : UniformNoFlow.new num low high = .ok (.ok a)) :
    Uniform.new num low high = .ok (.ok a.axis) := by
  unfold UniformNoFlow.new at hnew
  cases h : Uniform.new num low high with
  | error p => rw [h] at hnew; cases hnew
  | ok r =>
    rw [h] at hnew
    cases r with
    | error => cases hnew
    | ok u => cases hnew; rfl

theorem UniformNoFlow.withStepSize_inv {T : Type} [RNum T] {num : ℕ} {low step : T} {a : UniformNoFlow T}
    (hnew : UniformNoFlow.withStepSize num low step = .ok (.ok a)) : Uniform.withStepSize num low step = .ok (.ok a.axis) := by
  unfold UniformNoFlow.withStepSize at hnew
  cases h : Uniform.withStepSize num low step with
  | error p => rw [h] at hnew; cases hnew
  | ok r =>
    rw [h] at hnew
    cases r with
    | error => cases hnew
    | ok u => cases hnew; rfl

theorem UniformCyclic.new_inv {T : Type} [RNum T] {num : ℕ} {low high : T} {a : UniformCyclic T} (hnew : UniformCyclic.new num low high = .ok (.ok a)) :
    Uniform.new num low high = .ok (.ok a.axis.axis) := by
  apply UniformNoFlow.new_inv
  unfold UniformCyclic.new at hnew
  cases h : UniformNoFlow.new num low high with
  | error p => rw [h] at hnew; cases hnew
  | ok r =>
    rw [h] at hnew
    cases r with
    | error => cases hnew
    | ok u => cases hnew; rfl

theorem UniformCyclic.withStepSize_inv {T : Type} [RNum T] {num : ℕ} {low step : T} {a : UniformCyclic T}
    (hnew : UniformCyclic.withStepSize num low step = .ok (.ok a)) : Uniform.withStepSize num low step = .ok (.ok a.axis.axis) := by
  apply UniformNoFlow.withStepSize_inv
  unfold UniformCyclic.withStepSize at hnew
  cases h : UniformNoFlow.withStepSize num low step with
  | error p => rw [h] at hnew; cases hnew
  | ok r =>
    rw [h] at hnew
    cases r with
    | error => cases hnew
    | ok u => cases hnew; rfl

/-- **C76 (`UniformNoFlow`).** The same for the axis without flow bins: coordinates outside the bounds are in no bin, multiples of `2^e` within them in the bin
whose interval contains them. -/
theorem C76_uniform_noflow {num : ℕ} {low : Flt F} {a : UniformNoFlow (Flt F)} (hg : GridFits F e z w num) (hl : low.isFin) (hl0 : low.val = z * pow2 e)
    (hn : num + 2 < usizeSize)
    (hnew : (∃ high : Flt F, high.isFin ∧ high.val = (z + num * w) * pow2 e ∧ UniformNoFlow.new num low high = .ok (.ok a)) ∨
      ∃ step : Flt F, step.isFin ∧ step.val = w * pow2 e ∧ UniformNoFlow.withStepSize num low step = .ok (.ok a)) :
    a.low = low ∧ a.high.val = (z + num * w) * pow2 e ∧ FaithfulAxis a num BinInterval.Covers (GridCoord e low a.high) := by
  obtain ⟨h, hnum, hlow⟩ : a.axis.OnGrid e z w ∧ a.axis.num = num ∧ a.axis.low = low := by
    rcases hnew with ⟨high, hh, hh0, hnew⟩ | ⟨step, hs, hs0, hnew⟩
    · obtain ⟨h, h1, h2, -⟩ := Uniform.grid_new hg hl hl0 hh hh0 (UniformNoFlow.new_inv hnew)
      exact ⟨h, h1, h2⟩
    · exact Uniform.grid_step hg hl hl0 hs hs0 (UniformNoFlow.withStepSize_inv hnew)
  subst hnum hlow
  exact ⟨rfl, h.high_val, C51_uniform_noflow (h.faithful hn)⟩

/-- **C76 (`UniformCyclic`).** On a cyclic float axis on a grid, each finite coordinate that is a multiple of `2^e` at most `2^p` units away from `low`, also a negative one, is
counted in exactly the bin that contains it after moving it by some whole number of turns. None is lost at the seam. -/
theorem C76_uniform_cyclic {num : ℕ} {low : Flt F} {a : UniformCyclic (Flt F)} (hg : GridFits F e z w num) (hl : low.isFin) (hl0 : low.val = z * pow2 e)
    (hn : num + 2 < usizeSize)
    (hnew : (∃ high : Flt F, high.isFin ∧ high.val = (z + num * w) * pow2 e ∧ UniformCyclic.new num low high = .ok (.ok a)) ∨
      ∃ step : Flt F, step.isFin ∧ step.val = w * pow2 e ∧ UniformCyclic.withStepSize num low step = .ok (.ok a)) :
    FaithfulAxis a num (BinInterval.CoversTurnsF (num * (w * pow2 e))) (GridTurns e low) ∧
    ∀ c, GridTurns e low c → ∃ i, i < num ∧ a.index c = .ok (some i) := by
  obtain ⟨h, hnum, hlow⟩ : a.axis.axis.OnGrid e z w ∧ a.axis.axis.num = num ∧ a.axis.axis.low = low := by
    rcases hnew with ⟨high, hh, hh0, hnew⟩ | ⟨step, hs, hs0, hnew⟩
    · obtain ⟨h, h1, h2, -⟩ := Uniform.grid_new hg hl hl0 hh hh0 (UniformCyclic.new_inv hnew)
      exact ⟨h, h1, h2⟩
    · exact Uniform.grid_step hg hl hl0 hs hs0 (UniformCyclic.withStepSize_inv hnew)
  subst hnum hlow
  have hR : a.axis.axis.high.val - a.axis.axis.low.val = a.axis.axis.num * (w * pow2 e) := by rw [h.low_val, h.high_val]; ring
  have hF := h.cyclic hn
  rw [hR] at hF
  refine ⟨hF, ?_⟩
  intro c hc
  obtain ⟨y, hy, hyp⟩ := hc.int h.low_val
  obtain ⟨x, w1, x1, x2⟩ := wrapAround_grid (N := a.axis.axis.num * w) h.fits.e_ge h.fits.e_le h.low_fin h.low_val h.high_fin
    (by rw [h.high_val]; push_cast; rfl) (Nat.mul_pos h.fits.num_pos h.fits.w_pos) h.fits.range_le h.fits.low_le
    (by exact_mod_cast h.fits.high_le) hc.1 hy hyp
  have hN : (0 : ℤ) < (a.axis.axis.num * w : ℕ) := by exact_mod_cast Nat.mul_pos h.fits.num_pos h.fits.w_pos
  have hm0 := Int.emod_nonneg (y - z) hN.ne'
  have hm1 := Int.emod_lt_of_pos (y - z) hN
  have hpe := pow2_pos e
  obtain ⟨k, hk, hidx, -⟩ := h.index_mid hn x1 x2 (by
      rw [x2, h.low_val]
      refine mul_le_mul_of_nonneg_right ?_ hpe.le
      exact_mod_cast (by omega : z ≤ z + (y - z) % ((a.axis.axis.num * w : ℕ) : ℤ))) (by
      rw [x2, h.high_val]
      refine mul_lt_mul_of_pos_right ?_ hpe
      have : z + (y - z) % ((a.axis.axis.num * w : ℕ) : ℤ) < z + (a.axis.axis.num * w : ℕ) := by omega
      exact_mod_cast this)
  refine ⟨k, hk, ?_⟩
  have hi : a.index c = a.axis.index x := by
    unfold UniformCyclic.index
    change (wrapAround a.axis.axis.low a.axis.axis.high c >>= _) = _
    rw [w1]; rfl
  rw [hi]
  exact ((C07_noflow_index a.axis.axis hn x (k + 1) hidx (by omega)).2.1 k).2 ⟨rfl, hk⟩

/-- **C76 (`VariableCyclic`).** On a cyclic float axis with distinct finite edges, the first and the last of which are multiples of `2^e` (the others need not be),
each finite coordinate that is a multiple of `2^e` at most `2^p` units away from the first edge is counted in exactly the bin that contains it after some
whole number of turns. -/
theorem C76_variable_cyclic [StdLib] {edges : List (Flt F)} {a : VariableCyclic (Flt F)} (hnew : VariableCyclic.new edges = .ok (.ok a))
    (hmem : edges.length + 1 < usizeSize) (hfin : ∀ x ∈ edges, x.isFin) (hd : edges.Pairwise (fun x y => x.val ≠ y.val))
    (he1 : F.qmin ≤ e) (he2 : e + F.p ≤ F.emax) (lo hi : Flt F) (hl : a.low = .ok lo) (hh : a.high = .ok hi) {N : ℕ}
    (hlo0 : lo.val = z * pow2 e) (hhi0 : hi.val = (z + N) * pow2 e) (hNp : N ≤ 2 ^ F.p) (hz : |z| ≤ 2 ^ F.p) (hzN : |z + N| ≤ 2 ^ F.p) :
    FaithfulAxis a (edges.length - 1) (BinInterval.CoversTurnsF (N * pow2 e)) (GridTurns e lo) ∧
    ∀ c, GridTurns e lo c → ∃ i, i < edges.length - 1 ∧ a.index c = .ok (some i) := by
  have hpe := pow2_pos e
  have hnf := VariableCyclic.new_ok hnew
  have hv := VariableNoFlow.new_ok hnf
  have hd' : edges.Pairwise (fun x y => POrd.eq x y = false) := by
    have h1 : edges.Pairwise (fun x y => x ∈ edges ∧ y ∈ edges) := List.pairwise_of_forall_mem_list fun x hx y hy => ⟨hx, hy⟩
    refine (hd.and h1).imp ?_
    rintro x y ⟨hxy, hx, hy⟩
    rw [Flt.eq_fin (hfin x hx) (hfin y hy)]
    exact decide_eq_false hxy
  obtain ⟨h2, _, p1, ok1⟩ := Variable.new_ok hv
  have hlen := p1.length_eq
  obtain ⟨b1, ⟨lo', l1, l2, _⟩, ⟨hi', g1, g2, _⟩, _, _⟩ := C13_variable_bins hv hmem
  have el : lo' = lo := by
    have : a.axis.axis.low = .ok lo := hl
    rw [l2] at this; injection this
  have eh : hi' = hi := by
    have : a.axis.axis.high = .ok hi := hh
    rw [g2] at this; injection this
  subst el eh
  have hfin' : ∀ x ∈ a.axis.axis.binEdges, x.isFin := fun x hx => hfin x (p1.mem_iff.1 hx)
  have hlo : lo'.isFin := hfin' _ (List.mem_of_getElem? l1)
  have hhi : hi'.isFin := hfin' _ (List.mem_of_getElem? g1)
  have hsort := ((C10_variable_new_sorts edges).2 _ hv).2
  have hle : ∀ (p q : Nat) (x y : Flt F), p ≤ q → a.axis.axis.binEdges[p]? = some x → a.axis.axis.binEdges[q]? = some y → x.val ≤ y.val := by
    intro p q x y hpq hx hy
    rcases Nat.eq_or_lt_of_le hpq with rfl | hlt
    · rw [hx] at hy; cases hy; exact le_rfl
    · have fx := hfin' _ (List.mem_of_getElem? hx)
      have fy := hfin' _ (List.mem_of_getElem? hy)
      obtain ⟨hp, rfl⟩ := List.getElem?_eq_some_iff.1 hx
      obtain ⟨hq, rfl⟩ := List.getElem?_eq_some_iff.1 hy
      have := List.pairwise_iff_getElem.1 hsort p q hp hq hlt
      rw [Flt.le_fin fx fy] at this
      simpa using this
  have hlt : lo'.val < hi'.val := by
    have := strict_of_distinct hv hd' (i := 0) (j := edges.length - 1) (by omega) (by omega)
    rw [List.getElem?_eq_getElem (by omega)] at l1 g1
    simp at l1 g1
    rw [l1, g1, Flt.lt_fin hlo hhi] at this
    exact of_decide_eq_true this
  have hR : hi'.val - lo'.val = N * pow2 e := by rw [hlo0, hhi0]; ring
  have hN : 0 < N := by
    rcases Nat.eq_zero_or_pos N with rfl | h
    · simp at hR; linarith
    · exact h
  -- the wrapped coordinate
  have hw : ∀ c : Flt F, GridTurns e lo' c → ∃ x : Flt F, x.isFin ∧ lo'.val ≤ x.val ∧ x.val < hi'.val ∧
      (∃ k : ℤ, x.val = c.val + k * (hi'.val - lo'.val)) ∧ a.index c = a.axis.index x := by
    intro c hc
    obtain ⟨y, hy, hyp⟩ := hc.int hlo0
    obtain ⟨x, w1, x1, x2⟩ := wrapAround_grid he1 he2 hlo hlo0 hhi hhi0 hN hNp hz hzN hc.1 hy hyp
    have hN' : (0 : ℤ) < N := by exact_mod_cast hN
    have hm0 := Int.emod_nonneg (y - z) hN'.ne'
    have hm1 := Int.emod_lt_of_pos (y - z) hN'
    refine ⟨x, x1, ?_, ?_, ⟨-((y - z) / (N : ℤ)), ?_⟩, ?_⟩
    · rw [x2, hlo0]
      refine mul_le_mul_of_nonneg_right ?_ hpe.le
      exact_mod_cast (by omega : z ≤ z + (y - z) % (N : ℤ))
    · rw [x2, hhi0]
      refine mul_lt_mul_of_pos_right ?_ hpe
      have : z + (y - z) % (N : ℤ) < z + N := by omega
      exact_mod_cast this
    · rw [x2, hy, hlo0, hhi0, Int.emod_def]; push_cast; ring
    · have hl' : a.axis.low = .ok lo' := hl
      have hh' : a.axis.high = .ok hi' := hh
      unfold VariableCyclic.index
      simp only [hl', hh', w1, Res.ok_bind]
  have hNF := C51_variable_noflow hnf hmem hd'
  obtain ⟨_, bb, _⟩ := C14_variable_noflow_bins hnf hmem
  refine ⟨⟨C25_lawful_variable_cyclic hnew hmem, ?_, ?_⟩, ?_⟩
  · intro c hc
    obtain ⟨x, -, -, -, -, hx⟩ := hw c hc
    obtain ⟨o, ho⟩ := hNF.total x trivial
    exact ⟨o, hx.trans ho⟩
  · intro c hc i b hi hb
    obtain ⟨x, x1, x3, x4, ⟨k, hk⟩, hx⟩ := hw c hc
    have hb' : a.axis.bin i = .ok (some b) := hb
    have key := hNF.index_iff x trivial i b hi hb'
    show a.index c = _ ↔ _
    rw [hx]
    refine key.trans ?_
    obtain ⟨s, t, hs, ht, hbin⟩ := bb i (by omega)
    rw [hbin] at hb'
    cases hb'
    rw [← hR]
    exact covers_turns_iff hlt (hfin' _ (List.mem_of_getElem? hs)) (hfin' _ (List.mem_of_getElem? ht)) x1 (hle 0 i _ _ (by omega) l1 hs)
      (hle (i + 1) (edges.length - 1) _ _ (by omega) ht g1) x3 x4 k hk
  · intro c hc
    obtain ⟨x, x1, x3, x4, -, hx⟩ := hw c hc
    obtain ⟨⟨o, ho⟩, cs, cn⟩ := C14_variable_noflow_covers hnf hmem hd' x
    cases o with
    | some k =>
      have := hNF.lawful.index_lt x k ho
      exact ⟨k, this, hx.trans ho⟩
    | none =>
      exfalso
      rcases cn.mp ho with h | ⟨e, he, hlt'⟩ | ⟨e, he, hge⟩
      · rw [Flt.eq_fin x1 x1] at h; simp at h
      · rw [l1] at he; cases he
        rw [Flt.lt_fin x1 hlo] at hlt'
        have := of_decide_eq_true hlt'
        linarith
      · rw [g1] at he; cases he
        rw [Flt.le_fin hhi x1] at hge
        have := of_decide_eq_true hge
        linarith

end
end NdHist
