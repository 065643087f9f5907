import Verif.Props.UniformFloat
/-!
# Float uniform axes: error analysis of `index` and `bin`
-/
namespace NdHist
open POrd RNum

namespace FFmt
variable (F : FFmt)

/-- an integer multiple of the smallest subnormal -/
def Mult (x : ℚ) : Prop := ∃ z : ℤ, x = z * pow2 F.qmin

variable {F}
theorem Mult.add {x y : ℚ} (hx : F.Mult x) (hy : F.Mult y) : F.Mult (x + y) := by
  obtain ⟨a, rfl⟩ := hx; obtain ⟨b, rfl⟩ := hy; exact ⟨a + b, by push_cast; ring⟩
theorem Mult.neg {x : ℚ} (hx : F.Mult x) : F.Mult (-x) := by
  obtain ⟨a, rfl⟩ := hx; exact ⟨-a, by push_cast; ring⟩
theorem Mult.sub {x y : ℚ} (hx : F.Mult x) (hy : F.Mult y) : F.Mult (x - y) := by
  rw [sub_eq_add_neg]; exact hx.add hy.neg
theorem Mult.nat_mul {x : ℚ} (hx : F.Mult x) (n : ℕ) : F.Mult (n * x) := by
  obtain ⟨a, rfl⟩ := hx; exact ⟨n * a, by push_cast; ring⟩
theorem Mult.of_abs {x : ℚ} (hx : F.Mult |x|) : F.Mult x := by
  rcases abs_choice x with h | h
  · rwa [h] at hx
  · rw [h] at hx; have := hx.neg; rwa [neg_neg] at this
theorem RepU.toMult {x : ℚ} (hx : F.RepU x) : F.Mult x := by
  obtain ⟨n, hn⟩ := hx.mult; exact ⟨n, by rw [hn]; push_cast; rfl⟩
theorem _root_.NdHist.Flt.val_mult (x : Flt F) : F.Mult x.val := Mult.of_abs x.val_rep.repU.toMult

variable (F)

/-- unit roundoff -/
def u : ℚ := pow2 (-(F.p : Int))

theorem u_pos : 0 < F.u := pow2_pos _

theorem u_le : F.u ≤ 1 / 4 := by
  have hp := F.p_ge
  have : pow2 (-(F.p : Int)) ≤ pow2 (-2) := pow2_le.mpr (by omega)
  have h2 : pow2 (-2) = 1 / 4 := by rw [pow2_eq]; norm_num
  unfold u; linarith

theorem u_a : F.u * (3 + 3 * F.u + F.u * F.u) ≤ 4 * F.u := by have := F.u_pos; have := F.u_le; nlinarith
theorem u_b : F.u * (3 - 3 * F.u + F.u * F.u) ≤ 4 * F.u := by have := F.u_pos; have := F.u_le; nlinarith
theorem u_b0 : 0 ≤ F.u * (3 - 3 * F.u + F.u * F.u) := by
  have := F.u_pos; have := F.u_le
  apply mul_nonneg (by assumption : (0:ℚ) < F.u).le; nlinarith
theorem u_c : F.u * (2 + F.u) ≤ 9 / 4 * F.u := by have := F.u_pos; have := F.u_le; nlinarith
theorem u_r {r : ℚ} (h : 0 ≤ r) : 4 * F.u * r ≤ r := by have := F.u_le; nlinarith
theorem frac_le {k n : ℕ} {r : ℚ} (hn : (0 : ℚ) < n) (hk : k ≤ n) (hr : 0 ≤ r) : (k : ℚ) * (r / n) ≤ r := by
  have : (k : ℚ) * (r / n) = k / n * r := by ring
  rw [this]
  have : (k : ℚ) / n ≤ 1 := by rw [div_le_one hn]; exact_mod_cast hk
  nlinarith

/-- the rounding error of multiples of the smallest subnormal is relative -/
theorem rs_rel_mult {x : ℚ} (hx : F.Mult x) : |F.rs x - x| ≤ |x| * F.u := by
  have main : ∀ y : ℚ, 0 ≤ y → F.Mult y → |F.rnd y - y| ≤ y * F.u := by
    intro y hy ⟨z, hz⟩
    rcases le_total (pow2 F.emin) y with h | h
    · exact F.rnd_rel' h
    · have hz0 : 0 ≤ z := by
        by_contra hc
        have h1 : (z : ℚ) < 0 := by exact_mod_cast not_le.mp hc
        have := mul_neg_of_neg_of_pos h1 (pow2_pos F.qmin)
        linarith
      have : y = (z.toNat : ℚ) * pow2 F.qmin := by
        have e : ((z.toNat : Int) : ℚ) = (z : ℚ) := by rw [Int.toNat_of_nonneg hz0]
        rw [hz, ← e]; push_cast; rfl
      rw [F.rnd_small this (h.trans (pow2_le.mpr (by omega))), sub_self, abs_zero]
      exact mul_nonneg hy F.u_pos.le
  rcases le_total 0 x with h | h
  · rw [F.rs_nonneg h, abs_of_nonneg h]; exact main x h hx
  · have h1 := main (-x) (by linarith) hx.neg
    have h2 : F.rs x = -F.rnd (-x) := by
      rw [← F.rs_nonneg (x := -x) (by linarith), F.rs_neg]; ring
    rw [h2, abs_of_nonpos h]
    have : -F.rnd (-x) - x = -(F.rnd (-x) - -x) := by ring
    rw [this, abs_neg]; exact h1

/-- the same, for values in the normal range -/
theorem rs_rel_normal {x : ℚ} (hx : pow2 F.emin ≤ x) : |F.rs x - x| ≤ x * F.u := by
  rw [F.rs_nonneg ((pow2_pos _).le.trans hx)]; exact F.rnd_rel' hx

end FFmt

variable [cfg : Cfg] {F : FFmt}

namespace Uniform

/-- the float edge number `k` -/
def fedge (a : Uniform (Flt F)) (k : Nat) : Flt F :=
  Flt.add a.low (Flt.div (Flt.mul (Flt.ofRat k) (Flt.sub a.high a.low)) (Flt.ofRat a.num))

theorem edge_flt (a : Uniform (Flt F)) (k : Nat) : a.edge k = .ok (some (a.fedge k)) := rfl

theorem bin_flt (a : Uniform (Flt F)) (hn : a.num + 1 < usizeSize) (i : Nat) : a.bin i =
    .ok (if i = 0 then some (.Underflow a.low) else if i = a.num + 1 then some (.Overflow a.high)
      else if a.num + 1 < i then none else some (.Bin (a.fedge (i - 1)) (a.fedge i))) := by
  unfold bin
  rw [uadd_ok hn]
  by_cases h0 : i = 0
  · simp [h0, BinInterval.underflow]
  · by_cases h1 : i = a.num + 1
    · simp [h1, BinInterval.overflow]
    · by_cases h2 : a.num + 1 < i
      · simp [h0, h1, h2]
      · simp only [h0, h1, h2, if_false, Res.ok_bind, edge_flt, gt_iff_lt]
        rfl

/-- what is assumed of an axis for the error analysis: finite ordered bounds, the range and its multiples do not
overflow, bins not narrower than the smallest normal number -/
structure Sane (a : Uniform (Flt F)) : Prop where
  num_pos : 0 < a.num
  num_lt : a.num < 2 ^ (F.p - 1)
  low_fin : a.low.isFin
  high_fin : a.high.isFin
  lt : a.low.val < a.high.val
  wide : a.num * pow2 F.emin ≤ a.high.val - a.low.val
  small : 4 * (a.num * (|a.low.val| + |a.high.val|)) ≤ F.maxFin
  step_eq : a.step = Flt.div (Flt.sub a.high a.low) (Flt.ofRat a.num)

variable {a : Uniform (Flt F)}

theorem Sane.num_le (h : a.Sane) : a.num ≤ 2 ^ F.p :=
  h.num_lt.le.trans (Nat.pow_le_pow_right (by norm_num) (by omega))

/-- exact width of the axis -/
def R (a : Uniform (Flt F)) : ℚ := a.high.val - a.low.val
/-- magnitude of the bounds -/
def M (a : Uniform (Flt F)) : ℚ := |a.low.val| + |a.high.val|

theorem Sane.R_pos (h : a.Sane) : 0 < a.R := by have := h.lt; unfold R; linarith

theorem R_le_M (a : Uniform (Flt F)) : a.R ≤ a.M := by
  unfold R M
  have h1 := neg_abs_le a.low.val
  have h2 := le_abs_self a.high.val
  linarith

theorem Sane.numQ (h : a.Sane) : (1 : ℚ) ≤ a.num := by exact_mod_cast h.num_pos

theorem Sane.M_le (h : a.Sane) : 4 * a.M ≤ F.maxFin := by
  have := h.small
  have h1 := h.numQ
  have h2 : 0 ≤ a.M := by unfold M; positivity
  unfold M at *
  nlinarith

/-- the computed range -/
theorem Sane.range (h : a.Sane) : (Flt.sub a.high a.low).isFin ∧ |(Flt.sub a.high a.low).val - a.R| ≤ a.R * F.u ∧
    a.num * pow2 F.emin ≤ (Flt.sub a.high a.low).val ∧ (Flt.sub a.high a.low).val = F.rs a.R := by
  have hR := h.R_pos
  have r := Flt.sub_rounds h.high_fin h.low_fin
  have hm := h.M_le
  have hRM := a.R_le_M
  have hmf := F.maxFin_pos
  have := r.fin_of (by
    show |a.R| ≤ _
    rw [abs_of_pos hR]; linarith)
  refine ⟨this.1, ?_, ?_, this.2⟩
  · rw [this.2]
    have := F.rs_rel_mult (x := a.high.val - a.low.val) (a.high.val_mult.sub a.low.val_mult)
    rwa [show a.high.val - a.low.val = a.R from rfl, abs_of_pos hR] at this
  · have hp2 := F.p_ge
    have hwrep : F.RepU ((a.num : ℚ) * pow2 F.emin) :=
      ⟨a.num, F.emin, rfl, lt_of_lt_of_le h.num_lt (Nat.pow_le_pow_right (by norm_num) (by omega)), by unfold FFmt.qmin; omega⟩
    have h2 := F.rs_mono h.wide
    rw [F.rs_of_rep (x := (a.num : ℚ) * pow2 F.emin) (by
      rw [abs_of_nonneg (mul_nonneg (by positivity) (pow2_pos _).le)]; exact hwrep)] at h2
    rw [this.2]; exact h2

theorem emin_le_max (F : FFmt) : pow2 F.emin ≤ 1 / 2 := by
  have h1 : pow2 F.emin ≤ pow2 (-1) := pow2_le.mpr (by have := F.emin_le; omega)
  have : pow2 (-1) = 1 / 2 := by rw [pow2_eq]; norm_num
  linarith

/-- the computed step -/
theorem Sane.step (h : a.Sane) : a.step.isFin ∧ 0 < a.step.val ∧
    a.R / a.num * (1 - 2 * F.u) ≤ a.step.val ∧ a.step.val ≤ a.R / a.num * (1 + 2 * F.u + F.u * F.u) := by
  obtain ⟨r1, r2, r3, -⟩ := h.range
  have hn : (0 : ℚ) < a.num := by have := h.numQ; linarith
  obtain ⟨n1, n2⟩ := Flt.ofNat_spec (F := F) h.num_le
  have hq : pow2 F.emin ≤ (Flt.sub a.high a.low).val / a.num := by rw [le_div_iff₀ hn]; linarith
  have hq0 := (pow2_pos F.emin).trans_le hq
  have hqm : (Flt.sub a.high a.low).val / a.num ≤ F.maxFin := by
    have := (abs_le.1 (Flt.sub a.high a.low).abs_val_le).2
    rw [div_le_iff₀ hn]
    nlinarith [F.maxFin_pos, h.numQ]
  have hs := (Flt.div_rounds r1 n1 (by rw [n2]; exact hn.ne')).fin_of (by rw [n2, abs_of_pos hq0]; exact hqm)
  rw [n2, ← h.step_eq] at hs
  have hrel := F.rs_rel_normal hq
  rw [← hs.2] at hrel
  have hu := F.u_pos
  have hu4 := F.u_le
  have hRn : 0 < a.R / a.num := div_pos h.R_pos hn
  obtain ⟨e1, e2⟩ := abs_le.1 r2
  obtain ⟨f1, f2⟩ := abs_le.1 hrel
  have g1 : (Flt.sub a.high a.low).val / a.num ≤ a.R / a.num * (1 + F.u) := by
    rw [div_le_iff₀ hn]
    have : a.R / a.num * (1 + F.u) * a.num = a.R * (1 + F.u) := by field_simp
    rw [this]; linarith
  have g2 : a.R / a.num * (1 - F.u) ≤ (Flt.sub a.high a.low).val / a.num := by
    rw [le_div_iff₀ hn]
    have : a.R / a.num * (1 - F.u) * a.num = a.R * (1 - F.u) := by field_simp
    rw [this]; linarith
  have lower : a.R / a.num * (1 - 2 * F.u) ≤ a.step.val := by nlinarith
  refine ⟨hs.1, ?_, lower, by nlinarith⟩
  have : 0 < a.R / a.num * (1 - 2 * F.u) := mul_pos hRn (by linarith)
  linarith

set_option maxHeartbeats 1000000 in
/-- the computed edges are close to the exact ones -/
theorem Sane.edge (h : a.Sane) {k : Nat} (hk : k ≤ a.num) : (a.fedge k).isFin ∧
    |(a.fedge k).val - (a.low.val + k * (a.R / a.num))| ≤ 6 * F.u * a.M := by
  obtain ⟨r1, r2, r3, -⟩ := h.range
  have hn1 := h.numQ
  have hn : (0 : ℚ) < a.num := by linarith
  have hu := F.u_pos
  have hu4 := F.u_le
  have hM := h.M_le
  have hRM := a.R_le_M
  have hR := h.R_pos
  have hsm := h.small
  have hkq : (k : ℚ) ≤ a.num := by exact_mod_cast hk
  have hk0 : (0 : ℚ) ≤ k := by positivity
  obtain ⟨n1, n2⟩ := Flt.ofNat_spec (F := F) h.num_le
  obtain ⟨k1, k2⟩ := Flt.ofNat_spec (F := F) (hk.trans h.num_le)
  obtain ⟨e1, e2⟩ := abs_le.1 r2
  set R' := (Flt.sub a.high a.low).val with hR'
  have hR'0 : 0 ≤ R' := (mul_nonneg hn.le (pow2_pos F.emin).le).trans r3
  -- product
  have hkR : (k : ℚ) * R' ≤ a.num * (2 * a.M) := by
    apply mul_le_mul hkq _ hR'0 hn.le
    nlinarith
  have hS := (Flt.mul_rounds k1 r1).fin_of (by
    rw [k2, abs_of_nonneg (mul_nonneg hk0 hR'0)]
    unfold M at hkR
    nlinarith [F.maxFin_pos])
  rw [k2] at hS
  have hSrel := F.rs_rel_mult ((Flt.val_mult (Flt.sub a.high a.low)).nat_mul k)
  rw [abs_of_nonneg (mul_nonneg hk0 hR'0), ← hS.2] at hSrel
  set S := (Flt.mul (Flt.ofRat (k : ℚ)) (Flt.sub a.high a.low)).val with hSd
  obtain ⟨s1, s2⟩ := abs_le.1 hSrel
  have hS0 : 0 ≤ S := by rw [hS.2]; exact F.rs_pos_le (mul_nonneg hk0 hR'0)
  -- quotient
  have hQm : S / a.num ≤ F.maxFin := by
    have := (abs_le.1 (Flt.mul (Flt.ofRat (k : ℚ)) (Flt.sub a.high a.low)).abs_val_le).2
    rw [div_le_iff₀ hn]
    nlinarith [F.maxFin_pos]
  have hQ := (Flt.div_rounds hS.1 n1 (by rw [n2]; exact hn.ne')).fin_of (by
    rw [n2, abs_of_nonneg (div_nonneg hS0 hn.le)]; exact hQm)
  rw [n2] at hQ
  set Q := (Flt.div (Flt.mul (Flt.ofRat (k : ℚ)) (Flt.sub a.high a.low)) (Flt.ofRat (a.num : ℚ))).val with hQd
  have hQrel : |Q - S / a.num| ≤ S / a.num * F.u := by
    rcases Nat.eq_zero_or_pos k with h0 | h0
    · have h00 : (k : ℚ) = 0 := by rw [h0]; simp
      have : S = 0 := by rw [hS.2, h00, zero_mul, F.rs_zero]
      rw [hQ.2, ← hSd, this, zero_div, F.rs_zero]; simp
    · rw [hQ.2]
      apply F.rs_rel_normal
      rw [le_div_iff₀ hn]
      -- `S ≥ R' ≥ num * 2^emin`
      have hk1 : (1 : ℚ) ≤ k := by exact_mod_cast h0
      have : F.rs R' ≤ S := by
        rw [hS.2]; apply F.rs_mono; nlinarith
      rw [Flt.rs_val] at this
      linarith
  obtain ⟨q1, q2⟩ := abs_le.1 hQrel
  -- `Q` is close to `k R / num`
  set X := (k : ℚ) * (a.R / a.num) with hX
  have hX0 : 0 ≤ X := mul_nonneg hk0 (div_nonneg hR.le hn.le)
  have hXR : X ≤ a.R := FFmt.frac_le hn hk hR.le
  have hkX : (k : ℚ) * a.R = X * a.num := by rw [hX]; field_simp
  have b1 : S / a.num ≤ X * ((1 + F.u) * (1 + F.u)) := by
    rw [div_le_iff₀ hn]
    have : X * ((1 + F.u) * (1 + F.u)) * a.num = (k * a.R) * ((1 + F.u) * (1 + F.u)) := by rw [hkX]; ring
    rw [this]
    have c1 : (k : ℚ) * R' ≤ k * (a.R * (1 + F.u)) := mul_le_mul_of_nonneg_left (by linarith) hk0
    have c2 : S ≤ k * R' * (1 + F.u) := by linarith
    have c3 : (k : ℚ) * R' * (1 + F.u) ≤ k * (a.R * (1 + F.u)) * (1 + F.u) := mul_le_mul_of_nonneg_right c1 (by linarith)
    linarith
  have b2 : X * ((1 - F.u) * (1 - F.u)) ≤ S / a.num := by
    rw [le_div_iff₀ hn]
    have : X * ((1 - F.u) * (1 - F.u)) * a.num = (k * a.R) * ((1 - F.u) * (1 - F.u)) := by rw [hkX]; ring
    rw [this]
    have c1 : (k : ℚ) * (a.R * (1 - F.u)) ≤ k * R' := mul_le_mul_of_nonneg_left (by linarith) hk0
    have c2 : k * R' * (1 - F.u) ≤ S := by linarith
    have c3 : (k : ℚ) * (a.R * (1 - F.u)) * (1 - F.u) ≤ k * R' * (1 - F.u) := mul_le_mul_of_nonneg_right c1 (by linarith)
    linarith
  have d1 : Q ≤ X + 4 * F.u * a.R := by
    have c : Q ≤ X * ((1 + F.u) * (1 + F.u)) * (1 + F.u) := by
      have : S / a.num * (1 + F.u) ≤ X * ((1 + F.u) * (1 + F.u)) * (1 + F.u) := mul_le_mul_of_nonneg_right b1 (by linarith)
      linarith
    have e : X * ((1 + F.u) * (1 + F.u)) * (1 + F.u) = X + X * (F.u * (3 + 3 * F.u + F.u * F.u)) := by ring
    have f : F.u * (3 + 3 * F.u + F.u * F.u) ≤ 4 * F.u := F.u_a
    have g : X * (F.u * (3 + 3 * F.u + F.u * F.u)) ≤ a.R * (4 * F.u) := by
      apply mul_le_mul hXR f (by positivity) hR.le
    linarith
  have d2 : X - 4 * F.u * a.R ≤ Q := by
    have c : X * ((1 - F.u) * (1 - F.u)) * (1 - F.u) ≤ Q := by
      have : X * ((1 - F.u) * (1 - F.u)) * (1 - F.u) ≤ S / a.num * (1 - F.u) := mul_le_mul_of_nonneg_right b2 (by linarith)
      linarith
    have e : X * ((1 - F.u) * (1 - F.u)) * (1 - F.u) = X - X * (F.u * (3 - 3 * F.u + F.u * F.u)) := by ring
    have f : F.u * (3 - 3 * F.u + F.u * F.u) ≤ 4 * F.u := F.u_b
    have g : X * (F.u * (3 - 3 * F.u + F.u * F.u)) ≤ a.R * (4 * F.u) := by
      exact mul_le_mul hXR f F.u_b0 hR.le
    linarith
  -- sum
  have hlow : a.low.val + a.R = a.high.val := by unfold R; ring
  have m1 := neg_abs_le a.low.val
  have m2 := le_abs_self a.high.val
  have m3 := le_abs_self a.low.val
  have m4 := neg_abs_le a.high.val
  have m5 := abs_nonneg a.low.val
  have m6 := abs_nonneg a.high.val
  have hMd : a.M = |a.low.val| + |a.high.val| := rfl
  have huR : 4 * F.u * a.R ≤ a.R := F.u_r hR.le
  have habs : |a.low.val + Q| ≤ 2 * a.M := by
    rw [abs_le]; constructor <;> linarith
  have hE := (Flt.add_rounds h.low_fin hQ.1).fin_of (by
    show |a.low.val + Q| ≤ _
    linarith [F.maxFin_pos])
  have hErel := F.rs_rel_mult (x := a.low.val + Q) (a.low.val_mult.add (Flt.val_mult _))
  rw [← hE.2] at hErel
  refine ⟨hE.1, ?_⟩
  have huM : F.u * a.R ≤ F.u * a.M := mul_le_mul_of_nonneg_left hRM hu.le
  have : |a.low.val + Q| * F.u ≤ 2 * a.M * F.u := mul_le_mul_of_nonneg_right habs hu.le
  obtain ⟨z1, z2⟩ := abs_le.1 (hErel.trans this)
  show |(Flt.add a.low _).val - _| ≤ _
  rw [abs_le]
  constructor <;> linarith

set_option maxHeartbeats 1000000 in
/-- the computed bin number is close to the exact position -/
theorem Sane.pos (h : a.Sane) (hn2 : a.num + 2 < usizeSize) {c : Flt F} (hc : c.isFin) (h1 : a.low.val ≤ c.val) (h2 : c.val < a.high.val) {i : Nat}
    (hi : a.index c = .ok (some i)) : 1 ≤ i ∧
    a.low.val + (i - 1 : ℕ) * (a.R / a.num) - 5 * F.u * a.M ≤ c.val ∧
    (i ≤ a.num → c.val ≤ a.low.val + i * (a.R / a.num) + 4 * F.u * a.M) := by
  obtain ⟨p1, p2, p3, p4⟩ := h.step
  have hn1 := h.numQ
  have hn : (0 : ℚ) < a.num := by linarith
  have hu := F.u_pos
  have hu4 := F.u_le
  have hM := h.M_le
  have hRM := a.R_le_M
  have hR := h.R_pos
  obtain ⟨r1, -, -, r4⟩ := h.range
  have hlow : a.low.val + a.R = a.high.val := by unfold R; ring
  set t := c.val - a.low.val with ht
  have ht0 : 0 ≤ t := by linarith
  have htR : t ≤ a.R := by linarith
  -- offset
  have hd := (Flt.sub_rounds hc h.low_fin).fin_of (by
    rw [← ht, abs_of_nonneg ht0]; linarith [F.maxFin_pos])
  have hdrel := F.rs_rel_mult (c.val_mult.sub a.low.val_mult)
  rw [← hd.2, ← ht, abs_of_nonneg ht0] at hdrel
  rw [← ht] at hd
  set d := (Flt.sub c a.low).val with hdd
  obtain ⟨d1, d2⟩ := abs_le.1 hdrel
  have hd0 : 0 ≤ d := by rw [hd.2]; exact F.rs_pos_le ht0
  -- the quotient is in range
  have hdb : d ≤ a.step.val * (a.num + 1 / 2) := by
    -- from the range and step bounds used for C05
    have hstepR : (Flt.sub a.high a.low).val ≤ a.step.val * a.num * (1 + F.u) := by
      obtain ⟨n1, n2⟩ := Flt.ofNat_spec (F := F) h.num_le
      have hq : pow2 F.emin ≤ (Flt.sub a.high a.low).val / a.num := by
        rw [le_div_iff₀ hn]; have := h.range.2.2.1; linarith
      have hq0 := (pow2_pos F.emin).trans_le hq
      have hqm : (Flt.sub a.high a.low).val / a.num ≤ F.maxFin := by
        have := (abs_le.1 (Flt.sub a.high a.low).abs_val_le).2
        rw [div_le_iff₀ hn]
        nlinarith [F.maxFin_pos]
      have hs := (Flt.div_rounds r1 n1 (by rw [n2]; exact hn.ne')).fin_of (by rw [n2, abs_of_pos hq0]; exact hqm)
      rw [n2, ← h.step_eq, F.rs_nonneg hq0.le] at hs
      have hsmin : pow2 F.emin ≤ F.rnd ((Flt.sub a.high a.low).val / a.num) := by
        have := F.rnd_mono (pow2_pos F.emin).le hq
        have hp2 := F.p_ge
        rwa [F.rnd_repU (x := pow2 F.emin) ⟨1, F.emin, by simp, Nat.one_lt_two_pow (by omega), by unfold FFmt.qmin; omega⟩] at this
      have := (abs_le.1 (F.rnd_rel hq0.le hsmin)).1
      rw [← hs.2] at this
      have h3 : (Flt.sub a.high a.low).val / a.num ≤ a.step.val * (1 + F.u) := by unfold FFmt.u; linarith
      rw [div_le_iff₀ hn] at h3
      linarith
    have hdr : d ≤ (Flt.sub a.high a.low).val := by rw [hd.2, r4]; exact F.rs_mono htR
    have e : (a.num : ℚ) * F.u ≤ 1 / 2 := by
      have hp2 := F.p_ge
      have h3 : (a.num : ℚ) ≤ pow2 ((F.p : Int) - 1) := by
        have : ((F.p : Int) - 1) = ((F.p - 1 : Nat) : Int) := by omega
        rw [this, pow2_nat]; exact_mod_cast h.num_lt.le
      have h4 : pow2 ((F.p : Int) - 1) * F.u = 1 / 2 := by
        unfold FFmt.u
        rw [← pow2_add, pow2_eq]
        have : ((F.p : Int) - 1 + -(F.p : Int)) = -1 := by ring
        rw [this]; norm_num
      calc (a.num : ℚ) * F.u ≤ pow2 ((F.p : Int) - 1) * F.u := mul_le_mul_of_nonneg_right h3 hu.le
        _ = 1 / 2 := h4
    have : a.step.val * a.num * (1 + F.u) = a.step.val * (a.num + a.num * F.u) := by ring
    rw [this] at hstepR
    have := mul_le_mul_of_nonneg_left (add_le_add_right e (a.num : ℚ)) p2.le
    linarith
  have hrep := F.rep_half h.num_lt
  have hqle : d / a.step.val ≤ a.num + 1 / 2 := by rw [div_le_iff₀ p2]; linarith
  have hq0 : 0 ≤ d / a.step.val := div_nonneg hd0 p2.le
  have hq := (Flt.div_rounds hd.1 p1 p2.ne').fin_of (by
    rw [abs_of_nonneg hq0]; exact hqle.trans hrep.le_maxFin)
  have hqu : F.rs (d / a.step.val) ≤ a.num + 1 / 2 := by
    have := F.rs_mono hqle
    rwa [F.rs_of_rep (x := (a.num : ℚ) + 1 / 2) (by rw [abs_of_nonneg (by positivity)]; exact hrep.repU)] at this
  have hus : ((a.num + 2 : Nat) : ℚ) < (usizeSize : ℚ) := by exact_mod_cast hn2
  push_cast at hus
  have htu : Flt.toUsize (Flt.div (Flt.sub c a.low) a.step) = some ⌊F.rs (d / a.step.val)⌋.toNat := by
    have := Flt.toUsize_val hq.1 (by rw [hq.2]; exact F.rs_pos_le hq0) (by rw [hq.2]; linarith)
    rw [this, hq.2]
  have hfl : ⌊F.rs (d / a.step.val)⌋ < (a.num : ℤ) + 1 := by
    apply Int.floor_lt.2; push_cast; linarith
  have hidx := index_mid (a := a) (c := c) (by rw [Flt.lt_fin hc h.low_fin]; exact decide_eq_false (not_lt.2 h1))
    (by rw [Flt.ge_fin hc h.high_fin]; exact decide_eq_false (not_le.2 h2)) (by rw [htu, Option.getD_some]; omega)
  rw [hi, htu, Option.getD_some] at hidx
  have hii : i = ⌊F.rs (d / a.step.val)⌋.toNat + 1 := by
    injection hidx with hh; injection hh
  have hfl0 : 0 ≤ ⌊F.rs (d / a.step.val)⌋ := Int.floor_nonneg.2 (F.rs_pos_le hq0)
  set k := ⌊F.rs (d / a.step.val)⌋.toNat with hk
  have hkz : ((k : ℕ) : ℤ) = ⌊F.rs (d / a.step.val)⌋ := by omega
  have hk1 : (k : ℚ) ≤ F.rs (d / a.step.val) := by
    have := Int.floor_le (F.rs (d / a.step.val))
    rw [← hkz] at this; exact_mod_cast this
  have hk2 : F.rs (d / a.step.val) < k + 1 := by
    have := Int.lt_floor_add_one (F.rs (d / a.step.val))
    rw [← hkz] at this; exact_mod_cast this
  have hkn : k ≤ a.num := by omega
  have hknq : (k : ℚ) ≤ a.num := by exact_mod_cast hkn
  have hw0 : 0 ≤ a.R / a.num := div_nonneg hR.le hn.le
  have huM : F.u * a.R ≤ F.u * a.M := mul_le_mul_of_nonneg_left hRM hu.le
  have hfrac : ∀ j : ℕ, j ≤ a.num → (j : ℚ) * (a.R / a.num) ≤ a.R := by
    intro j hj
    exact FFmt.frac_le hn hj hR.le
  refine ⟨by omega, ?_, ?_⟩
  · have hi1 : i - 1 = k := by omega
    rw [hi1]
    have hX := hfrac k hkn
    rcases Nat.eq_zero_or_pos k with h0 | h0
    · rw [h0]; simp only [Nat.cast_zero, zero_mul, add_zero]
      have : 0 ≤ F.u * a.M := by linarith [mul_nonneg hu.le hR.le]
      linarith
    · have hk1' : (1 : ℚ) ≤ k := by exact_mod_cast h0
      have hnorm : pow2 F.emin ≤ d / a.step.val := by
        by_contra hcon
        have h3 := F.rs_mono (not_le.1 hcon).le
        have hp2 := F.p_ge
        rw [F.rs_nonneg (x := pow2 F.emin) (pow2_pos _).le, F.rnd_repU (x := pow2 F.emin)
          ⟨1, F.emin, by simp, Nat.one_lt_two_pow (by omega), by unfold FFmt.qmin; omega⟩] at h3
        have := emin_le_max F
        linarith
      have hrel := (abs_le.1 (F.rs_rel_normal hnorm)).2
      -- k ≤ (d/step)(1+u)
      have g1 : (k : ℚ) * a.step.val ≤ d * (1 + F.u) := by
        have : (k : ℚ) ≤ d / a.step.val * (1 + F.u) := by linarith
        have h3 := mul_le_mul_of_nonneg_right this p2.le
        have e : d / a.step.val * (1 + F.u) * a.step.val = d * (1 + F.u) := by field_simp
        rwa [e] at h3
      have g2 : (k : ℚ) * (a.R / a.num) * (1 - 2 * F.u) ≤ k * a.step.val := by
        have := mul_le_mul_of_nonneg_left p3 (show (0 : ℚ) ≤ k by positivity)
        linarith
      have g3 : d * (1 + F.u) ≤ t * (1 + F.u) * (1 + F.u) := mul_le_mul_of_nonneg_right (by linarith) (by linarith)
      have g4 : t * (1 + F.u) * (1 + F.u) ≤ t + 9 / 4 * F.u * a.R := by
        have e : t * (1 + F.u) * (1 + F.u) = t + t * (F.u * (2 + F.u)) := by ring
        have f : F.u * (2 + F.u) ≤ 9 / 4 * F.u := F.u_c
        have g : t * (F.u * (2 + F.u)) ≤ a.R * (9 / 4 * F.u) := mul_le_mul htR f (by positivity) hR.le
        linarith
      have g5 : (k : ℚ) * (a.R / a.num) * (2 * F.u) ≤ a.R * (2 * F.u) := mul_le_mul_of_nonneg_right hX (by linarith)
      have : 0 ≤ F.u * a.R := mul_nonneg hu.le hR.le
      linarith
  · intro hin
    have hX := hfrac i hin
    have hik : (i : ℚ) = k + 1 := by rw [hii]; push_cast; ring
    have g1 : d < i * a.step.val := by
      by_contra hcon
      have h3 : (i : ℚ) ≤ d / a.step.val := by rw [le_div_iff₀ p2]; linarith
      have h4 := F.rs_mono h3
      have hrepi := F.rep_nat (n := i) (hin.trans h.num_le)
      rw [F.rs_of_rep (x := (i : ℚ)) (by rw [abs_of_nonneg (by positivity)]; exact hrepi.repU)] at h4
      linarith
    have g2 : (i : ℚ) * a.step.val ≤ i * (a.R / a.num) * (1 + 2 * F.u + F.u * F.u) := by
      have := mul_le_mul_of_nonneg_left p4 (show (0 : ℚ) ≤ i by positivity)
      linarith
    have g3 : t * (1 - F.u) ≤ d := by linarith
    have g4 : (i : ℚ) * (a.R / a.num) * (1 + 2 * F.u + F.u * F.u) ≤ i * (a.R / a.num) + 9 / 4 * F.u * a.R := by
      have e : (i : ℚ) * (a.R / a.num) * (1 + 2 * F.u + F.u * F.u) = i * (a.R / a.num) + i * (a.R / a.num) * (F.u * (2 + F.u)) := by ring
      have f : F.u * (2 + F.u) ≤ 9 / 4 * F.u := F.u_c
      have g : (i : ℚ) * (a.R / a.num) * (F.u * (2 + F.u)) ≤ a.R * (9 / 4 * F.u) := mul_le_mul hX f (by positivity) hR.le
      linarith
    have g5 : t * F.u ≤ a.R * F.u := mul_le_mul_of_nonneg_right htR hu.le
    have : 0 ≤ F.u * a.R := mul_nonneg hu.le hR.le
    linarith

end Uniform
end NdHist
