import Verif.Lemmas.Ord
import Mathlib.Algebra.Order.Ring.Abs
/-!
# Floating-point arithmetic: what correct rounding guarantees
-/
namespace NdHist

namespace FFmt
variable (F : FFmt)

/-- signed rounding to the grid of the format -/
def rs (x : ℚ) : ℚ := if x < 0 then -F.rnd (-x) else F.rnd x

theorem rs_zero : F.rs 0 = 0 := by simp [rs, rnd_zero]

theorem rs_nonneg {x : ℚ} (h : 0 ≤ x) : F.rs x = F.rnd x := by simp [rs, not_lt.mpr h]

theorem rs_neg (x : ℚ) : F.rs (-x) = -F.rs x := by
  unfold rs
  rcases lt_trichotomy x 0 with h | h | h
  · simp [h, not_lt.mpr (neg_nonneg.mpr h.le)]
  · subst h; simp [rnd_zero]
  · simp [h, not_lt.mpr h.le]

theorem rs_pos_le {x : ℚ} (h : 0 ≤ x) : 0 ≤ F.rs x := by rw [F.rs_nonneg h]; exact F.rnd_nonneg h

theorem rs_mono {x y : ℚ} (h : x ≤ y) : F.rs x ≤ F.rs y := by
  unfold rs
  by_cases hx : x < 0
  · by_cases hy : y < 0
    · simp only [hx, hy, if_true]
      have := F.rnd_mono (x := -y) (y := -x) (by linarith) (by linarith)
      linarith
    · simp only [hx, hy, if_true, if_false]
      have := F.rnd_nonneg (x := -x) (by linarith)
      have := F.rnd_nonneg (x := y) (by linarith)
      linarith
  · have hy : ¬ y < 0 := by linarith
    simp only [hx, hy, if_false]
    exact F.rnd_mono (by linarith) h

theorem abs_rs (x : ℚ) : |F.rs x| = F.rnd |x| := by
  unfold rs
  by_cases hx : x < 0
  · have := F.rnd_nonneg (x := -x) (by linarith)
    simp only [hx, if_true]
    rw [abs_neg, abs_of_nonneg this, abs_of_neg hx]
  · have := F.rnd_nonneg (x := x) (by linarith)
    simp only [hx, if_false]
    rw [abs_of_nonneg this, abs_of_nonneg (by linarith)]

/-- rounding with sign fixes the signed values of the format -/
theorem rs_of_rep {x : ℚ} (h : F.RepU |x|) : F.rs x = x := by
  unfold rs
  split
  · next hx => rw [abs_of_neg hx] at h; rw [F.rnd_repU h]; ring
  · next hx => rw [abs_of_nonneg (not_lt.mp hx)] at h; exact F.rnd_repU h

theorem rs_sign {x : ℚ} : (F.rs x < 0 → x < 0) := by
  intro h
  by_contra hx
  have := F.rs_pos_le (not_lt.mp hx)
  linarith

theorem maxFin_rep : F.Rep F.maxFin := by
  have hp := F.p_ge
  refine ⟨2 ^ F.p - 1, F.emax - (F.p - 1), ?_, ?_, ?_, le_rfl⟩
  · unfold maxFin
    have : (1 : Nat) ≤ 2 ^ F.p := Nat.one_le_two_pow
    push_cast [Nat.cast_sub this]
    rfl
  · have : 0 < 2 ^ F.p := by positivity
    omega
  · unfold qmin; have := F.emin_le; have := F.emax_ge; omega

theorem rnd_le_maxFin {x : ℚ} (h0 : 0 ≤ x) (h : x ≤ F.maxFin) : F.rnd x ≤ F.maxFin := by
  have := F.rnd_mono h0 h
  rwa [F.rnd_repU F.maxFin_rep.repU] at this

/-- naturals up to `2^p` are values of the format -/
theorem rep_nat {n : Nat} (h : n ≤ 2 ^ F.p) : F.Rep (n : ℚ) := by
  have hp := F.p_ge
  have hE := F.emax_ge
  have he := F.emin_le
  have hmax : (n : ℚ) ≤ F.maxFin := by
    have h1 : ((2 ^ F.p : Nat) : ℚ) ≤ F.maxFin := by
      unfold maxFin
      have a : (2 : ℚ) ≤ pow2 (F.emax - (F.p - 1)) := by
        rw [← pow2_one]; exact pow2_le.mpr (by omega)
      have b : ((2 ^ F.p : Nat) : ℚ) ≤ ((2 ^ F.p - 1 : Int) : ℚ) * 2 := by
        have : (2 : ℚ) ^ 1 ≤ 2 ^ F.p := pow_le_pow_right₀ (by norm_num) (by omega)
        push_cast; linarith
      have c : (0 : ℚ) ≤ ((2 ^ F.p - 1 : Int) : ℚ) := by
        have : (1 : ℚ) ≤ 2 ^ F.p := one_le_pow₀ (by norm_num)
        push_cast; linarith
      nlinarith
    have : (n : ℚ) ≤ ((2 ^ F.p : Nat) : ℚ) := by exact_mod_cast h
    linarith
  apply F.rep_of_repU _ hmax
  rcases h.lt_or_eq with h | h
  · exact ⟨n, 0, by rw [pow2_zero, mul_one], h, by unfold qmin; omega⟩
  · refine ⟨2 ^ (F.p - 1), 1, ?_, Nat.pow_lt_pow_right (by norm_num) (by omega), by unfold qmin; omega⟩
    rw [h, pow2_one]
    obtain ⟨k, hk⟩ : ∃ k, F.p = k + 1 := ⟨F.p - 1, by omega⟩
    rw [hk, Nat.add_sub_cancel]; push_cast; rw [pow_succ]

/-- half-integers are values of the format when small enough -/
theorem rep_half {n : Nat} (h : n < 2 ^ (F.p - 1)) : F.Rep ((n : ℚ) + 1 / 2) := by
  have hp := F.p_ge
  obtain ⟨k, hk⟩ : ∃ k, F.p = k + 1 := ⟨F.p - 1, by omega⟩
  have hk' : F.p - 1 = k := by omega
  have h2 : 2 * n + 1 < 2 ^ F.p := by
    rw [hk, pow_succ]; rw [hk'] at h; omega
  have hle : (n : ℚ) + 1 / 2 ≤ F.maxFin := by
    have h3 : n + 1 ≤ 2 ^ F.p := by omega
    have := (F.rep_nat h3).le_maxFin
    push_cast at this; linarith
  apply F.rep_of_repU _ hle
  refine ⟨2 * n + 1, -1, ?_, h2, ?_⟩
  · have : pow2 (-1) = 1 / 2 := by rw [pow2_eq]; norm_num
    rw [this]; push_cast; ring
  · unfold qmin; have := F.emin_le; omega

/-- relative error bound, in terms of the result, for results in the normal range -/
theorem rnd_rel {x : ℚ} (hx : 0 ≤ x) (hn : pow2 F.emin ≤ F.rnd x) : |F.rnd x - x| ≤ F.rnd x * pow2 (-(F.p : Int)) := by
  have hp := F.p_ge
  rcases hx.eq_or_lt with rfl | hx
  · rw [rnd_zero] at hn; exact absurd hn (not_le.mpr (pow2_pos _))
  have h1 := F.rnd_abs x
  have h2 : pow2 (F.qexp x) / 2 = pow2 (max (ilog2 x) F.emin) * pow2 (-(F.p : Int)) := by
    have : F.qexp x = (max (ilog2 x) F.emin + -(F.p : Int)) + 1 := by unfold qexp; ring
    rw [this, pow2_succ, pow2_add]; ring
  rw [h2] at h1
  refine h1.trans ?_
  apply mul_le_mul_of_nonneg_right _ (pow2_pos _).le
  rcases le_total F.emin (ilog2 x) with h | h
  · rw [max_eq_left h]; exact F.pow2_le_rnd hx h
  · rw [max_eq_right h]; exact hn

/-- relative error bound in terms of the exact value -/
theorem rnd_rel' {x : ℚ} (hx : pow2 F.emin ≤ x) : |F.rnd x - x| ≤ x * pow2 (-(F.p : Int)) := by
  have hx0 : 0 < x := lt_of_lt_of_le (pow2_pos _) hx
  have h1 := F.rnd_abs x
  have hlog : F.emin ≤ ilog2 x := by
    have : F.emin < ilog2 x + 1 := pow2_lt.mp (lt_of_le_of_lt hx (ilog2_spec hx0).2)
    omega
  have h2 : pow2 (F.qexp x) / 2 = pow2 (ilog2 x) * pow2 (-(F.p : Int)) := by
    have : F.qexp x = (ilog2 x + -(F.p : Int)) + 1 := by unfold qexp; rw [max_eq_left hlog]; ring
    rw [this, pow2_succ, pow2_add]; ring
  rw [h2] at h1
  exact h1.trans (mul_le_mul_of_nonneg_right (ilog2_spec hx0).1 (pow2_pos _).le)

/-- rounding is exact on multiples of the smallest subnormal below the normal range -/
theorem rnd_small {x : ℚ} {n : Nat} (hx : x = n * pow2 F.qmin) (h : x ≤ pow2 (F.emin + 1)) : F.rnd x = x := by
  have hp := F.p_ge
  apply F.rnd_repU
  have hle : n ≤ 2 ^ F.p := by
    have e : pow2 (F.emin + 1) = ((2 ^ F.p : Nat) : ℚ) * pow2 F.qmin := by
      rw [← pow2_nat, ← pow2_add]; congr 1; unfold qmin; omega
    rw [hx, e] at h
    have := le_of_mul_le_mul_right h (pow2_pos _)
    exact_mod_cast this
  rcases hle.lt_or_eq with h1 | h1
  · exact ⟨n, F.qmin, hx, h1, le_rfl⟩
  · refine ⟨2 ^ (F.p - 1), F.qmin + 1, ?_, Nat.pow_lt_pow_right (by norm_num) (by omega), by omega⟩
    rw [hx, h1, pow2_succ]
    obtain ⟨k, hk⟩ : ∃ k, F.p = k + 1 := ⟨F.p - 1, by omega⟩
    rw [hk, Nat.add_sub_cancel]; push_cast; rw [pow_succ]; ring

/-- every value of the format is a multiple of the smallest subnormal -/
theorem RepU.mult {F : FFmt} {x : ℚ} (h : F.RepU x) : ∃ n : Nat, x = n * pow2 F.qmin := by
  obtain ⟨m, e, hx, -, he⟩ := h
  obtain ⟨n, hn⟩ := pow2_mult he
  have hn0 : 0 ≤ n := by
    by_contra hc
    have h1 : (n : ℚ) < 0 := by exact_mod_cast not_le.mp hc
    have := mul_neg_of_neg_of_pos h1 (pow2_pos F.qmin)
    rw [← hn] at this
    exact absurd (pow2_pos e) (not_lt.mpr this.le)
  refine ⟨m * n.toNat, ?_⟩
  have : ((n.toNat : Int) : ℚ) = (n : ℚ) := by rw [Int.toNat_of_nonneg hn0]
  have h2 : ((n.toNat : Nat) : ℚ) = (n : ℚ) := by exact_mod_cast this
  rw [hx, hn]; push_cast; rw [h2]; ring

end FFmt

namespace Flt
variable {F : FFmt}

/-- not NaN and not infinite -/
def isFin : Flt F → Prop
  | .fin _ _ _ => True
  | _ => False

instance : DecidablePred (isFin (F := F)) := fun x => by cases x <;> unfold isFin <;> infer_instance

/-- the number a finite float stands for (0 for NaN and infinities) -/
def val : Flt F → ℚ
  | .fin s m _ => sval s m
  | _ => 0

theorem abs_sval (s : Bool) {m : ℚ} (h : 0 ≤ m) : |sval s m| = m := by
  cases s <;> simp [sval, abs_of_nonneg h]

theorem val_rep (x : Flt F) : F.Rep |x.val| := by
  cases x with
  | nan => simpa [val] using F.rep_zero
  | inf => simpa [val] using F.rep_zero
  | fin s m h => simpa only [val, abs_sval s h.nonneg] using h

theorem rs_val (x : Flt F) : F.rs x.val = x.val := F.rs_of_rep x.val_rep.repU

theorem abs_val_le (x : Flt F) : |x.val| ≤ F.maxFin := x.val_rep.le_maxFin

theorem key_fin {x : Flt F} (h : x.isFin) : x.key = some (((x.val : ℚ) : WithTop ℚ) : WithBot (WithTop ℚ)) := by
  cases x with
  | nan => exact h.elim
  | inf => exact h.elim
  | fin s m h => rfl

section
variable [Cfg]
theorem lt_fin {a b : Flt F} (ha : a.isFin) (hb : b.isFin) : POrd.lt a b = decide (a.val < b.val) := by
  rw [Bool.eq_iff_iff, LawfulPOrd.lt_iff, decide_eq_true_iff]
  show (∃ x y, a.key = some x ∧ b.key = some y ∧ x < y) ↔ _
  rw [key_fin ha, key_fin hb]
  constructor
  · rintro ⟨x, y, hx, hy, h⟩; cases hx; cases hy; exact coe_lt.1 h
  · intro h; exact ⟨_, _, rfl, rfl, coe_lt.2 h⟩

theorem gt_fin {a b : Flt F} (ha : a.isFin) (hb : b.isFin) : POrd.gt a b = decide (b.val < a.val) := by
  rw [Bool.eq_iff_iff, LawfulPOrd.gt_iff, decide_eq_true_iff]
  show (∃ x y, a.key = some x ∧ b.key = some y ∧ y < x) ↔ _
  rw [key_fin ha, key_fin hb]
  constructor
  · rintro ⟨x, y, hx, hy, h⟩; cases hx; cases hy; exact coe_lt.1 h
  · intro h; exact ⟨_, _, rfl, rfl, coe_lt.2 h⟩

theorem ge_fin {a b : Flt F} (ha : a.isFin) (hb : b.isFin) : POrd.ge a b = decide (b.val ≤ a.val) := by
  rw [Bool.eq_iff_iff, LawfulPOrd.ge_iff, decide_eq_true_iff]
  show (∃ x y, a.key = some x ∧ b.key = some y ∧ y ≤ x) ↔ _
  rw [key_fin ha, key_fin hb]
  constructor
  · rintro ⟨x, y, hx, hy, h⟩; cases hx; cases hy; exact coe_le.1 h
  · intro h; exact ⟨_, _, rfl, rfl, coe_le.2 h⟩

theorem le_fin {a b : Flt F} (ha : a.isFin) (hb : b.isFin) : POrd.le a b = decide (a.val ≤ b.val) := by
  rw [Bool.eq_iff_iff, LawfulPOrd.le_iff, decide_eq_true_iff]
  show (∃ x y, a.key = some x ∧ b.key = some y ∧ x ≤ y) ↔ _
  rw [key_fin ha, key_fin hb]
  constructor
  · rintro ⟨x, y, hx, hy, h⟩; cases hx; cases hy; exact coe_le.1 h
  · intro h; exact ⟨_, _, rfl, rfl, coe_le.2 h⟩

theorem eq_fin {a b : Flt F} (ha : a.isFin) (hb : b.isFin) : POrd.eq a b = decide (a.val = b.val) := by
  rw [Bool.eq_iff_iff, LawfulPOrd.eq_iff, decide_eq_true_iff]
  show (∃ x, a.key = some x ∧ b.key = some x) ↔ _
  rw [key_fin ha, key_fin hb]
  constructor
  · rintro ⟨x, hx, hy⟩
    cases hx
    have h1 := coe_le.1 (le_of_eq (Option.some.inj hy))
    have h2 := coe_le.1 (le_of_eq (Option.some.inj hy).symm)
    exact le_antisymm h2 h1
  · intro h; exact ⟨_, rfl, by rw [h]⟩
end

/-- the outcome of a correctly rounded operation whose exact result is `r` -/
inductive Rounds (r : ℚ) : Flt F → Prop
  | fin {x : Flt F} (h : x.isFin) (hv : x.val = F.rs r) : Rounds r x
  | inf (h : F.maxFin < |F.rs r|) : Rounds r (.inf (decide (r < 0)))

theorem ofRat_rounds (r : ℚ) : Rounds r (ofRat r : Flt F) := by
  unfold ofRat round
  split
  · next h =>
    refine .fin trivial ?_
    unfold val sval FFmt.rs
    by_cases hr : r < 0
    · simp only [hr, decide_true, if_true]; rw [abs_of_neg hr]
    · simp only [hr, decide_false, if_false]; rw [abs_of_nonneg (not_lt.mp hr)]; rfl
  · next h => exact .inf (by rw [F.abs_rs]; exact not_le.mp h)

theorem add_rounds {a b : Flt F} (ha : a.isFin) (hb : b.isFin) : Rounds (a.val + b.val) (add a b) := by
  cases a with
  | nan => exact ha.elim
  | inf => exact ha.elim
  | fin s m h =>
    cases b with
    | nan => exact hb.elim
    | inf => exact hb.elim
    | fin t n h' =>
      show Rounds (sval s m + sval t n) (if sval s m + sval t n = 0 then zero (s && t) else ofRat _)
      by_cases h0 : sval s m + sval t n = 0
      · rw [if_pos h0, h0]
        refine .fin trivial ?_
        rw [F.rs_zero]; cases hst : (s && t) <;> simp [zero, val, sval]
      · rw [if_neg h0]; exact ofRat_rounds _

theorem neg_isFin {a : Flt F} : (neg a).isFin ↔ a.isFin := by cases a <;> rfl

theorem neg_val (a : Flt F) : (neg a).val = -a.val := by
  cases a with
  | nan => simp [neg, val]
  | inf => simp [neg, val]
  | fin s m h => cases s <;> simp [neg, val, sval]

theorem sub_rounds {a b : Flt F} (ha : a.isFin) (hb : b.isFin) : Rounds (a.val - b.val) (sub a b) := by
  have := add_rounds ha (neg_isFin.2 hb)
  rwa [neg_val, ← sub_eq_add_neg] at this

theorem sval_mul (s t : Bool) (a b : ℚ) : sval s a * sval t b = sval (s ^^ t) (a * b) := by
  cases s <;> cases t <;> simp [sval]

theorem sval_div (s t : Bool) (a b : ℚ) : sval s a / sval t b = sval (s ^^ t) (a / b) := by
  cases s <;> cases t <;> simp [sval, neg_div, div_neg]

theorem round_rounds (s : Bool) {m : ℚ} (h : 0 ≤ m) : Rounds (sval s m) (round s m h : Flt F) := by
  unfold round
  split
  · next hm =>
    refine .fin trivial ?_
    cases s
    · simp only [val, sval]; exact (F.rs_nonneg h).symm
    · simp only [val, sval, if_true]; rw [F.rs_neg, F.rs_nonneg h]
  · next hm =>
    have hpos : 0 < m := by
      rcases h.eq_or_lt with rfl | h
      · exact absurd (by rw [F.rnd_zero]; exact F.maxFin_pos.le) hm
      · exact h
    have hs : s = decide (sval s m < 0) := by cases s <;> simp [sval, hpos, hpos.le]
    have key : F.maxFin < |F.rs (sval s m)| := by rw [F.abs_rs, abs_sval s h]; exact not_le.mp hm
    have := Rounds.inf key
    rwa [← hs] at this

theorem mul_rounds {a b : Flt F} (ha : a.isFin) (hb : b.isFin) : Rounds (a.val * b.val) (mul a b) := by
  cases a with
  | nan => exact ha.elim
  | inf => exact ha.elim
  | fin s m h =>
    cases b with
    | nan => exact hb.elim
    | inf => exact hb.elim
    | fin t n h' =>
      show Rounds (sval s m * sval t n) (round (s ^^ t) (m * n) (mul_nonneg h.nonneg h'.nonneg))
      rw [sval_mul]; exact round_rounds _ _

theorem div_rounds {a b : Flt F} (ha : a.isFin) (hb : b.isFin) (h0 : b.val ≠ 0) : Rounds (a.val / b.val) (div a b) := by
  cases a with
  | nan => exact ha.elim
  | inf => exact ha.elim
  | fin s m h =>
    cases b with
    | nan => exact hb.elim
    | inf => exact hb.elim
    | fin t n h' =>
      have hn : n ≠ 0 := by
        rintro rfl; apply h0; cases t <;> simp [val, sval]
      show Rounds (sval s m / sval t n) (if n = 0 then _ else round (s ^^ t) (m / n) (div_nonneg h.nonneg h'.nonneg))
      rw [if_neg hn, sval_div]; exact round_rounds _ _

/-- within range, the operation returns the rounded result -/
theorem Rounds.fin_of {r : ℚ} {x : Flt F} (h : Rounds r x) (hr : |r| ≤ F.maxFin) : x.isFin ∧ x.val = F.rs r := by
  cases h with
  | fin h hv => exact ⟨h, hv⟩
  | inf h => rw [F.abs_rs] at h; exact absurd (F.rnd_le_maxFin (abs_nonneg _) hr) (not_le.mpr h)

theorem Rounds.of_isFin {r : ℚ} {x : Flt F} (h : Rounds r x) (hx : x.isFin) : x.val = F.rs r := by
  cases h with
  | fin h hv => exact hv
  | inf h => exact hx.elim

theorem Rounds.not_nan {r : ℚ} {x : Flt F} (h : Rounds r x) : x ≠ .nan := by
  cases h with
  | fin h hv => rintro rfl; exact h
  | inf h => intro h; cases h

/-- an infinite result has the sign of the exact one -/
theorem Rounds.of_inf {r : ℚ} {s : Bool} (h : Rounds r (.inf s : Flt F)) : s = decide (r < 0) ∧ F.maxFin < |F.rs r| := by
  generalize hx : (.inf s : Flt F) = x at h
  cases h with
  | fin h hv => subst hx; exact h.elim
  | inf h => cases hx; exact ⟨rfl, h⟩

/-- conversion of a small count is exact -/
theorem ofNat_spec {n : Nat} (h : n ≤ 2 ^ F.p) : (ofRat (n : ℚ) : Flt F).isFin ∧ (ofRat (n : ℚ) : Flt F).val = n := by
  have hr := F.rep_nat h
  have h1 := (ofRat_rounds (F := F) (n : ℚ)).fin_of (by rw [abs_of_nonneg (by positivity)]; exact hr.le_maxFin)
  refine ⟨h1.1, ?_⟩
  rw [h1.2]
  exact F.rs_of_rep (by rw [abs_of_nonneg (by positivity)]; exact hr.repU)

/-- the remainder of two finite floats is exact -/
theorem rem_exact {s t : Bool} {a b : ℚ} {ha : F.Rep a} {hb : F.Rep b} (hb0 : b ≠ 0) :
    ∃ h, rem (.fin s a ha) (.fin t b hb) = .fin s (a - ⌊a / b⌋ * b) h := by
  have hbp : 0 < b := lt_of_le_of_ne hb.nonneg (Ne.symm hb0)
  set r := a - ⌊a / b⌋ * b with hr
  have r0 : 0 ≤ r := by
    have := Int.floor_le (a / b)
    rw [le_div_iff₀ hbp] at this
    rw [hr]; linarith
  have rb : r < b := by
    have := Int.lt_floor_add_one (a / b)
    rw [div_lt_iff₀ hbp] at this
    rw [hr]; nlinarith
  have fl0 : 0 ≤ ⌊a / b⌋ := Int.floor_nonneg.2 (div_nonneg ha.nonneg hb.nonneg)
  have ra : r ≤ a := by
    have : (0 : ℚ) ≤ (⌊a / b⌋ : ℚ) * b := mul_nonneg (by exact_mod_cast fl0) hb.nonneg
    rw [hr]; linarith
  -- both are multiples of the finer of the two units
  have rep : F.Rep r := by
    apply F.rep_of_repU _ (ra.trans ha.le_maxFin)
    obtain ⟨ma, ea, hae, hma, hea, -⟩ := ha
    obtain ⟨mb, eb, hbe, hmb, heb, -⟩ := hb
    obtain ⟨e, he1, he2, heq⟩ : ∃ e, e ≤ ea ∧ e ≤ eb ∧ (e = ea ∨ e = eb) := by
      rcases le_total ea eb with h | h
      · exact ⟨ea, le_rfl, h, .inl rfl⟩
      · exact ⟨eb, h, le_rfl, .inr rfl⟩
    obtain ⟨na, hna⟩ := FFmt.pow2_mult he1
    obtain ⟨nb, hnb⟩ := FFmt.pow2_mult he2
    have hrm : r = ((ma * na - ⌊a / b⌋ * (mb * nb) : Int) : ℚ) * pow2 e := by
      rw [hr]; conv_lhs => rw [hae, hbe]
      rw [hna, hnb, ← hnb, ← hna, ← hae, ← hbe]; push_cast
      rw [sub_mul, mul_assoc (ma : ℚ), ← hna, ← hae, mul_assoc, mul_assoc (mb : ℚ), ← hnb, ← hbe]
    set z : Int := ma * na - ⌊a / b⌋ * (mb * nb)
    have hz0 : 0 ≤ z := by
      by_contra hc
      have : (z : ℚ) < 0 := by exact_mod_cast not_le.mp hc
      have := mul_neg_of_neg_of_pos this (pow2_pos e)
      rw [← hrm] at this; linarith
    have hzlt : (z : ℚ) < ((2 ^ F.p : Nat) : ℚ) := by
      rcases heq with rfl | rfl
      · have : (z : ℚ) * pow2 e ≤ ma * pow2 e := by rw [← hrm, ← hae]; exact ra
        have := le_of_mul_le_mul_right this (pow2_pos _)
        have h2 : ((ma : Nat) : ℚ) < ((2 ^ F.p : Nat) : ℚ) := by exact_mod_cast hma
        linarith
      · have : (z : ℚ) * pow2 e < mb * pow2 e := by rw [← hrm, ← hbe]; exact rb
        have := lt_of_mul_lt_mul_right this (pow2_pos _).le
        have h2 : ((mb : Nat) : ℚ) < ((2 ^ F.p : Nat) : ℚ) := by exact_mod_cast hmb
        linarith
    refine ⟨z.toNat, e, ?_, ?_, ?_⟩
    · have : ((z.toNat : Int) : ℚ) = (z : ℚ) := by rw [Int.toNat_of_nonneg hz0]
      rw [hrm, ← this]; push_cast; rfl
    · have : z < ((2 ^ F.p : Nat) : Int) := by exact_mod_cast hzlt
      omega
    · rcases heq with rfl | rfl <;> assumption
  refine ⟨rep, ?_⟩
  simp only [rem, dif_neg hb0]
  unfold round
  have e : F.rnd (a - ⌊a / b⌋ * b) = a - ⌊a / b⌋ * b := F.rnd_repU rep.repU
  rw [dif_pos (by rw [e]; exact rep.le_maxFin)]
  simp only [e, hr]

end Flt
end NdHist
