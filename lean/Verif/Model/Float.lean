import Verif.Model.Num
import Mathlib.Data.Rat.Floor
import Mathlib.Algebra.Order.Floor.Ring
import Mathlib.Algebra.Order.Field.Power
import Mathlib.Tactic.Linarith
import Mathlib.Tactic.Positivity
import Mathlib.Tactic.FieldSimp
import Mathlib.Tactic.Ring
import Mathlib.Tactic.NormNum
/-!
# IEEE-754 binary floating point

Rust's `f32`/`f64` (and any other binary format): NaN, infinities, signed zeros, subnormals, and
round-to-nearest-even. A finite value is a sign and an exact rational magnitude of the format.
Payloads and signs of NaN are not modelled (no code in the crate observes them).
-/
namespace NdHist

/-- A binary floating-point format: `p` bits of precision, exponents from `emin` to `emax`. -/
structure FFmt where
  p : Nat
  emin : Int
  emax : Int
  p_ge : 2 ≤ p
  emin_le : emin < 0
  emax_ge : (p : Int) ≤ emax

/-- `f64` -/
@[reducible] def FFmt.f64 : FFmt := ⟨53, -1022, 1023, by decide, by decide, by decide⟩
/-- `f32` -/
@[reducible] def FFmt.f32 : FFmt := ⟨24, -126, 127, by decide, by decide, by decide⟩

/-- `2^e` as a rational -/
def pow2 : Int → ℚ
  | .ofNat n => ((2 ^ n : Nat) : ℚ)
  | .negSucc n => mkRat 1 (2 ^ (n + 1))

theorem pow2_eq (e : Int) : pow2 e = (2 : ℚ) ^ e := by
  cases e with
  | ofNat n => simp [pow2]
  | negSucc n => simp [pow2, Rat.mkRat_eq_div, zpow_negSucc]

theorem pow2_pos (e : Int) : 0 < pow2 e := by rw [pow2_eq]; positivity

theorem pow2_ne (e : Int) : pow2 e ≠ 0 := (pow2_pos e).ne'

theorem pow2_add (a b : Int) : pow2 (a + b) = pow2 a * pow2 b := by
  simp only [pow2_eq]; exact zpow_add₀ (by norm_num) a b

theorem pow2_le {a b : Int} : pow2 a ≤ pow2 b ↔ a ≤ b := by
  simp only [pow2_eq]; exact zpow_le_zpow_iff_right₀ (by norm_num)

theorem pow2_lt {a b : Int} : pow2 a < pow2 b ↔ a < b := by
  simp only [pow2_eq]; exact zpow_lt_zpow_iff_right₀ (by norm_num)

theorem pow2_zero : pow2 0 = 1 := by simp [pow2_eq]

theorem pow2_one : pow2 1 = 2 := by simp [pow2_eq]

theorem pow2_succ (a : Int) : pow2 (a + 1) = 2 * pow2 a := by
  rw [pow2_add, pow2_one]; ring

theorem pow2_nat (n : Nat) : pow2 (n : Int) = ((2 ^ n : Nat) : ℚ) := rfl

theorem pow2_sub (a b : Int) : pow2 (a - b) = pow2 a / pow2 b := by
  simp only [pow2_eq]; exact zpow_sub₀ (by norm_num) a b

/-- nearest integer, ties to even -/
def rne (y : ℚ) : Int :=
  let f := ⌊y⌋
  let r := y - f
  if r < 1 / 2 then f
  else if 1 / 2 < r then f + 1
  else if f % 2 = 0 then f else f + 1

/-- binary logarithm rounded down, for positive `x` -/
def ilog2 (x : ℚ) : Int :=
  let k : Int := (Nat.log2 x.num.toNat : Int) - (Nat.log2 x.den : Int)
  if pow2 k ≤ x then k else k - 1

namespace FFmt
variable (F : FFmt)

/-- exponent of the unit in the last place at magnitude `x` -/
def qexp (x : ℚ) : Int := max (ilog2 x) F.emin - (F.p - 1)

/-- round a non-negative rational to the grid of the format (no upper exponent limit) -/
def rnd (x : ℚ) : ℚ := (rne (x / pow2 (F.qexp x)) : ℚ) * pow2 (F.qexp x)

/-- exponent of the smallest subnormal -/
def qmin : Int := F.emin - (F.p - 1)

/-- largest finite magnitude -/
def maxFin : ℚ := ((2 ^ F.p - 1 : Int) : ℚ) * pow2 (F.emax - (F.p - 1))

/-- `x` is the magnitude of a finite value of the format: an integer of at most `p` bits times a
power of two in the exponent range. -/
def Rep (x : ℚ) : Prop :=
  ∃ (m : Nat) (e : Int), x = (m : ℚ) * pow2 e ∧ m < 2 ^ F.p ∧ F.qmin ≤ e ∧ e ≤ F.emax - (F.p - 1)

/-- like `Rep` without upper exponent limit -/
def RepU (x : ℚ) : Prop :=
  ∃ (m : Nat) (e : Int), x = (m : ℚ) * pow2 e ∧ m < 2 ^ F.p ∧ F.qmin ≤ e

end FFmt

/-! ### Rounding to an integer -/

theorem rne_cases (y : ℚ) : rne y = ⌊y⌋ ∧ y - ⌊y⌋ ≤ 1/2 ∨ rne y = ⌊y⌋ + 1 ∧ 1/2 ≤ y - ⌊y⌋ := by
  unfold rne
  by_cases h1 : y - ⌊y⌋ < 1/2
  · left; simp only [h1, if_true]; exact ⟨trivial, h1.le⟩
  · by_cases h2 : 1/2 < y - ⌊y⌋
    · right; simp only [h1, h2, if_true, if_false]; exact ⟨trivial, h2.le⟩
    · simp only [h1, h2, if_false]
      split
      · left; exact ⟨rfl, not_lt.mp h2⟩
      · right; exact ⟨rfl, not_lt.mp h1⟩

theorem rne_le_of_le_int {y : ℚ} {n : Int} (h : y ≤ n) : rne y ≤ n := by
  have hf : (⌊y⌋ : ℚ) ≤ y := Int.floor_le y
  rcases rne_cases y with ⟨h1, _⟩ | ⟨h1, h2⟩
  · rw [h1]; exact_mod_cast hf.trans h
  · rw [h1]
    have : (⌊y⌋ : ℚ) < n := by linarith
    have : ⌊y⌋ < n := by exact_mod_cast this
    omega

theorem le_rne_of_int_le {y : ℚ} {n : Int} (h : (n : ℚ) ≤ y) : n ≤ rne y := by
  have : n ≤ ⌊y⌋ := Int.le_floor.mpr h
  rcases rne_cases y with ⟨h1, _⟩ | ⟨h1, _⟩ <;> omega

theorem rne_int (n : Int) : rne (n : ℚ) = n :=
  le_antisymm (rne_le_of_le_int le_rfl) (le_rne_of_int_le le_rfl)

theorem rne_abs (y : ℚ) : |(rne y : ℚ) - y| ≤ 1/2 := by
  have hf : (⌊y⌋ : ℚ) ≤ y := Int.floor_le y
  have hf2 : y < ⌊y⌋ + 1 := Int.lt_floor_add_one y
  rw [abs_le]
  rcases rne_cases y with ⟨h1, h2⟩ | ⟨h1, h2⟩ <;> rw [h1] <;> push_cast <;> constructor <;> linarith

theorem rne_mono {x y : ℚ} (h : x ≤ y) : rne x ≤ rne y := by
  have hxy : ⌊x⌋ ≤ ⌊y⌋ := Int.floor_le_floor h
  rcases hxy.lt_or_eq with hlt | heq
  · have h1 : rne x ≤ ⌊x⌋ + 1 := by rcases rne_cases x with ⟨h1, _⟩ | ⟨h1, _⟩ <;> omega
    have h2 : ⌊y⌋ ≤ rne y := le_rne_of_int_le (Int.floor_le y)
    omega
  · unfold rne
    simp only [heq]
    have hr : x - ⌊y⌋ ≤ y - ⌊y⌋ := by linarith
    by_cases hy1 : y - ⌊y⌋ < 1/2
    · have hx1 : x - ⌊y⌋ < 1/2 := lt_of_le_of_lt hr hy1
      simp only [hy1, hx1, if_true]; exact le_rfl
    · by_cases hy2 : 1/2 < y - ⌊y⌋
      · simp only [hy1, hy2, if_true, if_false]
        split
        · omega
        · split
          · omega
          · split <;> omega
      · have hye : y - ⌊y⌋ = 1/2 := le_antisymm (not_lt.mp hy2) (not_lt.mp hy1)
        by_cases hx1 : x - ⌊y⌋ < 1/2
        · simp only [hy1, hy2, hx1, if_true, if_false]; split <;> omega
        · have hx2 : ¬ 1/2 < x - ⌊y⌋ := by rw [hye] at hr; exact not_lt.mpr hr
          simp only [hy1, hy2, hx1, hx2, if_false]; exact le_rfl

/-! ### Logarithm -/

theorem ilog2_spec {x : ℚ} (hx : 0 < x) : pow2 (ilog2 x) ≤ x ∧ x < pow2 (ilog2 x + 1) := by
  have hnum : 0 < x.num := Rat.num_pos.mpr hx
  set n := x.num.toNat with hn
  have hn0 : n ≠ 0 := by omega
  have hd0 : x.den ≠ 0 := x.den_ne_zero
  have hnn : (n : ℚ) = x.num := by
    have : (n : Int) = x.num := by omega
    exact_mod_cast this
  have hxq : x = (n : ℚ) / x.den := by rw [hnn]; exact (Rat.num_div_den x).symm
  have a1 := Nat.log2_self_le hn0
  have a2 := @Nat.lt_log2_self n
  have b1 := Nat.log2_self_le hd0
  have b2 := @Nat.lt_log2_self x.den
  have A1 : pow2 (n.log2 : Int) ≤ n := by rw [pow2_nat]; exact_mod_cast a1
  have A2 : (n : ℚ) < pow2 ((n.log2 : Int) + 1) := by
    have : ((n.log2 : Int) + 1) = ((n.log2 + 1 : Nat) : Int) := by push_cast; ring
    rw [this, pow2_nat]; exact_mod_cast a2
  have B1 : pow2 (x.den.log2 : Int) ≤ x.den := by rw [pow2_nat]; exact_mod_cast b1
  have B2 : (x.den : ℚ) < pow2 ((x.den.log2 : Int) + 1) := by
    have : ((x.den.log2 : Int) + 1) = ((x.den.log2 + 1 : Nat) : Int) := by push_cast; ring
    rw [this, pow2_nat]; exact_mod_cast b2
  have hdpos : (0 : ℚ) < x.den := by exact_mod_cast x.den_pos
  set k : Int := (n.log2 : Int) - (x.den.log2 : Int) with hk
  have U : x < pow2 (k + 1) := by
    have h1 : pow2 (k + 1) * pow2 (x.den.log2 : Int) = pow2 ((n.log2 : Int) + 1) := by
      rw [← pow2_add]; congr 1; omega
    rw [hxq, div_lt_iff₀ hdpos]
    calc (n : ℚ) < pow2 ((n.log2 : Int) + 1) := A2
      _ = pow2 (k + 1) * pow2 (x.den.log2 : Int) := h1.symm
      _ ≤ pow2 (k + 1) * x.den := by
        apply mul_le_mul_of_nonneg_left B1 (pow2_pos _).le
  have L : pow2 (k - 1) ≤ x := by
    have h1 : pow2 (k - 1) * pow2 ((x.den.log2 : Int) + 1) = pow2 (n.log2 : Int) := by
      rw [← pow2_add]; congr 1; omega
    rw [hxq, le_div_iff₀ hdpos]
    calc pow2 (k - 1) * x.den ≤ pow2 (k - 1) * pow2 ((x.den.log2 : Int) + 1) := by
          apply mul_le_mul_of_nonneg_left B2.le (pow2_pos _).le
      _ = pow2 (n.log2 : Int) := h1
      _ ≤ n := A1
  have hdef : ilog2 x = if pow2 k ≤ x then k else k - 1 := rfl
  rw [hdef]
  split
  · next h => exact ⟨h, U⟩
  · next h => exact ⟨L, by rw [sub_add_cancel]; exact not_le.mp h⟩

theorem ilog2_eq_of {x : ℚ} {e : Int} (h1 : pow2 e ≤ x) (h2 : x < pow2 (e + 1)) : ilog2 x = e := by
  have hx : 0 < x := lt_of_lt_of_le (pow2_pos e) h1
  obtain ⟨a, b⟩ := ilog2_spec hx
  have c1 : ilog2 x < e + 1 := pow2_lt.mp (lt_of_le_of_lt a h2)
  have c2 : e < ilog2 x + 1 := pow2_lt.mp (lt_of_le_of_lt h1 b)
  omega

theorem ilog2_mono {x y : ℚ} (hx : 0 < x) (h : x ≤ y) : ilog2 x ≤ ilog2 y := by
  have hy : 0 < y := lt_of_lt_of_le hx h
  obtain ⟨a, _⟩ := ilog2_spec hx
  obtain ⟨_, d⟩ := ilog2_spec hy
  have : ilog2 x < ilog2 y + 1 := pow2_lt.mp (lt_of_le_of_lt (a.trans h) d)
  omega

/-! ### Rounding to the grid -/
namespace FFmt
variable (F : FFmt)

theorem rnd_zero : F.rnd 0 = 0 := by
  unfold rnd
  rw [zero_div]
  have : rne 0 = 0 := by have := rne_int 0; simpa using this
  simp [this]

theorem rne_nonneg {y : ℚ} (h : 0 ≤ y) : 0 ≤ rne y :=
  le_rne_of_int_le (by simpa using h)

theorem rnd_nonneg {x : ℚ} (h : 0 ≤ x) : 0 ≤ F.rnd x := by
  unfold rnd
  apply mul_nonneg
  · exact_mod_cast rne_nonneg (div_nonneg h (pow2_pos _).le)
  · exact (pow2_pos _).le

/-- An upper bound which is a multiple of the current unit in the last place is respected. -/
theorem rnd_le_of_mult {x : ℚ} {n : Int} (h : x ≤ n * pow2 (F.qexp x)) : F.rnd x ≤ n * pow2 (F.qexp x) := by
  unfold rnd
  apply mul_le_mul_of_nonneg_right _ (pow2_pos _).le
  have : rne (x / pow2 (F.qexp x)) ≤ n := rne_le_of_le_int (by rw [div_le_iff₀ (pow2_pos _)]; exact h)
  exact_mod_cast this

theorem le_rnd_of_mult {x : ℚ} {n : Int} (h : n * pow2 (F.qexp x) ≤ x) : n * pow2 (F.qexp x) ≤ F.rnd x := by
  unfold rnd
  apply mul_le_mul_of_nonneg_right _ (pow2_pos _).le
  have : n ≤ rne (x / pow2 (F.qexp x)) := le_rne_of_int_le (by rw [le_div_iff₀ (pow2_pos _)]; exact h)
  exact_mod_cast this

theorem pow2_mult {a q : Int} (h : q ≤ a) : ∃ n : Int, pow2 a = n * pow2 q := by
  refine ⟨2 ^ (a - q).toNat, ?_⟩
  have : a = ((a - q).toNat : Int) + q := by omega
  conv_lhs => rw [this]
  rw [pow2_add, pow2_nat]; push_cast; rfl

theorem qexp_le_ilog (x : ℚ) (h : F.emin ≤ ilog2 x) : F.qexp x ≤ ilog2 x := by
  unfold qexp; have := F.p_ge; omega

theorem qexp_ge (x : ℚ) : F.qmin ≤ F.qexp x := by
  unfold qexp qmin; omega

theorem rnd_abs (x : ℚ) : |F.rnd x - x| ≤ pow2 (F.qexp x) / 2 := by
  unfold rnd
  set q := F.qexp x
  have h := rne_abs (x / pow2 q)
  have hp := pow2_pos q
  have : (rne (x / pow2 q) : ℚ) * pow2 q - x = ((rne (x / pow2 q) : ℚ) - x / pow2 q) * pow2 q := by
    field_simp
  rw [this, abs_mul, abs_of_pos hp]
  nlinarith

/-- rounding stays within the (closed) binade -/
theorem rnd_le_pow2 {x : ℚ} (hx : 0 < x) : F.rnd x ≤ pow2 (max (ilog2 x) F.emin + 1) := by
  have hp := F.p_ge
  obtain ⟨n, hn⟩ := pow2_mult (a := max (ilog2 x) F.emin + 1) (q := F.qexp x) (by unfold qexp; omega)
  rw [hn]
  apply F.rnd_le_of_mult
  rw [← hn]
  refine (ilog2_spec hx).2.le.trans (pow2_le.mpr (by omega))

theorem pow2_le_rnd {x : ℚ} (hx : 0 < x) (h : F.emin ≤ ilog2 x) : pow2 (ilog2 x) ≤ F.rnd x := by
  obtain ⟨n, hn⟩ := pow2_mult (F.qexp_le_ilog x h)
  rw [hn]
  apply F.le_rnd_of_mult
  rw [← hn]
  exact (ilog2_spec hx).1

theorem rnd_mono {x y : ℚ} (hx : 0 ≤ x) (h : x ≤ y) : F.rnd x ≤ F.rnd y := by
  rcases hx.eq_or_lt with rfl | hx
  · rw [rnd_zero]; exact F.rnd_nonneg h
  have hy : 0 < y := lt_of_lt_of_le hx h
  have hl := ilog2_mono hx h
  by_cases hq : F.qexp x = F.qexp y
  · unfold rnd
    rw [hq]
    apply mul_le_mul_of_nonneg_right _ (pow2_pos _).le
    have : rne (x / pow2 (F.qexp y)) ≤ rne (y / pow2 (F.qexp y)) :=
      rne_mono (div_le_div_of_nonneg_right h (pow2_pos _).le)
    exact_mod_cast this
  · have h1 : max (ilog2 x) F.emin < max (ilog2 y) F.emin := by
      unfold qexp at hq; omega
    have h2 : F.emin ≤ ilog2 y := by omega
    calc F.rnd x ≤ pow2 (max (ilog2 x) F.emin + 1) := F.rnd_le_pow2 hx
      _ ≤ pow2 (ilog2 y) := pow2_le.mpr (by omega)
      _ ≤ F.rnd y := F.pow2_le_rnd hy h2

/-- rounding fixes the values of the format -/
theorem rnd_repU {x : ℚ} (h : F.RepU x) : F.rnd x = x := by
  obtain ⟨m, e, hx, hm, he⟩ := h
  rcases Nat.eq_zero_or_pos m with rfl | hm0
  · simp at hx; rw [hx, rnd_zero]
  have hmq : (0 : ℚ) < m := by exact_mod_cast hm0
  have hxpos : 0 < x := by rw [hx]; exact mul_pos hmq (pow2_pos e)
  have hub : x < pow2 (e + F.p) := by
    rw [hx, pow2_add, mul_comm, pow2_nat]
    apply mul_lt_mul_of_pos_left _ (pow2_pos e)
    exact_mod_cast hm
  have hlog : ilog2 x < e + F.p := pow2_lt.mp (lt_of_le_of_lt (ilog2_spec hxpos).1 hub)
  have hq : F.qexp x ≤ e := by unfold qexp; unfold qmin at he; omega
  obtain ⟨n, hn⟩ := pow2_mult hq
  have hxm : x = ((m * n : Int) : ℚ) * pow2 (F.qexp x) := by
    push_cast; rw [mul_assoc, ← hn]; exact hx
  apply le_antisymm
  · calc F.rnd x ≤ ((m * n : Int) : ℚ) * pow2 (F.qexp x) := F.rnd_le_of_mult hxm.le
      _ = x := hxm.symm
  · calc x = ((m * n : Int) : ℚ) * pow2 (F.qexp x) := hxm
      _ ≤ F.rnd x := F.le_rnd_of_mult hxm.ge

/-- the result of rounding is on the grid -/
theorem repU_rnd {x : ℚ} (h : 0 ≤ x) : F.RepU (F.rnd x) := by
  rcases h.eq_or_lt with rfl | hx
  · rw [rnd_zero]; exact ⟨0, F.qmin, by simp, by positivity, le_rfl⟩
  have hp := F.p_ge
  set q := F.qexp x with hqd
  have hq : F.qmin ≤ q := F.qexp_ge x
  have h0 : 0 ≤ rne (x / pow2 q) := rne_nonneg (div_nonneg h (pow2_pos _).le)
  have hle : rne (x / pow2 q) ≤ 2 ^ F.p := by
    apply rne_le_of_le_int
    rw [div_le_iff₀ (pow2_pos _)]
    have h1 : x < pow2 (ilog2 x + 1) := (ilog2_spec hx).2
    have h2 : pow2 (ilog2 x + 1) ≤ pow2 ((F.p : Int) + q) := pow2_le.mpr (by rw [hqd]; unfold qexp; omega)
    rw [pow2_add (F.p : Int) q, pow2_nat] at h2
    push_cast at h2 ⊢
    exact (h1.le.trans h2)
  rcases hle.lt_or_eq with hlt | heq
  · refine ⟨(rne (x / pow2 q)).toNat, q, ?_, by zify; rw [Int.toNat_of_nonneg h0]; exact hlt, hq⟩
    have : (((rne (x / pow2 q)).toNat : Int) : ℚ) = (rne (x / pow2 q) : ℚ) := by
      rw [Int.toNat_of_nonneg h0]
    show (rne (x / pow2 q) : ℚ) * pow2 q = _
    rw [← this]; push_cast; rfl
  · refine ⟨2 ^ (F.p - 1), q + 1, ?_, Nat.pow_lt_pow_right (by norm_num) (by omega), by omega⟩
    show (rne (x / pow2 q) : ℚ) * pow2 q = _
    rw [heq, pow2_succ]
    obtain ⟨k, hk⟩ : ∃ k, F.p = k + 1 := ⟨F.p - 1, by omega⟩
    rw [hk]; push_cast; ring_nf

theorem maxFin_pos : 0 < F.maxFin := by
  unfold maxFin
  apply mul_pos _ (pow2_pos _)
  have : (1 : Int) < 2 ^ F.p := by
    have h := F.p_ge
    have : (2:Nat)^1 ≤ 2 ^ F.p := Nat.pow_le_pow_right (by norm_num) (by omega)
    have h2 : ((2 : Nat) ^ F.p : Int) = (2 : Int) ^ F.p := by push_cast; rfl
    omega
  have h3 : (0 : Int) < 2 ^ F.p - 1 := by omega
  exact_mod_cast h3

theorem rep_of_repU {x : ℚ} (h : F.RepU x) (hx : x ≤ F.maxFin) : F.Rep x := by
  obtain ⟨m, e, hxe, hm, he⟩ := h
  have hp := F.p_ge
  by_cases hle : e ≤ F.emax - (F.p - 1)
  · exact ⟨m, e, hxe, hm, he, hle⟩
  · -- move the excess exponent into the mantissa
    set E := F.emax - ((F.p : Int) - 1) with hE
    obtain ⟨n, hn⟩ := pow2_mult (a := e) (q := E) (by omega)
    have hn0 : 0 < n := by
      have : (0 : ℚ) < n * pow2 E := by rw [← hn]; exact pow2_pos e
      have : (0 : ℚ) < n := by
        by_contra hc
        have := mul_nonpos_of_nonpos_of_nonneg (not_lt.mp hc) (pow2_pos E).le
        linarith
      exact_mod_cast this
    have hx2 : x = ((m * n : Int) : ℚ) * pow2 E := by push_cast; rw [mul_assoc, ← hn]; exact hxe
    have hle2 : (m * n : Int) ≤ 2 ^ F.p - 1 := by
      rw [hx2] at hx
      unfold maxFin at hx
      have := le_of_mul_le_mul_right hx (pow2_pos E)
      exact_mod_cast this
    have hnn : (0 : Int) ≤ m * n := mul_nonneg (by positivity) hn0.le
    refine ⟨(m * n : Int).toNat, E, ?_, ?_, ?_, le_rfl⟩
    · conv_lhs => rw [hx2]
      have : (((m * n : Int).toNat : Int) : ℚ) = ((m * n : Int) : ℚ) := by
        rw [Int.toNat_of_nonneg hnn]
      rw [← this]; push_cast; rfl
    · zify; rw [Int.toNat_of_nonneg hnn]; omega
    · unfold qmin; have := F.emin_le; have := F.emax_ge; omega

theorem Rep.repU {F : FFmt} {x : ℚ} (h : F.Rep x) : F.RepU x := by
  obtain ⟨m, e, a, b, c, _⟩ := h; exact ⟨m, e, a, b, c⟩

theorem Rep.nonneg {F : FFmt} {x : ℚ} (h : F.Rep x) : 0 ≤ x := by
  obtain ⟨m, e, a, _⟩ := h; rw [a]; exact mul_nonneg (by positivity) (pow2_pos e).le

theorem Rep.le_maxFin {F : FFmt} {x : ℚ} (h : F.Rep x) : x ≤ F.maxFin := by
  obtain ⟨m, e, a, b, _, d⟩ := h
  rw [a]; unfold maxFin
  have hm : (m : ℚ) ≤ ((2 ^ F.p - 1 : Int) : ℚ) := by
    have : (m : Int) ≤ 2 ^ F.p - 1 := by zify at b; omega
    exact_mod_cast this
  apply mul_le_mul hm (pow2_le.mpr d) (pow2_pos _).le (le_trans (by positivity) hm)

theorem rep_zero : F.Rep 0 := F.rep_of_repU ⟨0, F.qmin, by simp, by positivity, le_rfl⟩ F.maxFin_pos.le

theorem rep_rnd {x : ℚ} (h : 0 ≤ x) (hm : F.rnd x ≤ F.maxFin) : F.Rep (F.rnd x) :=
  F.rep_of_repU (F.repU_rnd h) hm

/-- `Rep` is exactly "fixed by rounding and within range". -/
theorem rep_iff (x : ℚ) : F.Rep x ↔ 0 ≤ x ∧ F.rnd x = x ∧ x ≤ F.maxFin := by
  constructor
  · intro h; exact ⟨h.nonneg, F.rnd_repU h.repU, h.le_maxFin⟩
  · rintro ⟨a, b, c⟩; rw [← b]; exact F.rep_rnd a (by rw [b]; exact c)

instance (x : ℚ) : Decidable (F.Rep x) := decidable_of_iff _ (F.rep_iff x).symm

end FFmt

/-- A floating-point value of format `F`. -/
inductive Flt (F : FFmt) where
  | nan
  | inf (neg : Bool)
  | fin (neg : Bool) (mag : ℚ) (h : F.Rep mag)
deriving DecidableEq

namespace Flt
variable {F : FFmt}

/-- positive or negative zero -/
def zero (neg : Bool) : Flt F := .fin neg 0 F.rep_zero

/-- Correctly rounded value with sign `neg` and exact magnitude `x` (round to nearest, ties to even,
overflow to infinity). -/
def round (neg : Bool) (x : ℚ) (hx : 0 ≤ x) : Flt F :=
  if h : F.rnd x ≤ F.maxFin then .fin neg (F.rnd x) (F.rep_rnd hx h) else .inf neg

/-- correctly rounded value of a rational (a literal, or an integer conversion); zero gives `+0.0` -/
def ofRat (x : ℚ) : Flt F := round (decide (x < 0)) |x| (abs_nonneg x)

/-- numerical value of a finite float -/
def sval (neg : Bool) (mag : ℚ) : ℚ := if neg then -mag else mag

/-- IEEE negation -/
def neg : Flt F → Flt F
  | .nan => .nan
  | .inf s => .inf (!s)
  | .fin s m h => .fin (!s) m h

/-- IEEE addition -/
def add : Flt F → Flt F → Flt F
  | .nan, _ => .nan
  | _, .nan => .nan
  | .inf s, .inf t => if s = t then .inf s else .nan
  | .inf s, .fin _ _ _ => .inf s
  | .fin _ _ _, .inf t => .inf t
  | .fin s a _, .fin t b _ =>
    let r := sval s a + sval t b
    if r = 0 then zero (s && t) else ofRat r

/-- IEEE subtraction -/
def sub (a b : Flt F) : Flt F := add a (neg b)

/-- IEEE multiplication -/
def mul : Flt F → Flt F → Flt F
  | .nan, _ => .nan
  | _, .nan => .nan
  | .inf s, .inf t => .inf (s ^^ t)
  | .inf s, .fin t b _ => if b = 0 then .nan else .inf (s ^^ t)
  | .fin s a _, .inf t => if a = 0 then .nan else .inf (s ^^ t)
  | .fin s a ha, .fin t b hb => round (s ^^ t) (a * b) (mul_nonneg ha.nonneg hb.nonneg)

/-- IEEE division -/
def div : Flt F → Flt F → Flt F
  | .nan, _ => .nan
  | _, .nan => .nan
  | .inf _, .inf _ => .nan
  | .inf s, .fin t _ _ => .inf (s ^^ t)
  | .fin s _ _, .inf t => zero (s ^^ t)
  | .fin s a ha, .fin t b hb =>
    if b = 0 then (if a = 0 then .nan else .inf (s ^^ t))
    else round (s ^^ t) (a / b) (div_nonneg ha.nonneg hb.nonneg)

/-- `%` on floats (C `fmod`): remainder of truncated division, sign of the dividend. The exact remainder
is always representable, so the rounding below never changes it (`Flt.rem_exact`). -/
def rem : Flt F → Flt F → Flt F
  | .nan, _ => .nan
  | _, .nan => .nan
  | .inf _, _ => .nan
  | .fin s a ha, .inf _ => .fin s a ha
  | .fin s a ha, .fin _ b hb =>
    if hb0 : b = 0 then .nan
    else round s (a - ⌊a / b⌋ * b) (by
      have hbp : 0 < b := lt_of_le_of_ne hb.nonneg (Ne.symm hb0)
      have := Int.floor_le (a / b)
      rw [le_div_iff₀ hbp] at this
      linarith)

/-- `PartialOrd::partial_cmp` -/
def pcmp : Flt F → Flt F → Option Ordering
  | .nan, _ => none
  | _, .nan => none
  | .inf s, .inf t => some (if s = t then .eq else if s then .lt else .gt)
  | .inf s, .fin _ _ _ => some (if s then .lt else .gt)
  | .fin _ _ _, .inf t => some (if t then .gt else .lt)
  | .fin s a _, .fin t b _ => some (compare (sval s a) (sval t b))

/-- `ToPrimitive::to_usize` of `num-traits` (not in the repository): `Some` of the truncated value iff
`-1 < x < 2^usizeBits`. -/
def toUsize [Cfg] : Flt F → Option Nat
  | .nan => none
  | .inf _ => none
  | .fin s a _ =>
    if s then (if a < 1 then some 0 else none)
    else if a < (usizeSize : ℚ) then some ⌊a⌋.toNat else none

/-- `x as usize`: saturating cast (NaN gives 0). -/
def asUsize [Cfg] : Flt F → Nat
  | .nan => 0
  | .inf s => if s then 0 else usizeSize - 1
  | .fin s a _ => if s then 0 else min ⌊a⌋.toNat (usizeSize - 1)

/-- `abs` -/
def abs : Flt F → Flt F
  | .nan => .nan
  | .inf _ => .inf false
  | .fin _ m h => .fin false m h

/-- Floats: IEEE operations never panic; `NumCast::from(usize)` is the rounding `as` cast. -/
instance [Cfg] : RNum (Flt F) where
  pcmp := pcmp
  zero := zero false
  one := ofRat 1
  add a b := .ok (add a b)
  sub a b := .ok (sub a b)
  mul a b := .ok (mul a b)
  div a b := .ok (div a b)
  rem a b := .ok (rem a b)
  ofUsize n := some (ofRat (n : ℚ))
  toUsize := toUsize

end Flt

/-- Rust `f64` -/
abbrev F64 := Flt FFmt.f64
/-- Rust `f32` -/
abbrev F32 := Flt FFmt.f32

/-- the `f64` nearest to a rational: models a float literal -/
abbrev f64 (x : ℚ) : F64 := Flt.ofRat x
abbrev f32 (x : ℚ) : F32 := Flt.ofRat x

end NdHist
