import Verif.Model.FloatSqrt
import Verif.Lemmas.Float
import Mathlib.Analysis.SpecialFunctions.Sqrt
import Mathlib.Data.Nat.Factorization.Basic
/-!
# The square root of a float is the correctly rounded root
-/
namespace NdHist

theorem isqrtLoop_spec (N : Nat) : ∀ i r, r * r ≤ N → N < (r + 2 ^ i) * (r + 2 ^ i) →
    isqrtLoop N i r * isqrtLoop N i r ≤ N ∧ N < (isqrtLoop N i r + 1) * (isqrtLoop N i r + 1)
  | 0, r, h1, h2 => ⟨h1, by simpa [isqrtLoop] using h2⟩
  | i + 1, r, h1, h2 => by
    unfold isqrtLoop
    apply isqrtLoop_spec N i
    · split
      · assumption
      · exact h1
    · split
      · rw [pow_succ] at h2
        have : r + 2 ^ i + 2 ^ i = r + 2 ^ i * 2 := by ring
        rw [this]; exact h2
      · next h => exact not_le.mp h

theorem isqrt_spec (N : Nat) : isqrt N * isqrt N ≤ N ∧ N < (isqrt N + 1) * (isqrt N + 1) := by
  apply isqrtLoop_spec
  · simp
  · have h : N < 2 ^ (N.log2 + 1) := Nat.lt_log2_self
    refine h.trans_le ?_
    rw [zero_add, ← pow_add]
    exact Nat.pow_le_pow_right (by norm_num) (by omega)

namespace FFmt
variable (F : FFmt)

theorem qmin_neg : F.qmin < 0 := by unfold qmin; have := F.p_ge; have := F.emin_le; omega

/-- values of the format that are not below a binade are multiples of its unit -/
theorem RepU.mult_qexp {F : FFmt} {z x : ℚ} (hz : F.RepU z) (h : pow2 (ilog2 x) ≤ z) : ∃ n : Nat, z = n * pow2 (F.qexp x) := by
  obtain ⟨m, e, hz, hm, he⟩ := hz
  have hze : pow2 (ilog2 x) < pow2 (e + F.p) := by
    refine h.trans_lt ?_
    rw [hz, pow2_add, mul_comm, pow2_nat]
    exact mul_lt_mul_of_pos_left (by exact_mod_cast hm) (pow2_pos e)
  have h1 := pow2_lt.1 hze
  have hq : F.qexp x ≤ e := by unfold qexp; unfold qmin at he; omega
  refine ⟨m * 2 ^ (e - F.qexp x).toNat, ?_⟩
  have : pow2 e = ((2 ^ (e - F.qexp x).toNat : Nat) : ℚ) * pow2 (F.qexp x) := by
    rw [← pow2_nat, ← pow2_add]; congr 1; omega
  rw [hz, this]; push_cast; ring

/-- rounding gives a nearest value of the format -/
theorem rnd_nearest {x z : ℚ} (hx : 0 ≤ x) (hz : F.RepU z) : |F.rnd x - x| ≤ |z - x| := by
  rcases hx.eq_or_lt with rfl | hx
  · simp [rnd_zero]
  have hp := pow2_pos (F.qexp x)
  obtain ⟨hl, hu⟩ := ilog2_spec hx
  -- the neighbours of `x` on the grid of its binade
  set f := ⌊x / pow2 (F.qexp x)⌋ with hf
  have f1 : (f : ℚ) * pow2 (F.qexp x) ≤ x := by
    have := Int.floor_le (x / pow2 (F.qexp x)); rwa [le_div_iff₀ hp] at this
  have f2 : x < ((f : ℚ) + 1) * pow2 (F.qexp x) := by
    have := Int.lt_floor_add_one (x / pow2 (F.qexp x)); rwa [div_lt_iff₀ hp] at this
  have hn : |F.rnd x - x| ≤ x - f * pow2 (F.qexp x) ∧ |F.rnd x - x| ≤ ((f : ℚ) + 1) * pow2 (F.qexp x) - x := by
    have e : F.rnd x = (rne (x / pow2 (F.qexp x)) : ℚ) * pow2 (F.qexp x) := rfl
    have hd : x = (x / pow2 (F.qexp x)) * pow2 (F.qexp x) := by field_simp
    rcases rne_cases (x / pow2 (F.qexp x)) with ⟨h1, h2⟩ | ⟨h1, h2⟩
    · rw [e, h1, ← hf]
      rw [← hf] at h2
      have h3 : x - f * pow2 (F.qexp x) ≤ 1 / 2 * pow2 (F.qexp x) := by
        calc x - f * pow2 (F.qexp x) = (x / pow2 (F.qexp x) - f) * pow2 (F.qexp x) := by rw [sub_mul, ← hd]
          _ ≤ _ := mul_le_mul_of_nonneg_right h2 hp.le
      rw [abs_of_nonpos (by linarith)]
      constructor <;> linarith
    · rw [e, h1, ← hf]
      rw [← hf] at h2
      have h3 : 1 / 2 * pow2 (F.qexp x) ≤ x - f * pow2 (F.qexp x) := by
        calc _ ≤ (x / pow2 (F.qexp x) - f) * pow2 (F.qexp x) := mul_le_mul_of_nonneg_right h2 hp.le
          _ = x - f * pow2 (F.qexp x) := by rw [sub_mul, ← hd]
      push_cast
      rw [abs_of_nonneg (by linarith)]
      constructor <;> linarith
  rcases le_or_gt z x with hzx | hzx
  · rw [abs_of_nonpos (sub_nonpos.2 hzx)]
    have : z ≤ f * pow2 (F.qexp x) := by
      by_cases hb : F.emin ≤ ilog2 x
      · rcases le_or_gt (pow2 (ilog2 x)) z with hz1 | hz1
        · obtain ⟨n, hn⟩ := hz.mult_qexp hz1
          rw [hn] at hzx ⊢
          have : (n : ℤ) ≤ f := Int.le_floor.2 (by rw [le_div_iff₀ hp]; push_cast; exact hzx)
          have : (n : ℚ) ≤ f := by exact_mod_cast this
          exact mul_le_mul_of_nonneg_right this hp.le
        · obtain ⟨n, hn⟩ := pow2_mult (F.qexp_le_ilog x hb)
          rw [hn] at hl hz1
          have : n ≤ f := Int.le_floor.2 (by rw [le_div_iff₀ hp]; exact hl)
          have : (n : ℚ) ≤ f := by exact_mod_cast this
          exact hz1.le.trans (mul_le_mul_of_nonneg_right this hp.le)
      · have hq : F.qexp x = F.qmin := by unfold qexp qmin; omega
        obtain ⟨n, hn⟩ := hz.mult
        rw [hn] at hzx ⊢
        rw [hq] at hp hf ⊢
        rw [hf]
        have : (n : ℤ) ≤ ⌊x / pow2 F.qmin⌋ := Int.le_floor.2 (by rw [le_div_iff₀ hp]; push_cast; exact hzx)
        have : (n : ℚ) ≤ ⌊x / pow2 F.qmin⌋ := by exact_mod_cast this
        exact mul_le_mul_of_nonneg_right this hp.le
    linarith [hn.1]
  · rw [abs_of_pos (sub_pos.2 hzx)]
    have : ((f : ℚ) + 1) * pow2 (F.qexp x) ≤ z := by
      by_cases hb : F.emin ≤ ilog2 x
      · obtain ⟨n, hn⟩ := hz.mult_qexp (hl.trans hzx.le)
        rw [hn] at hzx ⊢
        have : f < (n : ℤ) := Int.floor_lt.2 (by rw [div_lt_iff₀ hp]; push_cast; exact hzx)
        have : (f : ℚ) + 1 ≤ n := by exact_mod_cast this
        exact mul_le_mul_of_nonneg_right this hp.le
      · have hq : F.qexp x = F.qmin := by unfold qexp qmin; omega
        obtain ⟨n, hn⟩ := hz.mult
        rw [hn] at hzx ⊢
        rw [hq] at hp hf ⊢
        rw [hf]
        have : ⌊x / pow2 F.qmin⌋ < (n : ℤ) := Int.floor_lt.2 (by rw [div_lt_iff₀ hp]; push_cast; exact hzx)
        have : (⌊x / pow2 F.qmin⌋ : ℚ) + 1 ≤ n := by exact_mod_cast this
        exact mul_le_mul_of_nonneg_right this hp.le
    linarith [hn.2]

/-- the integer the root is taken of -/
theorem sqrtInt_eq {x : ℚ} (h : F.RepU x) : x = (F.sqrtInt x : ℚ) * (pow2 (F.qmin - 1) * pow2 (F.qmin - 1)) := by
  obtain ⟨n, hn⟩ := h.mult
  have hq := F.qmin_neg
  have e : pow2 (2 * (F.qmin - 1)) = pow2 (F.qmin - 1) * pow2 (F.qmin - 1) := by rw [← pow2_add]; congr 1; ring
  have hk : pow2 F.qmin = ((2 ^ (2 - F.qmin).toNat : Nat) : ℚ) * pow2 (2 * (F.qmin - 1)) := by
    rw [← pow2_nat, ← pow2_add]; congr 1; omega
  have hd : x / pow2 (2 * (F.qmin - 1)) = ((n * 2 ^ (2 - F.qmin).toNat : Nat) : ℚ) := by
    rw [div_eq_iff (pow2_ne _), hn, hk]; push_cast; ring
  have hs : F.sqrtInt x = n * 2 ^ (2 - F.qmin).toNat := by
    unfold sqrtInt; rw [hd, Rat.num_natCast, Int.toNat_natCast]
  rw [hs, ← e, ← hd, div_mul_cancel₀ _ (pow2_ne _)]

/-- the unit: half of the smallest subnormal -/
abbrev hu : ℚ := pow2 (F.qmin - 1)

theorem hu_pos : 0 < F.hu := pow2_pos _

theorem sqrt_eq {x : ℚ} (h : F.RepU x) : √((x : ℚ) : ℝ) = √(F.sqrtInt x : ℝ) * (F.hu : ℝ) := by
  have hp : (0 : ℝ) < (F.hu : ℝ) := by exact_mod_cast F.hu_pos
  have : ((x : ℚ) : ℝ) = (F.sqrtInt x : ℝ) * ((F.hu : ℝ) * (F.hu : ℝ)) := by
    have := congrArg (fun q : ℚ => (q : ℝ)) (F.sqrtInt_eq h)
    push_cast at this
    exact this
  rw [this, Real.sqrt_mul (Nat.cast_nonneg _), Real.sqrt_mul_self hp.le]

/-- the argument of the rounding and the real root are on the same side of every multiple of the unit -/
theorem mult_le_sqrtArg {x : ℚ} (h : F.RepU x) (k : ℤ) : (k : ℚ) * F.hu ≤ F.sqrtArg x ↔ (((k : ℚ) * F.hu : ℚ) : ℝ) ≤ √((x : ℚ) : ℝ) := by
  have hp : (0 : ℝ) < (F.hu : ℝ) := by exact_mod_cast F.hu_pos
  obtain ⟨r1, r2⟩ := isqrt_spec (F.sqrtInt x)
  rw [F.sqrt_eq h]
  push_cast
  rw [mul_le_mul_iff_left₀ hp]
  unfold sqrtArg
  simp only []
  rw [mul_le_mul_iff_left₀ F.hu_pos]
  generalize F.sqrtInt x = N at *
  generalize isqrt N = r at *
  constructor
  · intro hk
    have hkr : k ≤ r := by
      have : (k : ℚ) < r + 1 := lt_of_le_of_lt hk (by split <;> norm_num)
      have : k < (r : ℤ) + 1 := by exact_mod_cast this
      omega
    have : (k : ℝ) ≤ r := by exact_mod_cast hkr
    refine this.trans (Real.le_sqrt_of_sq_le ?_)
    rw [pow_two]; exact_mod_cast r1
  · intro hk
    have h0 : √(N : ℝ) < r + 1 := by
      rw [Real.sqrt_lt' (by positivity), pow_two]; exact_mod_cast r2
    have hkr : k ≤ r := by
      have : (k : ℝ) < r + 1 := lt_of_le_of_lt hk h0
      have : k < (r : ℤ) + 1 := by exact_mod_cast this
      omega
    have : (k : ℚ) ≤ r := by exact_mod_cast hkr
    refine this.trans ?_
    split <;> norm_num

theorem sqrtArg_le_mult {x : ℚ} (h : F.RepU x) (k : ℤ) : F.sqrtArg x ≤ (k : ℚ) * F.hu ↔ √((x : ℚ) : ℝ) ≤ (((k : ℚ) * F.hu : ℚ) : ℝ) := by
  have hp : (0 : ℝ) < (F.hu : ℝ) := by exact_mod_cast F.hu_pos
  obtain ⟨r1, r2⟩ := isqrt_spec (F.sqrtInt x)
  rw [F.sqrt_eq h]
  push_cast
  rw [mul_le_mul_iff_left₀ hp]
  unfold sqrtArg
  simp only []
  rw [mul_le_mul_iff_left₀ F.hu_pos]
  generalize F.sqrtInt x = N at *
  generalize isqrt N = r at *
  by_cases hN : r * r = N
  · have : √(N : ℝ) = r := by rw [← hN]; push_cast; exact Real.sqrt_mul_self (Nat.cast_nonneg r)
    rw [this]
    simp only [hN, if_true, add_zero]
    constructor <;> intro hk <;> exact_mod_cast hk
  · simp only [hN, if_false]
    have h1 : (r : ℝ) < √(N : ℝ) := by
      apply Real.lt_sqrt_of_sq_lt
      rw [pow_two]; exact_mod_cast lt_of_le_of_ne r1 hN
    have h2 : √(N : ℝ) < r + 1 := by
      rw [Real.sqrt_lt' (by positivity), pow_two]; exact_mod_cast r2
    constructor
    · intro hk
      have : (r : ℚ) < k := by linarith
      have : (r : ℤ) < k := by exact_mod_cast this
      have : (r : ℤ) + 1 ≤ k := this
      have : (r : ℝ) + 1 ≤ k := by exact_mod_cast this
      linarith
    · intro hk
      have : (r : ℝ) < k := by linarith
      have : (r : ℤ) < k := by exact_mod_cast this
      have : (r : ℤ) + 1 ≤ k := this
      have : (r : ℚ) + 1 ≤ k := by exact_mod_cast this
      linarith

/-- values of the format are even multiples of the unit -/
theorem RepU.even_hu {F : FFmt} {z : ℚ} (h : F.RepU z) : ∃ k : ℤ, z = 2 * k * F.hu := by
  obtain ⟨n, hn⟩ := h.mult
  have : pow2 F.qmin = 2 * F.hu := by rw [← pow2_succ]; congr 1; omega
  exact ⟨n, by rw [hn, this]; push_cast; ring⟩

theorem nearer_iff {y z a : ℝ} (h : y < z) : |y - a| ≤ |z - a| ↔ a ≤ (y + z) / 2 := by
  rw [← sq_le_sq]
  constructor <;> intro hh <;> nlinarith

theorem rnd_sqrtArg_nearest {x z : ℚ} (hx : F.RepU x) (hz : F.RepU z) :
    |((F.rnd (F.sqrtArg x) : ℚ) : ℝ) - √((x : ℚ) : ℝ)| ≤ |((z : ℚ) : ℝ) - √((x : ℚ) : ℝ)| := by
  have hn := F.rnd_nearest (F.sqrtArg_nonneg x) hz
  have hy := F.repU_rnd (F.sqrtArg_nonneg x)
  generalize F.rnd (F.sqrtArg x) = y at *
  obtain ⟨a, ha⟩ := hy.even_hu
  obtain ⟨b, hb⟩ := hz.even_hu
  have hm : (y + z) / 2 = ((a + b : ℤ) : ℚ) * F.hu := by rw [ha, hb]; push_cast; ring
  rcases lt_trichotomy y z with h | h | h
  · have hR : ((y : ℚ) : ℝ) < ((z : ℚ) : ℝ) := by exact_mod_cast h
    rw [nearer_iff hR]
    have h1 : F.sqrtArg x ≤ (y + z) / 2 := by
      by_contra hc
      push Not at hc
      rw [← sq_le_sq] at hn
      nlinarith
    rw [hm] at h1
    have := (F.sqrtArg_le_mult hx (a + b)).1 h1
    rw [← hm] at this
    push_cast at this
    exact this
  · rw [h]
  · have hR : ((z : ℚ) : ℝ) < ((y : ℚ) : ℝ) := by exact_mod_cast h
    have h1 : (y + z) / 2 ≤ F.sqrtArg x := by
      by_contra hc
      push Not at hc
      rw [← sq_le_sq] at hn
      nlinarith
    rw [hm] at h1
    have := (F.mult_le_sqrtArg hx (a + b)).1 h1
    rw [← hm] at this
    push_cast at this
    rw [← sq_le_sq]
    nlinarith

/-- a root that is a multiple of the unit is a value of the format -/
theorem repU_of_sq {m : ℚ} {k : ℕ} (hm : m = k * F.hu) (h : F.RepU (m * m)) : F.RepU m := by
  rcases Nat.eq_zero_or_pos k with rfl | hk
  · simp at hm; rw [hm]; exact ⟨0, F.qmin, by simp, by positivity, le_rfl⟩
  obtain ⟨i, o, ho, hko⟩ := Nat.exists_eq_two_pow_mul_odd hk.ne'
  have hj : m = (o : ℚ) * pow2 (i + (F.qmin - 1)) := by
    rw [hm, hko, pow2_add, pow2_nat]; push_cast; ring
  set j : ℤ := i + (F.qmin - 1) with hjd
  obtain ⟨n, e, hn, hnp, he⟩ := h
  have hmm : ((o * o : ℕ) : ℚ) * pow2 (2 * j) = (n : ℚ) * pow2 e := by
    rw [← hn, hj]; have : pow2 (2 * j) = pow2 j * pow2 j := by rw [← pow2_add]; congr 1; ring
    rw [this]; push_cast; ring
  have hodd : Odd (o * o) := ho.mul ho
  have h2 : e ≤ 2 * j := by
    by_contra hc
    push Not at hc
    have : pow2 e = ((2 ^ (e - 2 * j).toNat : ℕ) : ℚ) * pow2 (2 * j) := by rw [← pow2_nat, ← pow2_add]; congr 1; omega
    rw [this, ← mul_assoc] at hmm
    have := mul_right_cancel₀ (pow2_ne _) hmm
    have h3 : o * o = n * 2 ^ (e - 2 * j).toNat := by exact_mod_cast this
    have h4 : (e - 2 * j).toNat = (e - 2 * j).toNat - 1 + 1 := by omega
    rw [h4, pow_succ, ← mul_assoc] at h3
    rw [h3] at hodd
    exact (Nat.not_odd_iff_even.2 (Even.mul_left even_two _)) hodd
  have h3 : o * o ≤ n := by
    have : pow2 (2 * j) = ((2 ^ (2 * j - e).toNat : ℕ) : ℚ) * pow2 e := by rw [← pow2_nat, ← pow2_add]; congr 1; omega
    rw [this, ← mul_assoc] at hmm
    have := mul_right_cancel₀ (pow2_ne _) hmm
    have h3 : o * o * 2 ^ (2 * j - e).toNat = n := by exact_mod_cast this
    rw [← h3]
    exact Nat.le_mul_of_pos_right _ (by positivity)
  have ho0 : 0 < o := ho.pos
  refine ⟨o, j, hj, lt_of_le_of_lt (Nat.le_mul_of_pos_right o ho0) (lt_of_le_of_lt h3 hnp), ?_⟩
  have := F.qmin_neg
  omega

/-- there is only one nearest value -/
theorem rnd_sqrtArg_unique {x z : ℚ} (hx : F.RepU x) (hz : F.RepU z)
    (h : |((z : ℚ) : ℝ) - √((x : ℚ) : ℝ)| ≤ |((F.rnd (F.sqrtArg x) : ℚ) : ℝ) - √((x : ℚ) : ℝ)|) : z = F.rnd (F.sqrtArg x) := by
  have hn := fun w hw => F.rnd_sqrtArg_nearest (z := w) hx hw
  have hy := F.repU_rnd (F.sqrtArg_nonneg x)
  have hx0 : 0 ≤ x := by obtain ⟨m, e, a, _⟩ := hx; rw [a]; exact mul_nonneg (by positivity) (pow2_pos e).le
  generalize F.rnd (F.sqrtArg x) = y at *
  by_contra hne
  obtain ⟨a, ha⟩ := hy.even_hu
  obtain ⟨b, hb⟩ := hz.even_hu
  have heq := le_antisymm h (hn z hz)
  have hne' : ((z : ℚ) : ℝ) ≠ ((y : ℚ) : ℝ) := by exact_mod_cast hne
  have hs : √((x : ℚ) : ℝ) = (((y + z) / 2 : ℚ) : ℝ) := by
    rcases abs_eq_abs.1 heq with h1 | h1
    · exact absurd (by linarith) hne'
    · push_cast; linarith
  set m := (y + z) / 2 with hm
  have hm0 : 0 ≤ m := by
    have : (0 : ℝ) ≤ ((m : ℚ) : ℝ) := by rw [← hs]; exact Real.sqrt_nonneg _
    exact_mod_cast this
  have hmm : m * m = x := by
    have : ((m * m : ℚ) : ℝ) = ((x : ℚ) : ℝ) := by
      push_cast; rw [← hs]; exact Real.mul_self_sqrt (by exact_mod_cast hx0)
    exact_mod_cast this
  have hk : m = ((a + b).toNat : ℕ) * F.hu := by
    have h1 : m = ((a + b : ℤ) : ℚ) * F.hu := by rw [hm, ha, hb]; push_cast; ring
    have h2 : 0 ≤ a + b := by
      have : (0 : ℚ) ≤ ((a + b : ℤ) : ℚ) := by
        by_contra hc
        push Not at hc
        have := mul_neg_of_neg_of_pos hc F.hu_pos
        rw [← h1] at this; linarith
      exact_mod_cast this
    rw [h1]; congr 1
    have : (((a + b).toNat : ℤ) : ℚ) = ((a + b : ℤ) : ℚ) := by rw [Int.toNat_of_nonneg h2]
    rw [← this]; push_cast; rfl
  have hrep : F.RepU m := F.repU_of_sq hk (by rw [hmm]; exact hx)
  have h0 := hn m hrep
  rw [hs, sub_self, abs_zero] at h0
  have h1 := abs_eq_zero.1 (le_antisymm h0 (abs_nonneg _))
  have h2 : y = m := by
    have : ((y : ℚ) : ℝ) = ((m : ℚ) : ℝ) := by linarith
    exact_mod_cast this
  rw [hm] at h2
  exact hne (by linarith)

/-- the relative error of the root -/
theorem rnd_sqrtArg_rel {x : ℚ} (hx : F.RepU x) (hn : ((pow2 F.emin : ℚ) : ℝ) ≤ √((x : ℚ) : ℝ)) :
    |((F.rnd (F.sqrtArg x) : ℚ) : ℝ) - √((x : ℚ) : ℝ)| ≤ √((x : ℚ) : ℝ) * ((pow2 (-(F.p : ℤ)) : ℚ) : ℝ) := by
  have hp := F.p_ge
  have mult : ∀ {c : ℤ}, F.qmin - 1 ≤ c → ∃ k : ℤ, pow2 c = k * F.hu := fun {c} h => pow2_mult h
  have he : pow2 F.emin ≤ F.sqrtArg x := by
    obtain ⟨k, hk⟩ := mult (c := F.emin) (by unfold qmin; omega)
    rw [hk] at hn ⊢
    exact (F.mult_le_sqrtArg hx k).2 hn
  have h0 : 0 < F.sqrtArg x := (pow2_pos _).trans_le he
  obtain ⟨l1, l2⟩ := ilog2_spec h0
  have hl : F.emin ≤ ilog2 (F.sqrtArg x) := by
    have := pow2_lt.1 (he.trans_lt l2); omega
  have hq : F.qexp (F.sqrtArg x) = ilog2 (F.sqrtArg x) - (F.p - 1) := by unfold qexp; omega
  have hl' : ((pow2 (ilog2 (F.sqrtArg x)) : ℚ) : ℝ) ≤ √((x : ℚ) : ℝ) := by
    obtain ⟨k, hk⟩ := mult (c := ilog2 (F.sqrtArg x)) (by unfold qmin; omega)
    rw [hk] at l1 ⊢
    exact (F.mult_le_sqrtArg hx k).1 l1
  have hab := F.rnd_abs (F.sqrtArg x)
  obtain ⟨a, ha⟩ := (F.repU_rnd (F.sqrtArg_nonneg x)).even_hu
  generalize F.rnd (F.sqrtArg x) = y at *
  have e2 : pow2 (F.qexp (F.sqrtArg x)) / 2 = pow2 (F.qexp (F.sqrtArg x) - 1) := by rw [pow2_sub, pow2_one]
  rw [e2] at hab
  obtain ⟨k, hk⟩ := mult (c := F.qexp (F.sqrtArg x) - 1) (by have := F.qexp_ge (F.sqrtArg x); omega)
  have hlo : (((2 * a - k : ℤ) : ℚ) * F.hu) ≤ F.sqrtArg x := by
    have := (abs_le.1 hab).2
    rw [ha, hk] at this; push_cast; linarith
  have hhi : F.sqrtArg x ≤ ((2 * a + k : ℤ) : ℚ) * F.hu := by
    have := (abs_le.1 hab).1
    rw [ha, hk] at this; push_cast; linarith
  have hlo' := (F.mult_le_sqrtArg hx _).1 hlo
  have hhi' := (F.sqrtArg_le_mult hx _).1 hhi
  have hkR : ((pow2 (F.qexp (F.sqrtArg x) - 1) : ℚ) : ℝ) = (k : ℝ) * (F.hu : ℝ) := by rw [hk]; push_cast; rfl
  have hfin : ((pow2 (F.qexp (F.sqrtArg x) - 1) : ℚ) : ℝ) ≤ √((x : ℚ) : ℝ) * ((pow2 (-(F.p : ℤ)) : ℚ) : ℝ) := by
    have : pow2 (F.qexp (F.sqrtArg x) - 1) = pow2 (ilog2 (F.sqrtArg x)) * pow2 (-(F.p : ℤ)) := by
      rw [← pow2_add, hq]; congr 1; ring
    rw [this]; push_cast
    exact mul_le_mul_of_nonneg_right hl' (by exact_mod_cast (pow2_pos _).le)
  refine le_trans ?_ hfin
  rw [hkR, abs_le, ha]
  push_cast at hlo' hhi' ⊢
  constructor <;> linarith

theorem sqrtArg_mono {x x' : ℚ} (hx : F.RepU x) (hx' : F.RepU x') (h : x ≤ x') : F.sqrtArg x ≤ F.sqrtArg x' := by
  have hN : F.sqrtInt x ≤ F.sqrtInt x' := by
    rw [F.sqrtInt_eq hx, F.sqrtInt_eq hx'] at h
    have := le_of_mul_le_mul_right h (mul_pos F.hu_pos F.hu_pos)
    exact_mod_cast this
  obtain ⟨a1, a2⟩ := isqrt_spec (F.sqrtInt x)
  obtain ⟨b1, b2⟩ := isqrt_spec (F.sqrtInt x')
  unfold sqrtArg
  simp only []
  apply mul_le_mul_of_nonneg_right _ F.hu_pos.le
  generalize F.sqrtInt x = N at *
  generalize F.sqrtInt x' = N' at *
  generalize isqrt N = r at *
  generalize isqrt N' = r' at *
  have hr : r < r' + 1 := by
    by_contra hc
    have := Nat.mul_le_mul (not_lt.1 hc) (not_lt.1 hc)
    omega
  rcases (Nat.lt_succ_iff.1 hr).lt_or_eq with h1 | h1
  · have : (r : ℚ) + 1 ≤ r' := by exact_mod_cast h1
    split <;> split <;> linarith
  · subst h1
    by_cases h2 : r * r = N'
    · have : r * r = N := le_antisymm a1 (by rw [h2]; exact hN)
      simp [this, ← h2]
    · simp only [h2, if_false]; split <;> norm_num

theorem sqrtArg_le_maxFin {x : ℚ} (hx : F.Rep x) : F.rnd (F.sqrtArg x) ≤ F.maxFin := by
  apply F.rnd_le_maxFin (F.sqrtArg_nonneg x)
  obtain ⟨k, hk⟩ := F.maxFin_rep.repU.even_hu
  have h1 : (1 : ℚ) ≤ F.maxFin := by
    have := (F.rep_nat (n := 1) (Nat.one_le_two_pow)).le_maxFin
    simpa using this
  have hk' : F.maxFin = ((2 * k : ℤ) : ℚ) * F.hu := by rw [hk]; push_cast; ring
  rw [hk']
  apply (F.sqrtArg_le_mult hx.repU _).2
  rw [← hk']
  have hxm := hx.le_maxFin
  rw [Real.sqrt_le_left (by exact_mod_cast (zero_le_one.trans h1))]
  have : x ≤ F.maxFin ^ 2 := by nlinarith
  exact_mod_cast this

end FFmt
end NdHist
