import Verif.SpecRoot
import Verif.Lemmas.FloatSqrt
import Verif.Props.FloatVar
/-!
# C72: standard deviations of float bins
-/
namespace NdHist
open RNum

section
variable {F : FFmt}

namespace Flt

theorem sqrt_fin {m : ℚ} (h : F.Rep m) (hm : m ≠ 0) :
    sqrt (.fin false m h) = .fin false (F.rnd (F.sqrtArg m)) (F.rep_rnd (F.sqrtArg_nonneg m) (F.sqrtArg_le_maxFin h)) := by
  unfold sqrt
  simp only [hm, if_false, Bool.false_eq_true]
  unfold round
  rw [dif_pos (F.sqrtArg_le_maxFin h)]

theorem sqrt_pos {m : ℚ} (h : F.Rep m) (hm : m ≠ 0) : 0 < F.rnd (F.sqrtArg m) := by
  have h0 : 0 < m := lt_of_le_of_ne h.nonneg (Ne.symm hm)
  have hq := F.qmin_neg
  obtain ⟨n, hn⟩ := h.repU.mult
  have hn0 : n ≠ 0 := by rintro rfl; simp at hn; exact hm hn
  have hmq : pow2 F.qmin ≤ m := by
    rw [hn]; exact le_mul_of_one_le_left (pow2_pos _).le (by exact_mod_cast Nat.one_le_iff_ne_zero.2 hn0)
  have h1 : pow2 F.qmin ≤ F.sqrtArg m := by
    have e : pow2 F.qmin = ((2 : ℤ) : ℚ) * F.hu := by rw [show F.qmin = (F.qmin - 1) + 1 by omega, pow2_succ]; push_cast; rfl
    rw [e]
    apply (F.mult_le_sqrtArg h.repU 2).2
    rw [← e]
    apply Real.le_sqrt_of_sq_le
    have : pow2 F.qmin ^ 2 ≤ m := by
      refine le_trans ?_ hmq
      have : pow2 F.qmin ≤ 1 := by rw [← pow2_zero]; exact pow2_le.2 hq.le
      have := pow2_pos F.qmin
      nlinarith
    exact_mod_cast this
  have h2 : F.RepU (pow2 F.qmin) := ⟨1, F.qmin, by simp, Nat.one_lt_two_pow (by have := F.p_ge; omega), le_rfl⟩
  have h3 := F.rnd_mono (pow2_pos _).le h1
  rw [F.rnd_repU h2] at h3
  exact (pow2_pos _).trans_le h3

theorem _root_.NdHist.sqrt_nearest_all {m : ℚ} (h : F.RepU m) {z : Flt F} (hz : z.isFin) :
    z.val = F.rnd (F.sqrtArg m) ∨ |((F.rnd (F.sqrtArg m) : ℚ) : ℝ) - √((m : ℚ) : ℝ)| < |(z.val : ℝ) - √((m : ℚ) : ℝ)| := by
  rcases le_or_gt 0 z.val with hz0 | hz0
  · have hzr : F.RepU z.val := by have := z.val_rep.repU; rwa [abs_of_nonneg hz0] at this
    rcases (F.rnd_sqrtArg_nearest h hzr).lt_or_eq with hl | he
    · exact .inr hl
    · exact .inl (F.rnd_sqrtArg_unique h hzr he.ge)
  · right
    have := F.rnd_sqrtArg_nearest h (z := 0) F.rep_zero.repU
    refine this.trans_lt ?_
    have hs := Real.sqrt_nonneg ((m : ℚ) : ℝ)
    have hzR : ((z.val : ℚ) : ℝ) < 0 := by exact_mod_cast hz0
    rw [abs_of_nonpos (by push_cast; linarith), abs_of_nonpos (by linarith)]
    push_cast; linarith

/-- what `f64::sqrt` computes is the square root in the sense of the specification -/
theorem sqrt_isRoot (v : Flt F) : IsRoot v (sqrt v) := by
  cases v with
  | nan => exact .bad (.inl rfl)
  | inf s => cases s with
    | false => exact .inf
    | true => exact .bad (.inr (.inl rfl))
  | fin s m h =>
    by_cases hm : m = 0
    · subst hm
      have : sqrt (.fin s 0 h : Flt F) = .fin s 0 h := by simp [sqrt]
      rw [this]; exact .zero s
    · have h0 : 0 < m := lt_of_le_of_ne h.nonneg (Ne.symm hm)
      cases s with
      | true =>
        have : sqrt (.fin true m h : Flt F) = .nan := by simp [sqrt, hm]
        rw [this]
        refine .bad (.inr (.inr ⟨trivial, ?_⟩))
        simp [val, sval, h0]
      | false =>
        rw [sqrt_fin h hm]
        refine .pos trivial (by simpa [val, sval] using h0) (by simpa [val, sval] using sqrt_pos h hm) ⟨trivial, ?_⟩
        intro z hz
        have e1 : (fin false m h : Flt F).val = m := rfl
        have e2 : ∀ hh, (fin false (F.rnd (F.sqrtArg m)) hh : Flt F).val = F.rnd (F.sqrtArg m) := fun _ => rfl
        rw [e1, e2]
        exact sqrt_nearest_all h.repU hz

theorem sqrt_nan_iff (v : Flt F) : sqrt v = .nan ↔ v = .nan ∨ v = .inf true ∨ v.isFin ∧ v.val < 0 := by
  constructor
  · intro h
    have hr := sqrt_isRoot v
    rw [h] at hr
    cases hr with
    | bad h => exact h
    | pos _ _ hy _ => simp [val] at hy
  · rintro (rfl | rfl | ⟨h, h0⟩)
    · rfl
    · rfl
    · cases v with
      | nan => rfl
      | inf s => exact h.elim
      | fin s m hm =>
        have := hm.nonneg
        cases s with
        | true =>
          simp [val, sval] at h0
          simp [sqrt, h0.ne']
        | false => simp [val, sval] at h0; linarith

/-- finite and non-negative: the root is finite, and monotone -/
theorem sqrt_val {v : Flt F} (h : v.isFin) (h0 : 0 ≤ v.val) : (sqrt v).isFin ∧ 0 ≤ (sqrt v).val ∧ (sqrt v).val = F.rnd (F.sqrtArg v.val) := by
  cases v with
  | nan => exact h.elim
  | inf => exact h.elim
  | fin s m hm =>
    by_cases hz : m = 0
    · subst hz
      have : sqrt (.fin s 0 hm : Flt F) = .fin s 0 hm := by simp [sqrt]
      rw [this]
      have e : (fin s 0 hm : Flt F).val = 0 := by cases s <;> simp [val, sval]
      have a : F.sqrtArg 0 = 0 := by
        have : F.sqrtInt 0 = 0 := by simp [FFmt.sqrtInt]
        have h1 : isqrt 0 = 0 := by decide
        simp [FFmt.sqrtArg, this, h1]
      rw [e, a, F.rnd_zero]
      exact ⟨trivial, le_rfl, rfl⟩
    · cases s with
      | true =>
        have := hm.nonneg
        simp only [val, sval, if_true] at h0
        exact absurd (le_antisymm (by linarith) this) hz
      | false =>
        rw [sqrt_fin hm hz]
        exact ⟨trivial, (sqrt_pos hm hz).le, rfl⟩

theorem sqrt_mono {v v' : Flt F} (h : v.isFin) (h' : v'.isFin) (h0 : 0 ≤ v.val) (hle : v.val ≤ v'.val) : (sqrt v).val ≤ (sqrt v').val := by
  rw [(sqrt_val h h0).2.2, (sqrt_val h' (h0.trans hle)).2.2]
  have r : ∀ {w : Flt F}, 0 ≤ w.val → F.RepU w.val := by
    intro w hw; have := w.val_rep.repU; rwa [abs_of_nonneg hw] at this
  exact F.rnd_mono (F.sqrtArg_nonneg _) (F.sqrtArg_mono (r h0) (r (h0.trans hle)) hle)

/-- the relative error is at most `u` for formats (like `f32` and `f64`) whose roots are all in the normal range -/
theorem sqrt_err (hF : 2 * F.emin ≤ F.qmin) {v : Flt F} (h : v.isFin) (h0 : 0 ≤ v.val) :
    |((sqrt v).val : ℝ) - √(v.val : ℝ)| ≤ √(v.val : ℝ) * (F.u : ℝ) := by
  rw [(sqrt_val h h0).2.2]
  have hr : F.RepU v.val := by have := v.val_rep.repU; rwa [abs_of_nonneg h0] at this
  rcases h0.eq_or_lt with he | hp
  · have := F.rnd_sqrtArg_nearest hr (z := 0) F.rep_zero.repU
    rw [← he] at this ⊢
    simp only [Rat.cast_zero, Real.sqrt_zero, sub_self, abs_zero, zero_mul] at this ⊢
    exact this
  · apply F.rnd_sqrtArg_rel hr
    apply Real.le_sqrt_of_sq_le
    obtain ⟨n, hn⟩ := hr.mult
    have hn0 : n ≠ 0 := by rintro rfl; simp at hn; linarith
    have hmq : pow2 F.qmin ≤ v.val := by
      rw [hn]; exact le_mul_of_one_le_left (pow2_pos _).le (by exact_mod_cast Nat.one_le_iff_ne_zero.2 hn0)
    have : pow2 F.emin ^ 2 ≤ v.val := by
      have e : pow2 F.emin ^ 2 = pow2 (2 * F.emin) := by rw [pow_two, ← pow2_add]; congr 1; ring
      rw [e]; exact (pow2_le.2 hF).trans hmq
    exact_mod_cast this
end Flt

/-- error of a root when the number itself has an error -/
theorem root_err (hF : 2 * F.emin ≤ F.qmin) {v : Flt F} (h : v.isFin) (h0 : 0 ≤ v.val) {s d : ℝ} (hs : 0 ≤ s) (hd : |(v.val : ℝ) - s| ≤ d) :
    |((Flt.sqrt v).val : ℝ) - √s| ≤ F.u * √s + (1 + F.u) * √d ∧
    |((Flt.sqrt v).val : ℝ) - √s| * √s ≤ F.u * s + (1 + F.u) * d := by
  have e1 := Flt.sqrt_err hF h h0
  have hv : (0 : ℝ) ≤ (v.val : ℝ) := by exact_mod_cast h0
  have hu : (0 : ℝ) < (F.u : ℝ) := by exact_mod_cast F.u_pos
  set a := √(v.val : ℝ) with ha
  set b := √s with hb
  have a0 : 0 ≤ a := Real.sqrt_nonneg _
  have b0 : 0 ≤ b := Real.sqrt_nonneg _
  have aa : a * a = v.val := Real.mul_self_sqrt hv
  have bb : b * b = s := Real.mul_self_sqrt hs
  have d0 : 0 ≤ d := (abs_nonneg _).trans hd
  have fac : |a - b| * (a + b) = |(v.val : ℝ) - s| := by
    rw [← aa, ← bb, ← abs_of_nonneg (add_nonneg a0 b0), ← abs_mul]; congr 1; ring
  have hab : |a - b| ≤ a + b := by rw [abs_le]; constructor <;> linarith
  have n0 := abs_nonneg (a - b)
  have e2 : |a - b| ≤ √d := by
    apply Real.le_sqrt_of_sq_le
    rw [pow_two]
    calc |a - b| * |a - b| ≤ |a - b| * (a + b) := mul_le_mul_of_nonneg_left hab n0
      _ ≤ d := by rw [fac]; exact hd
  have e3 : |a - b| * b ≤ d := by
    calc |a - b| * b ≤ |a - b| * (a + b) := mul_le_mul_of_nonneg_left (by linarith) n0
      _ ≤ d := by rw [fac]; exact hd
  have e4 : a ≤ b + |a - b| := by linarith [le_abs_self (a - b)]
  have e5 : |((Flt.sqrt v).val : ℝ) - b| ≤ F.u * b + (1 + F.u) * |a - b| := by
    calc |((Flt.sqrt v).val : ℝ) - b| ≤ |((Flt.sqrt v).val : ℝ) - a| + |a - b| := abs_sub_le _ _ _
      _ ≤ a * F.u + |a - b| := by linarith
      _ ≤ F.u * b + (1 + F.u) * |a - b| := by nlinarith
  constructor
  · refine e5.trans ?_
    have : (1 + (F.u : ℝ)) * |a - b| ≤ (1 + F.u) * √d := mul_le_mul_of_nonneg_left e2 (by linarith)
    linarith
  · have h1 := mul_le_mul_of_nonneg_right e5 b0
    refine h1.trans ?_
    have : (1 + (F.u : ℝ)) * (|a - b| * b) ≤ (1 + F.u) * d := mul_le_mul_of_nonneg_left e3 (by linarith)
    nlinarith
end

section
variable [cfg : Cfg] {F : FFmt} {τ : IntTy}

/-- **C72 (roots).** For float bins, `standard_deviation` of `Sum` and `WeightedSum` is the correctly rounded square root of `variance`, and
`standard_deviation_of_samples`/`standard_error_of_mean` of `Mean` and `WeightedMean` those of `variance_of_samples`/`variance_of_mean`; none of these calls
panics. An integer `Sum` is first converted to the float type. -/
theorem C72_roots :
    (∀ s : Sum (Flt F), IsRoot s.variance (s.standardDeviation (Flt F))) ∧
    (∀ s : Sum (MInt τ), IsRoot (Flt.ofRat (s.variance.val : ℚ)) (s.standardDeviation (Flt F))) ∧
    (∀ s : WeightedSum (Flt F), IsRoot s.variance (s.standardDeviation (Flt F))) ∧
    (∀ m : Mean (Flt F) (Flt F) (MInt τ), ∃ v vm sd se, m.varianceOfSamples = .ok v ∧ m.varianceOfMean = .ok vm ∧
      m.standardDeviationOfSamples = .ok sd ∧ m.standardErrorOfMean = .ok se ∧ IsRoot v sd ∧ IsRoot vm se) ∧
    (∀ m : WeightedMean (Flt F) (Flt F) (Flt F) (MInt τ), ∃ v vm sd se, m.varianceOfSamples = .ok v ∧ m.varianceOfMean = .ok vm ∧
      m.standardDeviationOfSamples = .ok sd ∧ m.standardErrorOfMean = .ok se ∧ IsRoot v sd ∧ IsRoot vm se) :=
  ⟨fun _ => Flt.sqrt_isRoot _, fun _ => Flt.sqrt_isRoot _, fun _ => Flt.sqrt_isRoot _,
    fun _ => ⟨_, _, _, _, rfl, rfl, rfl, rfl, Flt.sqrt_isRoot _, Flt.sqrt_isRoot _⟩,
    fun _ => ⟨_, _, _, _, rfl, rfl, rfl, rfl, Flt.sqrt_isRoot _, Flt.sqrt_isRoot _⟩⟩

/-- **C72 (means).** The standard deviation of a `Mean` of floats is NaN only if its variance is NaN: the variance is never negative. -/
theorem C72_mean_no_negative (m : Mean (Flt F) (Flt F) (MInt τ)) :
    ∃ v sd, m.varianceOfSamples = .ok v ∧ m.standardDeviationOfSamples = .ok sd ∧ v ≠ .inf true ∧ 0 ≤ v.val ∧ (sd = .nan ↔ v = .nan) := by
  refine ⟨_, _, rfl, rfl, ?_⟩
  generalize (Flt.sub _ _ : Flt F) = x
  show x.abs ≠ .inf true ∧ 0 ≤ x.abs.val ∧ (Flt.sqrt x.abs = .nan ↔ x.abs = .nan)
  have h1 : x.abs ≠ .inf true := by cases x <;> simp [Flt.abs]
  have h2 : 0 ≤ x.abs.val := by
    cases x with
    | nan => simp [Flt.abs, Flt.val]
    | inf => simp [Flt.abs, Flt.val]
    | fin s m hm => simpa [Flt.abs, Flt.val, Flt.sval] using hm.nonneg
  refine ⟨h1, h2, ?_⟩
  rw [Flt.sqrt_nan_iff]
  constructor
  · rintro (h | h | ⟨_, h⟩)
    · exact h
    · exact absurd h h1
    · exact absurd h (not_lt.2 h2)
  · exact .inl

end

section
variable [cfg : Cfg] {F : FFmt}

/-- **C72 (monotone).** Of two bins of `WeightedSum<f64>`, the one with the smaller variance has the smaller standard deviation or the same. -/
theorem C72_monotone (s t : WeightedSum (Flt F)) (h0 : POrd.ge s.variance (Flt.zero false) = true) (h : POrd.le s.variance t.variance = true) :
    POrd.le (s.standardDeviation (Flt F)) (t.standardDeviation (Flt F)) = true := by
  show POrd.le (Flt.sqrt s.sumw2) (Flt.sqrt t.sumw2) = true
  have h0' : POrd.ge s.sumw2 (Flt.zero false) = true := h0
  have h' : POrd.le s.sumw2 t.sumw2 = true := h
  revert h0' h'
  generalize s.sumw2 = a
  generalize t.sumw2 = b
  intro h0 h
  cases a with
  | nan => simp [POrd.ge, POrd.pcmp, Flt.pcmp] at h0
  | inf sg => cases sg with
    | true => simp [POrd.ge, POrd.pcmp, Flt.pcmp, Flt.zero] at h0
    | false =>
      cases b with
      | nan => simp [POrd.le, POrd.pcmp, Flt.pcmp] at h
      | inf t => cases t with
        | true => simp [POrd.le, POrd.pcmp, Flt.pcmp] at h
        | false => simp [Flt.sqrt, POrd.le, POrd.pcmp, Flt.pcmp]
      | fin => simp [POrd.le, POrd.pcmp, Flt.pcmp] at h
  | fin sg m hm =>
    rw [Flt.ge_fin (a := (.fin sg m hm : Flt F)) (b := Flt.zero false) trivial trivial] at h0
    have z0 : (Flt.zero false : Flt F).val = 0 := by simp [Flt.zero, Flt.val, Flt.sval]
    rw [decide_eq_true_eq, z0] at h0
    obtain ⟨g1, -, -⟩ := Flt.sqrt_val (v := (.fin sg m hm : Flt F)) trivial h0
    cases b with
    | nan => simp [POrd.le, POrd.pcmp, Flt.pcmp] at h
    | inf t => cases t with
      | true => simp [POrd.le, POrd.pcmp, Flt.pcmp] at h
      | false =>
        revert g1
        generalize Flt.sqrt (.fin sg m hm : Flt F) = y
        intro g1
        cases y with
        | nan => exact g1.elim
        | inf => exact g1.elim
        | fin => simp [Flt.sqrt, POrd.le, POrd.pcmp, Flt.pcmp]
    | fin tg m' hm' =>
      rw [Flt.le_fin (a := (.fin sg m hm : Flt F)) (b := .fin tg m' hm') trivial trivial, decide_eq_true_eq] at h
      obtain ⟨g2, -, -⟩ := Flt.sqrt_val (v := (.fin tg m' hm' : Flt F)) trivial (h0.trans h)
      rw [Flt.le_fin g1 g2, decide_eq_true_eq]
      exact Flt.sqrt_mono trivial trivial h0 h

/-- **C72 (relative error).** For formats like `f32` and `f64`, whose roots are never subnormal, a standard deviation differs from the real root of the variance by at
most `u` times that root. -/
theorem C72_relative (hF : 2 * F.emin ≤ F.qmin) (s : WeightedSum (Flt F)) (h : s.variance.isFin) (h0 : 0 ≤ s.variance.val) :
    (s.standardDeviation (Flt F)).isFin ∧
    |((s.standardDeviation (Flt F)).val : ℝ) - √(s.variance.val : ℝ)| ≤ F.u * √(s.variance.val : ℝ) := by
  refine ⟨(Flt.sqrt_val h h0).1, ?_⟩
  rw [mul_comm]; exact Flt.sqrt_err hF h h0

end

/-! ## Weighted sums -/

section
variable {F : FFmt}

/-- not NaN and not negative -/
def Flt.NonNeg (v : Flt F) : Prop := v ≠ .nan ∧ v ≠ .inf true ∧ 0 ≤ v.val

theorem Rounds.nonNeg {r : ℚ} {x : Flt F} (h : Flt.Rounds r x) (hr : 0 ≤ r) : x.NonNeg := by
  refine ⟨h.not_nan, ?_, ?_⟩
  · rintro rfl
    have := h.of_inf.1
    simp [not_lt.2 hr] at this
  · cases x with
    | nan => exact le_rfl
    | inf => exact le_rfl
    | fin s m hm =>
      rw [h.of_isFin trivial]
      exact F.rs_pos_le hr

theorem Flt.NonNeg.add {a b : Flt F} (ha : a.NonNeg) (hb : b.NonNeg) : (Flt.add a b).NonNeg := by
  obtain ⟨a1, a2, a3⟩ := ha
  obtain ⟨b1, b2, b3⟩ := hb
  cases a with
  | nan => exact absurd rfl a1
  | inf s =>
    cases s with
    | true => exact absurd rfl a2
    | false =>
      cases b with
      | nan => exact absurd rfl b1
      | inf t => cases t with
        | true => exact absurd rfl b2
        | false => exact ⟨by simp [Flt.add], by simp [Flt.add], by simp [Flt.add, Flt.val]⟩
      | fin => exact ⟨by simp [Flt.add], by simp [Flt.add], by simp [Flt.add, Flt.val]⟩
  | fin s m hm =>
    cases b with
    | nan => exact absurd rfl b1
    | inf t => cases t with
      | true => exact absurd rfl b2
      | false => exact ⟨by simp [Flt.add], by simp [Flt.add], by simp [Flt.add, Flt.val]⟩
    | fin t m' hm' => exact Rounds.nonNeg (Flt.add_rounds trivial trivial) (add_nonneg a3 b3)

theorem Flt.NonNeg.sq {w : Flt F} (h : w ≠ .nan) : (Flt.mul w w).NonNeg := by
  cases w with
  | nan => exact absurd rfl h
  | inf s => refine ⟨?_, ?_, ?_⟩ <;> simp [Flt.mul, Flt.val]
  | fin s m hm => exact Rounds.nonNeg (Flt.mul_rounds trivial trivial) (mul_self_nonneg _)

theorem Flt.nonNeg_one : (Flt.ofRat 1 : Flt F).NonNeg := Rounds.nonNeg (Flt.ofRat_rounds 1) zero_le_one

theorem Flt.nonNeg_zero : (Flt.zero false : Flt F).NonNeg := by
  refine ⟨?_, ?_, ?_⟩ <;> simp [Flt.zero, Flt.val, Flt.sval]

/-- the square added for a call is not negative, and NaN exactly if the weight is -/
theorem fltSq_cases {C : Type} (cw : C × Option (Flt F)) :
    (cw.2 = some .nan → fltSq cw = .nan) ∧ (cw.2 ≠ some .nan → (fltSq cw).NonNeg) := by
  obtain ⟨c, _ | w⟩ := cw
  · exact ⟨by simp, fun _ => Flt.nonNeg_one⟩
  · refine ⟨?_, fun h => Flt.NonNeg.sq fun e => h (by rw [e])⟩
    intro h
    obtain rfl := Option.some.inj h
    rfl

theorem fold_add_nan {C : Type} (f : C → Flt F) (l : List C) : l.foldl (fun v x => Flt.add v (f x)) .nan = .nan := by
  induction l with
  | nil => rfl
  | cons x l ih => exact ih

theorem fold_sq_cases {C : Type} (l : List (C × Option (Flt F))) (z : Flt F) (hz : z.NonNeg) :
    ((∃ cw ∈ l, cw.2 = some .nan) → l.foldl (fun v cw => Flt.add v (fltSq cw)) z = .nan) ∧
    ((∀ cw ∈ l, cw.2 ≠ some .nan) → (l.foldl (fun v cw => Flt.add v (fltSq cw)) z).NonNeg) := by
  induction l generalizing z with
  | nil => exact ⟨by simp, fun _ => hz⟩
  | cons a l ih =>
    obtain ⟨c1, c2⟩ := fltSq_cases a
    by_cases ha : a.2 = some .nan
    · refine ⟨fun _ => ?_, fun h => absurd ha (h a (by simp))⟩
      rw [List.foldl_cons, c1 ha]
      have : Flt.add z .nan = (.nan : Flt F) := by cases z <;> rfl
      rw [this]; exact fold_add_nan _ _
    · obtain ⟨i1, i2⟩ := ih _ (hz.add (c2 ha))
      refine ⟨fun ⟨cw, hcw, h⟩ => ?_, fun h => i2 fun cw hcw => h cw (by simp [hcw])⟩
      rcases List.mem_cons.1 hcw with rfl | hm
      · exact absurd h ha
      · exact i1 ⟨cw, hm, h⟩

theorem Flt.NonNeg.sqrt {v : Flt F} (h : v.NonNeg) : (Flt.sqrt v).NonNeg := by
  refine ⟨?_, ?_, ?_⟩
  · rw [Ne, Flt.sqrt_nan_iff]
    rintro (e | e | ⟨_, e⟩)
    · exact h.1 e
    · exact h.2.1 e
    · exact absurd e (not_lt.2 h.2.2)
  · intro e
    have := Flt.sqrt_isRoot v
    rw [e] at this
    cases this with
    | pos _ _ hy _ => simp [Flt.val] at hy
  · by_cases hf : v.isFin
    · exact (Flt.sqrt_val hf h.2.2).2.1
    · cases v with
      | nan => exact absurd rfl h.1
      | inf s => cases s <;> simp [Flt.sqrt, Flt.val]
      | fin => exact absurd trivial hf
end

section
variable [cfg : Cfg] {F : FFmt} {A : Type} [Axis A] {axes : A} {n : Nat} {covers : Axis.Interval A → Axis.Coordinate A → Prop}
  {dom : Axis.Coordinate A → Prop}

open Classical in
/-- **C72 (weighted sums, every weight).** A histogram of `WeightedSum<f64>` filled with any weights at all, infinities and NaN included: no call panics, and the
standard deviation of a bin is NaN exactly if one of the weights filled into it is NaN, and otherwise not negative. -/
theorem C72_weighted_sum_nan (hf : FaithfulAxis axes n covers dom) {h : VecHistogram A (WeightedSum (Flt F))} (hnew : VecHistogram.new axes = .ok h)
    (hist : List (Axis.Coordinate A × Option (Flt F))) (hd : ∀ cw ∈ hist, dom cw.1) :
    ∃ h' items, h.callAll (wsCalls hist) = (h', none) ∧ h'.iter = .ok items ∧ items.length = n ∧
      ∀ i it, items[i]? = some it → it.index = i ∧ Axis.bin axes i = .ok (some it.bin) ∧
        (it.value.standardDeviation (Flt F) = .nan ↔ ∃ cw ∈ hist, covers it.bin cw.1 ∧ cw.2 = some .nan) ∧
        it.value.standardDeviation (Flt F) ≠ .inf true ∧ 0 ≤ (it.value.standardDeviation (Flt F)).val := by
  obtain ⟨items, hit, hlen, hall⟩ := C51_dense hf hnew _ (wsCalls_dom hd)
  refine ⟨_, items, callAll_total hf hnew (wsCalls_dom hd) wsCalls_total, hit, hlen, ?_⟩
  intro i it hi
  obtain ⟨h1, h2, h3⟩ := hall i it hi
  refine ⟨h1, h2, ?_⟩
  rw [wsCalls_coord hist (fun c => decide (covers it.bin c)), filledWith_ws] at h3
  obtain ⟨k1, k2⟩ := fold_sq_cases (hist.filter fun cw => decide (covers it.bin cw.1)) (Flt.zero false) Flt.nonNeg_zero
  have e : it.value.standardDeviation (Flt F) =
      Flt.sqrt ((hist.filter fun cw => decide (covers it.bin cw.1)).foldl (fun v cw => Flt.add v (fltSq cw)) (Flt.zero false)) := by rw [h3]; rfl
  rw [e]
  by_cases hn : ∃ cw ∈ hist, covers it.bin cw.1 ∧ cw.2 = some .nan
  · obtain ⟨cw, m1, m2, m3⟩ := hn
    rw [k1 ⟨cw, by simp [m1, m2], m3⟩]
    exact ⟨⟨fun _ => ⟨cw, m1, m2, m3⟩, fun _ => rfl⟩, by simp [Flt.sqrt], by simp [Flt.sqrt, Flt.val]⟩
  · have := (k2 (by
      intro cw hcw hc
      obtain ⟨m1, m2⟩ := List.mem_filter.1 hcw
      exact hn ⟨cw, m1, by simpa using m2, hc⟩)).sqrt
    exact ⟨⟨fun h => absurd h this.1, fun h => absurd h hn⟩, this.2.1, this.2.2⟩

open Classical in
/-- **C72 (weighted sums, accuracy).** Under the conditions of C58 the standard deviation of each bin is finite, and with `S` the exact sum of the squared weights and
`δ` the error bound of C58 for the variance, it differs from the exact standard deviation `√S` by at most `u√S + (1 + u)√δ`, and by at most `(uS + (1 + u)δ)/√S`. -/
theorem C72_weighted_sum (hF : 2 * F.emin ≤ F.qmin)
    (hf : FaithfulAxis axes n covers dom) {h : VecHistogram A (WeightedSum (Flt F))} (hnew : VecHistogram.new axes = .ok h)
    (hist : List (Axis.Coordinate A × Option (Flt F))) (hd : ∀ cw ∈ hist, dom cw.1) (hfin : ∀ cw ∈ hist, ∀ w, cw.2 = some w → w.isFin)
    (hr : (1 + F.u) ^ hist.length * (hist.map fun cw => |fltWeight cw|).sum ≤ F.maxFin)
    (hr2 : (1 + F.u) ^ hist.length * ((hist.map fun cw => fltWeight cw ^ 2).sum + hist.length * F.eta) ≤ F.maxFin) :
    ∃ h' items, h.callAll (wsCalls hist) = (h', none) ∧ h'.iter = .ok items ∧ items.length = n ∧
      ∀ i it, items[i]? = some it → it.index = i ∧ Axis.bin axes i = .ok (some it.bin) ∧
        let mine := hist.filter fun cw => covers it.bin cw.1
        let S : ℚ := (mine.map fun cw => fltWeight cw ^ 2).sum
        let δ : ℚ := ((1 + F.u) ^ mine.length - 1) * S + (1 + F.u) ^ (mine.length - 1) * (mine.length * F.eta)
        let sd := it.value.standardDeviation (Flt F)
        sd.isFin ∧ 0 ≤ sd.val ∧ |(sd.val : ℝ) - √(S : ℝ)| ≤ F.u * √(S : ℝ) + (1 + F.u) * √(δ : ℝ) ∧
          |(sd.val : ℝ) - √(S : ℝ)| * √(S : ℝ) ≤ F.u * S + (1 + F.u) * δ := by
  obtain ⟨h', items, hc, hit, hlen, hall⟩ := C58_weighted_sum hf hnew hist hd hfin hr hr2
  obtain ⟨h'', items', hc', hit', -, hall'⟩ := C72_weighted_sum_nan hf hnew hist hd
  obtain rfl : h' = h'' := by rw [hc] at hc'; exact (Prod.mk.inj hc').1
  obtain rfl : items = items' := by rw [hit] at hit'; exact Except.ok.inj hit'
  refine ⟨h', items, hc, hit, hlen, ?_⟩
  intro i it hi
  obtain ⟨a1, a2, -, -, a3, a4⟩ := hall i it hi
  obtain ⟨-, -, b1, -⟩ := hall' i it hi
  refine ⟨a1, a2, ?_⟩
  intro mine S δ sd
  have hnn : sd ≠ .nan := by
    intro e
    obtain ⟨cw, m1, m2, m3⟩ := b1.1 e
    exact hfin cw m1 _ m3
  have h0 : 0 ≤ it.value.variance.val := by
    by_contra hneg
    exact hnn ((Flt.sqrt_nan_iff _).2 (.inr (.inr ⟨a3, not_le.1 hneg⟩)))
  obtain ⟨s1, s2, -⟩ := Flt.sqrt_val a3 h0
  have S0 : 0 ≤ S := sum_nonneg' mine _ (fun _ _ => sq_nonneg _)
  have key := root_err hF a3 h0 (s := (S : ℝ)) (d := (δ : ℝ)) (by exact_mod_cast S0) (by exact_mod_cast a4)
  exact ⟨s1, s2, key.1, key.2⟩

end

/-! ## Means -/

section
variable [cfg : Cfg] {F : FFmt} {τ : IntTy}

/-- **C72 (means, accuracy).** Under the conditions of C58, a `Mean` filled with the samples `xs` has a finite standard deviation and a finite standard error that
differ from the exact ones by `u` times the exact value, plus `1 + u` times the root of the error of the variance in C58. -/
theorem C72_mean (hF : 2 * F.emin ≤ F.qmin)
    (xs : List (Flt F)) (hne : xs ≠ []) (hfin : ∀ x ∈ xs, x.isFin) (hc : (xs.length : ℤ) ≤ τ.max) (hp : xs.length ≤ 2 ^ F.p)
    {B : ℚ} (hB0 : 0 ≤ B) (hB : ∀ x ∈ xs, |x.val| ≤ B) (hnorm : pow2 F.emin ≤ B ^ 2)
    (hr : 2 * (1 + F.u) ^ (2 * xs.length + 6) * (xs.length * (B + B ^ 2)) ≤ F.maxFin) :
    let V : ℚ := avg ((xs.map Flt.val).map fun y => (y - avg (xs.map Flt.val)) ^ 2)
    let δ : ℚ := 2 * ((1 + F.u) ^ (2 * xs.length + 5) - 1) * B ^ 2
    let δm : ℚ := 2 * ((1 + F.u) ^ (2 * xs.length + 6) - 1) * B ^ 2 / xs.length + F.eta
    ∃ (m : Mean (Flt F) (Flt F) (MInt τ)) (sd se : Flt F), fillSeq (meanCalls xs) RDefault.dflt = (m, none) ∧
      m.standardDeviationOfSamples = .ok sd ∧ sd.isFin ∧ |(sd.val : ℝ) - √(V : ℝ)| ≤ F.u * √(V : ℝ) + (1 + F.u) * √(δ : ℝ) ∧
      m.standardErrorOfMean = .ok se ∧ se.isFin ∧
      |(se.val : ℝ) - √((V / xs.length : ℚ) : ℝ)| ≤ F.u * √((V / xs.length : ℚ) : ℝ) + (1 + F.u) * √(δm : ℝ) := by
  intro V δ δm
  obtain ⟨m, v, vm, hs, hv, f1, n1, e1, hvm, f2, e2⟩ := C58_mean_variance (τ := τ) xs hne hfin hc hp hB0 hB hnorm hr
  have V0 : 0 ≤ V := by
    show 0 ≤ avg _
    unfold avg
    apply div_nonneg _ (by positivity)
    apply List.sum_nonneg
    intro x hx
    obtain ⟨y, -, rfl⟩ := List.mem_map.1 hx
    exact sq_nonneg _
  -- the variance of the mean is a quotient of non-negative numbers
  have n2 : 0 ≤ vm.val := by
    have hlen : 0 < xs.length := List.length_pos_iff.2 hne
    obtain ⟨c, hc', hs'⟩ := fillSeq_mean (τ := τ) xs RDefault.dflt (by show (0 : ℤ) + _ ≤ _; omega)
    have hcn : c.val = (xs.length : ℕ) := by rw [hc']; show (0 : ℤ) + _ = _; simp
    obtain ⟨d1, d2⟩ := conv_count (F := F) c hcn hp
    have hm := (Prod.mk.inj (hs.symm.trans hs')).1
    have hmc : m.count = c := by rw [hm]
    have e : vm = Flt.div v (RFrom.conv m.count : Flt F) := by
      have : m.varianceOfMean = .ok (Flt.div v (RFrom.conv m.count : Flt F)) := by
        unfold Mean.varianceOfMean
        rw [hv]; rfl
      rw [hvm] at this; exact Except.ok.inj this
    rw [hmc] at e
    have hN : (0 : ℚ) < xs.length := by exact_mod_cast hlen
    have := Flt.div_rounds f1 d1 (by rw [d2]; exact hN.ne')
    rw [← e, d2] at this
    rw [this.of_isFin f2]
    exact F.rs_pos_le (div_nonneg n1 hN.le)
  obtain ⟨s1, -, -⟩ := Flt.sqrt_val f1 n1
  obtain ⟨s2, -, -⟩ := Flt.sqrt_val f2 n2
  have k1 := root_err hF f1 n1 (s := (V : ℝ)) (d := (δ : ℝ)) (by exact_mod_cast V0) (by exact_mod_cast e1)
  have k2 := root_err hF f2 n2 (s := ((V / xs.length : ℚ) : ℝ)) (d := (δm : ℝ)) (by exact_mod_cast div_nonneg V0 (by positivity)) (by exact_mod_cast e2)
  refine ⟨m, Flt.sqrt v, Flt.sqrt vm, hs, ?_, s1, k1.1, ?_, s2, k2.1⟩
  · unfold Mean.standardDeviationOfSamples; rw [hv]; rfl
  · unfold Mean.standardErrorOfMean; rw [hvm]; rfl

end

section
variable [cfg : Cfg] {F : FFmt} {τ : IntTy}

/-- **C72 (weighted means, accuracy).** Under the conditions of C58, if the exact variance is larger than the error bound of C58, the standard deviation of a
`WeightedMean` is finite and near the exact one. Without that condition it can be NaN: `C72_counterexample_weighted_mean`. -/
theorem C72_weighted_mean (hF : 2 * F.emin ≤ F.qmin)
    (xs : List (Flt F × Flt F)) (hfin : ∀ x ∈ xs, x.1.isFin ∧ x.2.isFin) (hc : (xs.length : ℤ) ≤ τ.max)
    (hn : (1 + F.u) ^ (xs.length + 6) ≤ 17 / 16) {B W P : ℚ} (hB0 : 0 < B) (hB : ∀ x ∈ xs, |x.1.val| ≤ B) (hw : ∀ x ∈ xs, 0 ≤ x.2.val)
    (hW : W = (xs.map fun x => x.2.val).sum) (hW0 : 0 < W) (hP : P = (xs.map fun x => x.2.val ^ 2).sum)
    (hB2 : pow2 F.emin ≤ B ^ 2) (hBW : xs.length * pow2 F.emin ≤ B * W) (hBW2 : xs.length * pow2 F.emin ≤ B ^ 2 * W)
    (hnP : xs.length * pow2 F.emin ≤ P) (hnBP : pow2 F.emin ≤ B ^ 2 * P)
    (hr : 6 * ((1 + B + B ^ 2) * (1 + W + W ^ 2)) ≤ F.maxFin) :
    let V : ℚ := wvar (xs.map fun x => (x.1.val, x.2.val))
    let δ : ℚ := 31 * ((1 + F.u) ^ (xs.length + 6) - 1) * B ^ 2
    δ ≤ V →
    ∃ (m : WeightedMean (Flt F) (Flt F) (Flt F) (MInt τ)) (sd : Flt F), fillSeq (wmCalls xs) RDefault.dflt = (m, none) ∧
      m.standardDeviationOfSamples = .ok sd ∧ sd.isFin ∧ |(sd.val : ℝ) - √(V : ℝ)| ≤ F.u * √(V : ℝ) + (1 + F.u) * √(δ : ℝ) ∧
      |(sd.val : ℝ) - √(V : ℝ)| * √(V : ℝ) ≤ F.u * V + (1 + F.u) * δ := by
  intro V δ hV
  obtain ⟨m, v, -, hs, hv, f1, e1, -⟩ := C58_weighted_mean_variance (τ := τ) xs hfin hc hn hB0 hB hw hW hW0 hP hB2 hBW hBW2 hnP hnBP hr
  have e1' : |v.val - V| ≤ δ := e1
  have n1 : 0 ≤ v.val := by have := (abs_le.1 e1').1; linarith
  have V0 : 0 ≤ V := ((abs_nonneg _).trans e1').trans hV
  obtain ⟨s1, -, -⟩ := Flt.sqrt_val f1 n1
  have k := root_err hF f1 n1 (s := (V : ℝ)) (d := (δ : ℝ)) (by exact_mod_cast V0) (by exact_mod_cast e1')
  exact ⟨m, Flt.sqrt v, hs, by unfold WeightedMean.standardDeviationOfSamples; rw [hv]; rfl, s1, k.1, k.2⟩

end

section
attribute [local instance] dbg64
/-- **C72 (weighted means, failure).** A `WeightedMean<f64>` filled three times with 1.7 and weight 1: the exact variance is 0, the computed one is negative (the code
takes no absolute value here, unlike `Mean`), and the standard deviation is NaN. -/
theorem C72_counterexample_weighted_mean :
    let xs : List (F64 × F64) := [(f64 1.7, f64 1), (f64 1.7, f64 1), (f64 1.7, f64 1)]
    ∃ (m : WeightedMean F64 F64 F64 (MInt .u32)) (v : F64), fillSeq (wmCalls xs) RDefault.dflt = (m, none) ∧
      wvar (xs.map fun x => (x.1.val, x.2.val)) = 0 ∧ m.varianceOfSamples = .ok v ∧ v.isFin ∧ v.val < 0 ∧
      m.standardDeviationOfSamples = .ok .nan ∧ m.standardErrorOfMean = .ok .nan := by
  intro xs
  exact ⟨(fillSeq (wmCalls xs) RDefault.dflt).1, f64 (-(1 / 2 ^ 50)), by decide +kernel, by decide +kernel, by decide +kernel, by decide +kernel,
    by decide +kernel, by decide +kernel, by decide +kernel⟩
end

/-! ## Counts -/

section
variable [cfg : Cfg] {F : FFmt} {A : Type} [Axis A] {axes : A} {n : Nat} {covers : Axis.Interval A → Axis.Coordinate A → Prop}
  {dom : Axis.Coordinate A → Prop}

theorem filledWith_fill_sum {C : Type} (cs : List C) (s : Sum (Flt F)) :
    filledWith (cs.map (Call.fill : C → Call (Sum (Flt F)) C)) s = ⟨filledWith (cs.map (Call.fill : C → Call (Flt F) C)) s.sum⟩ := by
  induction cs generalizing s with
  | nil => rfl
  | cons c cs ih => exact ih ⟨Flt.add s.sum (Flt.ofRat 1)⟩

open Classical in
/-- **C72 (counts).** A histogram of `Sum<f64>` with unit fills: the standard deviation of each bin is the float nearest to the root of the number of entries
(up to `2^p`), i.e. the Poisson error, and exactly the root if that is an integer. -/
theorem C72_counts (hf : FaithfulAxis axes n covers dom) {h : VecHistogram A (Sum (Flt F))} (hnew : VecHistogram.new axes = .ok h)
    (cs : List (Axis.Coordinate A)) (hd : ∀ c ∈ cs, dom c) :
    ∃ h' items, h.callAll (cs.map .fill) = (h', none) ∧ h'.iter = .ok items ∧ items.length = n ∧
      ∀ i it, items[i]? = some it → it.index = i ∧ Axis.bin axes i = .ok (some it.bin) ∧
        let k := min (cs.countP fun c => covers it.bin c) (2 ^ F.p)
        NearestTo √(k : ℝ) (it.value.standardDeviation (Flt F)) ∧
        ∀ r : ℕ, r * r = k → (it.value.standardDeviation (Flt F)).val = r := by
  have hd' : ∀ call ∈ (cs.map Call.fill : List (Call (Sum (Flt F)) (Axis.Coordinate A))), dom call.coord := by
    intro call hcall
    obtain ⟨c, hc, rfl⟩ := List.mem_map.1 hcall
    exact hd c hc
  obtain ⟨items, hit, hlen, hall⟩ := C51_dense hf hnew _ hd'
  refine ⟨_, items, callAll_total hf hnew hd' ?_, hit, hlen, ?_⟩
  · intro call hcall v
    obtain ⟨c, hc, rfl⟩ := List.mem_map.1 hcall
    rfl
  · intro i it hi
    obtain ⟨h1, h2, h3⟩ := hall i it hi
    refine ⟨h1, h2, ?_⟩
    intro k
    rw [filter_map_fill, filledWith_fill_sum] at h3
    obtain ⟨f1, f2⟩ := filledWith_fill_float (F := F) (cs.filter fun c => covers it.bin c) (Flt.zero false) (k := 0) (by trivial) (by rfl) (Nat.zero_le _)
    rw [zero_add, ← List.countP_eq_length_filter] at f2
    have e : it.value.standardDeviation (Flt F) = Flt.sqrt (filledWith ((cs.filter fun c => covers it.bin c).map Call.fill) (Flt.zero false)) := by rw [h3]; rfl
    rw [e]
    set v := filledWith ((cs.filter fun c => covers it.bin c).map Call.fill) (Flt.zero false : Flt F) with hv
    have v0 : 0 ≤ v.val := by rw [f2]; positivity
    have near : NearestTo √(k : ℝ) (Flt.sqrt v) := by
      have hk : ((v.val : ℚ) : ℝ) = (k : ℝ) := by rw [f2]; exact Rat.cast_natCast _
      obtain ⟨g1, g2, g3⟩ := Flt.sqrt_val f1 v0
      refine ⟨g1, ?_⟩
      rw [← hk]
      have hr : F.RepU v.val := by have := v.val_rep.repU; rwa [abs_of_nonneg v0] at this
      intro z hz
      rw [g3]
      exact sqrt_nearest_all hr hz
    refine ⟨near, ?_⟩
    intro r hr
    have hrp : r ≤ 2 ^ F.p := by
      have : k ≤ 2 ^ F.p := min_le_right _ _
      nlinarith [Nat.zero_le r]
    obtain ⟨o1, o2⟩ := Flt.ofNat_spec (F := F) hrp
    rcases near.2 _ o1 with h | h
    · rw [← h, o2]
    · rw [o2] at h
      have : √(k : ℝ) = r := by rw [← hr]; push_cast; exact Real.sqrt_mul_self (by positivity)
      rw [this] at h
      simp at h
      exact absurd h (not_lt.2 (abs_nonneg _))

end
end NdHist
