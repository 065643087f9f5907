import Verif.SpecRelease
import Verif.Props.Checked
import Verif.Lemmas.Hist
import Mathlib.Tactic.LinearCombination
/-!
# C69: without overflow checks, integer axes compute modulo the size of the type

The counterpart of C59 for builds *without* overflow checks (`Cfg.checked = false`, the default for release builds): arithmetic
wraps around. Each theorem says exactly what the calls answer for all arguments, and exactly when the answer is the
mathematically right one.
-/
set_option linter.unusedSectionVars false
set_option linter.unusedSimpArgs false
namespace NdHist
open RNum

section
variable [cfg : Cfg] {τ : IntTy}

theorem IntTy.bits_pos (τ : IntTy) : (0 : ℤ) < 2 ^ τ.bits := by positivity

/-- two values of the type with the same residue are equal -/
theorem MInt.eq_of_mul {a b : MInt τ} {t : ℤ} (h : a.val = b.val + t * 2 ^ τ.bits) : a = b := by
  have h1 := τ.size_eq
  have h2 := τ.bits_pos
  have := a.min_le; have := a.le_max; have := b.min_le; have := b.le_max
  have ht : t = 0 := by
    rcases lt_trichotomy t 0 with ht | ht | ht
    · have := mul_le_mul_of_nonneg_right (show t ≤ -1 by omega) h2.le
      omega
    · exact ht
    · have := mul_le_mul_of_nonneg_right (show 1 ≤ t by omega) h2.le
      omega
  subst ht
  ext; omega

theorem IntTy.Residue.unique {n : ℤ} {a b : MInt τ} (ha : τ.Residue n a) (hb : τ.Residue n b) : a = b := by
  obtain ⟨t, ht⟩ := ha
  obtain ⟨s, hs⟩ := hb
  exact MInt.eq_of_mul (t := t - s) (by rw [ht, hs]; ring)

theorem IntTy.residue_wrapping (n : ℤ) : τ.Residue n (MInt.wrapping n) := MInt.wrapVal_mod n

/-- **C69 (residues).** Every mathematical integer has exactly one residue in the type, and it is the integer itself exactly
when the integer is a value of the type. -/
theorem C69_residue (τ : IntTy) (n : ℤ) :
    ∃ m : MInt τ, τ.Residue n m ∧ (∀ m', τ.Residue n m' → m' = m) ∧ (m.val = n ↔ τ.Holds n) := by
  refine ⟨MInt.wrapping n, IntTy.residue_wrapping n, fun m' h => h.unique (IntTy.residue_wrapping n), ?_, ?_⟩
  · intro h
    have h1 := (MInt.wrapping n : MInt τ).min_le
    have h2 := (MInt.wrapping n : MInt τ).le_max
    rw [h] at h1 h2
    exact ⟨h1, h2⟩
  · intro h
    exact MInt.wrapVal_id h.1 h.2

theorem IntTy.Residue.of_holds {n : ℤ} {m : MInt τ} (h : τ.Residue n m) (hn : τ.Holds n) : m.val = n := by
  have : m = ⟨n, hn.1, hn.2⟩ := h.unique ⟨0, by simp⟩
  rw [this]

/-- unchecked `+ - *` -/
theorem MInt.arith_release (hc : Cfg.checked = false) (n : ℤ) :
    ∃ m : MInt τ, τ.Residue n m ∧ (MInt.arith n : Res (MInt τ)) = .ok m :=
  ⟨_, IntTy.residue_wrapping n, MInt.arith_unchecked hc n⟩

/-- **C69 (constructor).** Without overflow checks `with_step_size` never panics. Its errors are those of the checked build;
otherwise it takes the residue of `low + num*step` for the other end of the axis and swaps the ends if that is the smaller. -/
theorem C69_with_step_size (hc : Cfg.checked = false) (num : Nat) (low step : MInt τ) :
    (num = 0 ∨ ¬ τ.Holds num → Uniform.withStepSize num low step = .ok (.error .InvalidNumberOfBins)) ∧
    (0 < num → τ.Holds num → step.val ≤ 0 → Uniform.withStepSize num low step = .ok (.error .InvalidStepSize)) ∧
    (0 < num → τ.Holds num → 0 < step.val → ∃ other : MInt τ, τ.Residue (low.val + num * step.val) other ∧
      Uniform.withStepSize num low step =
        .ok (.ok (if other.val < low.val then ⟨num, other, low, step⟩ else ⟨num, low, other, step⟩))) := by
  have key : τ.Holds num → ∃ other : MInt τ, τ.Residue (low.val + num * step.val) other ∧
      Uniform.withStepSize num low step = (if num = 0 then .ok (.error .InvalidNumberOfBins)
        else if step.val ≤ 0 then .ok (.error .InvalidStepSize)
        else .ok (.ok (if other.val < low.val then ⟨num, other, low, step⟩ else ⟨num, low, other, step⟩))) := by
    intro h
    have hnt : (MInt.ofInt? (num : ℤ) : Option (MInt τ)) = some ⟨num, h.1, h.2⟩ := by
      rw [MInt.ofInt?_eq_some]
    unfold Uniform.withStepSize
    rw [MInt.ofUsize_def, hnt]
    simp only [MInt.mul_def]
    obtain ⟨p, ⟨t, ht⟩, hp2⟩ := MInt.arith_release (τ := τ) hc (num * step.val)
    rw [hp2]
    simp only [Res.ok_bind, MInt.add_def]
    obtain ⟨q, ⟨s, hs⟩, hq2⟩ := MInt.arith_release (τ := τ) hc (p.val + low.val)
    rw [hq2]
    refine ⟨q, ⟨t + s, by rw [hs, ht]; ring⟩, ?_⟩
    simp only [Res.ok_bind, MInt.le_iff, MInt.gt_iff, MInt.zero_val, decide_eq_true_eq, Res.pure_eq]
    split
    · rfl
    · split
      · rfl
      · split <;> rfl
  refine ⟨?_, ?_, ?_⟩
  · intro h
    by_cases hn : τ.Holds num
    · obtain ⟨o, _, h2⟩ := key hn
      rw [h2, if_pos (h.resolve_right (fun h' => h' hn))]
    · have hnt : (MInt.ofInt? (num : ℤ) : Option (MInt τ)) = none := by
        rw [MInt.ofInt?_eq_none]; unfold IntTy.Holds at hn; omega
      unfold Uniform.withStepSize
      rw [MInt.ofUsize_def, hnt]
      rfl
  · intro h0 hn hs
    obtain ⟨o, _, h2⟩ := key hn
    rw [h2, if_neg (by omega), if_pos hs]
  · intro h0 hn hs
    obtain ⟨o, h1, h2⟩ := key hn
    exact ⟨o, h1, by rw [h2, if_neg (by omega), if_neg (by omega)]⟩

/-- what a successful construction says of the arguments -/
theorem withStepSize_release_ok (hc : Cfg.checked = false) {num : Nat} {low step : MInt τ} {a : Uniform (MInt τ)}
    (hnew : Uniform.withStepSize num low step = .ok (.ok a)) :
    0 < num ∧ τ.Holds num ∧ 0 < step.val ∧ ∃ other : MInt τ, τ.Residue (low.val + num * step.val) other ∧
      a = if other.val < low.val then ⟨num, other, low, step⟩ else ⟨num, low, other, step⟩ := by
  obtain ⟨k1, k2, k3⟩ := C69_with_step_size hc num low step
  by_cases h : num = 0 ∨ ¬ τ.Holds num
  · rw [k1 h] at hnew; simp at hnew
  · rw [not_or, not_not] at h
    obtain ⟨h0, hn⟩ := h
    by_cases hs : step.val ≤ 0
    · rw [k2 (by omega) hn hs] at hnew; simp at hnew
    · obtain ⟨o, h1, h2⟩ := k3 (by omega) hn (by omega)
      rw [h2] at hnew
      simp only [Except.ok.injEq] at hnew
      exact ⟨by omega, hn, by omega, o, h1, hnew.symm⟩

/-- **C69 (right axis).** For valid arguments, the axis built without overflow checks has the wanted ends exactly when the
upper end `low + num*step` is a value of the type — even if `num*step` is not. -/
theorem C69_right_axis (hc : Cfg.checked = false) {num : Nat} {low step : MInt τ} {a : Uniform (MInt τ)}
    (hnew : Uniform.withStepSize num low step = .ok (.ok a)) :
    a.num = num ∧ a.step = step ∧
    (τ.Holds (low.val + num * step.val) → a.low = low ∧ a.high.val = low.val + num * step.val) ∧
    (¬ τ.Holds (low.val + num * step.val) → ¬ (a.low = low ∧ a.high.val = low.val + num * step.val)) := by
  obtain ⟨h0, hn, hs, o, h1, rfl⟩ := withStepSize_release_ok hc hnew
  have hp : (0 : ℤ) ≤ num * step.val := by positivity
  refine ⟨by split <;> rfl, by split <;> rfl, ?_, ?_⟩
  · intro hh
    have := h1.of_holds hh
    rw [if_neg (by omega)]
    exact ⟨rfl, this⟩
  · rintro hh ⟨_, h3⟩
    apply hh
    rw [← h3]
    exact ⟨MInt.min_le _, MInt.le_max _⟩

/-- **C69 (lookup, any axis).** Without overflow checks, `index` on any integer axis with a positive step: below the lower end
bin 0, from the upper end on the last bin; in between, with `d` the residue of `c - low`: the bin counted in steps from `low` if
`d` is not negative — nothing keeps it below the number of bins —, and for negative `d` bin 1 if `d` is less than a step below
zero and else the overflow bin. -/
theorem C69_uniform_index (hc : Cfg.checked = false) (a : Uniform (MInt τ)) (hs : 0 < a.step.val)
    (hnum : a.num + 1 < usizeSize) (c : MInt τ) :
    (c.val < a.low.val → a.index c = .ok (some 0)) ∧
    (a.low.val ≤ c.val → a.high.val ≤ c.val → a.index c = .ok (some (a.num + 1))) ∧
    (a.low.val ≤ c.val → c.val < a.high.val → ∃ d : MInt τ, τ.Residue (c.val - a.low.val) d ∧
      (∀ k : Nat, k * a.step.val ≤ d.val → d.val < (k + 1) * a.step.val → k + 1 < usizeSize →
        a.index c = .ok (some (k + 1))) ∧
      (d.val < 0 → -a.step.val < d.val → a.index c = .ok (some 1)) ∧
      (d.val ≤ -a.step.val → a.index c = .ok (some (a.num + 1)))) := by
  have hu := two_le_usizeSize
  unfold Uniform.index
  simp only [MInt.lt_iff, MInt.ge_iff, decide_eq_true_eq]
  refine ⟨?_, ?_, ?_⟩
  · intro h; rw [if_pos h]; rfl
  · intro h h'; rw [if_neg (by omega), if_pos h', uadd_ok hnum]; rfl
  · intro h h'
    rw [if_neg (by omega), if_neg (by omega)]
    simp only [MInt.sub_def]
    obtain ⟨d, hd, he⟩ := MInt.arith_release (τ := τ) hc (c.val - a.low.val)
    rw [he]
    refine ⟨d, hd, ?_⟩
    simp only [Res.ok_bind, MInt.div_def, show a.step.val ≠ 0 by omega, if_false]
    have d1 := d.min_le; have d2 := d.le_max
    have m1 := τ.min_le_zero; have m2 := τ.max_ge
    have hq : 0 ≤ d.val ∧ d.val.tdiv a.step.val = d.val / a.step.val ∧ 0 ≤ d.val / a.step.val ∧
          d.val / a.step.val ≤ d.val ∨
        d.val < 0 ∧ d.val.tdiv a.step.val = -((-d.val) / a.step.val) ∧ 0 ≤ (-d.val) / a.step.val ∧
          (-d.val) / a.step.val ≤ -d.val := by
      by_cases h0 : 0 ≤ d.val
      · exact .inl ⟨h0, Int.tdiv_eq_ediv_of_nonneg h0, Int.ediv_nonneg h0 hs.le, Int.ediv_le_self _ h0⟩
      · right
        have h0' : 0 ≤ -d.val := by omega
        refine ⟨by omega, ?_, Int.ediv_nonneg h0' hs.le, Int.ediv_le_self _ h0'⟩
        have := Int.neg_tdiv (a := -d.val) (b := a.step.val)
        rw [neg_neg] at this
        rw [this, Int.tdiv_eq_ediv_of_nonneg h0']
    rw [MInt.arithDiv_ok (by omega) (by omega)]
    simp only [Res.ok_bind, MInt.toUsize_def]
    refine ⟨?_, ?_, ?_⟩
    · intro k k1 k2 k3
      have hk0 : (0 : ℤ) ≤ k * a.step.val := by positivity
      have hq' : d.val / a.step.val = k := by
        rw [Int.ediv_eq_iff_of_pos hs]
        constructor <;> nlinarith
      rcases hq with ⟨q1, q2, q3, q4⟩ | ⟨q1, _⟩
      · rw [q2, hq', if_pos ⟨by omega, by exact_mod_cast (by omega : k < usizeSize)⟩]
        simp only [Option.getD_some, Int.toNat_natCast]
        rw [uadd_ok k3]; rfl
      · omega
    · intro k1 k2
      rcases hq with ⟨q1, _⟩ | ⟨q1, q2, q3, q4⟩
      · omega
      · have : (-d.val) / a.step.val = 0 := Int.ediv_eq_zero_of_lt (by omega) (by omega)
        rw [q2, this]
        simp only [neg_zero]
        rw [if_pos ⟨by omega, by exact_mod_cast (by omega : 0 < usizeSize)⟩]
        simp only [Option.getD_some, Int.toNat_zero]
        rw [uadd_ok (by omega)]; rfl
    · intro k1
      rcases hq with ⟨q1, _⟩ | ⟨q1, q2, q3, q4⟩
      · omega
      · have : 0 < (-d.val) / a.step.val := by
          have := Int.ediv_le_ediv hs (show a.step.val ≤ -d.val by omega)
          rw [Int.ediv_self (by omega)] at this
          omega
        rw [q2, if_neg (by omega)]
        simp only [Option.getD_none]
        rw [uadd_ok hnum]; rfl

/-- **C69 (lookup, right axis).** If the upper end `high = low + num*step` is a value of the type, lookups without overflow
checks are right (as in C01) for all coordinates outside the range and all with `c - low` in the type. For the others — inner
coordinates of a range longer than the type — the answer is bin 1 when `c` is less than a step below `low` plus the size of the
type, else the overflow bin, and this is never the right bin. -/
theorem C69_uniform_index_right (hc : Cfg.checked = false) {num : Nat} {low step : MInt τ} {a : Uniform (MInt τ)}
    (hnew : Uniform.withStepSize num low step = .ok (.ok a)) (hhigh : τ.Holds (low.val + num * step.val))
    (hnum : num + 1 < usizeSize) (c : MInt τ) :
    ∃ i, a.index c = .ok (some i) ∧ i ≤ num + 1 ∧
      (c.val < low.val → i = 0) ∧
      (low.val + num * step.val ≤ c.val → i = num + 1) ∧
      (τ.Holds (c.val - low.val) → ∀ k, k < num → low.val + k * step.val ≤ c.val →
        c.val < low.val + (k + 1) * step.val → i = k + 1) ∧
      (low.val ≤ c.val → c.val < low.val + num * step.val → ¬ τ.Holds (c.val - low.val) →
        (low.val + 2 ^ τ.bits - c.val < step.val → i = 1) ∧
        (step.val ≤ low.val + 2 ^ τ.bits - c.val → i = num + 1) ∧
        ∀ k, k < num → low.val + k * step.val ≤ c.val → c.val < low.val + (k + 1) * step.val → i ≠ k + 1) := by
  obtain ⟨h0, hn, hs, _⟩ := withStepSize_release_ok hc hnew
  obtain ⟨e1, e2, e3, _⟩ := C69_right_axis hc hnew
  obtain ⟨e4, e5⟩ := e3 hhigh
  obtain ⟨k1, k2, k3⟩ := C69_uniform_index hc a (by rw [e2]; exact hs) (by rw [e1]; exact hnum) c
  rw [e1] at k2 k3
  rw [e2] at k3
  rw [e4] at k1 k2 k3
  rw [e5] at k2 k3
  have hp : (0 : ℤ) < num * step.val := by positivity
  have m1 := τ.min_le_zero; have m2 := τ.max_ge
  have c1 := c.min_le; have c2 := c.le_max
  have l1 := low.min_le; have l2 := low.le_max
  have s2 := step.le_max
  have hsz := τ.size_eq
  rcases lt_or_ge c.val low.val with h | h
  · refine ⟨0, k1 h, by omega, fun _ => rfl, fun h' => by omega, ?_, fun h' => by omega⟩
    intro _ k _ hk
    have : (0 : ℤ) ≤ k * step.val := by positivity
    omega
  rcases le_or_gt (low.val + num * step.val) c.val with h' | h'
  · refine ⟨num + 1, k2 h h', le_refl _, fun h'' => by omega, fun _ => rfl, ?_, fun _ h'' => by omega⟩
    intro _ k hk _ hk2
    have : ((k : ℤ) + 1) * step.val ≤ num * step.val := by
      apply mul_le_mul_of_nonneg_right _ hs.le; omega
    omega
  · obtain ⟨d, hd, d1, d2, d3⟩ := k3 h h'
    by_cases hh : τ.Holds (c.val - low.val)
    · have hdv := hd.of_holds hh
      have hq0 : 0 ≤ (c.val - low.val) / step.val := Int.ediv_nonneg (by omega) hs.le
      have hq1 : (c.val - low.val) / step.val < num := Int.ediv_lt_of_lt_mul hs (by omega)
      have hq2 := Int.ediv_mul_le (c.val - low.val) hs.ne'
      have hq3 := Int.lt_ediv_add_one_mul_self (c.val - low.val) hs
      obtain ⟨q, hq⟩ : ∃ q : Nat, (c.val - low.val) / step.val = q := ⟨_, (Int.toNat_of_nonneg hq0).symm⟩
      rw [hq] at hq1 hq2 hq3
      refine ⟨q + 1, d1 q (by omega) (by omega) (by omega), by omega, fun _ => by omega, fun _ => by omega, ?_,
        fun _ _ h'' => absurd hh h''⟩
      intro _ k hk j1 j2
      have e1 := lt_of_mul_lt_mul_right (show (k : ℤ) * step.val < (q + 1) * step.val by omega) hs.le
      have e2 := lt_of_mul_lt_mul_right (show (q : ℤ) * step.val < (k + 1) * step.val by omega) hs.le
      omega
    · have hbig : τ.max < c.val - low.val := by
        by_contra hcon
        exact hh ⟨by omega, by omega⟩
      have hdv : d.val = c.val - low.val - 2 ^ τ.bits := by
        have hh2 : τ.Holds (c.val - low.val - 2 ^ τ.bits) := ⟨by omega, by omega⟩
        obtain ⟨t, ht⟩ := hd
        exact IntTy.Residue.of_holds ⟨t + 1, by rw [ht]; ring⟩ hh2
      rcases lt_or_ge (low.val + 2 ^ τ.bits - c.val) step.val with hlt | hge
      · refine ⟨1, d2 (by omega) (by omega), by omega, fun _ => by omega, fun _ => by omega,
          fun h'' => absurd h'' hh, fun _ _ _ => ⟨fun _ => rfl, fun _ => by omega, ?_⟩⟩
        intro k hk j1 j2 hk0
        obtain rfl : k = 0 := by omega
        simp only [Nat.cast_zero, zero_add, one_mul] at j2
        omega
      · refine ⟨num + 1, d3 (by omega), by omega, fun _ => by omega, fun _ => by omega,
          fun h'' => absurd h'' hh, fun _ _ _ => ⟨fun _ => by omega, fun _ => rfl, ?_⟩⟩
        intro k hk j1 j2 hk0
        omega

theorem tdiv_nonpos' {a b : ℤ} (ha : a ≤ 0) (hb : 0 ≤ b) : a.tdiv b ≤ 0 := by
  have h := Int.neg_tdiv (a := -a) (b := b)
  rw [neg_neg] at h
  have := Int.tdiv_nonneg (show 0 ≤ -a by omega) hb
  omega

/-- the edge `low + k*(high-low)/num` computed with wrap-around -/
theorem edge_release (hc : Cfg.checked = false) (a : Uniform (MInt τ)) (h0 : 0 < a.num) (hn : τ.Holds a.num) {k : Nat}
    (hk : k ≤ a.num) :
    ∃ p e : MInt τ, τ.Residue (k * (a.high.val - a.low.val)) p ∧
      τ.Residue (a.low.val + p.val.tdiv a.num) e ∧ a.edge k = .ok (some e) := by
  have m1 := τ.min_le_zero
  unfold Uniform.edge
  have hkz : (k : ℤ) ≤ a.num := by exact_mod_cast hk
  have hkt : (MInt.ofInt? (k : ℤ) : Option (MInt τ)) = some ⟨k, by omega, by have := hn.2; omega⟩ := by
    rw [MInt.ofInt?_eq_some]
  have hnt : (MInt.ofInt? (a.num : ℤ) : Option (MInt τ)) = some ⟨a.num, hn.1, hn.2⟩ := by
    rw [MInt.ofInt?_eq_some]
  rw [MInt.ofUsize_def, hkt]
  simp only [MInt.sub_def, MInt.mul_def, MInt.add_def, MInt.div_def, MInt.ofUsize_def, hnt]
  obtain ⟨r, ⟨t, ht⟩, hr⟩ := MInt.arith_release (τ := τ) hc (a.high.val - a.low.val)
  rw [hr]
  simp only [Res.ok_bind]
  obtain ⟨p, ⟨s, hs⟩, hp⟩ := MInt.arith_release (τ := τ) hc (k * r.val)
  rw [hp]
  simp only [Res.ok_bind, show (a.num : ℤ) ≠ 0 by omega, if_false]
  have hq : τ.Holds (p.val.tdiv a.num) := by
    have p1 := p.min_le; have p2 := p.le_max
    have h1 := Int.natAbs_tdiv_le_natAbs p.val a.num
    rcases le_or_gt 0 p.val with hp0 | hp0
    · have := Int.tdiv_nonneg hp0 (show (0 : ℤ) ≤ a.num by omega)
      exact ⟨by omega, by omega⟩
    · have : p.val.tdiv a.num ≤ 0 := tdiv_nonpos' hp0.le (by omega)
      have m2 := τ.max_ge
      exact ⟨by omega, by omega⟩
  rw [MInt.arithDiv_ok hq.1 hq.2]
  simp only [Res.ok_bind]
  obtain ⟨e, he, hee⟩ := MInt.arith_release (τ := τ) hc (a.low.val + p.val.tdiv a.num)
  rw [hee]
  exact ⟨p, e, ⟨k * t + s, by rw [hs, ht]; ring⟩, he, rfl⟩

/-- **C69 (bin lookup, any axis).** Without overflow checks `bin` of an inner bin never panics and always answers an interval:
its ends are the residues of `low + p/num` and `low + q/num`, with `p` and `q` the residues of `k*(high-low)` and
`(k+1)*(high-low)` and division rounding toward zero. -/
theorem C69_uniform_bin (hc : Cfg.checked = false) {num : Nat} {low step : MInt τ} {a : Uniform (MInt τ)}
    (hnew : Uniform.withStepSize num low step = .ok (.ok a)) (hnum : num + 2 < usizeSize) {k : Nat} (hk : k < num) :
    ∃ p q s e : MInt τ, τ.Residue (k * (a.high.val - a.low.val)) p ∧
      τ.Residue ((k + 1) * (a.high.val - a.low.val)) q ∧
      τ.Residue (a.low.val + p.val.tdiv num) s ∧ τ.Residue (a.low.val + q.val.tdiv num) e ∧
      a.bin (k + 1) = .ok (some (.Bin s e)) := by
  obtain ⟨h0, hn, hs, _⟩ := withStepSize_release_ok hc hnew
  obtain ⟨e1, _⟩ := C69_right_axis hc hnew
  obtain ⟨p, s, hp1, hp2, hp3⟩ := edge_release hc a (by rw [e1]; exact h0) (by rw [e1]; exact hn) (k := k) (by omega)
  obtain ⟨q, e, hq1, hq2, hq3⟩ := edge_release hc a (by rw [e1]; exact h0) (by rw [e1]; exact hn) (k := k + 1) (by omega)
  rw [e1] at hp2 hq2
  refine ⟨p, q, s, e, hp1, by exact_mod_cast hq1, hp2, hq2, ?_⟩
  unfold Uniform.bin
  rw [if_neg (by omega), e1, uadd_ok (by omega)]
  simp only [Res.ok_bind]
  rw [if_neg (by omega), if_neg (by omega)]
  simp only [Nat.add_sub_cancel, hp3, hq3, Res.ok_bind]
  rfl

/-- when the edge computed with wrap-around is the right one -/
theorem edge_right_iff {num : Nat} {low p e : MInt τ} {E : ℤ} (h0 : 0 < num) (hn : τ.Holds num) (hE : 0 ≤ E)
    (hEl : τ.Holds (low.val + E)) (hp : τ.Residue (E * num) p) (he : τ.Residue (low.val + p.val.tdiv num) e) :
    e.val = low.val + E ↔ τ.Holds (E * num) ∨ τ.Holds ((E - 2 ^ τ.bits) * num) := by
  have hsz := τ.size_eq
  have m1 := τ.min_le_zero; have m2 := τ.max_ge
  have p1 := p.min_le; have p2 := p.le_max
  have l1 := low.min_le; have l2 := low.le_max
  have hMpos := τ.bits_pos
  have hn0 : (0 : ℤ) < num := by omega
  have hnM : (num : ℤ) < 2 ^ τ.bits := by have := hn.2; omega
  obtain ⟨hl3, hl4⟩ := hEl
  constructor
  · intro heq
    obtain ⟨t, ht⟩ := he
    have hq : p.val.tdiv num = E + (-t) * 2 ^ τ.bits := by
      rw [heq] at ht; rw [neg_mul]; omega
    have hqb : τ.min ≤ p.val.tdiv num ∧ p.val.tdiv num ≤ τ.max := by
      have h1 := Int.natAbs_tdiv_le_natAbs p.val num
      rcases le_or_gt 0 p.val with hp0 | hp0
      · have := Int.tdiv_nonneg hp0 hn0.le
        exact ⟨by omega, by omega⟩
      · have : p.val.tdiv num ≤ 0 := tdiv_nonpos' hp0.le (by omega)
        exact ⟨by omega, by omega⟩
    obtain ⟨s, hs⟩ := hp
    have hdm := Int.mul_tdiv_add_tmod p.val num
    have hr1 := Int.lt_tmod_of_pos p.val hn0
    have hr2 := Int.tmod_lt_of_pos p.val hn0
    -- the remainder is a multiple of the size of the type, hence zero
    have hrem : p.val.tmod num = (s + t * num) * 2 ^ τ.bits := by
      linear_combination hdm - (num : ℤ) * hq + hs
    have hz : s + t * num = 0 := by
      rcases lt_trichotomy (s + t * (num : ℤ)) 0 with h | h | h
      · have := mul_le_mul_of_nonneg_right (show s + t * (num : ℤ) ≤ -1 by omega) hMpos.le
        omega
      · exact h
      · have := mul_le_mul_of_nonneg_right (show 1 ≤ s + t * (num : ℤ) by omega) hMpos.le
        omega
    have hpv : p.val = (E + (-t) * 2 ^ τ.bits) * num := by
      rw [hs, show s = -(t * num) by omega]; ring
    have ht01 : t = 0 ∨ t = 1 := by
      have a1 : t < 2 := by
        by_contra h
        have := mul_le_mul_of_nonneg_right (show 2 ≤ t by omega) hMpos.le
        rw [neg_mul] at hq
        omega
      have a2 : -1 < t := by
        by_contra h
        have := mul_le_mul_of_nonneg_right (show 1 ≤ -t by omega) hMpos.le
        omega
      omega
    rcases ht01 with rfl | rfl
    · left
      rw [show E * (num : ℤ) = p.val by rw [hpv]; ring]
      exact ⟨p1, p2⟩
    · right
      rw [show (E - 2 ^ τ.bits) * (num : ℤ) = p.val by rw [hpv]; ring]
      exact ⟨p1, p2⟩
  · rintro (h | h)
    · have := hp.of_holds h
      rw [this, Int.mul_tdiv_cancel _ hn0.ne'] at he
      exact he.of_holds ⟨hl3, hl4⟩
    · obtain ⟨s, hs⟩ := hp
      have := IntTy.Residue.of_holds (τ := τ) (m := p) ⟨s + num, by rw [hs]; ring⟩ h
      rw [this, Int.mul_tdiv_cancel _ hn0.ne'] at he
      obtain ⟨t, ht⟩ := he
      exact IntTy.Residue.of_holds ⟨t - 1, by rw [ht]; ring⟩ ⟨hl3, hl4⟩

/-- **C69 (bin lookup, right axis).** If the upper end is a value of the type, the lower end of inner bin `k` reported without
overflow checks is right exactly when `k*num*step` or `(k*step - 2^bits)*num` is a value of the type, and likewise the upper end
with `k+1` for `k`. Otherwise the reported interval is silently wrong. -/
theorem C69_uniform_bin_right (hc : Cfg.checked = false) {num : Nat} {low step : MInt τ} {a : Uniform (MInt τ)}
    (hnew : Uniform.withStepSize num low step = .ok (.ok a)) (hhigh : τ.Holds (low.val + num * step.val))
    (hnum : num + 2 < usizeSize) {k : Nat} (hk : k < num) :
    ∃ s e : MInt τ, a.bin (k + 1) = .ok (some (.Bin s e)) ∧
      (s.val = low.val + k * step.val ↔
        τ.Holds (k * step.val * num) ∨ τ.Holds ((k * step.val - 2 ^ τ.bits) * num)) ∧
      (e.val = low.val + (k + 1) * step.val ↔
        τ.Holds ((k + 1) * step.val * num) ∨ τ.Holds (((k + 1) * step.val - 2 ^ τ.bits) * num)) := by
  obtain ⟨h0, hn, hs, _⟩ := withStepSize_release_ok hc hnew
  obtain ⟨e1, _, e3, _⟩ := C69_right_axis hc hnew
  obtain ⟨e4, e5⟩ := e3 hhigh
  obtain ⟨p, q, s, e, hp, hq, hs', he', hb⟩ := C69_uniform_bin hc hnew hnum hk
  rw [e4, e5, add_sub_cancel_left] at hp hq
  rw [e4] at hs' he'
  have l1 := low.min_le
  have hk1 : (k : ℤ) * step.val ≤ num * step.val := by
    apply mul_le_mul_of_nonneg_right _ hs.le; omega
  have hk2 : ((k : ℤ) + 1) * step.val ≤ num * step.val := by
    apply mul_le_mul_of_nonneg_right _ hs.le; omega
  have hk3 : (0 : ℤ) ≤ k * step.val := by positivity
  have hk4 : (0 : ℤ) ≤ (k + 1) * step.val := by positivity
  have hh := hhigh.2
  refine ⟨s, e, hb, ?_, ?_⟩
  · exact edge_right_iff h0 hn hk3 ⟨by omega, by omega⟩ (by convert hp using 1; ring) hs'
  · exact edge_right_iff h0 hn hk4 ⟨by omega, by omega⟩ (by convert hq using 1; ring) he'

/-- the wrap-around of the cyclic axes, from the computed difference -/
theorem wrapAround_of_sub {lo hi x d : MInt τ} (hlt : lo.val < hi.val) (hr : hi.val - lo.val ≤ τ.max)
    (hd : (MInt.arith (x.val - lo.val) : Res (MInt τ)) = .ok d) :
    ∃ y : MInt τ, wrapAround lo hi x = .ok y ∧ y.val = lo.val + d.val % (hi.val - lo.val) := by
  unfold wrapAround
  have hmin := τ.min_le_zero
  have hmax := τ.max_ge
  have hl := lo.min_le
  have hh := hi.le_max
  have h1 := d.min_le
  have h2 := d.le_max
  rw [MInt.sub_def, MInt.arith_ok (by omega) hr, MInt.sub_def, hd]
  simp only [Res.ok_bind, MInt.rem_def]
  have hb0 : hi.val - lo.val ≠ 0 := by omega
  have hb1 : ¬ (d.val = τ.min ∧ hi.val - lo.val = -1 ∧ τ.signed = true) := by omega
  simp only [hb0, hb1, if_false]
  have hbp : 0 < hi.val - lo.val := by omega
  have ht1 := Int.lt_tmod_of_pos d.val hbp
  have ht2 := Int.tmod_lt_of_pos d.val hbp
  have he1 := Int.emod_nonneg d.val hb0
  have he2 := Int.emod_lt_of_pos d.val hbp
  have hlow : τ.min ≤ d.val.tmod (hi.val - lo.val) := by
    by_cases hd0 : 0 ≤ d.val
    · have := Int.tmod_nonneg (hi.val - lo.val) hd0; omega
    · have h3 := Int.neg_tmod (-d.val) (hi.val - lo.val)
      rw [neg_neg] at h3
      have h4 := Int.tmod_eq_emod_of_nonneg (a := -d.val) (b := hi.val - lo.val) (by omega)
      have h5 : -d.val % (hi.val - lo.val) ≤ -d.val := by
        have e1 := Int.emod_add_mul_ediv (-d.val) (hi.val - lo.val)
        have e2 := mul_nonneg hbp.le (Int.ediv_nonneg (show 0 ≤ -d.val by omega) hbp.le)
        linarith
      omega
  rw [MInt.arithDiv_ok hlow (by omega)]
  have hcase : d.val % (hi.val - lo.val) = d.val.tmod (hi.val - lo.val) ∧ 0 ≤ d.val.tmod (hi.val - lo.val) ∨
      d.val % (hi.val - lo.val) = (hi.val - lo.val) + d.val.tmod (hi.val - lo.val) ∧
        d.val.tmod (hi.val - lo.val) < 0 := by
    have h3 := Int.tmod_eq_emod (a := d.val) (b := hi.val - lo.val)
    rw [h3]
    have habs : ((hi.val - lo.val).natAbs : ℤ) = hi.val - lo.val := Int.natAbs_of_nonneg hbp.le
    split
    · left; omega
    · right; rw [habs]; omega
  simp only [Res.ok_bind, MInt.lt_iff, MInt.zero_val, decide_eq_true_eq]
  rcases hcase with ⟨hc1, hc2⟩ | ⟨hc1, hc2⟩
  · rw [if_neg (by omega)]
    simp only [Res.pure_eq, Res.ok_bind, MInt.add_def]
    rw [MInt.arith_ok (by omega) (by omega)]
    exact ⟨_, rfl, by simp only [hc1]; omega⟩
  · rw [if_pos hc2]
    simp only [MInt.add_def]
    rw [MInt.arith_ok (by omega) (by omega)]
    simp only [Res.ok_bind]
    rw [MInt.arith_ok (by omega) (by omega)]
    exact ⟨_, rfl, by simp only [hc1]; omega⟩

/-- **C69 (uniform cyclic lookup).** On a cyclic axis whose length and upper end are values of the type, every lookup without
overflow checks answers an existing bin: the one that contains, after whole turns, the coordinate `low + d` where `d` is the
residue of `c - low`. -/
theorem C69_uniform_cyclic_index (hc : Cfg.checked = false) {num : Nat} {low step : MInt τ}
    {a : UniformCyclic (MInt τ)} (hnew : UniformCyclic.withStepSize num low step = .ok (.ok a))
    (hlen : τ.Holds (num * step.val)) (hhigh : τ.Holds (low.val + num * step.val))
    (hnum : num + 2 < usizeSize) (c : MInt τ) :
    ∃ k, k < num ∧ a.index c = .ok (some k) ∧ ∃ d : MInt τ, τ.Residue (c.val - low.val) d ∧
      ∃ t : ℤ, k * step.val ≤ d.val + t * (num * step.val) ∧ d.val + t * (num * step.val) < (k + 1) * step.val := by
  unfold UniformCyclic.withStepSize UniformNoFlow.withStepSize at hnew
  cases hu : Uniform.withStepSize num low step with
  | error p => rw [hu] at hnew; simp at hnew
  | ok r =>
    rw [hu] at hnew
    cases r with
    | error e => simp at hnew
    | ok u =>
      simp at hnew
      subst hnew
      have hfit : Cfg.checked = false → (num : ℤ) * step.val ≤ τ.max ∧ low.val + num * step.val ≤ τ.max :=
        fun _ => ⟨hlen.2, hhigh.2⟩
      obtain ⟨h0, hnmax, hs, ⟨hf1, hf2⟩, e1, e2, e3, e4⟩ := Uniform.withStepSize_ok hu hfit
      have hr0 : (0 : ℤ) < num * step.val := by positivity
      have hlo : u.low.val = low.val := by rw [e2]
      obtain ⟨d, hd1, hd2⟩ := MInt.arith_release (τ := τ) hc (c.val - low.val)
      obtain ⟨y, hy1, hy2⟩ := wrapAround_of_sub (lo := u.low) (hi := u.high) (x := c) (d := d)
        (by omega) (by omega) (by rw [hlo]; exact hd2)
      rw [hlo, e4, add_sub_cancel_left] at hy2
      have hm1 := Int.emod_nonneg d.val hr0.ne'
      have hm2 := Int.emod_lt_of_pos d.val hr0
      obtain ⟨i, hi1, hi2, hi3, hi4, hi5⟩ := C01_uniform_int_index hu hfit (by omega) y
      have hi0 : i ≠ 0 := fun h => by have := hi3.mp h; omega
      have hin : i ≠ num + 1 := fun h => by have := hi4.mp h; omega
      obtain ⟨k, rfl⟩ : ∃ k, i = k + 1 := ⟨i - 1, by omega⟩
      have hk : k < num := by omega
      refine ⟨k, hk, ?_, d, hd1, ?_⟩
      · unfold UniformCyclic.index
        simp only [UniformNoFlow.low, UniformNoFlow.high, hy1, Res.ok_bind]
        rw [UniformNoFlow.index_of (by rw [e1]; omega) hi1 (by rw [e1]; omega)]
        rw [if_neg (by rw [e1]; omega)]
        rfl
      · have := (hi5 k hk).mp rfl
        refine ⟨-(d.val / (num * step.val)), ?_⟩
        have hdm := Int.emod_add_mul_ediv d.val (num * step.val)
        have hcom : (-(d.val / (num * step.val))) * (num * step.val)
            = - ((num * step.val) * (d.val / (num * step.val))) := by ring
        rw [hcom]
        constructor <;> linarith

/-- **C69 (uniform cyclic lookup, right).** Such a lookup is right (as in C08) when `c - low` is a value of the type, and for every
coordinate whatever if the length of a turn divides the number of values of the type. -/
theorem C69_uniform_cyclic_right (hc : Cfg.checked = false) {num : Nat} {low step : MInt τ}
    {a : UniformCyclic (MInt τ)} (hnew : UniformCyclic.withStepSize num low step = .ok (.ok a))
    (hlen : τ.Holds (num * step.val)) (hhigh : τ.Holds (low.val + num * step.val))
    (hnum : num + 2 < usizeSize) (c : MInt τ)
    (hok : τ.Holds (c.val - low.val) ∨ (num * step.val : ℤ) ∣ 2 ^ τ.bits) :
    ∃ k, k < num ∧ a.index c = .ok (some k) ∧
      ∃ t : ℤ, low.val + k * step.val ≤ c.val + t * (num * step.val) ∧
        c.val + t * (num * step.val) < low.val + (k + 1) * step.val := by
  obtain ⟨k, hk, hi, d, hd, t, h1, h2⟩ := C69_uniform_cyclic_index hc hnew hlen hhigh hnum c
  refine ⟨k, hk, hi, ?_⟩
  have : ∃ s : ℤ, d.val = c.val - low.val + s * (num * step.val) := by
    rcases hok with h | ⟨m, hm⟩
    · exact ⟨0, by rw [hd.of_holds h]; ring⟩
    · obtain ⟨s, hs⟩ := hd
      exact ⟨s * m, by rw [hs, hm]; ring⟩
  obtain ⟨s, hs⟩ := this
  refine ⟨s + t, ?_, ?_⟩
  · have : (s + t) * ((num : ℤ) * step.val) = s * (num * step.val) + t * (num * step.val) := by ring
    rw [this]; linarith
  · have : (s + t) * ((num : ℤ) * step.val) = s * (num * step.val) + t * (num * step.val) := by ring
    rw [this]; linarith

/-- **C69 (variable cyclic lookup).** The same for cyclic axes with given (distinct) edges `lo < ... < hi` whose length `hi - lo`
is a value of the type: the answer is the bin that contains `lo + d` after whole turns, `d` the residue of `c - lo`. -/
theorem C69_variable_cyclic_index [StdLib] (hc : Cfg.checked = false) {edges : List (MInt τ)}
    {a : VariableCyclic (MInt τ)} (hnew : VariableCyclic.new edges = .ok (.ok a))
    (hmem : edges.length + 1 < usizeSize) (hd : edges.Nodup) (c : MInt τ) :
    ∃ lo hi : MInt τ, a.low = .ok lo ∧ a.high = .ok hi ∧ lo.val < hi.val ∧
      (τ.Holds (hi.val - lo.val) →
        ∃ k, ∃ s e d : MInt τ, k + 1 < edges.length ∧ a.index c = .ok (some k) ∧ a.bin k = .ok (some (.Bin s e)) ∧
          τ.Residue (c.val - lo.val) d ∧ ∃ t : ℤ, s.val ≤ lo.val + d.val + t * (hi.val - lo.val) ∧
            lo.val + d.val + t * (hi.val - lo.val) < e.val) := by
  obtain ⟨lo, hi, l2, g2, hlt, _⟩ := C15_variable_cyclic_int_partial hnew hmem hd c
  refine ⟨lo, hi, l2, g2, hlt, ?_⟩
  intro hr
  -- the coordinate actually looked up is a value of the type: reduce to the partial theorem at that coordinate
  obtain ⟨d, hd1, hd2⟩ := MInt.arith_release (τ := τ) hc (c.val - lo.val)
  obtain ⟨y, hy1, hy2⟩ := wrapAround_of_sub hlt hr.2 hd2
  have hm1 := Int.emod_nonneg d.val (b := hi.val - lo.val) (by omega)
  have hm2 := Int.emod_lt_of_pos d.val (b := hi.val - lo.val) (by omega)
  have hmin := τ.min_le_zero
  obtain ⟨lo', hi', l2', g2', _, h3⟩ := C15_variable_cyclic_int_partial hnew hmem hd y
  rw [l2] at l2'; rw [g2] at g2'
  simp only [Except.ok.injEq] at l2' g2'
  subst l2'; subst g2'
  have hr2 := hr.2
  obtain ⟨k, s, e, hk, hi1, hb, t, ht1, ht2⟩ := h3 hr.2 (by omega) (by omega)
  have hyy : ∃ y', wrapAround lo hi y = .ok y' ∧ y' = y := by
    obtain ⟨y', hy1', hy2'⟩ := wrapAround_int hlt hr.2 (x := y) (by omega) (by omega)
    refine ⟨y', hy1', MInt.ext ?_⟩
    rw [hy2', hy2, add_sub_cancel_left, Int.emod_emod]
  obtain ⟨y', hy3, rfl⟩ := hyy
  have hsame : a.index c = a.index y' := by
    unfold VariableCyclic.index
    have l3 : a.axis.low = .ok lo := l2
    have g3 : a.axis.high = .ok hi := g2
    simp only [l3, g3, Res.ok_bind, hy1, hy3]
  refine ⟨k, s, e, d, hk, by rw [hsame]; exact hi1, hb, hd1, t - d.val / (hi.val - lo.val), ?_⟩
  have hdm := Int.emod_add_mul_ediv d.val (hi.val - lo.val)
  have : (t - d.val / (hi.val - lo.val)) * (hi.val - lo.val) =
      t * (hi.val - lo.val) - (hi.val - lo.val) * (d.val / (hi.val - lo.val)) := by ring
  rw [this]
  rw [hy2] at ht1 ht2
  constructor <;> linarith

end

section
variable [cfg : Cfg] {t₀ t₁ : AxTy} {ts : List AxTy}

theorem uwrap_release (hc : Cfg.checked = false) (n : Nat) : uwrap n = .ok (n % usizeSize) := by
  unfold uwrap
  split
  · rename_i h; rw [Nat.mod_eq_of_lt h]
  · simp [hc]

/-- prefix products with wrap-around -/
theorem scanProd_release (hc : Cfg.checked = false) (ns : List Nat) (w w' : Nat) (hw : w' = w % usizeSize) :
    ∃ shape, scanProd w' ns = .ok shape ∧ shape = (prefixProd w ns).map (· % usizeSize) := by
  induction ns generalizing w w' with
  | nil => exact ⟨[], rfl, rfl⟩
  | cons n ns ih =>
    subst hw
    obtain ⟨sh, h1, h2⟩ := ih (w * n) ((w % usizeSize * n) % usizeSize) (by rw [Nat.mod_mul_mod])
    refine ⟨((w % usizeSize * n) % usizeSize) :: sh, ?_, ?_⟩
    · unfold scanProd
      rw [umul, uwrap_release hc]
      simp only [Res.ok_bind, h1, Res.pure_eq]
    · rw [h2]
      simp [prefixProd, Nat.mod_mul_mod]

theorem foldlM_sum_release (hc : Cfg.checked = false) (l : List (Nat × Nat)) (acc : Nat) (hacc : acc < usizeSize) :
    l.foldlM (fun acc (ni : Nat × Nat) => do
      let p ← umul ni.1 ni.2
      uadd acc p) acc = .ok ((acc + (l.map (fun p => p.1 * p.2)).sum) % usizeSize) := by
  induction l generalizing acc with
  | nil => simp [Nat.mod_eq_of_lt hacc]
  | cons p l ih =>
    have hu := two_le_usizeSize
    simp only [List.map_cons, List.sum_cons]
    rw [List.foldlM_cons, umul, uwrap_release hc]
    simp only [Res.ok_bind]
    rw [uadd, uwrap_release hc]
    simp only [Res.ok_bind]
    rw [ih _ (Nat.mod_lt _ (by omega))]
    congr 1
    rw [Nat.mod_add_mod, ← Nat.add_assoc, Nat.add_right_comm, Nat.add_mod_mod, Nat.add_right_comm]

theorem map_mod_sum (l is : List Nat) (m : Nat) :
    (((l.map (· % m)).zip is).map (fun p => p.1 * p.2)).sum % m = ((l.zip is).map (fun p => p.1 * p.2)).sum % m := by
  induction l generalizing is with
  | nil => simp
  | cons a l ih =>
    cases is with
    | nil => simp
    | cons i is =>
      simp only [List.map_cons, List.zip_cons_cons, List.sum_cons]
      rw [Nat.add_mod, ih, Nat.mod_mul_mod, ← Nat.add_mod]

theorem foldlM_umul_release (hc : Cfg.checked = false) (ns : List Nat) (w : Nat) (hw : w < usizeSize) :
    ns.foldlM umul w = .ok ((w * ns.prod) % usizeSize) := by
  induction ns generalizing w with
  | nil => simp [Nat.mod_eq_of_lt hw]
  | cons n ns ih =>
    have hu := two_le_usizeSize
    rw [List.foldlM_cons, umul, uwrap_release hc]
    simp only [Res.ok_bind]
    rw [ih _ (Nat.mod_lt _ (by omega)), List.prod_cons, ← Nat.mul_assoc]
    congr 1
    rw [Nat.mod_mul_mod]

theorem flatten_release (hc : Cfg.checked = false) {ns is : List Nat} (hlen0 : is.length = ns.length) (hne : ns ≠ [])
    (hi0 : ∀ i ∈ is, i < usizeSize) :
    AxesTuple.flatten ((prefixProd 1 ns).map (· % usizeSize)) is = .ok (cellNumber 1 ns is % usizeSize) := by
  cases ns with
  | nil => simp at hne
  | cons n ns =>
    cases is with
    | nil => simp at hlen0
    | cons i is =>
      have hlen : is.length = ns.length := by simpa using hlen0
      have hz : ((((prefixProd 1 (n :: ns)).map (· % usizeSize))).reverse.drop 1).zip (i :: is).reverse =
          (((prefixProd 1 (n :: ns)).dropLast.map (· % usizeSize)).zip is).reverse := by
        have hl : (((prefixProd 1 (n :: ns)).map (· % usizeSize))).dropLast.length = is.length := by
          rw [List.length_dropLast, List.length_map, prefixProd_length]; simp [hlen]
        rw [List.drop_one, List.tail_reverse, List.reverse_cons]
        have : (((prefixProd 1 (n :: ns)).map (· % usizeSize))).dropLast.reverse =
            (((prefixProd 1 (n :: ns)).map (· % usizeSize))).dropLast.reverse ++ [] := by simp
        rw [this, List.zip_append (by simp [hl])]
        rw [List.zip_nil_left, List.append_nil, ← List.map_dropLast]
        rw [← List.map_dropLast] at hl
        exact (List.reverse_zipWith hl).symm
      unfold AxesTuple.flatten
      simp only [indexSlice, List.getElem?_cons_zero, Res.ok_bind]
      rw [hz, foldlM_sum_release hc _ _ (hi0 i (by simp))]
      have hsum := zip_dropLast_sum 1 n (is := is) hlen
      have hval : i + cellNumber (1 * n) ns is = cellNumber 1 (n :: ns) (i :: is) := by
        simp [cellNumber]
      rw [List.map_reverse, List.sum_reverse, Nat.add_mod, map_mod_sum, ← Nat.add_mod, hsum, hval]

/-- **C69 (axes tuples).** Without overflow checks, combining axes never panics; the number of bins reported is `n₀*n₁*...`
modulo the size of `usize`, and the bin number of a coordinate is its cell number modulo the size of `usize`. -/
theorem C69_axes_tuple (hc : Cfg.checked = false) {item : Tup (t₀ :: t₁ :: ts)} {ns : List Nat}
    (hl : TupLawful item ns) :
    ∃ a, AxesTuple.fromTuple item = .ok a ∧ a.axes = item ∧ a.numBins = .ok (ns.prod % usizeSize) ∧
      ∀ c, (∀ is, IndexOf item c is → a.index c = .ok (some (cellNumber 1 ns is % usizeSize))) ∧
        (TupTotal item c → (a.index c = .ok none ↔ SomeUncovered item c)) := by
  have hu := two_le_usizeSize
  obtain ⟨sh, h1, h2⟩ := scanProd_release hc ns 1 1 (by rw [Nat.mod_eq_of_lt (by omega)])
  have hnb := numBinsList_ok hl
  have hlen := hl.length
  refine ⟨⟨item, sh⟩, ?_, rfl, ?_, ?_⟩
  · unfold AxesTuple.fromTuple
    rw [hnb]
    simp only [Res.ok_bind, h1]
    rfl
  · unfold AxesTuple.numBins
    rw [hnb]
    cases ns with
    | nil => simp at hlen
    | cons n ns =>
      simp only [Res.ok_bind]
      rw [foldlM_umul_release hc _ _ (hl.fits n (by simp))]
      simp only [Res.ok_bind]
      rw [umul, uwrap_release hc, Nat.mul_one, Nat.mod_mod, List.prod_cons]
  · intro c
    constructor
    · intro is his
      have hg := his.inGrid hl
      unfold AxesTuple.index
      rw [indices_some.mpr his]
      simp only [Res.ok_bind]
      rw [h2, flatten_release hc hg.length_eq (by rintro rfl; simp at hlen)]
      · rfl
      · intro i hi
        have hf : ∀ n ∈ ns, n < usizeSize := fun n hn => hl.fits n hn
        clear hl hnb his h1 h2 hlen
        induction hg with
        | nil => simp at hi
        | cons h hr ih =>
          rename_i j m js ms
          rcases List.mem_cons.mp hi with rfl | hi
          · have := hf m (by simp); omega
          · exact ih hi (fun n hn => hf n (by simp [hn]))
    · intro ht
      unfold AxesTuple.index
      rw [← (indices_none ht).1]
      constructor
      · intro h
        cases hi : Tup.indices item c with
        | error p => simp only [hi, Res.error_bind] at h; simp at h
        | ok o =>
          cases o with
          | none => rfl
          | some is =>
            exfalso
            simp only [hi, Res.ok_bind] at h
            rw [Res.bind_eq_ok] at h
            obtain ⟨_, _, h⟩ := h
            simp at h
      · intro h
        simp only [h, Res.ok_bind]
        rfl

/-- **C69 (too many cells).** When `n₀*n₁*...` exceeds the largest `usize`, the axes built without overflow checks are unusable:
either they report no bins at all, or two different cells get the same number (the cells numbered 0 and `usize::MAX + 1`). -/
theorem C69_too_many_cells (hc : Cfg.checked = false) {item : Tup (t₀ :: t₁ :: ts)} {ns : List Nat}
    (hl : TupLawful item ns) (hpos : ∀ n ∈ ns, 0 < n) (hbig : usizeSize ≤ ns.prod) :
    ∃ a, AxesTuple.fromTuple item = .ok a ∧
      (a.numBins = .ok 0 ∨ ∃ is is', InGrid ns is ∧ InGrid ns is' ∧ is ≠ is' ∧
        ∀ c c', IndexOf item c is → IndexOf item c' is' → a.index c = a.index c') := by
  have hu := two_le_usizeSize
  obtain ⟨a, h1, _, h2, h3⟩ := C69_axes_tuple hc hl
  refine ⟨a, h1, ?_⟩
  rcases Nat.lt_or_ge usizeSize ns.prod with h | h
  · right
    refine ⟨cellOf 0 ns, cellOf usizeSize ns, cellOf_inGrid hpos _, cellOf_inGrid hpos _, ?_, ?_⟩
    · intro he
      have e1 := cellNumber_cellOf (ns := ns) (N := 0) (by omega)
      have e2 := cellNumber_cellOf (ns := ns) (N := usizeSize) h
      rw [he, e2] at e1
      omega
    · intro c c' hi hi'
      rw [(h3 c).1 _ hi, (h3 c').1 _ hi', cellNumber_cellOf (by omega), cellNumber_cellOf h]
      simp
  · left
    rw [h2, show ns.prod = usizeSize by omega, Nat.mod_self]

end

section
attribute [local instance] rel64

/-- Without overflow checks `Uniform::<i8>::with_step_size(2, 100, 20)` is an axis on [-116, 100) with 4 bins (two flow bins), of
which the coordinate 10 has bin number 7: a dense histogram ignores it, a sparse one stores it and cannot be iterated over. -/
theorem C69_counterexample_out_of_range :
    ∃ a, Uniform.withStepSize (T := MInt .i8) 2 (.lit 100) (.lit 20) = .ok (.ok a) ∧
      a.numBins = .ok 4 ∧ a.index (.lit 10) = .ok (some 7) ∧
      ∃ h, VecHistogram.new (V := MInt .i32) a = .ok h ∧ h.fill (MInt.lit 10 : MInt .i8) = (h, none) ∧
      ∃ g : HashHistogram (Uniform (MInt .i8)) (MInt .i32), (HashHistogram.new a).fill (MInt.lit 10 : MInt .i8) = (g, none) ∧
        g.value (MInt.lit 10 : MInt .i8) = .ok (some (.lit 1)) ∧ ∀ o, g.iter o = .error .expectNone := by
  refine ⟨⟨2, .lit (-116), .lit 100, .lit 20⟩, by decide, by decide, by decide,
    ⟨⟨2, .lit (-116), .lit 100, .lit 20⟩, List.replicate 4 (.lit 0)⟩, by decide, by decide,
    ⟨⟨2, .lit (-116), .lit 100, .lit 20⟩, HMap.empty.insert 7 (.lit 1)⟩, ?_, by decide, ?_⟩
  · rfl
  · intro o
    have ho : o.list = [(7, .lit 1)] := List.perm_singleton.mp o.perm
    unfold HashHistogram.iter
    rw [ho]
    rfl

/-- Without overflow checks a cyclic axis whose length is a multiple of the size of the type is constructed but panics on every
lookup, and one whose length is one less panics on one coordinate. -/
theorem C69_counterexample_cyclic_panics :
    (∃ a, UniformCyclic.withStepSize (T := MInt .i8) 64 (.lit 0) (.lit 4) = .ok (.ok a) ∧
      ∀ c, a.index c = .error .divZero) ∧
    (∃ a, UniformCyclic.withStepSize (T := MInt .i8) 51 (.lit (-128)) (.lit 5) = .ok (.ok a) ∧
      a.axis.low = .lit (-128) ∧ a.axis.high = .lit 127 ∧ a.index (.lit 0) = .error .overflow) := by
  refine ⟨⟨⟨⟨64, .lit 0, .lit 0, .lit 4⟩⟩, by decide, ?_⟩, ⟨⟨⟨51, .lit (-128), .lit 127, .lit 5⟩⟩, by decide, by decide, by decide, by decide⟩⟩
  intro c
  obtain ⟨d, _, hd⟩ := MInt.arith_release (τ := .i8) rfl (c.val - 0)
  unfold UniformCyclic.index wrapAround
  simp only [UniformNoFlow.low, UniformNoFlow.high, MInt.sub_def, MInt.lit]
  rw [hd]
  rfl

end
end NdHist
