import Verif.Lemmas.UniformFloat
import Verif.Props.UniformInt
/-!
# Uniform axes over floating point

All theorems hold for every binary floating-point format (`f32`, `f64`, ...) with IEEE-754 round-to-nearest-even
arithmetic, every platform width and both build profiles. `x.isFin` says that the float is neither NaN nor
infinite, `x.val` is the rational number it stands for, `F.p` the precision (53 for `f64`), `pow2 F.emin` the
smallest positive normal number and `F.maxFin` the largest finite one.
-/
namespace NdHist
open POrd RNum
variable [cfg : Cfg] {F : FFmt}

/-! ## Construction -/

theorem Uniform.new_flt (num : Nat) (low high : Flt F) : Uniform.new num low high =
    .ok (if num = 0 then .error .InvalidNumberOfBins
      else if POrd.eq low high = true then .error .InvalidAxisRange
      else if POrd.gt low high = true then .ok ⟨num, high, low, Flt.div (Flt.sub low high) (Flt.ofRat num)⟩
      else .ok ⟨num, low, high, Flt.div (Flt.sub high low) (Flt.ofRat num)⟩) := by
  unfold Uniform.new
  by_cases h0 : num = 0
  · simp [h0]
  · by_cases h1 : POrd.eq low high = true
    · simp [h0, h1]
    · by_cases h2 : POrd.gt low high = true
      · simp only [h0, h1, h2, if_true, if_false]; rfl
      · simp only [h0, h1, h2, if_false]; rfl

/-- **C03 (`Uniform::new`, floats).** `Uniform::new` never panics; it returns `InvalidNumberOfBins` exactly for
`num = 0`, `InvalidAxisRange` exactly when (otherwise) `low == high`, no other error, and otherwise an axis with the given
number of bins whose bounds are the given ones, swapped iff `low > high`. With comparable bounds the axis has `low < high`. -/
theorem C03_new_float (num : Nat) (low high : Flt F) :
    ∃ r, Uniform.new num low high = .ok r ∧
      (r = .error .InvalidNumberOfBins ↔ num = 0) ∧
      (r = .error .InvalidAxisRange ↔ num ≠ 0 ∧ POrd.eq low high = true) ∧
      ((∃ a, r = .ok a) ↔ num ≠ 0 ∧ POrd.eq low high = false) ∧
      ∀ a, r = .ok a → a.num = num ∧
        (POrd.gt low high = true → a.low = high ∧ a.high = low) ∧
        (POrd.gt low high = false → a.low = low ∧ a.high = high) ∧
        (low ≠ .nan → high ≠ .nan → POrd.lt a.low a.high = true) := by
  refine ⟨_, Uniform.new_flt num low high, ?_⟩
  by_cases h0 : num = 0
  · simp [h0]
  by_cases h1 : POrd.eq low high = true
  · simp [h0, h1]
  have key : ∀ x : Flt F, x ≠ .nan → ∃ k, x.key = some k := by
    intro x hx
    cases x with
    | nan => exact absurd rfl hx
    | inf s => cases s <;> exact ⟨_, rfl⟩
    | fin => exact ⟨_, rfl⟩
  by_cases h2 : POrd.gt low high = true
  · simp only [h0, h1, h2, if_true, if_false]
    refine ⟨by simp [h0], by simp, by simp [h0], ?_⟩
    rintro a h
    cases h
    refine ⟨rfl, fun _ => ⟨rfl, rfl⟩, by simp, fun _ _ => ?_⟩
    obtain ⟨x, y, hx, hy, h⟩ := LawfulPOrd.gt_iff.1 h2
    exact LawfulPOrd.lt_iff.2 ⟨_, _, hy, hx, h⟩
  · simp only [h0, h1, h2, if_false]
    refine ⟨by simp [h0], by simp, by simp [h0], ?_⟩
    rintro a h
    cases h
    refine ⟨rfl, by simp, fun _ => ⟨rfl, rfl⟩, fun hl hh => ?_⟩
    obtain ⟨x, hx⟩ := key low hl
    obtain ⟨y, hy⟩ := key high hh
    refine LawfulPOrd.lt_iff.2 ⟨x, y, hx, hy, ?_⟩
    rcases lt_trichotomy x y with h | h | h
    · exact h
    · exact absurd (LawfulPOrd.eq_iff.2 ⟨x, hx, by rw [h]; exact hy⟩) h1
    · exact absurd (LawfulPOrd.gt_iff.2 ⟨x, y, hx, hy, h⟩) h2

/-- non-vacuity: `Uniform::new(10, 5.0, -5.0)` is the axis from -5 to 5 -/
example : @Uniform.new F64 dbg64 _ 10 (f64 5) (f64 (-5)) = .ok (.ok ⟨10, f64 (-5), f64 5, f64 1⟩) ∧
    @Uniform.new F64 dbg64 _ 10 (f64 0) (Flt.zero true) = .ok (.error .InvalidAxisRange) := by
  constructor <;> decide +kernel

theorem Uniform.withStepSize_flt (num : Nat) (low step : Flt F) : Uniform.withStepSize num low step =
    .ok (if num = 0 then .error .InvalidNumberOfBins
      else if POrd.le step (Flt.zero false) = true then .error .InvalidStepSize
      else if POrd.gt low (Flt.add (Flt.mul (Flt.ofRat num) step) low) = true then
        .ok ⟨num, Flt.add (Flt.mul (Flt.ofRat num) step) low, low, step⟩
      else .ok ⟨num, low, Flt.add (Flt.mul (Flt.ofRat num) step) low, step⟩) := by
  unfold Uniform.withStepSize
  show (do
    let prod ← RNum.mul (Flt.ofRat (num : ℚ)) step
    let high ← RNum.add prod low
    if num = 0 then
      return .error .InvalidNumberOfBins
    if POrd.le step (Flt.zero false) then
      return .error .InvalidStepSize
    let (low, high) := if POrd.gt low high then (high, low) else (low, high)
    return .ok { num, low, high, step } : Res (Except AxisError (Uniform (Flt F)))) = _
  show (do
    if num = 0 then
      return .error .InvalidNumberOfBins
    if POrd.le step (Flt.zero false) then
      return .error .InvalidStepSize
    let (low, high) := if POrd.gt low (Flt.add (Flt.mul (Flt.ofRat num) step) low) then (Flt.add (Flt.mul (Flt.ofRat num) step) low, low) else (low, Flt.add (Flt.mul (Flt.ofRat num) step) low)
    return .ok { num, low, high, step } : Res (Except AxisError (Uniform (Flt F)))) = _
  by_cases h0 : num = 0
  · simp [h0]
  · by_cases h1 : POrd.le step (Flt.zero false) = true
    · simp [h0, h1]
    · by_cases h2 : POrd.gt low (Flt.add (Flt.mul (Flt.ofRat num) step) low) = true
      · simp only [h0, h1, h2, if_true, if_false]; rfl
      · simp only [h0, h1, h2, if_false]; rfl

/-- **C03 (`with_step_size`, floats; partial).** It never panics, returns `InvalidNumberOfBins` exactly for `num = 0` and
`InvalidStepSize` exactly when (otherwise) `step <= 0`. For finite `low` and positive finite `step`, with at most `2^p` bins, if the
upper edge does not overflow then the axis goes from `low` to the correctly rounded `low + num * step` (two roundings), which is at
least `low`. Missing for the full property: `low < high` and NaN steps (`C03_counterexample_float`). -/
theorem C03_with_step_size_float_partial (num : Nat) (low step : Flt F) :
    ∃ r, Uniform.withStepSize num low step = .ok r ∧
      (r = .error .InvalidNumberOfBins ↔ num = 0) ∧
      (r = .error .InvalidStepSize ↔ num ≠ 0 ∧ POrd.le step (Flt.zero false) = true) ∧
      ((∃ a, r = .ok a) ↔ num ≠ 0 ∧ POrd.le step (Flt.zero false) = false) ∧
      ∀ a, r = .ok a → a.num = num ∧
        (low.isFin → step.isFin → num ≤ 2 ^ F.p → a.high.isFin →
          a.low = low ∧ a.high.val = F.rs (F.rs (num * step.val) + low.val) ∧ low.val ≤ a.high.val) := by
  refine ⟨_, Uniform.withStepSize_flt num low step, ?_⟩
  by_cases h0 : num = 0
  · simp [h0]
  by_cases h1 : POrd.le step (Flt.zero false) = true
  · simp [h0, h1]
  have main : low.isFin → step.isFin → num ≤ 2 ^ F.p →
      Flt.add (Flt.mul (Flt.ofRat num) step) low = .inf false ∨
      (Flt.add (Flt.mul (Flt.ofRat num) step) low).isFin ∧
      (Flt.add (Flt.mul (Flt.ofRat num) step) low).val = F.rs (F.rs (num * step.val) + low.val) ∧
      low.val ≤ F.rs (F.rs (num * step.val) + low.val) := by
    intro hl hs hn
    have hs0 : 0 < step.val := by
      rw [Flt.le_fin hs (b := Flt.zero false) trivial] at h1
      simpa [Flt.zero, Flt.val, Flt.sval] using h1
    obtain ⟨n1, n2⟩ := Flt.ofNat_spec (F := F) hn
    have hpos : 0 ≤ (num : ℚ) * step.val := by positivity
    have m := Flt.mul_rounds n1 hs
    rw [n2] at m
    generalize Flt.mul (Flt.ofRat num) step = x at m
    cases m with
    | inf h =>
      left
      rw [decide_eq_false (by linarith)]
      cases hlow : low with
      | nan => rw [hlow] at hl; exact hl.elim
      | inf => rw [hlow] at hl; exact hl.elim
      | fin => rfl
    | fin hx hxv =>
      have hge : low.val ≤ F.rs (F.rs (num * step.val) + low.val) := by
        have := F.rs_mono (x := low.val) (y := F.rs (num * step.val) + low.val) (by
          have := F.rs_pos_le hpos; linarith)
        rwa [Flt.rs_val] at this
      have a := Flt.add_rounds hx hl
      rw [hxv] at a
      generalize Flt.add x low = y at a
      cases a with
      | fin h hv => exact .inr ⟨h, hv, hge⟩
      | inf h =>
        left
        rw [decide_eq_false]
        intro hneg
        have h2 : F.rs (F.rs (num * step.val) + low.val) ≤ 0 := by
          have := F.rs_mono hneg.le; rwa [F.rs_zero] at this
        rw [abs_of_nonpos h2] at h
        have := (abs_le.1 low.abs_val_le).1
        linarith
  by_cases h2 : POrd.gt low (Flt.add (Flt.mul (Flt.ofRat num) step) low) = true
  · simp only [h0, h1, h2, if_true, if_false]
    refine ⟨by simp [h0], by simp, by simp [h0], ?_⟩
    rintro a h
    cases h
    refine ⟨rfl, fun hl hs hn hf => ?_⟩
    exfalso
    rcases main hl hs hn with h | ⟨h, hv, hle⟩
    · rw [h] at h2
      obtain ⟨x, y, hx, hy, h⟩ := LawfulPOrd.gt_iff.1 h2
      cases hy
      exact absurd (WithBot.coe_le_coe.2 (le_top)) (not_le.mpr (lt_of_lt_of_eq h (Option.some.inj ((Flt.key_fin hl).symm.trans hx)).symm))
    · rw [Flt.gt_fin hl h, hv] at h2
      have := of_decide_eq_true h2
      linarith
  · simp only [h0, h1, h2, if_false]
    refine ⟨by simp [h0], by simp, by simp [h0], ?_⟩
    rintro a h
    cases h
    refine ⟨rfl, fun hl hs hn hf => ?_⟩
    rcases main hl hs hn with h | ⟨h, hv, hle⟩
    · simp only [h] at hf; exact hf.elim
    · exact ⟨rfl, hv, by rw [hv]; exact hle⟩

/-- Why C03 is partial for floats: `Uniform::with_step_size(3, 1e17, 1.0)` accepts a step too small to move `low`, giving the
empty axis `[1e17, 1e17)`; and a NaN step, or a NaN bound given to `Uniform::new`, is accepted. -/
theorem C03_counterexample_float :
    (∃ a, @Uniform.withStepSize F64 dbg64 _ 3 (f64 (10 ^ 17)) (f64 1) = .ok (.ok a) ∧ a.low = a.high) ∧
    (∃ a, @Uniform.withStepSize F64 dbg64 _ 3 (f64 0) .nan = .ok (.ok a) ∧ a.high = .nan) ∧
    (∃ a, @Uniform.new F64 dbg64 _ 3 (f64 0) .nan = .ok (.ok a) ∧ a.high = .nan) := by
  refine ⟨⟨⟨3, f64 (10 ^ 17), f64 (10 ^ 17), f64 1⟩, ?_, rfl⟩, ⟨⟨3, f64 0, .nan, .nan⟩, ?_, rfl⟩, ⟨⟨3, f64 0, .nan, .nan⟩, ?_, rfl⟩⟩ <;>
  decide +kernel

/-- non-vacuity: `Uniform::with_step_size(10, 0.5, 0.1)` -/
example : @Uniform.withStepSize F64 dbg64 _ 10 (f64 (1/2)) (f64 (1/10)) = .ok (.ok ⟨10, f64 (1/2), f64 (3/2), f64 (1/10)⟩) := by
  decide +kernel

/-! ## NaN and infinities -/

/-- **C04.** On every `Uniform` axis over floats (however constructed, even with NaN bounds or step): NaN and `+inf` map to
the overflow bin; `-inf` maps to the underflow bin, provided `low` is above `-inf`. -/
theorem C04_uniform (a : Uniform (Flt F)) (hn : a.num + 1 < usizeSize) :
    a.index .nan = .ok (some (a.num + 1)) ∧
    a.index (.inf false) = .ok (some (a.num + 1)) ∧
    (POrd.lt (.inf true) a.low = true → a.index (.inf true) = .ok (some 0)) ∧
    (a.low.isFin → POrd.lt (.inf true) a.low = true) := by
  have hlt : ∀ x : Flt F, POrd.lt (.inf false) x = false := by
    intro x; cases x with
    | nan => rfl
    | inf s => cases s <;> rfl
    | fin => rfl
  refine ⟨?_, ?_, Uniform.index_low, fun h => ?_⟩
  · have := Uniform.index_mid (a := a) (c := .nan) rfl rfl
    rw [Uniform.nan_mid] at this
    exact this hn
  · by_cases h : POrd.ge (.inf false) a.high = true
    · exact Uniform.index_high hn (hlt _) h
    · have := Uniform.index_mid (a := a) (c := .inf false) (hlt _) (by simpa using h)
      have e : Flt.toUsize (Flt.div (Flt.sub (.inf false) a.low) a.step) = none := by
        cases hl : a.low with
        | nan => exact Uniform.nan_mid (a := a)
        | inf s =>
          cases s
          · exact Uniform.nan_mid (a := a)
          · exact Uniform.inf_div_none _ _
        | fin s m hm => exact Uniform.inf_div_none _ _
      rw [e] at this
      exact this hn
  · exact LawfulPOrd.lt_iff.2 ⟨_, _, rfl, Flt.key_fin h, WithBot.bot_lt_coe _⟩

/-- **C04 (`UniformNoFlow`).** No bin for NaN and the infinities, on every axis. -/
theorem C04_noflow (a : UniformNoFlow (Flt F)) (hn : a.axis.num + 2 < usizeSize) :
    a.index .nan = .ok none ∧ a.index (.inf false) = .ok none ∧ a.index (.inf true) = .ok none := by
  obtain ⟨h1, h2, h3, -⟩ := C04_uniform a.axis (by omega)
  have over : ∀ c, a.axis.index c = .ok (some (a.axis.num + 1)) → a.index c = .ok none := by
    intro c h
    rw [UniformNoFlow.index_of hn h (by omega), if_pos (by omega)]
  refine ⟨over _ h1, over _ h2, ?_⟩
  by_cases h : POrd.lt (.inf true) a.axis.low = true
  · rw [UniformNoFlow.index_of hn (h3 h) (by omega), if_pos (by omega)]
  · have h : POrd.lt (.inf true) a.axis.low = false := by simpa using h
    by_cases h' : POrd.ge (.inf true) a.axis.high = true
    · exact over _ (Uniform.index_high (by omega) h h')
    · have e : Flt.toUsize (Flt.div (Flt.sub (.inf true) a.axis.low) a.axis.step) = none := by
        cases hl : a.axis.low with
        | nan => exact Uniform.nan_mid (a := a.axis)
        | inf s =>
          cases s
          · exact Uniform.inf_div_none _ _
          · exact Uniform.nan_mid (a := a.axis)
        | fin s m hm => exact Uniform.inf_div_none _ _
      have := Uniform.index_mid (a := a.axis) (c := .inf true) h (by simpa using h')
      rw [e] at this
      exact over _ (this (by simp; omega))

theorem wrapAround_nan (lo hi : Flt F) : wrapAround lo hi .nan = .ok .nan ∧ wrapAround lo hi (.inf false) = .ok .nan ∧
    wrapAround lo hi (.inf true) = .ok .nan := by
  have h : ∀ d : Flt F, Flt.rem d (Flt.sub hi lo) = .nan → ∀ x, Flt.sub x lo = d → wrapAround lo hi x = .ok .nan := by
    intro d hd x hx
    show (do
      let r ← if POrd.lt (Flt.rem (Flt.sub x lo) (Flt.sub hi lo)) (zero : Flt F) then RNum.add (Flt.sub hi lo) (Flt.rem (Flt.sub x lo) (Flt.sub hi lo))
        else pure (Flt.rem (Flt.sub x lo) (Flt.sub hi lo))
      RNum.add r lo : Res (Flt F)) = _
    rw [hx, hd]; rfl
  have hinf : ∀ s, ∀ y : Flt F, Flt.rem (.inf s) y = .nan := by
    intro s y; cases y <;> rfl
  refine ⟨h .nan rfl _ rfl, ?_, ?_⟩
  · cases lo with
    | nan => exact h .nan rfl _ rfl
    | inf s =>
      cases s
      · exact h .nan rfl _ rfl
      · exact h _ (hinf _ _) _ rfl
    | fin => exact h _ (hinf _ _) _ rfl
  · cases lo with
    | nan => exact h .nan rfl _ rfl
    | inf s =>
      cases s
      · exact h _ (hinf _ _) _ rfl
      · exact h .nan rfl _ rfl
    | fin => exact h _ (hinf _ _) _ rfl

/-- **C04 (`UniformCyclic`).** No bin for NaN and the infinities, on every axis. -/
theorem C04_cyclic (a : UniformCyclic (Flt F)) (hn : a.axis.axis.num + 2 < usizeSize) :
    a.index .nan = .ok none ∧ a.index (.inf false) = .ok none ∧ a.index (.inf true) = .ok none := by
  obtain ⟨h1, h2, h3⟩ := wrapAround_nan a.axis.low a.axis.high
  have h := (C04_noflow a.axis hn).1
  unfold UniformCyclic.index
  simp only [h1, h2, h3, Res.ok_bind]
  exact ⟨h, h, h⟩

/-- `-inf` is not below a lower bound of `-inf`: on the axis accepted by `Uniform::new(10, -inf, 1.0)` every coordinate below 1,
`-inf` included, is counted as overflow. -/
theorem C04_counterexample_infinite_low :
    ∃ a, @Uniform.new F64 dbg64 _ 10 (.inf true) (f64 1) = .ok (.ok a) ∧
      @Uniform.index F64 dbg64 _ a (.inf true) = .ok (some 11) ∧ @Uniform.index F64 dbg64 _ a (f64 0) = .ok (some 11) := by
  refine ⟨⟨10, .inf true, f64 1, .inf false⟩, ?_, ?_, ?_⟩ <;> decide +kernel

/-- non-vacuity -/
example : ∃ a, @Uniform.new F64 dbg64 _ 10 (f64 0) (f64 1) = .ok (.ok a) ∧ a.num + 1 < @usizeSize dbg64 ∧ a.low.isFin := by
  refine ⟨⟨10, f64 0, f64 1, f64 (1/10)⟩, ?_, ?_, ?_⟩ <;> decide +kernel

/-! ## Range and monotonicity -/

/-- **C05.** Axes built by `Uniform::new` from comparable (non-NaN) bounds, with fewer than `2^(p-1)` bins that are not
narrower than the smallest positive normal number: every coordinate (NaN, infinities, subnormals, signed zeros included) has a
bin below `num_bins()`; it is bin 0 exactly when the coordinate is below `low()`; it is the overflow bin whenever the coordinate is at or above
`high()`; and greater coordinates never have smaller bin numbers. Infinite bounds and overflowing ranges are included. -/
theorem C05_uniform_new {num : Nat} {low high : Flt F} {a : Uniform (Flt F)} (hnew : Uniform.new num low high = .ok (.ok a))
    (hl : low ≠ .nan) (hh : high ≠ .nan) (hn : num + 2 < usizeSize) (hp : num < 2 ^ (F.p - 1))
    (hw : low.isFin → high.isFin → num * pow2 F.emin ≤ |high.val - low.val|) :
    a.numBins = .ok (num + 2) ∧ ∀ c,
    ∃ i, a.index c = .ok (some i) ∧ i < num + 2 ∧ (i = 0 ↔ POrd.lt c a.low = true) ∧
      (POrd.ge c a.high = true → i = num + 1) ∧
      ∀ d, POrd.le c d = true → ∃ j, a.index d = .ok (some j) ∧ i ≤ j := by
  have hnew' := hnew
  obtain ⟨r, hr, -, -, hok, hax⟩ := C03_new_float num low high
  rw [hr] at hnew
  have hra : r = .ok a := by injection hnew
  obtain ⟨hnum, hsw, hns, hlt⟩ := hax a hra
  have hlt := hlt hl hh
  obtain ⟨hnum0, hne⟩ := hok.1 ⟨a, hra⟩
  have hnumQ : (0 : ℚ) < num := by exact_mod_cast Nat.pos_of_ne_zero hnum0
  have hp2 := F.p_ge
  have hpp : num ≤ 2 ^ F.p := hp.le.trans (Nat.pow_le_pow_right (by norm_num) (by omega))
  obtain ⟨n1, n2⟩ := Flt.ofNat_spec (F := F) hpp
  have hstep : a.step = Flt.div (Flt.sub a.high a.low) (Flt.ofRat num) := by
    rw [Uniform.new_flt] at hr
    injection hr with hr
    rw [← hr, if_neg hnum0, if_neg (by simp [hne])] at hra
    split at hra <;> cases hra <;> rfl
  have hw' : a.low.isFin → a.high.isFin → num * pow2 F.emin ≤ a.high.val - a.low.val := by
    intro h1 h2
    have hlt' : a.low.val < a.high.val := by rw [Flt.lt_fin h1 h2] at hlt; exact of_decide_eq_true hlt
    by_cases h : POrd.gt low high = true
    · obtain ⟨e1, e2⟩ := hsw h
      rw [e1] at h1; rw [e2] at h2
      have := hw h2 h1
      rw [e1, e2] at hlt' ⊢
      rw [abs_of_neg (by linarith)] at this; linarith
    · obtain ⟨e1, e2⟩ := hns (by simpa using h)
      rw [e1] at h1; rw [e2] at h2
      have := hw h1 h2
      rw [e1, e2] at hlt' ⊢
      rwa [abs_of_pos (by linarith)] at this
  clear hw hsw hns hok hax hr hra hnew hnew'
  subst hnum
  have hsInf : Flt.sub a.high a.low = .inf false → a.step = .inf false := by
    intro h; rw [hstep, h]
    generalize hy : (Flt.ofRat (a.num : ℚ) : Flt F) = y at *
    cases y with
    | nan => exact n1.elim
    | inf => exact n1.elim
    | fin s m hm =>
      cases s
      · rfl
      · exfalso
        simp only [Flt.val, Flt.sval, if_true] at n2
        have := hm.nonneg
        linarith
  have hhigh : a.high ≠ .nan := by
    intro h; rw [h] at hlt
    obtain ⟨_, _, -, h, -⟩ := LawfulPOrd.lt_iff.1 hlt; cases h
  have hle' : POrd.le a.low a.high = true := by
    obtain ⟨x, y, h1, h2, h3⟩ := LawfulPOrd.lt_iff.1 hlt
    exact LawfulPOrd.le_iff.2 ⟨x, y, h1, h2, h3.le⟩
  refine ⟨uadd_ok hn, ?_⟩
  have infCase : a.low.isFin → Flt.sub a.high a.low = .inf false → ∀ c,
      ∃ i, a.index c = .ok (some i) ∧ i < a.num + 2 ∧ (i = 0 ↔ POrd.lt c a.low = true) ∧
      (POrd.ge c a.high = true → i = a.num + 1) ∧
      ∀ d, POrd.le c d = true → ∃ j, a.index d = .ok (some j) ∧ i ≤ j := by
    intro hlf hinf
    have hs := hsInf hinf
    refine Uniform.index_bounded_mono hn (fun c h1 h2 => ?_) (fun c d h1 h2 h3 h4 hcd => ?_) hle'
    · rcases Uniform.mid_inf hlf hs h1 h2 hhigh with ⟨h, -⟩ | ⟨-, h⟩ <;> rw [h] <;> simp
    · rcases Uniform.mid_inf hlf hs h1 h2 hhigh with ⟨h, h'⟩ | ⟨-, h⟩
      · rcases h' with rfl | ⟨hcf, hci⟩
        · obtain ⟨_, _, h, -⟩ := LawfulPOrd.le_iff.1 hcd; cases h
        · rcases Uniform.mid_inf hlf hs h3 h4 hhigh with ⟨h', -⟩ | ⟨hdf, h'⟩
          · rw [h, h']
          · -- the offset of `d` overflows as well
            exfalso
            have hle : c.val ≤ d.val := by rw [Flt.le_fin hcf hdf] at hcd; simpa using hcd
            have r1 := Flt.sub_rounds hcf hlf
            have hc0 : a.low.val ≤ c.val := by rw [Flt.lt_fin hcf hlf] at h1; simpa using h1
            rw [hci] at r1
            have h5 := r1.of_inf.2
            have r2 := Flt.sub_rounds hdf hlf
            generalize Flt.sub d a.low = y at r2 h'
            cases r2 with
            | inf _ => rw [Uniform.inf_div_none] at h'; cases h'
            | fin hy hyv =>
              have := y.abs_val_le
              rw [hyv] at this
              have hm := F.rs_mono (x := c.val - a.low.val) (y := d.val - a.low.val) (by linarith)
              rw [abs_of_nonneg (F.rs_pos_le (by linarith))] at h5 this
              linarith
      · rw [h]; simp
  cases hlow : a.low with
  | nan => rw [hlow] at hlt; obtain ⟨_, _, h, -⟩ := LawfulPOrd.lt_iff.1 hlt; cases h
  | inf s =>
    cases s with
    | false =>
      exfalso
      rw [hlow] at hlt
      obtain ⟨x, y, h, hy, hxy⟩ := LawfulPOrd.lt_iff.1 hlt
      cases h
      cases hk : a.high with
      | nan => exact hhigh hk
      | inf s => rw [hk] at hlt; cases s <;> cases hlt
      | fin => rw [hk] at hlt; cases hlt
    | true =>
      have hnone : ∀ c, Flt.toUsize (Flt.div (Flt.sub c a.low) a.step) = none := by
        intro c
        rw [hlow]
        cases c with
        | nan => rfl
        | inf s => cases s <;> first | rfl | exact Uniform.inf_div_none _ _
        | fin => exact Uniform.inf_div_none _ _
      rw [← hlow]
      exact Uniform.index_bounded_mono hn (fun c _ _ => by rw [hnone]; exact le_rfl)
        (fun c d _ _ _ _ _ => by rw [hnone, hnone]) hle'
  | fin sl ml hml =>
    have hlf : a.low.isFin := by rw [hlow]; trivial
    rw [← hlow]
    cases hhi : a.high with
    | nan => exact absurd hhi hhigh
    | inf s =>
      cases s with
      | true => rw [hhi, hlow] at hlt; cases hlt
      | false => rw [← hhi]; exact infCase hlf (by rw [hhi, hlow]; rfl)
    | fin sh mh hmh =>
      have hhf : a.high.isFin := by rw [hhi]; trivial
      rw [← hhi]
      have hlt' : a.low.val < a.high.val := by rw [Flt.lt_fin hlf hhf] at hlt; exact of_decide_eq_true hlt
      have hwid := hw' hlf hhf
      have r := Flt.sub_rounds hhf hlf
      by_cases hrf : (Flt.sub a.high a.low).isFin
      · have hrv := r.of_isFin hrf
        have hwrep : F.RepU ((a.num : ℚ) * pow2 F.emin) :=
          ⟨a.num, F.emin, rfl, lt_of_lt_of_le hp (Nat.pow_le_pow_right (by norm_num) (by omega)), by unfold FFmt.qmin; omega⟩
        have hr1 : (a.num : ℚ) * pow2 F.emin ≤ (Flt.sub a.high a.low).val := by
          have := F.rs_mono hwid
          rw [F.rs_of_rep (x := (a.num : ℚ) * pow2 F.emin) (by
            rw [abs_of_nonneg (mul_nonneg hnumQ.le (pow2_pos _).le)]; exact hwrep)] at this
          rwa [hrv]
        have hr0 : 0 ≤ (Flt.sub a.high a.low).val := by
          have := mul_nonneg hnumQ.le (pow2_pos F.emin).le; linarith
        have hq : pow2 F.emin ≤ (Flt.sub a.high a.low).val / a.num := by
          rw [le_div_iff₀ hnumQ]; linarith
        have hq0 : 0 ≤ (Flt.sub a.high a.low).val / a.num := (pow2_pos F.emin).le.trans hq
        have hqm : (Flt.sub a.high a.low).val / a.num ≤ F.maxFin := by
          have h1 : (1 : ℚ) ≤ a.num := by exact_mod_cast Nat.pos_of_ne_zero hnum0
          have := (abs_le.1 (Flt.sub a.high a.low).abs_val_le).2
          rw [div_le_iff₀ hnumQ]
          nlinarith [F.maxFin_pos]
        have hs := (Flt.div_rounds hrf n1 (by rw [n2]; exact hnumQ.ne')).fin_of (by
          rw [n2, abs_of_nonneg hq0]; exact hqm)
        rw [n2, ← hstep, F.rs_nonneg hq0] at hs
        have hsmin : pow2 F.emin ≤ a.step.val := by
          rw [hs.2]
          have := F.rnd_mono (pow2_pos F.emin).le hq
          rwa [F.rnd_repU (x := pow2 F.emin) ⟨1, F.emin, by simp, Nat.one_lt_two_pow (by omega), by unfold FFmt.qmin; omega⟩] at this
        have hspos : 0 < a.step.val := lt_of_lt_of_le (pow2_pos _) hsmin
        have hrel := F.rnd_rel hq0 (by rw [← hs.2]; exact hsmin)
        rw [← hs.2] at hrel
        have hbound : (Flt.sub a.high a.low).val ≤ a.step.val * a.num * (1 + pow2 (-(F.p : Int))) := by
          have h1 := (abs_le.1 hrel).1
          have h2 : (Flt.sub a.high a.low).val / a.num ≤ a.step.val * (1 + pow2 (-(F.p : Int))) := by linarith
          rw [div_le_iff₀ hnumQ] at h2
          linarith
        obtain ⟨g1, g2⟩ := Uniform.mid_bounded_mono hlf hhigh hs.1 hspos hn hp (fun c hc hc1 hc2 hcf => by
          rw [Flt.ge_fin hc hhf] at hc2
          have hc2 := not_le.1 (of_decide_eq_false hc2)
          rw [(Flt.sub_rounds hc hlf).of_isFin hcf]
          refine le_trans (F.rs_mono (y := a.high.val - a.low.val) (by linarith)) ?_
          rw [← hrv]; exact hbound)
        exact Uniform.index_bounded_mono hn g1 g2 hle'
      · refine infCase hlf ?_
        generalize Flt.sub a.high a.low = x at r hrf
        cases r with
        | fin h _ => exact absurd h hrf
        | inf _ => rw [decide_eq_false (by linarith)]


/-- rounding a multiple of the smallest subnormal increases it by a factor of at most `1 + 2^-p` -/
theorem FFmt.rnd_le_rel (F : FFmt) {x : ℚ} {n : Nat} (hx : x = n * pow2 F.qmin) : F.rnd x ≤ x * (1 + pow2 (-(F.p : Int))) := by
  have hx0 : 0 ≤ x := by rw [hx]; exact mul_nonneg (by positivity) (pow2_pos _).le
  rcases le_total (pow2 F.emin) x with h | h
  · have := (abs_le.1 (F.rnd_rel' h)).2; linarith
  · rw [F.rnd_small hx (h.trans (pow2_le.mpr (by omega)))]
    have := mul_nonneg hx0 (pow2_pos (-(F.p : Int))).le
    linarith

/-- **C05 (`with_step_size`).** The same for axes built by `Uniform::with_step_size` from a finite lower edge and a finite step, however
small: total, in range, underflow exactly below `low()`, overflow at or above `high()`, and monotone. -/
theorem C05_with_step_size {num : Nat} {low step : Flt F} {a : Uniform (Flt F)} (hnew : Uniform.withStepSize num low step = .ok (.ok a))
    (hl : low.isFin) (hs : step.isFin) (hn : num + 2 < usizeSize) (hp : num < 2 ^ (F.p - 1)) :
    a.numBins = .ok (num + 2) ∧ ∀ c,
    ∃ i, a.index c = .ok (some i) ∧ i < num + 2 ∧ (i = 0 ↔ POrd.lt c a.low = true) ∧
      (POrd.ge c a.high = true → i = num + 1) ∧
      ∀ d, POrd.le c d = true → ∃ j, a.index d = .ok (some j) ∧ i ≤ j := by
  have hp2 := F.p_ge
  have hpp : num ≤ 2 ^ F.p := hp.le.trans (Nat.pow_le_pow_right (by norm_num) (by omega))
  obtain ⟨n1, n2⟩ := Flt.ofNat_spec (F := F) hpp
  rw [Uniform.withStepSize_flt] at hnew
  by_cases h0 : num = 0
  · simp [h0] at hnew
  by_cases h1 : POrd.le step (Flt.zero false) = true
  · simp [h0, h1] at hnew
  have hs0 : 0 < step.val := by
    rw [Flt.le_fin hs (b := Flt.zero false) trivial] at h1
    simpa [Flt.zero, Flt.val, Flt.sval] using h1
  have hpos : 0 ≤ (num : ℚ) * step.val := by positivity
  obtain ⟨ns, hns⟩ := step.val_rep.repU.mult
  rw [abs_of_pos hs0] at hns
  have hmul : (num : ℚ) * step.val = ((num * ns : Nat) : ℚ) * pow2 F.qmin := by rw [hns]; push_cast; ring
  have hrel := F.rnd_le_rel hmul
  have m := Flt.mul_rounds n1 hs
  rw [n2] at m
  generalize hP : Flt.mul (Flt.ofRat num) step = P at m hnew
  -- the upper edge, and the fact about coordinates below it
  have main : ∀ high, Flt.add P low = high → high ≠ .nan ∧ POrd.le low high = true ∧
      ∀ c : Flt F, c.isFin → low.val ≤ c.val → POrd.ge c high = false → (Flt.sub c low).isFin →
        (Flt.sub c low).val ≤ step.val * num * (1 + pow2 (-(F.p : Int))) := by
    intro high hhigh
    cases m with
    | inf h =>
      rw [decide_eq_false (by linarith)] at hhigh
      have hi : high = .inf false := by
        rw [← hhigh]
        cases hlow : low with
        | nan => rw [hlow] at hl; exact hl.elim
        | inf => rw [hlow] at hl; exact hl.elim
        | fin => rfl
      refine ⟨by rw [hi]; simp, ?_, fun c hc h1 h2 hf => ?_⟩
      · rw [hi]
        cases hlow : low with
        | nan => rw [hlow] at hl; exact hl.elim
        | inf => rw [hlow] at hl; exact hl.elim
        | fin => rfl
      · have h3 := (abs_le.1 (Flt.sub c low).abs_val_le).2
        rw [abs_of_nonneg (F.rs_pos_le hpos), F.rs_nonneg hpos] at h
        linarith
    | fin hx hxv =>
      rw [F.rs_nonneg hpos] at hxv
      have hx0 : 0 ≤ P.val := by rw [hxv]; exact F.rnd_nonneg hpos
      have hge : low.val ≤ F.rs (P.val + low.val) := by
        have := F.rs_mono (x := low.val) (y := P.val + low.val) (by linarith)
        rwa [Flt.rs_val] at this
      have r := Flt.add_rounds hx hl
      rw [hhigh] at r
      have fin_below : ∀ c : Flt F, c.val < P.val + low.val → (Flt.sub c low).isFin → c.isFin →
          (Flt.sub c low).val ≤ step.val * num * (1 + pow2 (-(F.p : Int))) := by
        intro c hc hf hcf
        rw [(Flt.sub_rounds hcf hl).of_isFin hf]
        have := F.rs_mono (x := c.val - low.val) (y := P.val) (by linarith)
        rw [Flt.rs_val, hxv] at this
        linarith
      cases r with
      | fin h hv =>
        refine ⟨by rintro rfl; exact h, by rw [Flt.le_fin hl h, hv]; exact decide_eq_true hge, fun c hc h1 h2 hf => ?_⟩
        rw [Flt.ge_fin hc h, hv] at h2
        have h2 := not_le.1 (of_decide_eq_false h2)
        refine fin_below c ?_ hf hc
        by_contra hcon
        have := F.rs_mono (not_lt.1 hcon)
        rw [Flt.rs_val] at this
        linarith
      | inf h =>
        have hpos' : ¬ P.val + low.val < 0 := by
          intro hneg
          have h2 : F.rs (P.val + low.val) ≤ 0 := by
            have := F.rs_mono hneg.le; rwa [F.rs_zero] at this
          rw [abs_of_nonpos h2] at h
          have := (abs_le.1 low.abs_val_le).1
          linarith
        rw [decide_eq_false hpos']
        refine ⟨by simp, ?_, fun c hc h1 h2 hf => ?_⟩
        · cases hlow : low with
          | nan => rw [hlow] at hl; exact hl.elim
          | inf => rw [hlow] at hl; exact hl.elim
          | fin => rfl
        · refine fin_below c ?_ hf hc
          by_contra hcon
          have h3 := F.rs_mono (not_lt.1 hcon)
          rw [Flt.rs_val] at h3
          rw [abs_of_nonneg (F.rs_pos_le (not_lt.1 hpos'))] at h
          have := (abs_le.1 c.abs_val_le).2
          linarith
  obtain ⟨hnan, hle, hR⟩ := main _ rfl
  have hgt : POrd.gt low (Flt.add P low) = false := by
    obtain ⟨x, y, hx, hy, hxy⟩ := LawfulPOrd.le_iff.1 hle
    by_contra hc
    obtain ⟨x', y', hx', hy', hxy'⟩ := LawfulPOrd.gt_iff.1 (by simpa using hc)
    rw [hx] at hx'; rw [hy] at hy'
    cases hx'; cases hy'
    exact absurd hxy (not_le.mpr hxy')
  simp only [h0, h1, hgt, if_false] at hnew
  have ha : (⟨num, low, Flt.add P low, step⟩ : Uniform (Flt F)) = a := by
    injection hnew with h; injection h
  subst ha
  refine ⟨uadd_ok hn, ?_⟩
  obtain ⟨g1, g2⟩ := Uniform.mid_bounded_mono (a := ⟨num, low, Flt.add P low, step⟩) hl hnan hs hs0 hn hp hR
  exact Uniform.index_bounded_mono (a := ⟨num, low, Flt.add P low, step⟩) hn g1 g2 hle

/-- Why the bins must not be narrower than the smallest normal number: on `Uniform::new(5, 0.0, 7 * 2^-1074)` (an `f64` axis of seven
subnormals) the coordinate `6 * 2^-1074`, inside the range, is given bin number 7, which is not below `num_bins() = 7`. -/
theorem C05_counterexample_subnormal :
    ∃ a, @Uniform.new F64 dbg64 _ 5 (f64 0) (f64 (7 * pow2 (-1074))) = .ok (.ok a) ∧
      @Uniform.numBins F64 dbg64 a = .ok 7 ∧ @Uniform.index F64 dbg64 _ a (f64 (6 * pow2 (-1074))) = .ok (some 7) ∧
      @Uniform.index F64 dbg64 _ a (f64 (7 * pow2 (-1074))) = .ok (some 6) := by
  refine ⟨⟨5, f64 0, f64 (7 * pow2 (-1074)), f64 (pow2 (-1074))⟩, ?_, ?_, ?_, ?_⟩ <;> decide +kernel

/-- Why the number of bins must be below `2^(p-1)` (about 8.4 million for `f32`): `Uniform::<f32>::new(9530593, -151.0, 1e-30)` puts
the coordinate 0 in bin 9530595, which is not below `num_bins()`. -/
theorem C05_counterexample_many_bins :
    ∃ a, @Uniform.new F32 dbg64 _ 9530593 (f32 (-151)) (f32 (1 / 10 ^ 30)) = .ok (.ok a) ∧
      @Uniform.numBins F32 dbg64 a = .ok 9530595 ∧ @Uniform.index F32 dbg64 _ a (f32 0) = .ok (some 9530595) := by
  refine ⟨⟨9530593, f32 (-151), f32 (1 / 10 ^ 30), Flt.div (f32 151) (f32 9530593)⟩, ?_, ?_, ?_⟩ <;> decide +kernel

/-- non-vacuity of C05 -/
example : ∃ a, @Uniform.new F64 dbg64 _ 10 (f64 0) (f64 1) = .ok (.ok a) ∧ (10 : ℚ) * pow2 FFmt.f64.emin ≤ |(f64 1).val - (f64 0).val| ∧
    @Uniform.index F64 dbg64 _ a (f64 (1/4)) = .ok (some 3) ∧ @Uniform.index F64 dbg64 _ a .nan = .ok (some 11) := by
  refine ⟨⟨10, f64 0, f64 1, f64 (1/10)⟩, ?_, ?_, ?_, ?_⟩ <;> decide +kernel

example : ∃ a, @Uniform.withStepSize F64 dbg64 _ 10 (f64 0) (f64 (1/10)) = .ok (.ok a) ∧
    @Uniform.index F64 dbg64 _ a (f64 (1/4)) = .ok (some 3) := by
  refine ⟨⟨10, f64 0, f64 1, f64 (1/10)⟩, ?_, ?_⟩ <;> decide +kernel

end NdHist
