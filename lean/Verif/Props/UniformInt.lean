import Verif.Lemmas.UniformInt
/-!
# Properties of uniform axes over integers (C01, C02, C03, C07, C08)

`Uniform::with_step_size` is the only constructor available for integers (`Uniform::new` needs a float).
All theorems hold for every integer type `τ` (any width ≥ 8, signed or not), every platform width and both
build profiles (`[Cfg]`).

`Uniform.Fits num low step` is the statement that neither `num*step` nor `low+num*step` exceeds the
coordinate type's maximum. In a build with overflow checks it is implied by the constructor returning at all
(`C03_checked_construction_fits`); in a build without, the caller must guarantee it.
-/
set_option linter.unusedSectionVars false
namespace NdHist
variable [cfg : Cfg] {τ : IntTy}

/-- In a build with overflow checks a constructed axis always fits its type. -/
theorem C03_checked_construction_fits (hc : Cfg.checked = true) {num : Nat} {low step : MInt τ}
    {a : Uniform (MInt τ)} (hnew : Uniform.withStepSize num low step = .ok (.ok a)) :
    (num : ℤ) * step.val ≤ τ.max ∧ low.val + num * step.val ≤ τ.max :=
  Uniform.withStepSize_fits hnew hc

/-- **C01.** `index` never panics; it is `0` exactly below `low`, `num+1` exactly from
`low+num*step` on, and `k+1` exactly on `[low+k*step, low+(k+1)*step)`. -/
theorem C01_uniform_int_index {num : Nat} {low step : MInt τ} {a : Uniform (MInt τ)}
    (hnew : Uniform.withStepSize num low step = .ok (.ok a))
    (hfit : Cfg.checked = false →
      (num : ℤ) * step.val ≤ τ.max ∧ low.val + num * step.val ≤ τ.max)
    (hnum : num + 1 < usizeSize) (c : MInt τ) :
    ∃ i, a.index c = .ok (some i) ∧ i ≤ num + 1 ∧
      (i = 0 ↔ c.val < low.val) ∧
      (i = num + 1 ↔ low.val + num * step.val ≤ c.val) ∧
      ∀ k, k < num →
        (i = k + 1 ↔ low.val + k * step.val ≤ c.val ∧ c.val < low.val + (k + 1) * step.val) := by
  obtain ⟨h0, hnmax, hs, hf, e1, e2, e3, e4⟩ := Uniform.withStepSize_ok hnew hfit
  refine ⟨_, Uniform.index_int hs hf e1 e2 e3 e4 hnum c, ?_⟩
  have hr0 : (0 : ℤ) < num * step.val := by positivity
  by_cases h1 : c.val < low.val
  · simp only [h1, if_true]
    refine ⟨by omega, by simp, by constructor <;> intro h <;> omega, ?_⟩
    intro k _
    have : (0 : ℤ) ≤ k * step.val := by positivity
    constructor <;> intro h <;> omega
  · simp only [h1, if_false]
    by_cases h2 : low.val + num * step.val ≤ c.val
    · simp only [h2, if_true]
      refine ⟨le_rfl, by simp, by simp, ?_⟩
      intro k hk
      have : ((k : ℤ) + 1) * step.val ≤ num * step.val := by
        apply mul_le_mul_of_nonneg_right _ hs.le; omega
      constructor <;> intro h <;> omega
    · simp only [h2, if_false]
      have hd0 : 0 ≤ c.val - low.val := by omega
      have hd1 : c.val - low.val < num * step.val := by omega
      have hq0 : 0 ≤ (c.val - low.val) / step.val := Int.ediv_nonneg hd0 hs.le
      have hq1 : (c.val - low.val) / step.val < num := Int.ediv_lt_of_lt_mul hs hd1
      have key : ∀ k : Nat, (c.val - low.val) / step.val = k ↔
          (k : ℤ) * step.val ≤ c.val - low.val ∧ c.val - low.val < (k + 1) * step.val := by
        intro k
        constructor
        · intro h
          have a1 := Int.mul_ediv_self_le (x := c.val - low.val) (k := step.val) hs.ne'
          have a2 := Int.lt_mul_ediv_self_add (x := c.val - low.val) hs
          rw [h] at a1 a2
          constructor <;> linarith
        · rintro ⟨b1, b2⟩
          apply le_antisymm
          · exact Int.lt_add_one_iff.mp (Int.ediv_lt_of_lt_mul hs b2)
          · exact Int.le_ediv_of_mul_le hs b1
      obtain ⟨q, hq⟩ : ∃ q, (c.val - low.val) / step.val = q := ⟨_, rfl⟩
      rw [hq] at hq0 hq1 ⊢
      simp only [hq] at key
      clear hq
      refine ⟨by omega, by simp, by simp; omega, ?_⟩
      intro k hk
      constructor
      · intro h
        have := (key k).mp (by omega)
        constructor <;> linarith
      · rintro ⟨b1, b2⟩
        have := (key k).mpr ⟨by linarith, by linarith⟩
        omega

/-- non-vacuity of C01 (also C02, C07): `Uniform::<i32>::with_step_size(3, 10, 5)` in a debug build -/
example : ∃ a, @Uniform.withStepSize (MInt .i32) dbg64 _ 3 (.lit 10) (.lit 5) = .ok (.ok a) ∧
    @Uniform.index (MInt .i32) dbg64 _ a (.lit 17) = .ok (some 2) :=
  ⟨⟨3, .lit 10, .lit 25, .lit 5⟩, by decide, by decide⟩

/-- `Fits` cannot be dropped in a release build: `Uniform::<i8>::with_step_size(100, -100, 2)` covers
[-100, 100), but coordinate 50 is reported in the overflow bin (the difference `50 - (-100)` wraps). -/
theorem C01_counterexample_release_wrap :
    ∃ a, @Uniform.withStepSize (MInt .i8) rel64 _ 100 (.lit (-100)) (.lit 2) = .ok (.ok a) ∧
      a.low = .lit (-100) ∧ a.high = .lit 100 ∧
      @Uniform.index (MInt .i8) rel64 _ a (.lit 50) = .ok (some 101) :=
  ⟨⟨100, .lit (-100), .lit 100, .lit 2⟩, by decide, by decide, by decide, by decide⟩

/-- **C02 (partial).** The bins are the underflow below `low`, `[low+k*step, low+(k+1)*step)`, and the
overflow from `high`; beyond there is none. Missing for the full property: `bin` computes
`k * (high - low)` in the coordinate type, so the middle bins need `(k+1) * num * step` to fit; see
`C02_bin_panics` for what happens otherwise. -/
theorem C02_uniform_int_bins_partial {num : Nat} {low step : MInt τ} {a : Uniform (MInt τ)}
    (hnew : Uniform.withStepSize num low step = .ok (.ok a))
    (hfit : Cfg.checked = false →
      (num : ℤ) * step.val ≤ τ.max ∧ low.val + num * step.val ≤ τ.max)
    (hnum : num + 2 < usizeSize) :
    a.numBins = .ok (num + 2) ∧
    a.bin 0 = .ok (some (.Underflow low)) ∧
    (∃ high : MInt τ, high.val = low.val + num * step.val ∧
      a.bin (num + 1) = .ok (some (.Overflow high))) ∧
    (∀ k, k < num → ((k : ℤ) + 1) * (num * step.val) ≤ τ.max →
      ∃ s e : MInt τ, s.val = low.val + k * step.val ∧ e.val = low.val + (k + 1) * step.val ∧
        a.bin (k + 1) = .ok (some (.Bin s e))) ∧
    (∀ i, num + 2 ≤ i → a.bin i = .ok none) := by
  obtain ⟨h0, hnmax, hs, hf, e1, e2, e3, e4⟩ := Uniform.withStepSize_ok hnew hfit
  have hr0 : (0 : ℤ) < num * step.val := by positivity
  refine ⟨?_, ?_, ⟨a.high, e4, ?_⟩, ?_, ?_⟩
  · rw [Uniform.numBins, e1, uadd_ok hnum]
  · simp [Uniform.bin, e2, BinInterval.underflow]
  · simp [Uniform.bin, e1, uadd_ok (show num + 1 < usizeSize by omega), BinInterval.overflow]
  · intro k hk hprod
    have hp1 : (k : ℤ) * (num * step.val) ≤ τ.max := by
      have : (k : ℤ) * (num * step.val) ≤ ((k : ℤ) + 1) * (num * step.val) := by
        apply mul_le_mul_of_nonneg_right _ hr0.le; omega
      omega
    obtain ⟨s, hs1, hs2⟩ := Uniform.edge_int h0 hnmax hs hf e1 e2 e4 (k := k) (by omega) hp1
    obtain ⟨e, he1, he2⟩ := Uniform.edge_int h0 hnmax hs hf e1 e2 e4 (k := k + 1) (by omega)
      (by push_cast; exact hprod)
    refine ⟨s, e, hs2, by rw [he2]; push_cast; ring, ?_⟩
    unfold Uniform.bin
    have n1 : ¬ (k + 1 = num + 1) := by omega
    have n2 : ¬ (k + 1 > num + 1) := by omega
    rw [e1, uadd_ok (show num + 1 < usizeSize by omega)]
    simp [hs1, he1, hk.ne, Nat.not_lt.mpr hk.le, BinInterval.new]
  · intro i hi
    have n1 : i ≠ num + 1 := by omega
    have n2 : i > num + 1 := by omega
    have n3 : i ≠ 0 := by omega
    simp [Uniform.bin, e1, uadd_ok (show num + 1 < usizeSize by omega), n1, n2, n3]

/-- The gap in C02, exactly: with overflow checks, looking up bin `k+1` panics whenever
`(k+1) * num * step` exceeds the type, even though both edges of the bin are representable. -/
theorem C02_bin_panics (hc : Cfg.checked = true) {num : Nat} {low step : MInt τ} {a : Uniform (MInt τ)}
    (hnew : Uniform.withStepSize num low step = .ok (.ok a))
    (hnum : num + 2 < usizeSize) {k : Nat} (hk : k < num)
    (hprod : τ.max < ((k : ℤ) + 1) * (num * step.val)) :
    a.bin (k + 1) = .error .overflow := by
  obtain ⟨h0, hnmax, hs, hf, e1, e2, e3, e4⟩ := Uniform.withStepSize_ok hnew (by simp [hc])
  have hr0 : (0 : ℤ) < num * step.val := by positivity
  have hlast := Uniform.edge_int_panic hc h0 hnmax hs hf e2 e4 (k := k + 1) (by omega)
    (by push_cast; omega)
  have h1 : ¬ (k + 1 = 0) := by omega
  have h2 : ¬ (num < k) := by omega
  have h3 : ¬ (k = num) := by omega
  unfold Uniform.bin
  rw [e1, uadd_ok (show num + 1 < usizeSize by omega)]
  simp only [h1, if_false, Res.ok_bind, Nat.add_right_cancel_iff, h3, gt_iff_lt, Nat.add_lt_add_iff_right, h2,
    Nat.add_sub_cancel]
  by_cases hp1 : (k : ℤ) * (num * step.val) ≤ τ.max
  · obtain ⟨s, hs1, _⟩ := Uniform.edge_int h0 hnmax hs hf e1 e2 e4 (k := k) (by omega) hp1
    rw [hs1]
    simp [hlast]
  · rw [Uniform.edge_int_panic hc h0 hnmax hs hf e2 e4 (k := k) (by omega) hp1]
    simp

/-- Witness that the full C02 is false: `Uniform::<u8>::with_step_size(20, 0, 1)` in a debug build has the bin
[12, 13), but `bin(13)` panics; in a release build it reports [12, 0). -/
theorem C02_counterexample :
    ∃ a, @Uniform.withStepSize (MInt .u8) dbg64 _ 20 (.lit 0) (.lit 1) = .ok (.ok a) ∧
      @Uniform.index (MInt .u8) dbg64 _ a (.lit 12) = .ok (some 13) ∧
      @Uniform.bin (MInt .u8) dbg64 _ a 13 = .error .overflow ∧
      @Uniform.bin (MInt .u8) rel64 _ a 13 = .ok (some (.Bin (.lit 12) (.lit 0))) :=
  ⟨⟨20, .lit 0, .lit 20, .lit 1⟩, by decide, by decide, by decide, by decide⟩

/-- **C03 (integer constructor).** When the products do not overflow, `with_step_size` fails with
`InvalidNumberOfBins` exactly when `num` is zero or not representable, with `InvalidStepSize` exactly when
`num` is fine and `step ≤ 0`, and otherwise gives an axis from `low` to `low+num*step > low`; it never
panics. -/
theorem C03_with_step_size_int (num : Nat) (low step : MInt τ)
    (h1 : τ.min ≤ (num : ℤ) * step.val ∧ (num : ℤ) * step.val ≤ τ.max)
    (h2 : τ.min ≤ low.val + num * step.val ∧ low.val + num * step.val ≤ τ.max) :
    (Uniform.withStepSize num low step = .ok (.error .InvalidNumberOfBins) ↔ num = 0 ∨ τ.max < num) ∧
    (Uniform.withStepSize num low step = .ok (.error .InvalidStepSize) ↔
      0 < num ∧ (num : ℤ) ≤ τ.max ∧ step.val ≤ 0) ∧
    ((∃ a, Uniform.withStepSize num low step = .ok (.ok a)) ↔
      0 < num ∧ (num : ℤ) ≤ τ.max ∧ 0 < step.val) ∧
    (∀ a, Uniform.withStepSize num low step = .ok (.ok a) →
      a.num = num ∧ a.low = low ∧ a.step = step ∧ a.high.val = low.val + num * step.val ∧
        a.low.val < a.high.val) := by
  have key : Uniform.withStepSize num low step =
      if num = 0 ∨ τ.max < num then .ok (.error .InvalidNumberOfBins)
      else if step.val ≤ 0 then .ok (.error .InvalidStepSize)
      else .ok (.ok ⟨num, low, ⟨low.val + num * step.val, h2.1, h2.2⟩, step⟩) := by
    unfold Uniform.withStepSize
    rw [MInt.ofUsize_def]
    have hmin := τ.min_le_zero
    cases hn : (MInt.ofInt? (num : ℤ) : Option (MInt τ)) with
    | none =>
      have := MInt.ofInt?_eq_none.mp hn
      rw [if_pos (by omega)]
      rfl
    | some n =>
      have hnv := MInt.ofInt?_eq_some.mp hn
      have hnmax : (num : ℤ) ≤ τ.max := hnv ▸ n.le_max
      simp only [MInt.mul_def, MInt.add_def, hnv]
      rw [MInt.arith_ok h1.1 h1.2]
      simp only [Res.ok_bind]
      rw [MInt.arith_ok (by omega) (by omega)]
      simp only [Res.ok_bind, MInt.le_iff, MInt.gt_iff, MInt.zero_val, decide_eq_true_eq, Res.pure_eq]
      by_cases h0 : num = 0
      · simp [h0]
      · rw [if_neg h0, if_neg (show ¬ (num = 0 ∨ τ.max < num) by omega)]
        by_cases hs : step.val ≤ 0
        · simp [hs]
        · simp only [hs, if_false]
          have hr0 : (0 : ℤ) < num * step.val := by
            apply mul_pos <;> omega
          rw [if_neg (by omega)]
          simp only [add_comm]
  have hr : 0 < num → 0 < step.val → (0 : ℤ) < num * step.val := by
    intro a b; positivity
  rw [key]
  refine ⟨?_, ?_, ?_, ?_⟩
  · by_cases c1 : num = 0 ∨ τ.max < num <;> by_cases c2 : step.val ≤ 0 <;> simp [c1, c2]
  · by_cases c1 : num = 0 ∨ τ.max < num <;> by_cases c2 : step.val ≤ 0 <;> simp [c1, c2] <;> omega
  · by_cases c1 : num = 0 ∨ τ.max < num <;> by_cases c2 : step.val ≤ 0 <;> simp [c1, c2] <;> omega
  · intro a
    by_cases c1 : num = 0 ∨ τ.max < num <;> by_cases c2 : step.val ≤ 0 <;> simp [c1, c2]
    intro h
    subst h
    refine ⟨rfl, rfl, rfl, rfl, ?_⟩
    have := hr (by omega) (by omega)
    simp only; omega

/-- the hypotheses of C03 hold in all three cases -/
example : @Uniform.withStepSize (MInt .i8) dbg64 _ 0 (.lit 3) (.lit 4) = .ok (.error .InvalidNumberOfBins) ∧
    @Uniform.withStepSize (MInt .i8) dbg64 _ 128 (.lit 3) (.lit 0) = .ok (.error .InvalidNumberOfBins) ∧
    @Uniform.withStepSize (MInt .i8) dbg64 _ 2 (.lit 3) (.lit (-4)) = .ok (.error .InvalidStepSize) ∧
    ∃ a, @Uniform.withStepSize (MInt .i8) dbg64 _ 2 (.lit 3) (.lit 4) = .ok (.ok a) :=
  ⟨by decide, by decide, by decide, ⟨⟨2, .lit 3, .lit 11, .lit 4⟩, by decide⟩⟩

/-- Outside the hypothesis: with overflow checks, parameters whose product overflows make the constructor panic
instead of returning an error. -/
theorem C03_overflow_panics (hc : Cfg.checked = true) (num : Nat) (low step : MInt τ)
    (hn : (num : ℤ) ≤ τ.max) (h : τ.max < (num : ℤ) * step.val ∨ (num : ℤ) * step.val < τ.min) :
    Uniform.withStepSize num low step = .error .overflow := by
  have hmin := τ.min_le_zero
  have hnt : (MInt.ofInt? (num : ℤ) : Option (MInt τ)) = some ⟨num, by omega, hn⟩ := by
    rw [MInt.ofInt?_eq_some]
  unfold Uniform.withStepSize
  rw [MInt.ofUsize_def, hnt]
  simp only [MInt.mul_def]
  have : ¬ (τ.min ≤ (num : ℤ) * step.val ∧ (num : ℤ) * step.val ≤ τ.max) := by omega
  unfold MInt.arith
  simp [this, hc]

/-- and in a release build a wrapped `high` can produce an axis that does not start at `low`:
`Uniform::<i8>::with_step_size(2, 100, 20)` gives the range [-116, 100). -/
theorem C03_counterexample_release :
    ∃ a, @Uniform.withStepSize (MInt .i8) rel64 _ 2 (.lit 100) (.lit 20) = .ok (.ok a) ∧
      a.low = .lit (-116) ∧ a.high = .lit 100 :=
  ⟨⟨2, .lit (-116), .lit 100, .lit 20⟩, by decide, rfl, rfl⟩

/-- **C07 (any coordinate type).** `UniformNoFlow` numbers the inner bins of `Uniform` from zero and has no
bin exactly where `Uniform` uses a flow bin. The hypothesis `hle` is that `Uniform` itself stays in
range; it is discharged by C01 for integers and by C05 for floats. -/
theorem C07_noflow_index {T : Type} [RNum T] (u : Uniform T) (hn : u.num + 2 < usizeSize) (c : T) (j : Nat)
    (hj : u.index c = .ok (some j)) (hle : j ≤ u.num + 1) :
    (∃ o, UniformNoFlow.index ⟨u⟩ c = .ok o) ∧
    (∀ i, UniformNoFlow.index ⟨u⟩ c = .ok (some i) ↔ j = i + 1 ∧ i < u.num) ∧
    (UniformNoFlow.index ⟨u⟩ c = .ok none ↔ j = 0 ∨ j = u.num + 1) ∧
    UniformNoFlow.numBins ⟨u⟩ = .ok u.num := by
  rw [UniformNoFlow.index_of hn hj hle]
  refine ⟨⟨_, rfl⟩, ?_, ?_, UniformNoFlow.numBins_eq hn⟩
  · intro i
    by_cases h : j = 0 ∨ j = u.num + 1
    · simp [h]; omega
    · simp [h]; omega
  · by_cases h : j = 0 ∨ j = u.num + 1 <;> simp [h]

/-- **C07 (bins).** `UniformNoFlow::bin(i)` is `Uniform::bin(i+1)` for `i < num` (whenever that is an
inner bin, which C02 and the float results establish), and `None` for every larger number. -/
theorem C07_noflow_bin {T : Type} [RNum T] (u : Uniform T) (i : Nat) (hi : i + 1 < usizeSize)
    (hn : u.num + 1 < usizeSize) :
    (i < u.num → UniformNoFlow.bin ⟨u⟩ i = u.bin (i + 1)) ∧
    (u.num ≤ i → UniformNoFlow.bin ⟨u⟩ i = .ok none) := by
  constructor
  · intro h
    unfold UniformNoFlow.bin
    rw [uadd_ok hi]
    simp only [Res.ok_bind]
    have h1 : ¬ (i + 1 = 0) := by omega
    have h2 : ¬ (i + 1 = u.num + 1) := by omega
    have h3 : ¬ (i + 1 > u.num + 1) := by omega
    unfold Uniform.bin
    rw [uadd_ok hn]
    simp only [h1, h2, h3, if_false, Res.ok_bind]
    cases h4 : u.edge (i + 1 - 1) with
    | error p => simp
    | ok o =>
      cases o with
      | none => simp
      | some s =>
        simp only [Res.ok_bind]
        cases h5 : u.edge (i + 1) with
        | error p => simp
        | ok o =>
          cases o with
          | none => simp
          | some e => simp [BinInterval.new]
  · intro h
    unfold UniformNoFlow.bin
    rw [uadd_ok hi]
    simp only [Res.ok_bind]
    unfold Uniform.bin
    rw [uadd_ok hn]
    by_cases h2 : i = u.num
    · simp [h2, BinInterval.overflow]
    · have h3 : i > u.num := by omega
      simp [h2, h3]

/-- non-vacuity of C07 -/
example : ∃ a, @UniformNoFlow.withStepSize (MInt .i32) dbg64 _ 3 (.lit 10) (.lit 5) = .ok (.ok a) ∧
    @Uniform.index (MInt .i32) dbg64 _ a.axis (.lit 17) = .ok (some 2) ∧
    @UniformNoFlow.index (MInt .i32) dbg64 _ a (.lit 17) = .ok (some 1) ∧
    @UniformNoFlow.index (MInt .i32) dbg64 _ a (.lit 25) = .ok none :=
  ⟨⟨⟨3, .lit 10, .lit 25, .lit 5⟩⟩, by decide, by decide, by decide, by decide⟩

/-- **C08.** On a cyclic integer axis, a coordinate lands in the bin containing its
representative: there is a number of turns `t` such that `c + t*(num*step)` lies in the reported bin. The code
computes `c - low` in the coordinate type, so coordinates for which that difference is not representable are excluded from the property (see `C08_counterexample_unsigned`). -/
theorem C08_uniform_cyclic_int {num : Nat} {low step : MInt τ} {a : UniformCyclic (MInt τ)}
    (hnew : UniformCyclic.withStepSize num low step = .ok (.ok a))
    (hfit : Cfg.checked = false →
      (num : ℤ) * step.val ≤ τ.max ∧ low.val + num * step.val ≤ τ.max)
    (hnum : num + 2 < usizeSize) (c : MInt τ)
    (hd : τ.min ≤ c.val - low.val ∧ c.val - low.val ≤ τ.max) :
    ∃ k, k < num ∧ a.index c = .ok (some k) ∧
      ∃ t : ℤ, low.val + k * step.val ≤ c.val + t * (num * step.val) ∧
        c.val + t * (num * step.val) < low.val + (k + 1) * step.val := by
  unfold UniformCyclic.withStepSize UniformNoFlow.withStepSize at hnew
  cases hu : Uniform.withStepSize num low step with
  | error p => rw [hu] at hnew; simp at hnew
  | ok r =>
    rw [hu] at hnew
    cases r with
    | error e => simp at hnew
    | ok u =>
      simp at hnew
      subst hnew
      obtain ⟨h0, hnmax, hs, ⟨hf1, hf2⟩, e1, e2, e3, e4⟩ := Uniform.withStepSize_ok hu hfit
      have hr0 : (0 : ℤ) < num * step.val := by positivity
      have hlo : u.low.val = low.val := by rw [e2]
      obtain ⟨y, hy1, hy2⟩ := wrapAround_int (lo := u.low) (hi := u.high) (x := c)
        (by omega) (by omega) (by omega) (by omega)
      rw [hlo, e4, add_sub_cancel_left] at hy2
      have hm1 := Int.emod_nonneg (c.val - low.val) hr0.ne'
      have hm2 := Int.emod_lt_of_pos (c.val - low.val) hr0
      obtain ⟨i, hi1, hi2, hi3, hi4, hi5⟩ := C01_uniform_int_index hu hfit (by omega) y
      have hi0 : i ≠ 0 := fun h => by have := hi3.mp h; omega
      have hin : i ≠ num + 1 := fun h => by have := hi4.mp h; omega
      obtain ⟨k, rfl⟩ : ∃ k, i = k + 1 := ⟨i - 1, by omega⟩
      have hk : k < num := by omega
      refine ⟨k, hk, ?_, ?_⟩
      · unfold UniformCyclic.index
        simp only [UniformNoFlow.low, UniformNoFlow.high, hy1, Res.ok_bind]
        rw [UniformNoFlow.index_of (by rw [e1]; omega) hi1 (by rw [e1]; omega)]
        rw [if_neg (by rw [e1]; omega)]
        rfl
      · have := (hi5 k hk).mp rfl
        refine ⟨-((c.val - low.val) / (num * step.val)), ?_⟩
        have hdm := Int.emod_add_mul_ediv (c.val - low.val) (num * step.val)
        have hcom : (-((c.val - low.val) / (num * step.val))) * (num * step.val)
            = - ((num * step.val) * ((c.val - low.val) / (num * step.val))) := by ring
        rw [hcom]
        constructor <;> linarith

/-- **C08 (whole turns).** Coordinates that differ by whole turns share their bin. -/
theorem C08_uniform_cyclic_int_turns {num : Nat} {low step : MInt τ} {a : UniformCyclic (MInt τ)}
    (hnew : UniformCyclic.withStepSize num low step = .ok (.ok a))
    (hfit : Cfg.checked = false →
      (num : ℤ) * step.val ≤ τ.max ∧ low.val + num * step.val ≤ τ.max)
    (hnum : num + 2 < usizeSize) (c c' : MInt τ) (t : ℤ)
    (hd : τ.min ≤ c.val - low.val ∧ c.val - low.val ≤ τ.max)
    (hd' : τ.min ≤ c'.val - low.val ∧ c'.val - low.val ≤ τ.max)
    (hturn : c'.val = c.val + t * (num * step.val)) :
    a.index c = a.index c' := by
  obtain ⟨k, hk, hi, s, hs1, hs2⟩ := C08_uniform_cyclic_int hnew hfit hnum c hd
  obtain ⟨k', hk', hi', s', hs1', hs2'⟩ := C08_uniform_cyclic_int hnew hfit hnum c' hd'
  rw [hi, hi']
  congr 2
  -- two offsets in `[0, num*step)` congruent modulo `num*step` are equal
  have hstep : 0 < step.val := by
    unfold UniformCyclic.withStepSize UniformNoFlow.withStepSize at hnew
    cases hu : Uniform.withStepSize num low step with
    | error p => rw [hu] at hnew; simp at hnew
    | ok r =>
      rw [hu] at hnew
      cases r with
      | error e => simp at hnew
      | ok u => exact (Uniform.withStepSize_ok hu hfit).2.2.1
  set R : ℤ := num * step.val with hR
  have hk1 : ((k : ℤ) + 1) * step.val ≤ R := by
    rw [hR]; apply mul_le_mul_of_nonneg_right _ hstep.le; omega
  have hk1' : ((k' : ℤ) + 1) * step.val ≤ R := by
    rw [hR]; apply mul_le_mul_of_nonneg_right _ hstep.le; omega
  have p0 : (0 : ℤ) ≤ k * step.val := by positivity
  have p0' : (0 : ℤ) ≤ k' * step.val := by positivity
  have hRpos : 0 < R := by rw [hR]; have : 0 < num := by omega
                           positivity
  rw [hturn] at hs1' hs2'
  have heq : s = t + s' := by
    have b1 : (s - (t + s')) * R < R := by
      have : (s - (t + s')) * R = s * R - (t * R + s' * R) := by ring
      rw [this]; linarith
    have b2 : -R < (s - (t + s')) * R := by
      have : (s - (t + s')) * R = s * R - (t * R + s' * R) := by ring
      rw [this]; linarith
    have c1 : s - (t + s') < 1 := by
      by_contra hc
      have := mul_le_mul_of_nonneg_right (show (1 : ℤ) ≤ s - (t + s') by omega) hRpos.le
      linarith
    have c2 : -1 < s - (t + s') := by
      by_contra hc
      have := mul_le_mul_of_nonneg_right (show s - (t + s') ≤ (-1 : ℤ) by omega) hRpos.le
      linarith
    omega
  have hsame : c.val + s * R = c.val + t * R + s' * R := by rw [heq]; ring
  rw [hsame] at hs1 hs2
  have d1 : (k : ℤ) * step.val < (k' + 1) * step.val := by linarith
  have d2 : (k' : ℤ) * step.val < (k + 1) * step.val := by linarith
  have e1 := lt_of_mul_lt_mul_right d1 hstep.le
  have e2 := lt_of_mul_lt_mul_right d2 hstep.le
  omega

/-- non-vacuity of C08 -/
example : ∃ a, @UniformCyclic.withStepSize (MInt .i32) dbg64 _ 4 (.lit 10) (.lit 90) = .ok (.ok a) ∧
    @UniformCyclic.index (MInt .i32) dbg64 _ a (.lit (-700)) = .ok (some 0) ∧
    @UniformCyclic.index (MInt .i32) dbg64 _ a (.lit 20) = .ok (some 0) ∧
    @UniformCyclic.index (MInt .i32) dbg64 _ a (.lit 1000) = .ok (some 3) :=
  ⟨⟨⟨⟨4, .lit 10, .lit 370, .lit 90⟩⟩⟩, by decide, by decide, by decide, by decide⟩

/-- Why C08 needs `c - low` to be representable: on `UniformCyclic::<u8>::with_step_size(4, 10, 5)` (range [10, 30)) the coordinate
8 belongs (one turn up, 28) to bin 3; a debug build panics and a release build reports bin 2. -/
theorem C08_counterexample_unsigned :
    ∃ a, @UniformCyclic.withStepSize (MInt .u8) dbg64 _ 4 (.lit 10) (.lit 5) = .ok (.ok a) ∧
      @UniformCyclic.index (MInt .u8) dbg64 _ a (.lit 28) = .ok (some 3) ∧
      @UniformCyclic.index (MInt .u8) dbg64 _ a (.lit 8) = .error .overflow ∧
      @UniformCyclic.index (MInt .u8) rel64 _ a (.lit 8) = .ok (some 2) :=
  ⟨⟨⟨⟨4, .lit 10, .lit 30, .lit 5⟩⟩⟩, by decide, by decide, by decide, by decide⟩

end NdHist
