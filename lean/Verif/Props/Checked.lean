import Verif.Props.UniformInt
import Verif.Props.Variable
import Verif.Props.Axes
/-!
# C59: with overflow checks, integer axes are right or panic

Several properties of integer axes (C02, C03, C08, C15, C24) are only true under representability
conditions, because the crate computes intermediate values in the coordinate type or in `usize`. In a build with
overflow checks (`Cfg.checked = true`, the default for debug builds) the conditions decide the outcome *completely*: when they
hold the answer is the mathematically right one, and when they do not the call panics with an overflow. No
call silently gives a wrong answer. (In a build without checks this is false: `C03_counterexample_release`,
`C08_counterexample_unsigned`, `C24_counterexample_release`.)

Each theorem is an equation or a case distinction with no representability hypothesis at all.
-/
set_option linter.unusedSectionVars false
namespace NdHist

/-- A mathematical integer is a value of the integer type. -/
def IntTy.Holds (τ : IntTy) (n : ℤ) : Prop := τ.min ≤ n ∧ n ≤ τ.max

instance (τ : IntTy) (n : ℤ) : Decidable (τ.Holds n) := by unfold IntTy.Holds; infer_instance

section
variable [cfg : Cfg] {τ : IntTy}

/-- checked arithmetic that does not fit panics -/
theorem MInt.arith_panic (hc : Cfg.checked = true) {n : ℤ} (h : ¬ τ.Holds n) :
    (MInt.arith n : Res (MInt τ)) = .error .overflow := by
  unfold IntTy.Holds at h
  unfold MInt.arith
  simp [h, hc]

/-- **C59 (constructor).** With overflow checks, `with_step_size` on *any* arguments: `InvalidNumberOfBins` if `num` is not
a value of the type; otherwise an overflow panic exactly when `num*step` or `low+num*step` is not; otherwise
`InvalidNumberOfBins` if `num = 0`, `InvalidStepSize` if `step ≤ 0`, and else the axis with the exact
upper edge. -/
theorem C59_with_step_size (hc : Cfg.checked = true) (num : Nat) (low step : MInt τ) :
    (¬ τ.Holds num → Uniform.withStepSize num low step = .ok (.error .InvalidNumberOfBins)) ∧
    (τ.Holds num → (Uniform.withStepSize num low step = .error .overflow ↔
      ¬ (τ.Holds (num * step.val) ∧ τ.Holds (low.val + num * step.val)))) ∧
    (τ.Holds num → τ.Holds (num * step.val) → τ.Holds (low.val + num * step.val) →
      (num = 0 → Uniform.withStepSize num low step = .ok (.error .InvalidNumberOfBins)) ∧
      (0 < num → step.val ≤ 0 → Uniform.withStepSize num low step = .ok (.error .InvalidStepSize)) ∧
      (0 < num → 0 < step.val → ∃ high : MInt τ, high.val = low.val + num * step.val ∧
        Uniform.withStepSize num low step = .ok (.ok ⟨num, low, high, step⟩))) := by
  have hmin := τ.min_le_zero
  have hok : τ.Holds num → τ.Holds (num * step.val) → τ.Holds (low.val + num * step.val) →
      (num = 0 → Uniform.withStepSize num low step = .ok (.error .InvalidNumberOfBins)) ∧
      (0 < num → step.val ≤ 0 → Uniform.withStepSize num low step = .ok (.error .InvalidStepSize)) ∧
      (0 < num → 0 < step.val → ∃ high : MInt τ, high.val = low.val + num * step.val ∧
        Uniform.withStepSize num low step = .ok (.ok ⟨num, low, high, step⟩)) := by
    intro h0 h1 h2
    obtain ⟨k1, k2, k3, k4⟩ := C03_with_step_size_int num low step h1 h2
    refine ⟨fun h => k1.mpr (.inl h), fun h h' => k2.mpr ⟨h, h0.2, h'⟩, fun h h' => ?_⟩
    obtain ⟨a, ha⟩ := k3.mpr ⟨h, h0.2, h'⟩
    obtain ⟨e1, e2, e3, e4, _⟩ := k4 a ha
    refine ⟨a.high, e4, ?_⟩
    rw [ha]
    cases a
    simp only at e1 e2 e3
    subst e1; subst e2; subst e3
    rfl
  refine ⟨?_, ?_, hok⟩
  · intro h
    have hn : (MInt.ofInt? (num : ℤ) : Option (MInt τ)) = none := by
      rw [MInt.ofInt?_eq_none]; unfold IntTy.Holds at h; omega
    unfold Uniform.withStepSize
    rw [MInt.ofUsize_def, hn]
    rfl
  · intro h
    constructor
    · rintro he ⟨h1, h2⟩
      obtain ⟨k1, k2, k3⟩ := hok h h1 h2
      by_cases hz : num = 0
      · rw [k1 hz] at he; simp at he
      · by_cases hs : step.val ≤ 0
        · rw [k2 (by omega) hs] at he; simp at he
        · obtain ⟨x, _, hx⟩ := k3 (by omega) (by omega)
          rw [hx] at he; simp at he
    · intro hn
      have hnt : (MInt.ofInt? (num : ℤ) : Option (MInt τ)) = some ⟨num, h.1, h.2⟩ := by
        rw [MInt.ofInt?_eq_some]
      unfold Uniform.withStepSize
      rw [MInt.ofUsize_def, hnt]
      simp only [MInt.mul_def]
      by_cases h1 : τ.Holds (num * step.val)
      · have h2 : ¬ τ.Holds (num * step.val + low.val) := by
          rw [add_comm]; exact fun h2 => hn ⟨h1, h2⟩
        rw [MInt.arith_ok h1.1 h1.2]
        simp only [Res.ok_bind, MInt.add_def]
        rw [MInt.arith_panic hc h2]
        rfl
      · rw [MInt.arith_panic hc h1]
        rfl

/-- **C59 (bin lookup).** With overflow checks, `bin` of an inner bin of a constructed integer axis is the interval
`[low+k*step, low+(k+1)*step)` or an overflow panic, and it panics exactly when `(k+1)*num*step` is not a value of the
type. -/
theorem C59_uniform_bin (hc : Cfg.checked = true) {num : Nat} {low step : MInt τ} {a : Uniform (MInt τ)}
    (hnew : Uniform.withStepSize num low step = .ok (.ok a)) (hnum : num + 2 < usizeSize) {k : Nat} (hk : k < num) :
    (a.bin (k + 1) = .error .overflow ∧ ¬ τ.Holds ((k + 1) * (num * step.val))) ∨
    (τ.Holds ((k + 1) * (num * step.val)) ∧ ∃ s e : MInt τ, s.val = low.val + k * step.val ∧
      e.val = low.val + (k + 1) * step.val ∧ a.bin (k + 1) = .ok (some (.Bin s e))) := by
  have hmin := τ.min_le_zero
  obtain ⟨h0, hnmax, hs, hf, e1, e2, e3, e4⟩ := Uniform.withStepSize_ok hnew (by simp [hc])
  by_cases hp : ((k : ℤ) + 1) * (num * step.val) ≤ τ.max
  · right
    have : (0 : ℤ) ≤ (k + 1) * (num * step.val) := by positivity
    refine ⟨⟨by omega, hp⟩, ?_⟩
    exact (C02_uniform_int_bins_partial hnew (by simp [hc]) hnum).2.2.2.1 k hk hp
  · left
    exact ⟨C02_bin_panics hc hnew hnum hk (by omega), fun h => hp h.2⟩

/-- the wrap-around of both cyclic axes panics if one of its differences is not representable -/
theorem wrapAround_panic (hc : Cfg.checked = true) {lo hi x : MInt τ}
    (h : ¬ (τ.Holds (hi.val - lo.val) ∧ τ.Holds (x.val - lo.val))) :
    wrapAround lo hi x = .error .overflow := by
  unfold wrapAround
  simp only [MInt.sub_def]
  by_cases h1 : τ.Holds (hi.val - lo.val)
  · rw [MInt.arith_ok h1.1 h1.2]
    simp only [Res.ok_bind]
    rw [MInt.arith_panic hc (fun h2 => h ⟨h1, h2⟩)]
    rfl
  · rw [MInt.arith_panic hc h1]
    rfl

/-- **C59 (uniform cyclic lookup).** With overflow checks, looking a coordinate up on a cyclic integer axis gives the bin that
contains the coordinate moved by whole turns, or an overflow panic, and it panics exactly when `c - low` is not a value of the
type. -/
theorem C59_uniform_cyclic_index (hc : Cfg.checked = true) {num : Nat} {low step : MInt τ}
    {a : UniformCyclic (MInt τ)} (hnew : UniformCyclic.withStepSize num low step = .ok (.ok a))
    (hnum : num + 2 < usizeSize) (c : MInt τ) :
    (a.index c = .error .overflow ∧ ¬ τ.Holds (c.val - low.val)) ∨
    (τ.Holds (c.val - low.val) ∧ ∃ k, k < num ∧ a.index c = .ok (some k) ∧
      ∃ t : ℤ, low.val + k * step.val ≤ c.val + t * (num * step.val) ∧
        c.val + t * (num * step.val) < low.val + (k + 1) * step.val) := by
  by_cases h : τ.Holds (c.val - low.val)
  · exact .inr ⟨h, C08_uniform_cyclic_int hnew (by simp [hc]) hnum c h⟩
  · left
    refine ⟨?_, h⟩
    unfold UniformCyclic.withStepSize UniformNoFlow.withStepSize at hnew
    cases hu : Uniform.withStepSize num low step with
    | error p => rw [hu] at hnew; simp at hnew
    | ok r =>
      rw [hu] at hnew
      cases r with
      | error e => simp at hnew
      | ok u =>
        simp at hnew
        subst hnew
        obtain ⟨h0, hnmax, hs, ⟨hf1, hf2⟩, e1, e2, e3, e4⟩ := Uniform.withStepSize_ok hu (by simp [hc])
        unfold UniformCyclic.index
        simp only [UniformNoFlow.low, UniformNoFlow.high]
        rw [wrapAround_panic hc (by rw [e2]; exact fun h' => h h'.2)]
        rfl

/-- **C59 (variable cyclic lookup).** The same for cyclic axes with given (distinct) edges; here the length of a turn need not be
a value of the type either. -/
theorem C59_variable_cyclic_index [StdLib] (hc : Cfg.checked = true) {edges : List (MInt τ)}
    {a : VariableCyclic (MInt τ)} (hnew : VariableCyclic.new edges = .ok (.ok a))
    (hmem : edges.length + 1 < usizeSize) (hd : edges.Nodup) (c : MInt τ) :
    ∃ lo hi : MInt τ, a.low = .ok lo ∧ a.high = .ok hi ∧ lo.val < hi.val ∧
      ((a.index c = .error .overflow ∧ ¬ (τ.Holds (hi.val - lo.val) ∧ τ.Holds (c.val - lo.val))) ∨
       (τ.Holds (hi.val - lo.val) ∧ τ.Holds (c.val - lo.val) ∧
        ∃ k, ∃ s e : MInt τ, k + 1 < edges.length ∧ a.index c = .ok (some k) ∧
          a.bin k = .ok (some (.Bin s e)) ∧
          ∃ t : ℤ, s.val ≤ c.val + t * (hi.val - lo.val) ∧ c.val + t * (hi.val - lo.val) < e.val)) := by
  obtain ⟨lo, hi, h1, h2, hlt, h3⟩ := C15_variable_cyclic_int_partial hnew hmem hd c
  refine ⟨lo, hi, h1, h2, hlt, ?_⟩
  by_cases h : τ.Holds (hi.val - lo.val) ∧ τ.Holds (c.val - lo.val)
  · exact .inr ⟨h.1, h.2, h3 h.1.2 h.2.1 h.2.2⟩
  · refine .inl ⟨?_, h⟩
    unfold VariableCyclic.index
    have h1' : a.axis.low = .ok lo := h1
    have h2' : a.axis.high = .ok hi := h2
    simp only [h1', h2', Res.ok_bind]
    rw [wrapAround_panic hc h]
    rfl

end

section
variable [cfg : Cfg] {t₀ t₁ : AxTy} {ts : List AxTy}

/-- **C59 (axes tuples).** With overflow checks, combining axes panics with an overflow exactly when the number of cells
`n₀*n₁*...` is not a `usize`; otherwise the tuple has exactly that many cells. -/
theorem C59_axes_tuple (hc : Cfg.checked = true) {item : Tup (t₀ :: t₁ :: ts)} {ns : List Nat}
    (hl : TupLawful item ns) (hpos : ∀ n ∈ ns, 0 < n) :
    (AxesTuple.fromTuple item = .error .overflow ∧ usizeSize ≤ ns.prod) ∨
    (ns.prod < usizeSize ∧ ∃ a, AxesTuple.fromTuple item = .ok a ∧ LawfulAxis a ns.prod) := by
  by_cases h : ns.prod < usizeSize
  · obtain ⟨a, ha, _, _⟩ := C20_construct hl hpos h
    exact .inr ⟨h, a, ha, C25_lawful_tuple hl hpos h ha⟩
  · exact .inl ⟨C24_overflow_panics_partial hc hl (by omega), by omega⟩

end

section
attribute [local instance] dbg64

/-- C59: all outcomes of the constructor occur (`i8`) -/
example : Uniform.withStepSize (T := MInt .i8) 3 (.lit (-100)) (.lit 60) = .error .overflow ∧
    Uniform.withStepSize (T := MInt .i8) 2 (.lit 100) (.lit 20) = .error .overflow ∧
    Uniform.withStepSize (T := MInt .i8) 200 (.lit 100) (.lit 20) = .ok (.error .InvalidNumberOfBins) ∧
    Uniform.withStepSize (T := MInt .i8) 3 (.lit 0) (.lit (-5)) = .ok (.error .InvalidStepSize) ∧
    Uniform.withStepSize (T := MInt .i8) 4 (.lit (-100)) (.lit 20) =
      .ok (.ok ⟨4, .lit (-100), .lit (-20), .lit 20⟩) := by decide

/-- C59: both outcomes of both lookups occur -/
example : ∃ a, UniformCyclic.withStepSize (T := MInt .i8) 4 (.lit (-100)) (.lit 20) = .ok (.ok a) ∧
    UniformCyclic.index a (.lit 10) = .ok (some 1) ∧
    UniformCyclic.index a (.lit 28) = .error .overflow ∧
    UniformCyclic.bin a 0 = .ok (some (.Bin (.lit (-100)) (.lit (-80)))) ∧
    UniformCyclic.bin a 3 = .error .overflow :=
  ⟨⟨⟨⟨4, .lit (-100), .lit (-20), .lit 20⟩⟩⟩, by decide, by decide, by decide, by decide, by decide⟩

end
end NdHist
