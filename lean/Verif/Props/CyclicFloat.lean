import Verif.Props.UniformFloatExact
/-!
# Cyclic axes over floating-point numbers (C09, and the floating-point part of C15)
-/
namespace NdHist
open POrd RNum
variable [cfg : Cfg] {F : FFmt}

namespace Flt

/-- the remainder of finite floats has the sign of the dividend and is exact -/
theorem rem_val {a b : Flt F} (ha : a.isFin) (hb : b.isFin) (hb0 : 0 < b.val) :
    (rem a b).isFin ∧ (0 ≤ a.val → (rem a b).val = a.val - ⌊a.val / b.val⌋ * b.val) ∧
      (a.val < 0 → (rem a b).val = a.val + ⌊-a.val / b.val⌋ * b.val) := by
  cases a with
  | nan => exact ha.elim
  | inf => exact ha.elim
  | fin s m h =>
    cases b with
    | nan => exact hb.elim
    | inf => exact hb.elim
    | fin t n h' =>
      have hm := h.nonneg
      have hn := h'.nonneg
      have ht : sval t n = n := by
        cases t
        · rfl
        · have : sval true n = -n := rfl
          change 0 < sval true n at hb0
          linarith
      have hn0 : n ≠ 0 := by
        rintro rfl
        change 0 < sval t 0 at hb0
        rw [ht] at hb0; exact lt_irrefl _ hb0
      obtain ⟨hr, e⟩ := rem_exact (s := s) (t := t) (ha := h) (hb := h') hn0
      rw [e]
      refine ⟨trivial, ?_, ?_⟩
      · intro h0
        show sval s (m - ⌊m / n⌋ * n) = sval s m - ⌊sval s m / sval t n⌋ * sval t n
        rw [ht]
        cases s
        · rfl
        · have : m = 0 := by
            change 0 ≤ -m at h0
            linarith
          subst this; simp [sval]
      · intro h0
        show sval s (m - ⌊m / n⌋ * n) = sval s m + ⌊-(sval s m) / sval t n⌋ * sval t n
        rw [ht]
        cases s
        · change m < 0 at h0; linarith
        · show -(m - ⌊m / n⌋ * n) = -m + ⌊- -m / n⌋ * n
          rw [neg_neg]; ring

end Flt

/-- The wrap-around of a cyclic axis (axis/uniformcyclic.rs:103-109), in terms of real numbers: with `D` the rounded distance to
the lower bound and `R` the rounded range, the result is the rounded Euclidean remainder of `D` by `R`, shifted by the lower bound and
rounded again. -/
theorem wrapAround_float {lo hi c : Flt F} (hlo : lo.isFin) (hR : (Flt.sub hi lo).isFin) (hD : (Flt.sub c lo).isFin)
    (hR0 : 0 < (Flt.sub hi lo).val) :
    ∃ x, wrapAround lo hi c = .ok x ∧ Flt.Rounds
      (F.rs ((Flt.sub c lo).val - ⌊(Flt.sub c lo).val / (Flt.sub hi lo).val⌋ * (Flt.sub hi lo).val) + lo.val) x := by
  set d := Flt.sub c lo with hd
  set r := Flt.sub hi lo with hr
  obtain ⟨h1, h2, h3⟩ := Flt.rem_val hD hR hR0
  have hw : wrapAround lo hi c = .ok (Flt.add (if POrd.lt (Flt.rem d r) (Flt.zero false : Flt F) then Flt.add r (Flt.rem d r) else Flt.rem d r) lo) := by
    show (do
      let r' ← if POrd.lt (Flt.rem d r) (Flt.zero false : Flt F) then RNum.add r (Flt.rem d r) else pure (Flt.rem d r)
      RNum.add r' lo : Res (Flt F)) = _
    cases POrd.lt (Flt.rem d r) (Flt.zero false : Flt F) <;> rfl
  refine ⟨_, hw, ?_⟩
  have z0 : (Flt.zero false : Flt F).isFin ∧ (Flt.zero false : Flt F).val = 0 := ⟨trivial, rfl⟩
  have hlt : POrd.lt (Flt.rem d r) (Flt.zero false : Flt F) = decide ((Flt.rem d r).val < 0) := by rw [Flt.lt_fin h1 z0.1, z0.2]
  have hfl := Int.floor_le (d.val / r.val)
  have hfl' := Int.lt_floor_add_one (d.val / r.val)
  rw [le_div_iff₀ hR0] at hfl
  rw [div_lt_iff₀ hR0] at hfl'
  -- the part before the shift
  suffices hs : ∀ y : Flt F, y = (if POrd.lt (Flt.rem d r) (Flt.zero false : Flt F) then Flt.add r (Flt.rem d r) else Flt.rem d r) →
      y.isFin ∧ y.val = F.rs (d.val - ⌊d.val / r.val⌋ * r.val) by
    obtain ⟨s1, s2⟩ := hs _ rfl
    rw [← s2]
    exact Flt.add_rounds s1 hlo
  rintro y rfl
  by_cases hd0 : 0 ≤ d.val
  · have hv := h2 hd0
    rw [hlt, if_neg (by rw [decide_eq_true_eq, hv, not_lt]; linarith), ← hv]
    exact ⟨h1, (Flt.rs_val _).symm⟩
  · have hd0 := not_le.1 hd0
    have hv := h3 hd0
    have g := Int.floor_le (-d.val / r.val)
    have g' := Int.lt_floor_add_one (-d.val / r.val)
    rw [le_div_iff₀ hR0] at g
    rw [div_lt_iff₀ hR0] at g'
    by_cases hz : (Flt.rem d r).val < 0
    · have hk : ⌊d.val / r.val⌋ = -(⌊-d.val / r.val⌋ + 1) := by
        rw [Int.floor_eq_iff, le_div_iff₀ hR0, div_lt_iff₀ hR0]
        push_cast
        constructor <;> linarith
      rw [hlt, if_pos (by simpa using hz)]
      have e : r.val + (Flt.rem d r).val = d.val - ⌊d.val / r.val⌋ * r.val := by rw [hv, hk]; push_cast; ring
      have := (Flt.add_rounds hR h1).fin_of (by
        rw [abs_of_nonneg (by rw [e]; linarith)]
        have := (abs_le.1 r.abs_val_le).2
        linarith)
      rw [e] at this
      exact this
    · have hv0 : (Flt.rem d r).val = 0 := by
        apply le_antisymm _ (not_lt.1 hz)
        rw [hv]; linarith
      have hk : ⌊d.val / r.val⌋ = -⌊-d.val / r.val⌋ := by
        rw [Int.floor_eq_iff, le_div_iff₀ hR0, div_lt_iff₀ hR0]
        rw [hv] at hv0
        push_cast
        constructor <;> linarith
      have e : d.val - ⌊d.val / r.val⌋ * r.val = 0 := by
        rw [hv] at hv0; rw [hk]; push_cast; linarith
      rw [hlt, if_neg (by simpa using hz), e, F.rs_zero]
      exact ⟨h1, hv0⟩

/-- **C09 (partial).** What a lookup on any finite float cyclic axis does: it never panics by itself and answers as the plain axis does for a wrapped
coordinate `x`, which is the Euclidean remainder of the distance `c - low` by the range `high - low`, moved to start at `low`, with the four float
operations involved each rounded once. Missing from the full claim: because of that rounding (and of C06) `x` may end up at `high` or in a
neighbouring bin; `C09_zero_low_partial` is the case where no rounding happens and the counterexamples below show it does matter. -/
theorem C09_wrap_partial (a : UniformCyclic (Flt F)) (c : Flt F) (hlo : a.low.isFin) (hhi : a.high.isFin) (hc : c.isFin)
    (hlt : a.low.val < a.high.val) (hR : |F.rs (a.high.val - a.low.val)| ≤ F.maxFin) (hD : |F.rs (c.val - a.low.val)| ≤ F.maxFin)
    (hR0 : F.rs (a.high.val - a.low.val) ≠ 0) :
    ∃ x : Flt F, a.index c = a.axis.index x ∧
      Flt.Rounds (F.rs (F.rs (c.val - a.low.val) -
        ⌊F.rs (c.val - a.low.val) / F.rs (a.high.val - a.low.val)⌋ * F.rs (a.high.val - a.low.val)) + a.low.val) x := by
  have rf : ∀ {q : ℚ} {y : Flt F}, Flt.Rounds q y → |F.rs q| ≤ F.maxFin → y.isFin ∧ y.val = F.rs q := by
    intro q y h hq
    cases h with
    | fin h hv => exact ⟨h, hv⟩
    | inf h => exact absurd hq (not_le.2 h)
  have hr := rf (Flt.sub_rounds hhi hlo) hR
  have hd := rf (Flt.sub_rounds hc hlo) hD
  have hpos : 0 < (Flt.sub a.high a.low).val := by
    rw [hr.2]
    exact lt_of_le_of_ne (F.rs_pos_le (by linarith)) (Ne.symm hR0)
  obtain ⟨x, h1, h2⟩ := wrapAround_float hlo hr.1 hd.1 hpos
  rw [hr.2, hd.2] at h2
  refine ⟨x, ?_, h2⟩
  unfold UniformCyclic.index
  change (wrapAround a.low a.high c >>= _) = _
  rw [h1]; rfl

/-- **C09 (partial: lower bound zero).** On `UniformCyclic::new(num, 0.0, high)`, a coordinate `c` is counted exactly where the plain no-flow axis counts its
representative `c - k * high` in `[0, high)`, provided that representative is a float; it is one for every `c ≥ 0`. In particular coordinates
already in `[0, high)` are counted as on `UniformNoFlow`, and whole turns make no difference. Missing: other lower bounds and
negative coordinates whose representative has to be rounded. -/
theorem C09_zero_low_partial (a : UniformCyclic (Flt F)) (hlo : a.low.isFin) (hl0 : a.low.val = 0) (hhi : a.high.isFin) (hh0 : 0 < a.high.val)
    (c : Flt F) (hc : c.isFin) :
    (∀ (x : Flt F) (k : ℤ), x.isFin → x.val = c.val - k * a.high.val → 0 ≤ x.val → x.val < a.high.val → a.index c = a.axis.index x) ∧
    (0 ≤ c.val → ∃ (x : Flt F) (k : ℤ), x.isFin ∧ x.val = c.val - k * a.high.val ∧ 0 ≤ x.val ∧ x.val < a.high.val) ∧
    (0 ≤ c.val → c.val < a.high.val → a.index c = a.axis.index c) := by
  have main : ∀ (x : Flt F) (k : ℤ), x.isFin → x.val = c.val - k * a.high.val → 0 ≤ x.val → x.val < a.high.val → a.index c = a.axis.index x := by
    intro x k hx hv h0 h1
    obtain ⟨y, e, hy⟩ := C09_wrap_partial a c hlo hhi hc (by rw [hl0]; exact hh0)
      (by rw [hl0, sub_zero, Flt.rs_val]; exact Flt.abs_val_le _) (by rw [hl0, sub_zero, Flt.rs_val]; exact Flt.abs_val_le _)
      (by rw [hl0, sub_zero, Flt.rs_val]; exact hh0.ne')
    rw [e]
    rw [hl0, sub_zero, sub_zero, Flt.rs_val, Flt.rs_val, add_zero] at hy
    have hk : ⌊c.val / a.high.val⌋ = k := by
      rw [Int.floor_eq_iff, le_div_iff₀ hh0, div_lt_iff₀ hh0]
      constructor <;> linarith
    rw [hk, ← hv, Flt.rs_val] at hy
    have hy := hy.fin_of (Flt.abs_val_le _)
    have := Uniform.index_congr a.axis.axis hy.1 hx (by rw [hy.2, Flt.rs_val])
    unfold UniformNoFlow.index
    rw [this]
  refine ⟨main, ?_, fun h0 h1 => main c 0 hc (by simp) h0 h1⟩
  intro h0
  obtain ⟨r1, r2, -⟩ := Flt.rem_val hc hhi hh0
  have f1 := Int.floor_le (c.val / a.high.val)
  have f2 := Int.lt_floor_add_one (c.val / a.high.val)
  rw [le_div_iff₀ hh0] at f1
  rw [div_lt_iff₀ hh0] at f2
  refine ⟨Flt.rem c a.high, ⌊c.val / a.high.val⌋, r1, r2 h0, ?_, ?_⟩ <;> rw [r2 h0] <;> linarith

/-- **C09 (partial: whole turns).** On `UniformCyclic::new(num, 0.0, high)`, two non-negative finite coordinates that differ by a whole number of turns
are counted in the same bin. -/
theorem C09_zero_low_turns_partial (a : UniformCyclic (Flt F)) (hlo : a.low.isFin) (hl0 : a.low.val = 0) (hhi : a.high.isFin) (hh0 : 0 < a.high.val)
    (c d : Flt F) (hc : c.isFin) (hd : d.isFin) (hc0 : 0 ≤ c.val) (k : ℤ) (h : d.val = c.val + k * a.high.val) :
    a.index c = a.index d := by
  obtain ⟨m1, e1, -⟩ := C09_zero_low_partial a hlo hl0 hhi hh0 c hc
  obtain ⟨m2, -, -⟩ := C09_zero_low_partial a hlo hl0 hhi hh0 d hd
  obtain ⟨x, n, hx, hv, h0, h1⟩ := e1 hc0
  rw [m1 x n hx hv h0 h1, m2 x (n + k) hx (by rw [h, hv]; push_cast; ring) h0 h1]

/-- **C09 (partial: exact axes).** On a cyclic axis `UniformCyclic::new(num, 0.0, num * 2^e)` every finite coordinate `c ≥ 0` is counted in a bin, and
the interval reported for that bin covers the representative `c - k * high`. -/
theorem C09_exact_partial {num : Nat} {low high : Flt F} {e : Int} {a : UniformCyclic (Flt F)} (hnew : UniformCyclic.new num low high = .ok (.ok a))
    (hl : low.isFin) (hl0 : low.val = 0) (hh : high.isFin) (hh0 : high.val = num * pow2 e) (he : F.qmin ≤ e)
    (hn : num + 2 < usizeSize) (hp : num * num < 2 ^ F.p) (hmax : num * high.val ≤ F.maxFin)
    (c : Flt F) (hc : c.isFin) (hc0 : 0 ≤ c.val) :
    ∃ (x : Flt F) (k : ℤ) (i : Nat) (b : BinInterval (Flt F)), x.isFin ∧ x.val = c.val - k * high.val ∧ 0 ≤ x.val ∧ x.val < high.val ∧
      i < num ∧ a.index c = .ok (some i) ∧ a.bin i = .ok (some b) ∧ b.Covers x := by
  -- the axis inside
  have hu : Uniform.new num low high = .ok (.ok a.axis.axis) := by
    unfold UniformCyclic.new UniformNoFlow.new at hnew
    cases h : Uniform.new num low high with
    | error p => rw [h] at hnew; cases hnew
    | ok r =>
      rw [h] at hnew
      cases r with
      | error => cases hnew
      | ok u => cases hnew; rfl
  obtain ⟨r, hr, -, -, hok, hax⟩ := C03_new_float num low high
  have hra : r = .ok a.axis.axis := by rw [hr] at hu; injection hu
  obtain ⟨hnum, -, hns, -⟩ := hax _ hra
  obtain ⟨hnum0, -⟩ := hok.1 ⟨_, hra⟩
  have hnQ : (0 : ℚ) < num := by exact_mod_cast Nat.pos_of_ne_zero hnum0
  have hhpos : 0 < high.val := by rw [hh0]; exact mul_pos hnQ (pow2_pos _)
  have hgt : POrd.gt low high = false := by
    rw [Flt.gt_fin hl hh, hl0]; exact decide_eq_false (by linarith)
  obtain ⟨e1, e2⟩ := hns hgt
  have e1' : a.low = low := e1
  have e2' : a.high = high := e2
  obtain ⟨m1, m2, -⟩ := C09_zero_low_partial a (by rw [e1']; exact hl) (by rw [e1']; exact hl0) (by rw [e2']; exact hh) (by rw [e2']; exact hhpos) c hc
  obtain ⟨x, k, hx, hv, h0, h1⟩ := m2 hc0
  have hidx := m1 x k hx hv h0 h1
  rw [e2'] at hv h1
  obtain ⟨i, b, g1, g2, g3⟩ := C06_exact_partial (z := 0) hu hl (by rw [hl0]; simp) hh (by rw [hh0]; simp) he (by simp) (by
    have := Nat.le_mul_self num
    simp only [zero_add, Nat.abs_cast]; exact_mod_cast (this.trans hp.le)) hn hp (by rw [← hh0]; exact hmax) x (by rintro rfl; exact hx) (.inl le_rfl)
  -- the covering bin is not a flow bin
  have hn' : a.axis.axis.num + 2 < usizeSize := by rw [hnum]; exact hn
  have hb := Uniform.bin_flt a.axis.axis (i := i) (by omega)
  rw [g2] at hb
  have hi0 : i ≠ 0 := by
    rintro rfl
    rw [if_pos rfl] at hb
    cases hb
    change POrd.lt x a.axis.axis.low = true at g3
    rw [e1, Flt.lt_fin hx hl, hl0] at g3
    exact absurd (of_decide_eq_true g3) (not_lt.2 h0)
  have hi1 : i ≠ a.axis.axis.num + 1 := by
    intro hi
    rw [if_neg hi0, if_pos hi] at hb
    cases hb
    change POrd.le a.axis.axis.high x = true at g3
    rw [e2, Flt.le_fin hh hx] at g3
    exact absurd (of_decide_eq_true g3) (not_le.2 h1)
  have hi2 : i ≤ a.axis.axis.num + 1 := by
    by_contra hc
    rw [if_neg hi0, if_neg hi1, if_pos (by omega)] at hb
    cases hb
  refine ⟨x, k, i - 1, b, hx, hv, h0, h1, by omega, ?_, ?_, g3⟩
  · rw [hidx, UniformNoFlow.index_of hn' g1 hi2, if_neg (by omega)]
  · show UniformNoFlow.bin a.axis (i - 1) = _
    unfold UniformNoFlow.bin
    rw [uadd_ok (by omega), Res.ok_bind, show i - 1 + 1 = i by omega, g2]
    rw [if_neg hi0, if_neg hi1, if_neg (by omega)] at hb
    injection hb with hb
    injection hb with hb
    rw [hb]; rfl

/-- non-vacuity: `UniformCyclic::new(100, 0.0, 25.0)` -/
example : ∃ a, @UniformCyclic.new F64 dbg64 _ 100 (f64 0) (f64 25) = .ok (.ok a) ∧ (f64 0).val = 0 ∧ (f64 25).val = (100 : Nat) * pow2 (-2) ∧
    @UniformCyclic.index F64 dbg64 _ a (f64 51) = .ok (some 4) := by
  refine ⟨⟨⟨⟨100, f64 0, f64 25, f64 (1/4)⟩⟩⟩, ?_, ?_, ?_, ?_⟩ <;> decide +kernel

/-- **C09 is false in general (1).** On `UniformCyclic::new(4, 0.0, 360.0)` the finite coordinate `-1e-20` is in no bin: `360.0 + -1e-20` rounds to
`360.0`, which the plain axis does not cover. -/
theorem C09_counterexample_negative :
    ∃ a, @UniformCyclic.new F64 dbg64 _ 4 (f64 0) (f64 360) = .ok (.ok a) ∧ @UniformCyclic.index F64 dbg64 _ a (f64 (-1/10^20)) = .ok none := by
  refine ⟨⟨⟨⟨4, f64 0, f64 360, f64 90⟩⟩⟩, ?_, ?_⟩ <;> decide +kernel

/-- **C09 is false in general (2).** On `UniformCyclic::new(3, -1.0, 1.0)` the coordinate `0.9999999999999999` lies in `[low, high)`, in the last bin, but is
counted in bin 0, `[-1, -1/3)`: `c - low` rounds to the full range `2.0`, whose remainder is zero. The plain no-flow axis does not count it at all (C06). -/
theorem C09_counterexample_inside :
    ∃ a, @UniformCyclic.new F64 dbg64 _ 3 (f64 (-1)) (f64 1) = .ok (.ok a) ∧
      @POrd.lt F64 (@RNum.toPOrd _ dbg64 _) (f64 (1 - 1/2^53)) (f64 1) = true ∧
      @UniformCyclic.index F64 dbg64 _ a (f64 (1 - 1/2^53)) = .ok (some 0) ∧
      @UniformNoFlow.index F64 dbg64 _ a.axis (f64 (1 - 1/2^53)) = .ok none := by
  refine ⟨⟨⟨⟨3, f64 (-1), f64 1, Flt.div (f64 2) (f64 3)⟩⟩⟩, ?_, ?_, ?_, ?_⟩ <;> decide +kernel

/-! ## C15 over floats -/

variable [StdLib]

/-- **C15 (floating point, NaN and infinities).** On a `VariableCyclic` float axis NaN and the two infinities are in no bin, whatever the edges
(and whatever sort and search std uses). -/
theorem C15_float_nan {edges : List (Flt F)} {a : VariableCyclic (Flt F)} (hnew : VariableCyclic.new edges = .ok (.ok a))
    (hmem : edges.length + 1 < usizeSize) :
    a.index .nan = .ok none ∧ a.index (.inf false) = .ok none ∧ a.index (.inf true) = .ok none := by
  have hnf := VariableCyclic.new_ok hnew
  have hv := VariableNoFlow.new_ok hnf
  obtain ⟨h2, _, p1, ok1⟩ := Variable.new_ok hv
  have hlen := p1.length_eq
  obtain ⟨b1, ⟨lo, l1, l2, _⟩, ⟨hi, g1, g2, _⟩, _, _⟩ := C13_variable_bins hv hmem
  have key : a.axis.index .nan = .ok none := by
    have hj : a.axis.axis.index .nan = .ok (some a.axis.axis.binEdges.length) := Variable.index_nan ok1 rfl
    rw [VariableNoFlow.index_of (by omega) hj le_rfl, if_pos (Or.inr rfl)]
  obtain ⟨w1, w2, w3⟩ := wrapAround_nan lo hi
  unfold VariableCyclic.index
  simp only [VariableNoFlow.low, VariableNoFlow.high, l2, g2, Res.ok_bind, w1, w2, w3]
  exact ⟨key, key, key⟩

/-- **C15 (floating point, partial).** What a lookup on any finite float `VariableCyclic` axis does: it answers as `VariableNoFlow` does for the wrapped coordinate
`x`, the Euclidean remainder of `c - low` by `high - low` moved to start at `low`, each of the four operations rounded once. Missing from the
full claim: rounding may carry `x` over an edge; see `C15_float_zero_low_partial` for the case without rounding. -/
theorem C15_float_wrap_partial (a : VariableCyclic (Flt F)) (lo hi c : Flt F) (hl : a.low = .ok lo) (hh : a.high = .ok hi)
    (hlo : lo.isFin) (hhi : hi.isFin) (hc : c.isFin)
    (hlt : lo.val < hi.val) (hR : |F.rs (hi.val - lo.val)| ≤ F.maxFin) (hD : |F.rs (c.val - lo.val)| ≤ F.maxFin)
    (hR0 : F.rs (hi.val - lo.val) ≠ 0) :
    ∃ x : Flt F, a.index c = a.axis.index x ∧
      Flt.Rounds (F.rs (F.rs (c.val - lo.val) -
        ⌊F.rs (c.val - lo.val) / F.rs (hi.val - lo.val)⌋ * F.rs (hi.val - lo.val)) + lo.val) x := by
  have rf : ∀ {q : ℚ} {y : Flt F}, Flt.Rounds q y → |F.rs q| ≤ F.maxFin → y.isFin ∧ y.val = F.rs q := by
    intro q y h hq
    cases h with
    | fin h hv => exact ⟨h, hv⟩
    | inf h => exact absurd hq (not_le.2 h)
  have hr := rf (Flt.sub_rounds hhi hlo) hR
  have hd := rf (Flt.sub_rounds hc hlo) hD
  have hpos : 0 < (Flt.sub hi lo).val := by
    rw [hr.2]
    exact lt_of_le_of_ne (F.rs_pos_le (by linarith)) (Ne.symm hR0)
  obtain ⟨x, h1, h2⟩ := wrapAround_float hlo hr.1 hd.1 hpos
  rw [hr.2, hd.2] at h2
  refine ⟨x, ?_, h2⟩
  have hl' : a.axis.low = .ok lo := hl
  have hh' : a.axis.high = .ok hi := hh
  unfold VariableCyclic.index
  simp only [hl', hh', h1, Res.ok_bind]

/-- **C15 (floating point, partial: first edge zero).** On a `VariableCyclic` axis over distinct float edges whose first edge is `0.0` and whose last edge `hi` is finite,
every finite coordinate `c ≥ 0` is counted in a bin, and that bin covers the representative `c - k * hi`. Missing: other first edges, negative
coordinates. -/
theorem C15_float_zero_low_partial {edges : List (Flt F)} {a : VariableCyclic (Flt F)} (hnew : VariableCyclic.new edges = .ok (.ok a))
    (hmem : edges.length + 1 < usizeSize) (hd : edges.Pairwise (fun x y => POrd.eq x y = false))
    (lo hi : Flt F) (hl : a.low = .ok lo) (hh : a.high = .ok hi) (hlo : lo.isFin) (hl0 : lo.val = 0) (hhi : hi.isFin)
    (c : Flt F) (hc : c.isFin) (hc0 : 0 ≤ c.val) :
    ∃ (x : Flt F) (t : ℤ) (k : Nat) (s e : Flt F), x.isFin ∧ x.val = c.val - t * hi.val ∧ 0 ≤ x.val ∧ x.val < hi.val ∧ k + 1 < edges.length ∧
      a.index c = .ok (some k) ∧ a.bin k = .ok (some (.Bin s e)) ∧ POrd.le s x = true ∧ POrd.lt x e = true := by
  have hnf := VariableCyclic.new_ok hnew
  have hv := VariableNoFlow.new_ok hnf
  obtain ⟨h2, _, p1, ok1⟩ := Variable.new_ok hv
  have hlen := p1.length_eq
  obtain ⟨b1, ⟨lo', l1, l2, _⟩, ⟨hi', g1, g2, _⟩, _, _⟩ := C13_variable_bins hv hmem
  have el : lo' = lo := by
    have : a.axis.axis.low = .ok lo := hl
    rw [l2] at this; injection this
  have eh : hi' = hi := by
    have : a.axis.axis.high = .ok hi := hh
    rw [g2] at this; injection this
  subst el eh
  have hlt : 0 < hi'.val := by
    have := strict_of_distinct hv hd (i := 0) (j := edges.length - 1) (by omega) (by omega)
    rw [List.getElem?_eq_getElem (by omega)] at l1 g1
    simp at l1 g1
    rw [l1, g1, Flt.lt_fin hlo hhi, hl0] at this
    exact of_decide_eq_true this
  obtain ⟨y, hy1, hy⟩ := C15_float_wrap_partial a lo' hi' c l2 g2 hlo hhi hc (by rw [hl0]; exact hlt)
    (by rw [hl0, sub_zero, Flt.rs_val]; exact Flt.abs_val_le _) (by rw [hl0, sub_zero, Flt.rs_val]; exact Flt.abs_val_le _)
    (by rw [hl0, sub_zero, Flt.rs_val]; exact hlt.ne')
  rw [hl0, sub_zero, sub_zero, Flt.rs_val, Flt.rs_val, add_zero] at hy
  have f1 := Int.floor_le (c.val / hi'.val)
  have f2 := Int.lt_floor_add_one (c.val / hi'.val)
  rw [le_div_iff₀ hlt] at f1
  rw [div_lt_iff₀ hlt] at f2
  obtain ⟨r1, r2, -⟩ := Flt.rem_val hc hhi hlt
  have r2 := r2 hc0
  rw [← r2, Flt.rs_val] at hy
  obtain ⟨y1, y2⟩ := hy.fin_of (Flt.abs_val_le _)
  rw [Flt.rs_val, r2] at y2
  obtain ⟨⟨o, ho⟩, cs, cn⟩ := C14_variable_noflow_covers hnf hmem hd y
  have hsome : ∃ k, o = some k := by
    cases o with
    | some k => exact ⟨k, rfl⟩
    | none =>
      rcases cn.mp ho with h | ⟨e, he, hlt'⟩ | ⟨e, he, hge⟩
      · rw [Flt.eq_fin y1 y1] at h; simp at h
      · rw [l1] at he; cases he
        rw [Flt.lt_fin y1 hlo, hl0] at hlt'
        have := of_decide_eq_true hlt'
        linarith
      · rw [g1] at he; cases he
        rw [Flt.le_fin hhi y1] at hge
        have := of_decide_eq_true hge
        linarith
  obtain ⟨k, rfl⟩ := hsome
  obtain ⟨hk, s, e, hs, he, hse1, hse2⟩ := (cs k).mp ho
  obtain ⟨_, bb, _⟩ := C14_variable_noflow_bins hnf hmem
  obtain ⟨s', e', hs', he', hbin⟩ := bb k hk
  rw [hs] at hs'; rw [he] at he'
  cases hs'; cases he'
  exact ⟨y, _, k, s, e, y1, y2, by rw [y2]; linarith, by rw [y2]; linarith, hk, hy1.trans ho, hbin, hse1, hse2⟩

/-- **C15 is false in general (floating point).** On `VariableCyclic::new([0.0, 90.0, 360.0])` the finite coordinate `-1e-20` is in no bin. -/
theorem C15_counterexample_float :
    ∃ a, @VariableCyclic.new F64 stdNew (@RNum.toPOrd _ dbg64 _) [f64 0, f64 90, f64 360] = .ok (.ok a) ∧
      @VariableCyclic.index F64 dbg64 stdNew _ a (f64 (-1/10^20)) = .ok none := by
  refine ⟨⟨⟨⟨[f64 0, f64 90, f64 360]⟩⟩⟩, ?_, ?_⟩ <;> decide +kernel

/-- non-vacuity of `C15_float_zero_low_partial`: 400 degrees on the same axis -/
example : ∃ a, @VariableCyclic.new F64 stdNew (@RNum.toPOrd _ dbg64 _) [f64 0, f64 90, f64 360] = .ok (.ok a) ∧
    @VariableCyclic.low F64 (@RNum.toPOrd _ dbg64 _) a = .ok (f64 0) ∧ (f64 0).val = 0 ∧
    @VariableCyclic.index F64 dbg64 stdNew _ a (f64 400) = .ok (some 0) := by
  refine ⟨⟨⟨⟨[f64 0, f64 90, f64 360]⟩⟩⟩, ?_, ?_, ?_, ?_⟩ <;> decide +kernel

end NdHist
