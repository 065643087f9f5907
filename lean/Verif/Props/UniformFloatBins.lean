import Verif.Lemmas.UniformFloatBins
import Verif.Props.Axes
/-!
# Float uniform axes: bins, the agreement of `index` and `bin`, wrap-around
-/
namespace NdHist
open POrd RNum
variable [cfg : Cfg] {F : FFmt}

/-! ## Float axes are lawful -/

/-- Float axes from `Uniform::new` satisfy the contract of `Axis` (so all results on tuples and histograms apply to them). -/
theorem C25_lawful_uniform_float_new {num : Nat} {low high : Flt F} {a : Uniform (Flt F)} (hnew : Uniform.new num low high = .ok (.ok a))
    (hl : low ≠ .nan) (hh : high ≠ .nan) (hn : num + 2 < usizeSize) (hp : num < 2 ^ (F.p - 1))
    (hw : low.isFin → high.isFin → num * pow2 F.emin ≤ |high.val - low.val|) : LawfulAxis a (num + 2) := by
  obtain ⟨h1, h2⟩ := C05_uniform_new hnew hl hh hn hp hw
  have hnum : a.num = num := by
    obtain ⟨r, hr, -, -, -, hax⟩ := C03_new_float num low high
    rw [hr] at hnew
    exact (hax a (by injection hnew)).1
  refine ⟨h1, hn, ?_, ?_⟩
  · intro c i hi
    obtain ⟨j, hj, hlt, -⟩ := h2 c
    have hi' : a.index c = .ok (some i) := hi
    rw [hi'] at hj
    simp at hj; omega
  · intro i hi
    show ∃ b, a.bin i = .ok (some b)
    rw [Uniform.bin_flt a (by omega)]
    split
    · exact ⟨_, rfl⟩
    · split
      · exact ⟨_, rfl⟩
      · rw [if_neg (by omega)]; exact ⟨_, rfl⟩

theorem C25_lawful_uniform_float_step {num : Nat} {low step : Flt F} {a : Uniform (Flt F)} (hnew : Uniform.withStepSize num low step = .ok (.ok a))
    (hl : low.isFin) (hs : step.isFin) (hn : num + 2 < usizeSize) (hp : num < 2 ^ (F.p - 1)) : LawfulAxis a (num + 2) := by
  obtain ⟨h1, h2⟩ := C05_with_step_size hnew hl hs hn hp
  have hnum : a.num = num := by
    obtain ⟨r, hr, -, -, -, hax⟩ := C03_with_step_size_float_partial num low step
    rw [hr] at hnew
    exact (hax a (by injection hnew)).1
  refine ⟨h1, hn, ?_, ?_⟩
  · intro c i hi
    obtain ⟨j, hj, hlt, -⟩ := h2 c
    have hi' : a.index c = .ok (some i) := hi
    rw [hi'] at hj
    simp at hj; omega
  · intro i hi
    show ∃ b, a.bin i = .ok (some b)
    rw [Uniform.bin_flt a (by omega)]
    split
    · exact ⟨_, rfl⟩
    · split
      · exact ⟨_, rfl⟩
      · rw [if_neg (by omega)]; exact ⟨_, rfl⟩

/-- facts about a constructed axis with finite bounds -/
theorem Uniform.new_sane {num : Nat} {low high : Flt F} {a : Uniform (Flt F)} (hnew : Uniform.new num low high = .ok (.ok a))
    (hl : low.isFin) (hh : high.isFin) (hp : num < 2 ^ (F.p - 1))
    (hw : num * pow2 F.emin ≤ |high.val - low.val|) (hs : 4 * (num * (|low.val| + |high.val|)) ≤ F.maxFin) :
    a.Sane ∧ a.num = num ∧ |a.low.val| + |a.high.val| = |low.val| + |high.val| := by
  have hl' : low ≠ .nan := by rintro rfl; exact hl
  have hh' : high ≠ .nan := by rintro rfl; exact hh
  obtain ⟨r, hr, -, -, hok, hax⟩ := C03_new_float num low high
  have hra : r = .ok a := by rw [hr] at hnew; injection hnew
  obtain ⟨hnum, hsw, hns, hlt⟩ := hax a hra
  have hlt := hlt hl' hh'
  obtain ⟨hnum0, hne⟩ := hok.1 ⟨a, hra⟩
  have hstep : a.step = Flt.div (Flt.sub a.high a.low) (Flt.ofRat a.num) := by
    rw [hnum]
    rw [Uniform.new_flt] at hr
    injection hr with hr
    rw [← hr, if_neg hnum0, if_neg (by simp [hne])] at hra
    split at hra <;> cases hra <;> rfl
  by_cases h : POrd.gt low high = true
  · obtain ⟨e1, e2⟩ := hsw h
    have hlf : a.low.isFin := by rw [e1]; exact hh
    have hhf : a.high.isFin := by rw [e2]; exact hl
    rw [Flt.lt_fin hlf hhf] at hlt
    have hlt := of_decide_eq_true hlt
    refine ⟨⟨by omega, by omega, hlf, hhf, hlt, ?_, ?_, hstep⟩, hnum, by rw [e1, e2]; ring⟩
    · rw [e1, e2] at hlt ⊢; rw [hnum]
      rw [abs_of_neg (by linarith)] at hw; linarith
    · rw [e1, e2, hnum]; linarith
  · obtain ⟨e1, e2⟩ := hns (by simpa using h)
    have hlf : a.low.isFin := by rw [e1]; exact hl
    have hhf : a.high.isFin := by rw [e2]; exact hh
    rw [Flt.lt_fin hlf hhf] at hlt
    have hlt := of_decide_eq_true hlt
    refine ⟨⟨by omega, by omega, hlf, hhf, hlt, ?_, ?_, hstep⟩, hnum, by rw [e1, e2]⟩
    · rw [e1, e2] at hlt ⊢; rw [hnum]
      rwa [abs_of_pos (by linarith)] at hw
    · rw [e1, e2, hnum]; linarith

/-! ## The bins -/

/-- **C47.** The bins of a float axis from `Uniform::new`: bin 0 is the underflow bin below `low()`, bin `num+1` the overflow bin from
`high()`, there are none beyond, and the inner bins have non-decreasing finite edges `e 0, ..., e num`, consecutive bins sharing their edge exactly,
with `e 0 == low()` and `e num` within `6 * 2^-p * (|low| + |high|)` of `high()` (the edges are computed, not stored). -/
theorem C47_float_bins {num : Nat} {low high : Flt F} {a : Uniform (Flt F)} (hnew : Uniform.new num low high = .ok (.ok a))
    (hl : low.isFin) (hh : high.isFin) (hn : num + 2 < usizeSize) (hp : num < 2 ^ (F.p - 1))
    (hw : num * pow2 F.emin ≤ |high.val - low.val|) (hs : 4 * (num * (|low.val| + |high.val|)) ≤ F.maxFin) :
    a.bin 0 = .ok (some (.Underflow a.low)) ∧ a.bin (num + 1) = .ok (some (.Overflow a.high)) ∧
    (∀ i, num + 1 < i → a.bin i = .ok none) ∧
    ∃ e : Nat → Flt F, (∀ i, i < num → a.bin (i + 1) = .ok (some (.Bin (e i) (e (i + 1))))) ∧
      (∀ i, i ≤ num → (e i).isFin ∧ |(e i).val - (a.low.val + i * ((a.high.val - a.low.val) / num))| ≤ 6 * pow2 (-(F.p : Int)) * (|low.val| + |high.val|)) ∧
      (∀ i, i < num → POrd.le (e i) (e (i + 1)) = true) ∧ POrd.eq (e 0) a.low = true := by
  obtain ⟨sane, hnum, hM⟩ := Uniform.new_sane hnew hl hh hp hw hs
  subst hnum
  refine ⟨by rw [Uniform.bin_flt a (by omega)]; simp, by rw [Uniform.bin_flt a (by omega)]; simp, fun i hi => ?_, a.fedge, fun i hi => ?_, fun i hi => ?_, fun i hi => ?_, ?_⟩
  · rw [Uniform.bin_flt a (by omega), if_neg (by omega), if_neg (by omega), if_pos hi]
  · rw [Uniform.bin_flt a (by omega), if_neg (by omega), if_neg (by omega), if_neg (by omega)]; rfl
  · have := sane.edge hi
    unfold Uniform.R Uniform.M at this
    rw [hM] at this
    exact this
  · obtain ⟨f1, -⟩ := sane.edge hi.le
    obtain ⟨f2, -⟩ := sane.edge (show i + 1 ≤ a.num from hi)
    rw [Flt.le_fin f1 f2, decide_eq_true_iff]
    obtain ⟨n1, n2⟩ := Flt.ofNat_spec (F := F) sane.num_le
    have hnQ : (0 : ℚ) < a.num := by have := sane.numQ; linarith
    obtain ⟨r1, -, r3, -⟩ := sane.range
    have hr0 : 0 ≤ (Flt.sub a.high a.low).val := (mul_nonneg hnQ.le (pow2_pos F.emin).le).trans r3
    -- every stage is finite (it occurs in a finite sum), and rounding is monotone
    have stage : ∀ k, k ≤ a.num → (Flt.mul (Flt.ofRat (k : ℚ)) (Flt.sub a.high a.low)).isFin ∧
        (Flt.mul (Flt.ofRat (k : ℚ)) (Flt.sub a.high a.low)).val = F.rs (k * (Flt.sub a.high a.low).val) ∧
        (Flt.div (Flt.mul (Flt.ofRat (k : ℚ)) (Flt.sub a.high a.low)) (Flt.ofRat (a.num : ℚ))).isFin ∧
        (Flt.div (Flt.mul (Flt.ofRat (k : ℚ)) (Flt.sub a.high a.low)) (Flt.ofRat (a.num : ℚ))).val =
          F.rs (F.rs (k * (Flt.sub a.high a.low).val) / a.num) := by
      intro k hk
      obtain ⟨k1, k2⟩ := Flt.ofNat_spec (F := F) (hk.trans sane.num_le)
      have fe := (sane.edge hk).1
      have hdf : (Flt.div (Flt.mul (Flt.ofRat (k : ℚ)) (Flt.sub a.high a.low)) (Flt.ofRat (a.num : ℚ))).isFin := by
        unfold Uniform.fedge at fe
        generalize Flt.div (Flt.mul (Flt.ofRat (k : ℚ)) (Flt.sub a.high a.low)) (Flt.ofRat (a.num : ℚ)) = y at fe
        have := sane.low_fin
        cases hlow : a.low with
        | nan => rw [hlow] at this; exact this.elim
        | inf => rw [hlow] at this; exact this.elim
        | fin s m h =>
          rw [hlow] at fe
          cases y with
          | nan => exact fe.elim
          | inf => exact fe.elim
          | fin => trivial
      have hmf : (Flt.mul (Flt.ofRat (k : ℚ)) (Flt.sub a.high a.low)).isFin := by
        generalize Flt.mul (Flt.ofRat (k : ℚ)) (Flt.sub a.high a.low) = y at hdf
        generalize (Flt.ofRat (a.num : ℚ) : Flt F) = z at hdf n1
        cases z with
        | nan => exact n1.elim
        | inf => exact n1.elim
        | fin =>
          cases y with
          | nan => exact hdf.elim
          | inf => exact hdf.elim
          | fin => trivial
      have hmv := (Flt.mul_rounds k1 r1).of_isFin hmf
      rw [k2] at hmv
      have hdv := (Flt.div_rounds hmf n1 (by rw [n2]; exact hnQ.ne')).of_isFin hdf
      rw [n2, hmv] at hdv
      exact ⟨hmf, hmv, hdf, hdv⟩
    obtain ⟨-, -, a3, a4⟩ := stage i hi.le
    obtain ⟨-, -, b3, b4⟩ := stage (i + 1) hi
    have e1 := (Flt.add_rounds sane.low_fin a3).of_isFin f1
    have e2 := (Flt.add_rounds sane.low_fin b3).of_isFin f2
    show (Flt.add a.low _).val ≤ (Flt.add a.low _).val
    rw [e1, e2, a4, b4]
    apply F.rs_mono
    apply add_le_add_right
    apply F.rs_mono
    apply div_le_div_of_nonneg_right _ hnQ.le
    apply F.rs_mono
    apply mul_le_mul_of_nonneg_right _ hr0
    push_cast; linarith
  · obtain ⟨f1, -⟩ := sane.edge (Nat.zero_le a.num)
    rw [Flt.eq_fin f1 sane.low_fin, decide_eq_true_iff]
    obtain ⟨n1, n2⟩ := Flt.ofNat_spec (F := F) sane.num_le
    obtain ⟨k1, k2⟩ := Flt.ofNat_spec (F := F) (Nat.zero_le (2 ^ F.p))
    have hnQ : (0 : ℚ) < a.num := by have := sane.numQ; linarith
    obtain ⟨r1, -⟩ := sane.range
    have hm := (Flt.mul_rounds k1 r1).fin_of (by rw [k2]; simp [F.maxFin_pos.le])
    rw [k2] at hm
    have hm0 : (Flt.mul (Flt.ofRat ((0 : ℕ) : ℚ)) (Flt.sub a.high a.low)).val = 0 := by rw [hm.2]; simp [F.rs_zero]
    have hd := (Flt.div_rounds hm.1 n1 (by rw [n2]; exact hnQ.ne')).fin_of (by rw [hm0]; simp [F.maxFin_pos.le])
    rw [hm0, zero_div, F.rs_zero] at hd
    have hv := (Flt.add_rounds sane.low_fin hd.1).of_isFin f1
    rw [hd.2, add_zero, Flt.rs_val] at hv
    exact hv

/-- **C06 (partial: up to rounding).** On a float axis from `Uniform::new`, a coordinate in `[low, high)` lies in the bin reported by
`bin(index(c))`, up to a few units in the last place of the bounds: `2^-p` is the relative rounding error of the format (`2^-53` for `f64`).
If it is counted as overflow it is within that distance of `high`. Missing for the full property: exactness, which is
false (`C06_counterexample`, `C06_counterexample_gap`). -/
theorem C06_within_rounding_partial {num : Nat} {low high : Flt F} {a : Uniform (Flt F)} (hnew : Uniform.new num low high = .ok (.ok a))
    (hl : low.isFin) (hh : high.isFin) (hn : num + 2 < usizeSize) (hp : num < 2 ^ (F.p - 1))
    (hw : num * pow2 F.emin ≤ |high.val - low.val|) (hs : 4 * (num * (|low.val| + |high.val|)) ≤ F.maxFin)
    (c : Flt F) (hc1 : POrd.le a.low c = true) (hc2 : POrd.lt c a.high = true) :
    ∃ i, a.index c = .ok (some i) ∧ 1 ≤ i ∧
      ((∃ s e : Flt F, i ≤ num ∧ a.bin i = .ok (some (.Bin s e)) ∧ s.isFin ∧ e.isFin ∧
          s.val - 11 * pow2 (-(F.p : Int)) * (|low.val| + |high.val|) ≤ c.val ∧
          c.val ≤ e.val + 10 * pow2 (-(F.p : Int)) * (|low.val| + |high.val|)) ∨
       (i = num + 1 ∧ a.bin i = .ok (some (.Overflow a.high)) ∧
          a.high.val - 5 * pow2 (-(F.p : Int)) * (|low.val| + |high.val|) ≤ c.val)) := by
  obtain ⟨sane, hnum, hM⟩ := Uniform.new_sane hnew hl hh hp hw hs
  have hl' : low ≠ .nan := by rintro rfl; exact hl
  have hh' : high ≠ .nan := by rintro rfl; exact hh
  obtain ⟨-, h5⟩ := C05_uniform_new hnew hl' hh' hn hp (fun _ _ => hw)
  obtain ⟨i, hi, hilt, -⟩ := h5 c
  subst hnum
  have hcf : c.isFin := by
    cases c with
    | nan => obtain ⟨_, _, -, h, -⟩ := LawfulPOrd.le_iff.1 hc1; cases h
    | inf s =>
      exfalso
      have hlf := sane.low_fin
      have hhf := sane.high_fin
      cases hlow : a.low with
      | nan => rw [hlow] at hlf; exact hlf
      | inf => rw [hlow] at hlf; exact hlf
      | fin =>
        cases hhi : a.high with
        | nan => rw [hhi] at hhf; exact hhf
        | inf => rw [hhi] at hhf; exact hhf
        | fin =>
          rw [hlow] at hc1; rw [hhi] at hc2
          cases s
          · cases hc2
          · cases hc1
    | fin => trivial
  have h1 : a.low.val ≤ c.val := by rw [Flt.le_fin sane.low_fin hcf] at hc1; exact of_decide_eq_true hc1
  have h2 : c.val < a.high.val := by rw [Flt.lt_fin hcf sane.high_fin] at hc2; exact of_decide_eq_true hc2
  obtain ⟨p1, p2, p3⟩ := sane.pos hn hcf h1 h2 hi
  refine ⟨i, hi, p1, ?_⟩
  have hMd : a.M = |low.val| + |high.val| := hM
  have hud : F.u = pow2 (-(F.p : Int)) := rfl
  rw [← hMd, ← hud]
  by_cases hin : i ≤ a.num
  · left
    obtain ⟨f1, g1⟩ := sane.edge (show i - 1 ≤ a.num by omega)
    obtain ⟨f2, g2⟩ := sane.edge hin
    refine ⟨a.fedge (i - 1), a.fedge i, hin, ?_, f1, f2, ?_, ?_⟩
    · rw [Uniform.bin_flt a (by omega), if_neg (by omega), if_neg (by omega), if_neg (by omega)]
    · have := (abs_le.1 g1).2; linarith
    · have := (abs_le.1 g2).1; have := p3 hin; linarith
  · right
    have : i = a.num + 1 := by omega
    subst this
    refine ⟨rfl, by rw [Uniform.bin_flt a (by omega), if_neg (by omega), if_pos rfl], ?_⟩
    rw [Nat.add_sub_cancel] at p2
    have hnQ : (a.num : ℚ) ≠ 0 := by have := sane.numQ; intro h; linarith
    have e : (a.num : ℚ) * (a.R / a.num) = a.R := by field_simp
    rw [e] at p2
    unfold Uniform.R at p2
    linarith

/-- Why C06 is partial: on `Uniform::new(10, 0.0, 1.0)` the coordinate 0.3 is counted in bin 3, which `bin` reports as `[0.2, 0.3)`. -/
theorem C06_counterexample :
    ∃ a s e, @Uniform.new F64 dbg64 _ 10 (f64 0) (f64 1) = .ok (.ok a) ∧
      @Uniform.index F64 dbg64 _ a (f64 (3/10)) = .ok (some 3) ∧ @Uniform.bin F64 dbg64 _ a 3 = .ok (some (.Bin s e)) ∧
      s = f64 (2/10) ∧ e = f64 (3/10) := by
  refine ⟨⟨10, f64 0, f64 1, f64 (1/10)⟩, f64 (2/10), f64 (3/10), ?_, ?_, ?_, rfl, rfl⟩ <;> decide +kernel

/-- Coordinates inside the range can even be counted as overflow: on `Uniform::new(3, 0.0, 1.0)` the coordinate
0.9999999999999999 (the float before 1) goes to the overflow bin, and `UniformNoFlow` has no bin for it. -/
theorem C06_counterexample_gap :
    ∃ a, @Uniform.new F64 dbg64 _ 3 (f64 0) (f64 1) = .ok (.ok a) ∧
      @POrd.lt F64 (@RNum.toPOrd _ dbg64 _) (f64 (1 - pow2 (-53))) a.high = true ∧
      @Uniform.index F64 dbg64 _ a (f64 (1 - pow2 (-53))) = .ok (some 4) ∧
      @UniformNoFlow.index F64 dbg64 _ ⟨a⟩ (f64 (1 - pow2 (-53))) = .ok none := by
  refine ⟨⟨3, f64 0, f64 1, f64 (1/3)⟩, ?_, ?_, ?_, ?_⟩ <;> decide +kernel

/-- The edges reported by `bin` overflow although the axis does not: `Uniform::new(4, 0.0, 1e308).bin(2)` is `[2.5e307, inf)`. -/
theorem C47_counterexample_overflow :
    ∃ a s, @Uniform.new F64 dbg64 _ 4 (f64 0) (f64 (10 ^ 308)) = .ok (.ok a) ∧
      @Uniform.bin F64 dbg64 _ a 2 = .ok (some (.Bin s (.inf false))) := by
  refine ⟨⟨4, f64 0, f64 (10 ^ 308), f64 (10 ^ 308 / 4)⟩, f64 (10 ^ 308 / 4), ?_, ?_⟩ <;> decide +kernel

/-- non-vacuity of C06, C47 -/
example : ∃ a, @Uniform.new F64 dbg64 _ 10 (f64 (-3)) (f64 (1/10)) = .ok (.ok a) ∧
    (10 : ℚ) * pow2 FFmt.f64.emin ≤ |(f64 (1/10)).val - (f64 (-3)).val| ∧
    4 * (10 * (|(f64 (-3)).val| + |(f64 (1/10)).val|)) ≤ FFmt.f64.maxFin ∧
    @POrd.le F64 (@RNum.toPOrd _ dbg64 _) a.low (f64 (1/20)) = true ∧
    @POrd.lt F64 (@RNum.toPOrd _ dbg64 _) (f64 (1/20)) a.high = true := by
  refine ⟨⟨10, f64 (-3), f64 (1/10), Flt.div (Flt.sub (f64 (1/10)) (f64 (-3))) (f64 10)⟩, ?_, ?_, ?_, ?_, ?_⟩ <;> decide +kernel

end NdHist
