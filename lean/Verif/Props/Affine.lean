import Verif.Props.Value
import Verif.Props.Between
/-!
# C106: the origin and the unit of samples and weights; samples in two parts
-/
namespace NdHist

/-! ## Lists -/
section
variable {K : Type} [Field K] [LinearOrder K] [IsStrictOrderedRing K]

theorem totalWeight_pos_of_unit (l : List K) : totalWeight (l.map fun x => (x, (1 : K))) = l.length := by
  unfold totalWeight; simp [Function.comp_def]

theorem wavg_unit (l : List K) : wavg (l.map fun x => (x, (1 : K))) = avg l := by
  unfold wavg avg
  rw [totalWeight_pos_of_unit]
  simp [Function.comp_def]

theorem wvar_unit (l : List K) : wvar (l.map fun x => (x, (1 : K))) = avg (l.map fun x => (x - avg l) ^ 2) := by
  unfold wvar
  rw [wavg_unit, totalWeight_pos_of_unit]
  unfold avg
  simp [Function.comp_def]

theorem wsum_affine (l : List (K × K)) (a b s : K) :
    ((l.map fun x => (a * x.1 + b, s * x.2)).map fun x => x.2 * x.1).sum = s * (a * (l.map fun x => x.2 * x.1).sum + b * totalWeight l) := by
  unfold totalWeight
  induction l with
  | nil => simp
  | cons x t ih => simp only [List.map_cons, List.sum_cons, ih]; ring

theorem totalWeight_affine (l : List (K × K)) (a b s : K) : totalWeight (l.map fun x => (a * x.1 + b, s * x.2)) = s * totalWeight l := by
  unfold totalWeight
  induction l with
  | nil => simp
  | cons x t ih => simp only [List.map_cons, List.sum_cons, ih]; ring

theorem wavg_affine (l : List (K × K)) {a b s : K} (hs : s ≠ 0) (hW : totalWeight l ≠ 0) : wavg (l.map fun x => (a * x.1 + b, s * x.2)) = a * wavg l + b := by
  unfold wavg
  rw [wsum_affine, totalWeight_affine]
  field_simp

theorem wvar_affine (l : List (K × K)) {a b s : K} (hs : s ≠ 0) (hW : totalWeight l ≠ 0) : wvar (l.map fun x => (a * x.1 + b, s * x.2)) = a ^ 2 * wvar l := by
  unfold wvar
  rw [wavg_affine l hs hW, totalWeight_affine]
  generalize wavg l = μ
  have : ((l.map fun x => (a * x.1 + b, s * x.2)).map fun x => x.2 * (x.1 - (a * μ + b)) ^ 2).sum = s * (a ^ 2 * (l.map fun x => x.2 * (x.1 - μ) ^ 2).sum) := by
    clear hW
    induction l with
    | nil => simp
    | cons x t ih => simp only [List.map_cons, List.sum_cons, ih]; ring
  rw [this]
  field_simp

theorem sqsum_affine (l : List (K × K)) (a b s : K) : ((l.map fun x => (a * x.1 + b, s * x.2)).map fun x => x.2 ^ 2).sum = s ^ 2 * (l.map fun x => x.2 ^ 2).sum := by
  induction l with
  | nil => simp
  | cons x t ih => simp only [List.map_cons, List.sum_cons, ih]; ring

theorem totalWeight_append (l r : List (K × K)) : totalWeight (l ++ r) = totalWeight l + totalWeight r := by
  unfold totalWeight; simp

theorem wavg_append (l r : List (K × K)) (hl : totalWeight l ≠ 0) (hr : totalWeight r ≠ 0) :
    wavg (l ++ r) = (totalWeight l * wavg l + totalWeight r * wavg r) / (totalWeight l + totalWeight r) := by
  unfold wavg
  rw [totalWeight_append, mul_div_cancel₀ _ hl, mul_div_cancel₀ _ hr]
  simp

theorem wsq_about (l : List (K × K)) (hl : totalWeight l ≠ 0) (c : K) : (l.map fun x => x.2 * (x.1 - c) ^ 2).sum = totalWeight l * (wvar l + (wavg l - c) ^ 2) := by
  have e : ∀ μ : K, (l.map fun x => x.2 * (x.1 - c) ^ 2).sum = (l.map fun x => x.2 * (x.1 - μ) ^ 2).sum + 2 * (μ - c) * ((l.map fun x => x.2 * x.1).sum - μ * totalWeight l) + (μ - c) ^ 2 * totalWeight l := by
    intro μ
    unfold totalWeight
    clear hl
    induction l with
    | nil => simp
    | cons x t ih => simp only [List.map_cons, List.sum_cons, ih]; ring
  rw [e (wavg l)]
  have h0 : (l.map fun x => x.2 * x.1).sum - wavg l * totalWeight l = 0 := by unfold wavg; field_simp; ring
  rw [h0]
  unfold wvar
  field_simp
  ring

theorem wvar_append (l r : List (K × K)) (hl : totalWeight l ≠ 0) (hr : totalWeight r ≠ 0) :
    wvar (l ++ r) = (totalWeight l * (wvar l + (wavg l - wavg (l ++ r)) ^ 2) + totalWeight r * (wvar r + (wavg r - wavg (l ++ r)) ^ 2)) / (totalWeight l + totalWeight r) := by
  conv_lhs => unfold wvar
  rw [List.map_append, List.sum_append, wsq_about l hl, wsq_about r hr, totalWeight_append]
end

/-! ## Exact arithmetic -/
section
variable [Cfg] {T C K : Type} [Field K] [LinearOrder K] [IsStrictOrderedRing K] [FloorRing K]
  [RNum T] [RNum C] [RFrom T K] [RFrom C K] [Faithful T K] [Faithful C K]

theorem avg_as_wavg {l : List K} (hl : l ≠ []) : totalWeight (l.map fun x => (x, (1 : K))) ≠ 0 := by
  rw [totalWeight_pos_of_unit]
  have : l.length ≠ 0 := by simpa using hl
  exact_mod_cast this

attribute [local instance] exactNum exactAbs in
/-- **C106 (origin and unit).** If all samples are changed from `x` to `a·x + b`, the mean changes in the same way, the variances by `a²`, and the number of samples not at all. -/
theorem C106_affine (a b : K) (xs ys : List T) (hne : xs ≠ []) (hxy : (ys.map fun y => (RFrom.conv y : K)) = xs.map fun x => a * RFrom.conv x + b) {m m' : Mean T K C}
    (h : fillSeq (xs.map fun x => (Call.fillWith () x : Call (Mean T K C) Unit)) RDefault.dflt = (m, none))
    (h' : fillSeq (ys.map fun x => (Call.fillWith () x : Call (Mean T K C) Unit)) RDefault.dflt = (m', none)) :
    ∃ q v e, (m.get = .ok q ∧ m'.get = .ok (a * q + b)) ∧ (m.varianceOfSamples = .ok v ∧ m'.varianceOfSamples = .ok (a ^ 2 * v)) ∧
      (m.varianceOfMean = .ok e ∧ m'.varianceOfMean = .ok (a ^ 2 * e)) ∧ (RFrom.conv m'.numSamples : K) = RFrom.conv m.numSamples := by
  have hlen : ys.length = xs.length := by simpa using congrArg List.length hxy
  have hne' : ys ≠ [] := by intro h0; rw [h0] at hlen; exact hne (List.length_eq_zero_iff.1 hlen.symm)
  obtain ⟨h1, h2, h3, h4, -⟩ := C41_mean (K := K) xs hne h
  obtain ⟨g1, g2, g3, g4, -⟩ := C41_mean (K := K) ys hne' h'
  have hW := avg_as_wavg (l := xs.map fun x => (RFrom.conv x : K)) (by simpa using hne)
  have el : (ys.map fun y => (RFrom.conv y : K)).map (fun x => (x, (1 : K))) = ((xs.map fun x => (RFrom.conv x : K)).map fun x => (x, (1 : K))).map fun x => (a * x.1 + b, 1 * x.2) := by
    rw [hxy]; simp [Function.comp_def]
  have ea : avg (ys.map fun y => (RFrom.conv y : K)) = a * avg (xs.map fun x => (RFrom.conv x : K)) + b := by
    rw [← wavg_unit, el, wavg_affine _ one_ne_zero hW, wavg_unit]
  have ev := wvar_unit (ys.map fun y => (RFrom.conv y : K))
  rw [el, wvar_affine _ one_ne_zero hW, wvar_unit] at ev
  refine ⟨_, _, _, ⟨h1, ?_⟩, ⟨h3, ?_⟩, ⟨h4, ?_⟩, by rw [h2, g2, hlen]⟩
  · rw [g1, ea]
  · rw [g3, ev]
  · rw [g4, ← ev, hlen, mul_div_assoc]

attribute [local instance] exactNum exactAbs in
/-- **C106 (two parts).** Samples in two parts: the mean of all is the mean of the two means weighted by the numbers of samples; the variance is that within the parts plus that of the means of the parts about the mean of all. -/
theorem C106_parts (xs ys : List T) (hx : xs ≠ []) (hy : ys ≠ []) {m₁ m₂ m : Mean T K C}
    (h₁ : fillSeq (xs.map fun x => (Call.fillWith () x : Call (Mean T K C) Unit)) RDefault.dflt = (m₁, none))
    (h₂ : fillSeq (ys.map fun x => (Call.fillWith () x : Call (Mean T K C) Unit)) RDefault.dflt = (m₂, none))
    (h : fillSeq ((xs ++ ys).map fun x => (Call.fillWith () x : Call (Mean T K C) Unit)) RDefault.dflt = (m, none)) :
    ∃ q₁ q₂ q v₁ v₂ v, m₁.get = .ok q₁ ∧ m₂.get = .ok q₂ ∧ m.get = .ok q ∧ m₁.varianceOfSamples = .ok v₁ ∧ m₂.varianceOfSamples = .ok v₂ ∧ m.varianceOfSamples = .ok v ∧
      q = (RFrom.conv m₁.numSamples * q₁ + RFrom.conv m₂.numSamples * q₂) / (RFrom.conv m₁.numSamples + RFrom.conv m₂.numSamples) ∧
      v = (RFrom.conv m₁.numSamples * (v₁ + (q₁ - q) ^ 2) + RFrom.conv m₂.numSamples * (v₂ + (q₂ - q) ^ 2)) / (RFrom.conv m₁.numSamples + RFrom.conv m₂.numSamples) := by
  obtain ⟨a1, a2, a3, -⟩ := C41_mean (K := K) xs hx h₁
  obtain ⟨b1, b2, b3, -⟩ := C41_mean (K := K) ys hy h₂
  obtain ⟨c1, c2, c3, -⟩ := C41_mean (K := K) (xs ++ ys) (by simp [hx]) h
  have wx := avg_as_wavg (l := xs.map fun x => (RFrom.conv x : K)) (by simpa using hx)
  have wy := avg_as_wavg (l := ys.map fun x => (RFrom.conv x : K)) (by simpa using hy)
  have e : ((xs ++ ys).map fun x => (RFrom.conv x : K)).map (fun x => (x, (1 : K))) = (xs.map fun x => (RFrom.conv x : K)).map (fun x => (x, (1 : K))) ++ (ys.map fun x => (RFrom.conv x : K)).map (fun x => (x, (1 : K))) := by simp
  have k1 := wavg_append _ _ wx wy
  have k2 := wvar_append _ _ wx wy
  rw [← e, wavg_unit, wavg_unit, wavg_unit, totalWeight_pos_of_unit, totalWeight_pos_of_unit] at k1
  rw [← e, wavg_unit, wavg_unit, wavg_unit, totalWeight_pos_of_unit, totalWeight_pos_of_unit, wvar_unit, wvar_unit, wvar_unit] at k2
  rw [List.length_map, List.length_map, ← a2, ← b2] at k1 k2
  exact ⟨_, _, _, _, _, _, a1, b1, c1, a3, b3, c3, k1, k2⟩
end

section
variable [Cfg] {T W C K : Type} [Field K] [LinearOrder K] [IsStrictOrderedRing K] [FloorRing K]
  [RNum T] [RNum W] [RNum C] [RFrom T K] [RFrom W K] [RFrom C K] [Faithful T K] [Faithful W K] [Faithful C K] [RMulBy T W] [FaithfulMul T W K]

attribute [local instance] exactNum in
/-- **C106 (origin and unit, weights).** If all samples are changed from `x` to `a·x + b` and all weights from `w` to `s·w`, the weighted mean changes as the samples do, the variances by `a²`: only the ratios of the weights matter. -/
theorem C106_weighted_affine (a b s : K) (hs : s ≠ 0) (xs ys : List (T × W))
    (hxy : (ys.map fun y => ((RFrom.conv y.1 : K), (RFrom.conv y.2 : K))) = xs.map fun x => (a * RFrom.conv x.1 + b, s * RFrom.conv x.2))
    (hW : (xs.map fun x => (RFrom.conv x.2 : K)).sum ≠ 0) {m m' : WeightedMean T W K C}
    (h : fillSeq (xs.map fun x => (Call.fillWithWeighted () x.1 x.2 : Call (WeightedMean T W K C) Unit)) RDefault.dflt = (m, none))
    (h' : fillSeq (ys.map fun x => (Call.fillWithWeighted () x.1 x.2 : Call (WeightedMean T W K C) Unit)) RDefault.dflt = (m', none)) :
    ∃ q v e, (m.get = .ok q ∧ m'.get = .ok (a * q + b)) ∧ (m.varianceOfSamples = .ok v ∧ m'.varianceOfSamples = .ok (a ^ 2 * v)) ∧
      (m.varianceOfMean = .ok e ∧ m'.varianceOfMean = .ok (a ^ 2 * e)) ∧ (RFrom.conv m'.numSamples : K) = RFrom.conv m.numSamples := by
  have hlen : ys.length = xs.length := by simpa using congrArg List.length hxy
  have el : (ys.map fun y => ((RFrom.conv y.1 : K), (RFrom.conv y.2 : K))) = (xs.map fun x => ((RFrom.conv x.1 : K), (RFrom.conv x.2 : K))).map fun x => (a * x.1 + b, s * x.2) := by
    rw [hxy]; simp [Function.comp_def]
  have hw : totalWeight (xs.map fun x => ((RFrom.conv x.1 : K), (RFrom.conv x.2 : K))) ≠ 0 := by unfold totalWeight; simpa [Function.comp_def] using hW
  have hw' : totalWeight (ys.map fun y => ((RFrom.conv y.1 : K), (RFrom.conv y.2 : K))) ≠ 0 := by
    rw [el, totalWeight_affine]; exact mul_ne_zero hs hw
  obtain ⟨h1, h2, h3, h4, -⟩ := C42_weighted_mean (K := K) xs h hw
  obtain ⟨g1, g2, g3, g4, -⟩ := C42_weighted_mean (K := K) ys h' hw'
  refine ⟨_, _, _, ⟨h1, ?_⟩, ⟨h3, ?_⟩, ⟨h4, ?_⟩, by rw [h2, g2, hlen]⟩
  · rw [g1, el, wavg_affine _ hs hw]
  · rw [g3, el, wvar_affine _ hs hw]
  · rw [g4, el, wvar_affine _ hs hw, sqsum_affine, totalWeight_affine]
    congr 1
    field_simp

attribute [local instance] exactNum in
/-- **C106 (two parts, weights).** The same with weights; the weight of a part is the sum of the weights of its samples. -/
theorem C106_weighted_parts (xs ys : List (T × W)) (hx : (xs.map fun x => (RFrom.conv x.2 : K)).sum ≠ 0) (hy : (ys.map fun x => (RFrom.conv x.2 : K)).sum ≠ 0)
    (hxy : (xs.map fun x => (RFrom.conv x.2 : K)).sum + (ys.map fun x => (RFrom.conv x.2 : K)).sum ≠ 0) {m₁ m₂ m : WeightedMean T W K C}
    (h₁ : fillSeq (xs.map fun x => (Call.fillWithWeighted () x.1 x.2 : Call (WeightedMean T W K C) Unit)) RDefault.dflt = (m₁, none))
    (h₂ : fillSeq (ys.map fun x => (Call.fillWithWeighted () x.1 x.2 : Call (WeightedMean T W K C) Unit)) RDefault.dflt = (m₂, none))
    (h : fillSeq ((xs ++ ys).map fun x => (Call.fillWithWeighted () x.1 x.2 : Call (WeightedMean T W K C) Unit)) RDefault.dflt = (m, none)) :
    ∃ q₁ q₂ q v₁ v₂ v, m₁.get = .ok q₁ ∧ m₂.get = .ok q₂ ∧ m.get = .ok q ∧ m₁.varianceOfSamples = .ok v₁ ∧ m₂.varianceOfSamples = .ok v₂ ∧ m.varianceOfSamples = .ok v ∧
      q = ((xs.map fun x => (RFrom.conv x.2 : K)).sum * q₁ + (ys.map fun x => (RFrom.conv x.2 : K)).sum * q₂) / ((xs.map fun x => (RFrom.conv x.2 : K)).sum + (ys.map fun x => (RFrom.conv x.2 : K)).sum) ∧
      v = ((xs.map fun x => (RFrom.conv x.2 : K)).sum * (v₁ + (q₁ - q) ^ 2) + (ys.map fun x => (RFrom.conv x.2 : K)).sum * (v₂ + (q₂ - q) ^ 2)) /
        ((xs.map fun x => (RFrom.conv x.2 : K)).sum + (ys.map fun x => (RFrom.conv x.2 : K)).sum) := by
  have tx : totalWeight (xs.map fun x => ((RFrom.conv x.1 : K), (RFrom.conv x.2 : K))) = (xs.map fun x => (RFrom.conv x.2 : K)).sum := by unfold totalWeight; simp [Function.comp_def]
  have ty : totalWeight (ys.map fun x => ((RFrom.conv x.1 : K), (RFrom.conv x.2 : K))) = (ys.map fun x => (RFrom.conv x.2 : K)).sum := by unfold totalWeight; simp [Function.comp_def]
  have e : (xs ++ ys).map (fun x => ((RFrom.conv x.1 : K), (RFrom.conv x.2 : K))) = xs.map (fun x => ((RFrom.conv x.1 : K), (RFrom.conv x.2 : K))) ++ ys.map (fun x => ((RFrom.conv x.1 : K), (RFrom.conv x.2 : K))) := by simp
  have wx := hx; rw [← tx] at wx
  have wy := hy; rw [← ty] at wy
  obtain ⟨a1, a2, a3, -⟩ := C42_weighted_mean (K := K) xs h₁ wx
  obtain ⟨b1, b2, b3, -⟩ := C42_weighted_mean (K := K) ys h₂ wy
  obtain ⟨c1, c2, c3, -⟩ := C42_weighted_mean (K := K) (xs ++ ys) h (by rw [e, totalWeight_append, tx, ty]; exact hxy)
  have k1 := wavg_append _ _ wx wy
  have k2 := wvar_append _ _ wx wy
  rw [← e, tx, ty] at k1 k2
  exact ⟨_, _, _, _, _, _, a1, b1, c1, a3, b3, c3, k1, k2⟩
end

section
variable [Cfg] {T K : Type} [Field K] [LinearOrder K] [IsStrictOrderedRing K] [RNum T] [RFrom T K] [Faithful T K]
/-- **C106 (unit, weighted sums).** If all weights are multiplied by `s`, a `WeightedSum` is multiplied by `s` and its variance by `s²`. -/
theorem C106_weighted_sum (s : K) (ws vs : List T) (hwv : (vs.map fun v => (RFrom.conv v : K)) = ws.map fun w => s * RFrom.conv w) {a b : WeightedSum T}
    (ha : fillSeq (ws.map fun w => (Call.fillWith () w : Call (WeightedSum T) Unit)) WeightedSum.new = (a, none))
    (hb : fillSeq (vs.map fun w => (Call.fillWith () w : Call (WeightedSum T) Unit)) WeightedSum.new = (b, none)) :
    (RFrom.conv b.get : K) = s * RFrom.conv a.get ∧ (RFrom.conv b.variance : K) = s ^ 2 * RFrom.conv a.variance := by
  obtain ⟨a1, a2, -⟩ := C40_weighted_sum (K := K) ws ha
  obtain ⟨b1, b2, -⟩ := C40_weighted_sum (K := K) vs hb
  have e2 : (vs.map fun v => (RFrom.conv v : K) ^ 2) = ws.map fun w => s ^ 2 * RFrom.conv w ^ 2 := by
    have := congrArg (List.map fun y : K => y ^ 2) hwv
    simpa [Function.comp_def, mul_pow] using this
  constructor
  · rw [b1, a1, hwv, List.sum_map_mul_left]
  · rw [b2, a2, e2, List.sum_map_mul_left]
end

section
attribute [local instance] rel64
/-- With floats the variance depends on the origin: the samples 0 and 2 have the variance 1, but 2^53 and 2^53 + 2 have 2^54. -/
theorem C106_counterexample_float : ∃ (m m' : Mean (Flt .f64) (Flt .f64) (MInt .u32)),
    fillSeq (meanCalls [Flt.ofRat 0, Flt.ofRat 2]) RDefault.dflt = (m, none) ∧ fillSeq (meanCalls [Flt.ofRat (2 ^ 53), Flt.ofRat (2 ^ 53 + 2)]) RDefault.dflt = (m', none) ∧
    m.varianceOfSamples = .ok (Flt.ofRat 1) ∧ m'.varianceOfSamples = .ok (Flt.ofRat (2 ^ 54)) := by
  generalize hr : fillSeq (meanCalls [Flt.ofRat 0, Flt.ofRat 2]) (RDefault.dflt : Mean (Flt .f64) (Flt .f64) (MInt .u32)) = r
  generalize hs : fillSeq (meanCalls [Flt.ofRat (2 ^ 53), Flt.ofRat (2 ^ 53 + 2)]) (RDefault.dflt : Mean (Flt .f64) (Flt .f64) (MInt .u32)) = s
  have h1 : r.2 = none := by rw [← hr]; decide +kernel
  have h2 : s.2 = none := by rw [← hs]; decide +kernel
  have h3 : r.1.varianceOfSamples = .ok (Flt.ofRat 1) := by rw [← hr]; decide +kernel
  have h4 : s.1.varianceOfSamples = .ok (Flt.ofRat (2 ^ 54)) := by rw [← hs]; decide +kernel
  exact ⟨r.1, s.1, Prod.ext rfl h1, Prod.ext rfl h2, h3, h4⟩
end
end NdHist
