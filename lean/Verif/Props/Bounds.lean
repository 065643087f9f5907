import Verif.Props.Affine
import Verif.Props.BatchMean
import Verif.Props.MergeFill
/-!
# C109: bounds on weighted sums, means and their variances
-/
namespace NdHist

/-! ## Lists -/
section
variable {K : Type} [Field K] [LinearOrder K] [IsStrictOrderedRing K]

theorem sqdev_sum (l : List K) (μ : K) : (l.map fun x => (x - μ) ^ 2).sum = (l.map fun x => x ^ 2).sum - 2 * μ * l.sum + l.length * μ ^ 2 := by
  induction l with
  | nil => simp
  | cons x t ih => simp only [List.map_cons, List.sum_cons, List.length_cons, ih]; push_cast; ring

theorem sqdev_nonneg (l : List K) (μ : K) : 0 ≤ (l.map fun x => (x - μ) ^ 2).sum :=
  List.sum_nonneg fun y hy => by obtain ⟨x, -, rfl⟩ := List.mem_map.1 hy; exact sq_nonneg _

theorem sum_eq_zero_of_nonneg (l : List K) (h : ∀ x ∈ l, 0 ≤ x) (h0 : l.sum = 0) : ∀ x ∈ l, x = 0 := by
  induction l with
  | nil => simp
  | cons y t ih =>
    have hy := h y (by simp)
    have ht : 0 ≤ t.sum := List.sum_nonneg fun x hx => h x (by simp [hx])
    rw [List.sum_cons] at h0
    have e1 : y = 0 := by linarith
    have e2 : t.sum = 0 := by linarith
    intro x hx
    rcases List.mem_cons.1 hx with rfl | hx
    · exact e1
    · exact ih (fun x hx => h x (by simp [hx])) e2 x hx

theorem sqdev_zero (l : List K) (μ : K) (h : (l.map fun x => (x - μ) ^ 2).sum = 0) : ∀ x ∈ l, x = μ := fun x hx => by
  have := sum_eq_zero_of_nonneg _ (fun y hy => by obtain ⟨x, -, rfl⟩ := List.mem_map.1 hy; exact sq_nonneg _) h _ (List.mem_map.2 ⟨x, hx, rfl⟩)
  have := pow_eq_zero_iff (two_ne_zero) |>.1 this
  linarith

theorem cauchy_list (l : List K) : l.sum ^ 2 ≤ l.length * (l.map fun x => x ^ 2).sum := by
  by_cases hl : l = []
  · subst hl; simp
  have hn : (0 : K) < l.length := by exact_mod_cast List.length_pos_iff.2 hl
  have := sqdev_nonneg l (l.sum / l.length)
  rw [sqdev_sum] at this
  have h2 := mul_nonneg hn.le this
  have e : (l.length : K) * ((l.map fun x => x ^ 2).sum - 2 * (l.sum / l.length) * l.sum + l.length * (l.sum / l.length) ^ 2) = l.length * (l.map fun x => x ^ 2).sum - l.sum ^ 2 := by
    field_simp; ring
  rw [e] at h2; linarith

theorem cauchy_list_eq (l : List K) : l.sum ^ 2 = l.length * (l.map fun x => x ^ 2).sum ↔ ∀ x ∈ l, ∀ y ∈ l, x = y := by
  by_cases hl : l = []
  · subst hl; simp
  have hn : (0 : K) < l.length := by exact_mod_cast List.length_pos_iff.2 hl
  have e : (l.length : K) * ((l.map fun x => x ^ 2).sum - 2 * (l.sum / l.length) * l.sum + l.length * (l.sum / l.length) ^ 2) = l.length * (l.map fun x => x ^ 2).sum - l.sum ^ 2 := by
    field_simp; ring
  constructor
  · intro h x hx y hy
    rw [← h, sub_self, ← sqdev_sum] at e
    have := sqdev_zero l _ ((mul_eq_zero.1 e).resolve_left hn.ne')
    rw [this x hx, this y hy]
  · intro h
    obtain ⟨c, hc⟩ := List.exists_mem_of_ne_nil l hl
    have : l = List.replicate l.length c := List.eq_replicate_iff.2 ⟨rfl, fun b hb => h b hb c hc⟩
    rw [this]
    simp only [List.sum_replicate, List.map_replicate, List.length_replicate, nsmul_eq_mul]
    ring

theorem sumsq_le (l : List K) (h : ∀ x ∈ l, 0 ≤ x) : (l.map fun x => x ^ 2).sum ≤ l.sum ^ 2 := by
  induction l with
  | nil => simp
  | cons y t ih =>
    have hy := h y (by simp)
    have ht : 0 ≤ t.sum := List.sum_nonneg fun x hx => h x (by simp [hx])
    have := ih fun x hx => h x (by simp [hx])
    simp only [List.map_cons, List.sum_cons]
    nlinarith [mul_nonneg hy ht]

theorem totalWeight_nonneg (l : List (K × K)) (h : ∀ y ∈ l, 0 ≤ y.2) : 0 ≤ totalWeight l :=
  List.sum_nonneg fun y hy => by obtain ⟨x, hx, rfl⟩ := List.mem_map.1 hy; exact h x hx

/-- The variance is at most that of samples at the two ends with the same mean. -/
theorem wvar_le (l : List (K × K)) (h : ∀ y ∈ l, 0 ≤ y.2) (hW : totalWeight l ≠ 0) (lo hi : K) (hx : ∀ y ∈ l, y.2 ≠ 0 → lo ≤ y.1 ∧ y.1 ≤ hi) :
    wvar l ≤ (hi - wavg l) * (wavg l - lo) := by
  have hp : 0 < totalWeight l := lt_of_le_of_ne (totalWeight_nonneg l h) (Ne.symm hW)
  have h0 : 0 ≤ (l.map fun y => y.2 * ((hi - y.1) * (y.1 - lo))).sum := by
    apply List.sum_nonneg
    intro z hz
    obtain ⟨y, hy, rfl⟩ := List.mem_map.1 hz
    by_cases hy0 : y.2 = 0
    · simp [hy0]
    · have := hx y hy hy0
      exact mul_nonneg (h y hy) (mul_nonneg (by linarith) (by linarith))
  have e : ∀ μ : K, (l.map fun y => y.2 * ((hi - y.1) * (y.1 - lo))).sum = - (l.map fun x => x.2 * (x.1 - μ) ^ 2).sum + (hi + lo - 2 * μ) * ((l.map fun x => x.2 * x.1).sum - μ * totalWeight l) + totalWeight l * ((hi - μ) * (μ - lo)) := by
    intro μ
    unfold totalWeight
    clear h hW hx hp h0
    induction l with
    | nil => simp
    | cons x t ih => simp only [List.map_cons, List.sum_cons, ih]; ring
  have hz : (l.map fun x => x.2 * x.1).sum - wavg l * totalWeight l = 0 := by unfold wavg; field_simp; ring
  rw [e (wavg l), hz] at h0
  unfold wvar
  rw [div_le_iff₀ hp]
  linarith

theorem end_bound (lo hi μ : K) : (hi - μ) * (μ - lo) ≤ (hi - lo) ^ 2 / 4 := by
  have := sq_nonneg (hi + lo - 2 * μ)
  linarith [show (hi - lo) ^ 2 / 4 - (hi - μ) * (μ - lo) = (hi + lo - 2 * μ) ^ 2 / 4 by ring]

theorem wvar_zero (l : List (K × K)) (h : ∀ y ∈ l, 0 ≤ y.2) (hW : totalWeight l ≠ 0) :
    wvar l = 0 ↔ ∀ y ∈ l, y.2 ≠ 0 → y.1 = wavg l := by
  constructor
  · intro h0 y hy hy0
    unfold wvar at h0
    have h0 := (div_eq_zero_iff.1 h0).resolve_right hW
    have := sum_eq_zero_of_nonneg _ (fun z hz => by
      obtain ⟨x, hx, rfl⟩ := List.mem_map.1 hz; exact mul_nonneg (h x hx) (sq_nonneg _)) h0 _ (List.mem_map.2 ⟨y, hy, rfl⟩)
    have := pow_eq_zero_iff (two_ne_zero) |>.1 ((mul_eq_zero.1 this).resolve_left hy0)
    linarith
  · intro h1
    have : (l.map fun x => x.2 * (x.1 - wavg l) ^ 2) = l.map fun _ => (0 : K) := by
      apply List.map_congr_left
      intro y hy
      by_cases hy0 : y.2 = 0
      · simp [hy0]
      · simp [h1 y hy hy0]
    unfold wvar
    rw [this]; simp

/-- Chebyshev's inequality for lists -/
theorem chebyshev_list (l : List (K × K)) (h : ∀ y ∈ l, 0 ≤ y.2) (hW : totalWeight l ≠ 0) (k : K) (hk : 0 ≤ k) :
    k ^ 2 * ((l.filter fun y => k ≤ |y.1 - wavg l|).map fun y => y.2).sum ≤ totalWeight l * wvar l := by
  have e : totalWeight l * wvar l = (l.map fun x => x.2 * (x.1 - wavg l) ^ 2).sum := by unfold wvar; field_simp
  rw [e]
  generalize wavg l = μ
  clear e hW
  induction l with
  | nil => simp
  | cons x t ih =>
    have := ih fun y hy => h y (by simp [hy])
    have hx := h x (by simp)
    by_cases hc : k ≤ |x.1 - μ|
    · rw [List.filter_cons_of_pos (by simpa using hc)]
      simp only [List.map_cons, List.sum_cons]
      have hsq : k ^ 2 ≤ (x.1 - μ) ^ 2 := by rw [← sq_abs (x.1 - μ)]; exact pow_le_pow_left₀ hk hc 2
      nlinarith [mul_le_mul_of_nonneg_left hsq hx]
    · rw [List.filter_cons_of_neg (by simpa using hc)]
      simp only [List.map_cons, List.sum_cons]
      linarith [mul_nonneg hx (sq_nonneg (x.1 - μ))]
end

/-! ## Exact arithmetic -/
section
variable [Cfg] {T K : Type} [Field K] [LinearOrder K] [IsStrictOrderedRing K] [RNum T] [RFrom T K] [Faithful T K]
/-- **C109 (weighted sums).** The square of a `WeightedSum` is at most the number of fills times its variance, and equal to it only if all weights are equal. With no negative weight the square is at least the variance. So the number of effective entries, sum²/variance, lies between 1 and the number of fills. -/
theorem C109_weighted_sum (ws : List T) {s : WeightedSum T}
    (h : fillSeq (ws.map fun w => (Call.fillWith () w : Call (WeightedSum T) Unit)) WeightedSum.new = (s, none)) :
    (RFrom.conv s.get : K) ^ 2 ≤ ws.length * RFrom.conv s.variance ∧
    ((RFrom.conv s.get : K) ^ 2 = ws.length * RFrom.conv s.variance ↔ ∀ v ∈ ws, ∀ w ∈ ws, (RFrom.conv v : K) = RFrom.conv w) ∧
    ((∀ w ∈ ws, (0 : K) ≤ RFrom.conv w) → (RFrom.conv s.variance : K) ≤ RFrom.conv s.get ^ 2) ∧
    ((RFrom.conv s.variance : K) = 0 ↔ ∀ w ∈ ws, (RFrom.conv w : K) = 0) := by
  obtain ⟨a1, a2, -⟩ := C40_weighted_sum (K := K) ws h
  have e2 : (ws.map fun w => (RFrom.conv w : K) ^ 2) = (ws.map fun w => (RFrom.conv w : K)).map fun x => x ^ 2 := by simp [Function.comp_def]
  rw [e2] at a2
  rw [a1, a2]
  have c1 := cauchy_list (ws.map fun w => (RFrom.conv w : K))
  have c2 := cauchy_list_eq (ws.map fun w => (RFrom.conv w : K))
  rw [List.length_map] at c1 c2
  refine ⟨c1, ?_, ?_, ?_⟩
  · rw [c2]; simp
  · intro hw
    exact sumsq_le _ (by simpa using hw)
  · constructor
    · intro h0 w hw
      have := sqdev_zero (ws.map fun w => (RFrom.conv w : K)) 0 (by simpa using h0)
      exact this _ (List.mem_map.2 ⟨w, hw, rfl⟩)
    · intro hw
      have : (ws.map fun w => (RFrom.conv w : K)) = ws.map fun _ => (0 : K) := List.map_congr_left hw
      rw [this]; simp
end

section
variable [Cfg] {T C K : Type} [Field K] [LinearOrder K] [IsStrictOrderedRing K] [FloorRing K]
  [RNum T] [RNum C] [RFrom T K] [RFrom C K] [Faithful T K] [Faithful C K]

attribute [local instance] exactNum exactAbs in
/-- **C109 (means).** For samples between `lo` and `hi` the variance is at most (hi - mean)·(mean - lo), hence at most the square of half the width. It is zero exactly if all samples are equal. At most `variance / k²` of the samples are at least `k` away from the mean. -/
theorem C109_mean (xs : List T) (hne : xs ≠ []) (lo hi : K) (hx : ∀ x ∈ xs, lo ≤ (RFrom.conv x : K) ∧ (RFrom.conv x : K) ≤ hi) {m : Mean T K C}
    (h : fillSeq (xs.map fun x => (Call.fillWith () x : Call (Mean T K C) Unit)) RDefault.dflt = (m, none)) :
    ∃ q v e, m.get = .ok q ∧ m.varianceOfSamples = .ok v ∧ m.varianceOfMean = .ok e ∧
      0 ≤ v ∧ v ≤ (hi - q) * (q - lo) ∧ v ≤ (hi - lo) ^ 2 / 4 ∧ 0 ≤ e ∧ e ≤ v ∧ v = xs.length * e ∧
      (v = 0 ↔ ∀ x ∈ xs, ∀ y ∈ xs, (RFrom.conv x : K) = RFrom.conv y) ∧
      ∀ k, 0 ≤ k → k ^ 2 * (xs.countP fun x => k ≤ |(RFrom.conv x : K) - q|) ≤ xs.length * v := by
  obtain ⟨h1, h2, h3, h4, h5⟩ := C41_mean (K := K) xs hne h
  have hW := avg_as_wavg (l := xs.map fun x => (RFrom.conv x : K)) (by simpa using hne)
  have hn : (1 : K) ≤ xs.length := by exact_mod_cast List.length_pos_iff.2 hne
  have hw : ∀ y ∈ (xs.map fun x => (RFrom.conv x : K)).map (fun x => (x, (1 : K))), 0 ≤ y.2 := by
    intro y hy; obtain ⟨x, -, rfl⟩ := List.mem_map.1 hy; exact zero_le_one
  have b := wvar_le _ hw hW lo hi (by simpa using hx)
  have z := wvar_zero _ hw hW
  have c := chebyshev_list _ hw hW
  rw [wvar_unit, wavg_unit] at b z
  rw [wvar_unit, wavg_unit, totalWeight_pos_of_unit, List.length_map] at c
  refine ⟨_, _, _, h1, h3, h4, h5, b, b.trans (end_bound _ _ _), div_nonneg h5 (by linarith), div_le_self h5 hn, (mul_div_cancel₀ _ (by linarith)).symm, ?_, ?_⟩
  · rw [z]
    constructor
    · intro hz x hx y hy
      have hz : ∀ x ∈ xs, (RFrom.conv x : K) = avg (xs.map fun x => (RFrom.conv x : K)) := by simpa using hz
      rw [hz x hx, hz y hy]
    · intro hz
      suffices ∀ x ∈ xs, (RFrom.conv x : K) = avg (xs.map fun x => (RFrom.conv x : K)) by simpa using this
      intro x hx
      have : (xs.map fun x => (RFrom.conv x : K)) = List.replicate xs.length (RFrom.conv x) :=
        List.eq_replicate_iff.2 ⟨by simp, fun b hb => by obtain ⟨y, hy, rfl⟩ := List.mem_map.1 hb; exact hz y hy x hx⟩
      rw [this]
      unfold avg
      simp only [List.sum_replicate, List.length_replicate, nsmul_eq_mul]
      field_simp
  · intro k hk
    refine le_trans (le_of_eq ?_) (c k hk)
    congr 1
    generalize avg (xs.map fun x => (RFrom.conv x : K)) = q
    clear * -
    induction xs with
    | nil => simp
    | cons x t ih =>
      rw [List.countP_cons, List.map_cons, List.map_cons, List.filter_cons]
      by_cases hc : k ≤ |(RFrom.conv x : K) - q|
      · simp only [hc, decide_true, if_true, List.map_cons, List.sum_cons, ← ih]; push_cast; ring
      · simpa [hc] using ih
end

section
variable [Cfg] {T W C K : Type} [Field K] [LinearOrder K] [IsStrictOrderedRing K] [FloorRing K]
  [RNum T] [RNum W] [RNum C] [RFrom T K] [RFrom W K] [RFrom C K] [Faithful T K] [Faithful W K] [Faithful C K] [RMulBy T W] [FaithfulMul T W K]

attribute [local instance] exactNum in
/-- **C109 (weighted means).** The same for a `WeightedMean` with no negative weight (samples of weight zero do not count); the variance of the mean lies between the variance divided by the number of samples and the variance. -/
theorem C109_weighted_mean (xs : List (T × W)) (hw0 : ∀ x ∈ xs, (0 : K) ≤ RFrom.conv x.2) (hW : (xs.map fun x => (RFrom.conv x.2 : K)).sum ≠ 0) (lo hi : K)
    (hx : ∀ x ∈ xs, (RFrom.conv x.2 : K) ≠ 0 → lo ≤ (RFrom.conv x.1 : K) ∧ (RFrom.conv x.1 : K) ≤ hi) {m : WeightedMean T W K C}
    (h : fillSeq (xs.map fun x => (Call.fillWithWeighted () x.1 x.2 : Call (WeightedMean T W K C) Unit)) RDefault.dflt = (m, none)) :
    ∃ q v e, m.get = .ok q ∧ m.varianceOfSamples = .ok v ∧ m.varianceOfMean = .ok e ∧
      0 ≤ v ∧ v ≤ (hi - q) * (q - lo) ∧ v ≤ (hi - lo) ^ 2 / 4 ∧ v ≤ xs.length * e ∧ e ≤ v ∧
      (v = 0 ↔ ∀ x ∈ xs, ∀ y ∈ xs, (RFrom.conv x.2 : K) ≠ 0 → (RFrom.conv y.2 : K) ≠ 0 → (RFrom.conv x.1 : K) = RFrom.conv y.1) ∧
      ∀ k, 0 ≤ k → k ^ 2 * ((xs.filter fun x => k ≤ |(RFrom.conv x.1 : K) - q|).map fun x => (RFrom.conv x.2 : K)).sum ≤
        (xs.map fun x => (RFrom.conv x.2 : K)).sum * v := by
  have tx : totalWeight (xs.map fun x => ((RFrom.conv x.1 : K), (RFrom.conv x.2 : K))) = (xs.map fun x => (RFrom.conv x.2 : K)).sum := by unfold totalWeight; simp [Function.comp_def]
  have hW' := hW; rw [← tx] at hW'
  obtain ⟨h1, h2, h3, h4, h5⟩ := C42_weighted_mean (K := K) xs h hW'
  have hw : ∀ y ∈ (xs.map fun x => ((RFrom.conv x.1 : K), (RFrom.conv x.2 : K))), 0 ≤ y.2 := by
    intro y hy; obtain ⟨x, hx, rfl⟩ := List.mem_map.1 hy; exact hw0 x hx
  have hp : 0 < totalWeight (xs.map fun x => ((RFrom.conv x.1 : K), (RFrom.conv x.2 : K))) := lt_of_le_of_ne (totalWeight_nonneg _ hw) (Ne.symm hW')
  have h5 := h5 hw
  have b := wvar_le _ hw hW' lo hi (by
    intro y hy; obtain ⟨x, hxx, rfl⟩ := List.mem_map.1 hy; exact hx x hxx)
  have z := wvar_zero _ hw hW'
  have c := chebyshev_list _ hw hW'
  have s1 := cauchy_list (xs.map fun x => (RFrom.conv x.2 : K))
  have s2 := sumsq_le (xs.map fun x => (RFrom.conv x.2 : K)) (fun y hy => by obtain ⟨x, hx, rfl⟩ := List.mem_map.1 hy; exact hw0 x hx)
  have es : ((xs.map fun x => ((RFrom.conv x.1 : K), (RFrom.conv x.2 : K))).map fun y => y.2 ^ 2) = (xs.map fun x => (RFrom.conv x.2 : K)).map fun x => x ^ 2 := by simp [Function.comp_def]
  rw [List.length_map, ← tx, ← es] at s1
  rw [← tx, ← es] at s2
  refine ⟨_, _, _, h1, h3, h4, h5, b, b.trans (end_bound _ _ _), ?_, ?_, ?_, ?_⟩
  · rw [← mul_div_assoc, le_div_iff₀ (pow_pos hp 2)]
    nlinarith [mul_le_mul_of_nonneg_left s1 h5]
  · rw [div_le_iff₀ (pow_pos hp 2)]
    exact mul_le_mul_of_nonneg_left s2 h5
  · rw [z]
    constructor
    · intro hz x hx y hy hx0 hy0
      have e1 := hz _ (List.mem_map.2 ⟨x, hx, rfl⟩) hx0
      have e2 := hz _ (List.mem_map.2 ⟨y, hy, rfl⟩) hy0
      exact e1.trans e2.symm
    · intro hz y' hy' hy0
      obtain ⟨y, hy, rfl⟩ := List.mem_map.1 hy'
      show (RFrom.conv y.1 : K) = _
      unfold wavg
      rw [eq_div_iff hW']
      have : ((xs.map fun x => ((RFrom.conv x.1 : K), (RFrom.conv x.2 : K))).map fun x => x.2 * x.1) = (xs.map fun x => ((RFrom.conv x.1 : K), (RFrom.conv x.2 : K))).map fun x => (RFrom.conv y.1 : K) * x.2 := by
        apply List.map_congr_left
        intro p hp
        obtain ⟨x, hx, rfl⟩ := List.mem_map.1 hp
        by_cases hx0 : (RFrom.conv x.2 : K) = 0
        · simp [hx0]
        · simp only [hz x hx y hy hx0 hy0]; ring
      rw [this, List.sum_map_mul_left]
      rfl
  · intro k hk
    have := c k hk
    rw [tx] at this
    refine le_trans (le_of_eq ?_) this
    congr 1
    generalize wavg (xs.map fun x => ((RFrom.conv x.1 : K), (RFrom.conv x.2 : K))) = q
    rw [List.filter_map, List.map_map]
    rfl
end

/-! ## Histograms -/
section
variable {A : Type} [Cfg] [Axis A]

/-- the data of the calls whose coordinate lies in bin `i` -/
def dataIn {D : Type} (axes : A) (i : Nat) (hist : List (Axis.Coordinate A × D)) : List D :=
  (hist.filter fun cx => Axis.index axes cx.1 = .ok (some i)).map fun cx => cx.2

theorem callsIn_data {V D : Type} (axes : A) (i : Nat) (f : {C : Type} → C → D → Call V C) (hf : ∀ {C : Type} (c : C) (d : D), (f c d).coord = c) (hon : ∀ {C : Type} (c : C) (d : D), (f c d).on = (f () d).on)
    (hist : List (Axis.Coordinate A × D)) (v : V) :
    fillSeq (callsIn axes i (hist.map fun cx => f cx.1 cx.2)) v = fillSeq ((dataIn axes i hist).map fun d => f () d) v := by
  rw [callsIn_map axes i (fun x : Axis.Coordinate A × D => x.1) _ (fun _ => hf _ _)]
  rw [fillSeq_coord (fun x : Axis.Coordinate A × D => f x.1 x.2) (fun x => f () x.2) (fun _ => hon _ _)]
  unfold dataIn tableIn
  rw [List.map_map]
  rfl

/-- **C109 (bins).** All this holds in every bin: a bin of a new dense histogram, after calls `f c d` (`fill_with(c, d)` or `fill_with_weighted(c, d.1, d.2)`) that did not panic, holds the value that the data of its calls alone give. -/
theorem C109_bins {V D : Type} [RDefault V] {axes : A} {n : Nat} (hl : LawfulAxis axes n) (f : {C : Type} → C → D → Call V C) (hf : ∀ {C : Type} (c : C) (d : D), (f c d).coord = c) (hon : ∀ {C : Type} (c : C) (d : D), (f c d).on = (f () d).on)
    {h : VecHistogram A V} (hnew : VecHistogram.new axes = .ok h) (hist : List (Axis.Coordinate A × D)) {h'} (hr : h.callAll (hist.map fun cx => f cx.1 cx.2) = (h', none)) {i : Nat} (hi : i < n) :
    ∃ v, h'.valueAtIndex i = some v ∧ fillSeq ((dataIn axes i hist).map fun d => f () d) RDefault.dflt = (v, none) := by
  obtain ⟨h0, n1, n2, n3, n4⟩ := C26_new (V := V) hl
  rw [hnew] at n1; cases n1
  obtain ⟨v, v1, v2⟩ := VecHistogram.callAll_seq hr i (v := RDefault.dflt) (by rw [n4, if_pos hi])
  rw [n3, callsIn_data axes i f hf hon] at v2
  exact ⟨v, v1, v2⟩

/-- **C109 (bins, sparse).** -/
theorem C109_bins_sparse {V D : Type} [RDefault V] {axes : A} (f : {C : Type} → C → D → Call V C) (hf : ∀ {C : Type} (c : C) (d : D), (f c d).coord = c) (hon : ∀ {C : Type} (c : C) (d : D), (f c d).on = (f () d).on)
    (hist : List (Axis.Coordinate A × D)) {h'} (hr : (HashHistogram.new axes : HashHistogram A V).callAll (hist.map fun cx => f cx.1 cx.2) = (h', none)) {i : Nat} {v : V} (hv : h'.valueAtIndex i = some v) :
    fillSeq ((dataIn axes i hist).map fun d => f () d) RDefault.dflt = (v, none) := by
  have := HashHistogram.callAll_seq hr i
  rw [hv] at this
  rw [← callsIn_data axes i f hf hon]
  exact this
end

section
variable {A : Type} [Cfg] [Axis A] {T K : Type} [Field K] [LinearOrder K] [IsStrictOrderedRing K] [RNum T] [RFrom T K] [Faithful T K]
/-- **C109 (histograms of weighted sums).** Every bin of a dense histogram filled with weights: the square of its sum is at most the number of fills of this bin times its variance; with no negative weight it is at least the variance. -/
theorem C109_bins_weighted_sum {axes : A} {n : Nat} (hl : LawfulAxis axes n) {h : VecHistogram A (WeightedSum T)} (hnew : VecHistogram.new axes = .ok h)
    (hist : List (Axis.Coordinate A × T)) {h'} (hr : h.callAll (hist.map fun cw => .fillWith cw.1 cw.2) = (h', none)) {i : Nat} (hi : i < n) :
    ∃ s, h'.valueAtIndex i = some s ∧
      (RFrom.conv s.get : K) ^ 2 ≤ (dataIn axes i hist).length * RFrom.conv s.variance ∧
      ((∀ cw ∈ hist, (0 : K) ≤ RFrom.conv cw.2) → (RFrom.conv s.variance : K) ≤ RFrom.conv s.get ^ 2) := by
  obtain ⟨s, h1, h2⟩ := C109_bins hl (fun c d => Call.fillWith c d) (fun _ _ => rfl) (fun _ _ => rfl) hnew hist hr hi
  obtain ⟨g1, -, g3, -⟩ := C109_weighted_sum (K := K) _ h2
  refine ⟨s, h1, g1, fun hw => g3 fun w hw' => ?_⟩
  obtain ⟨cw, hcw, rfl⟩ := List.mem_map.1 hw'
  exact hw cw (List.mem_filter.1 hcw).1

/-- **C109 (sparse histograms of weighted sums).** -/
theorem C109_bins_weighted_sum_sparse {axes : A} (hist : List (Axis.Coordinate A × T)) {h'}
    (hr : (HashHistogram.new axes : HashHistogram A (WeightedSum T)).callAll (hist.map fun cw => .fillWith cw.1 cw.2) = (h', none)) {i : Nat} {s : WeightedSum T} (hs : h'.valueAtIndex i = some s) :
      (RFrom.conv s.get : K) ^ 2 ≤ (dataIn axes i hist).length * RFrom.conv s.variance ∧
      ((∀ cw ∈ hist, (0 : K) ≤ RFrom.conv cw.2) → (RFrom.conv s.variance : K) ≤ RFrom.conv s.get ^ 2) := by
  have h2 := C109_bins_sparse (fun c d => Call.fillWith c d) (fun _ _ => rfl) (fun _ _ => rfl) hist hr hs
  obtain ⟨g1, -, g3, -⟩ := C109_weighted_sum (K := K) _ h2
  refine ⟨g1, fun hw => g3 fun w hw' => ?_⟩
  obtain ⟨cw, hcw, rfl⟩ := List.mem_map.1 hw'
  exact hw cw (List.mem_filter.1 hcw).1
end

section
variable {A : Type} [Cfg] [Axis A] {T C K : Type} [Field K] [LinearOrder K] [IsStrictOrderedRing K] [FloorRing K]
  [RNum T] [RNum C] [RFrom T K] [RFrom C K] [Faithful T K] [Faithful C K]

attribute [local instance] exactNum exactAbs in
/-- **C109 (histograms of means).** Every bin with samples, all between `lo` and `up`: its statistics have the bounds of `C109_mean`. -/
theorem C109_bins_mean {axes : A} {n : Nat} (hl : LawfulAxis axes n) {h : VecHistogram A (Mean T K C)} (hnew : VecHistogram.new axes = .ok h)
    (hist : List (Axis.Coordinate A × T)) {h'} (hr : h.callAll (hist.map fun cx => .fillWith cx.1 cx.2) = (h', none)) {i : Nat} (hi : i < n) (hne : dataIn axes i hist ≠ [])
    (lo up : K) (hx : ∀ x ∈ dataIn axes i hist, lo ≤ (RFrom.conv x : K) ∧ (RFrom.conv x : K) ≤ up) :
    ∃ m q v e, h'.valueAtIndex i = some m ∧ m.get = .ok q ∧ m.varianceOfSamples = .ok v ∧ m.varianceOfMean = .ok e ∧
      0 ≤ v ∧ v ≤ (up - q) * (q - lo) ∧ v ≤ (up - lo) ^ 2 / 4 ∧ 0 ≤ e ∧ e ≤ v ∧ v = (dataIn axes i hist).length * e ∧
      (v = 0 ↔ ∀ x ∈ dataIn axes i hist, ∀ y ∈ dataIn axes i hist, (RFrom.conv x : K) = RFrom.conv y) ∧
      ∀ k, 0 ≤ k → k ^ 2 * ((dataIn axes i hist).countP fun x => k ≤ |(RFrom.conv x : K) - q|) ≤ (dataIn axes i hist).length * v := by
  obtain ⟨m, h1, h2⟩ := C109_bins hl (fun c d => Call.fillWith c d) (fun _ _ => rfl) (fun _ _ => rfl) hnew hist hr hi
  obtain ⟨q, v, e, g⟩ := C109_mean (K := K) _ hne lo up hx h2
  exact ⟨m, q, v, e, h1, g⟩

attribute [local instance] exactNum exactAbs in
/-- **C109 (sparse histograms of means).** -/
theorem C109_bins_mean_sparse {axes : A} (hist : List (Axis.Coordinate A × T)) {h'}
    (hr : (HashHistogram.new axes : HashHistogram A (Mean T K C)).callAll (hist.map fun cx => .fillWith cx.1 cx.2) = (h', none)) {i : Nat} (hne : dataIn axes i hist ≠ [])
    (lo up : K) (hx : ∀ x ∈ dataIn axes i hist, lo ≤ (RFrom.conv x : K) ∧ (RFrom.conv x : K) ≤ up) {m : Mean T K C} (hm : h'.valueAtIndex i = some m) :
    ∃ q v e, m.get = .ok q ∧ m.varianceOfSamples = .ok v ∧ m.varianceOfMean = .ok e ∧
      0 ≤ v ∧ v ≤ (up - q) * (q - lo) ∧ v ≤ (up - lo) ^ 2 / 4 ∧ 0 ≤ e ∧ e ≤ v ∧ v = (dataIn axes i hist).length * e ∧
      (v = 0 ↔ ∀ x ∈ dataIn axes i hist, ∀ y ∈ dataIn axes i hist, (RFrom.conv x : K) = RFrom.conv y) ∧
      ∀ k, 0 ≤ k → k ^ 2 * ((dataIn axes i hist).countP fun x => k ≤ |(RFrom.conv x : K) - q|) ≤ (dataIn axes i hist).length * v :=
  C109_mean (K := K) _ hne lo up hx (C109_bins_sparse (fun c d => Call.fillWith c d) (fun _ _ => rfl) (fun _ _ => rfl) hist hr hm)
end

section
variable {A : Type} [Cfg] [Axis A] {T W C K : Type} [Field K] [LinearOrder K] [IsStrictOrderedRing K] [FloorRing K]
  [RNum T] [RNum W] [RNum C] [RFrom T K] [RFrom W K] [RFrom C K] [Faithful T K] [Faithful W K] [Faithful C K] [RMulBy T W] [FaithfulMul T W K]

attribute [local instance] exactNum exactAbs in
/-- **C109 (histograms of weighted means).** Every bin whose weights are not negative and do not add up to zero: its statistics have the bounds of `C109_weighted_mean`. -/
theorem C109_bins_weighted_mean {axes : A} {n : Nat} (hl : LawfulAxis axes n) {h : VecHistogram A (WeightedMean T W K C)} (hnew : VecHistogram.new axes = .ok h)
    (hist : List (Axis.Coordinate A × T × W)) {h'} (hr : h.callAll (hist.map fun cx => .fillWithWeighted cx.1 cx.2.1 cx.2.2) = (h', none)) {i : Nat} (hi : i < n)
    (hw0 : ∀ x ∈ dataIn axes i hist, (0 : K) ≤ RFrom.conv x.2) (hW : ((dataIn axes i hist).map fun x => (RFrom.conv x.2 : K)).sum ≠ 0)
    (lo up : K) (hx : ∀ x ∈ dataIn axes i hist, (RFrom.conv x.2 : K) ≠ 0 → lo ≤ (RFrom.conv x.1 : K) ∧ (RFrom.conv x.1 : K) ≤ up) :
    ∃ m q v e, h'.valueAtIndex i = some m ∧ m.get = .ok q ∧ m.varianceOfSamples = .ok v ∧ m.varianceOfMean = .ok e ∧
      0 ≤ v ∧ v ≤ (up - q) * (q - lo) ∧ v ≤ (up - lo) ^ 2 / 4 ∧ v ≤ (dataIn axes i hist).length * e ∧ e ≤ v ∧
      (v = 0 ↔ ∀ x ∈ dataIn axes i hist, ∀ y ∈ dataIn axes i hist, (RFrom.conv x.2 : K) ≠ 0 → (RFrom.conv y.2 : K) ≠ 0 → (RFrom.conv x.1 : K) = RFrom.conv y.1) ∧
      ∀ k, 0 ≤ k → k ^ 2 * (((dataIn axes i hist).filter fun x => k ≤ |(RFrom.conv x.1 : K) - q|).map fun x => (RFrom.conv x.2 : K)).sum ≤
        ((dataIn axes i hist).map fun x => (RFrom.conv x.2 : K)).sum * v := by
  obtain ⟨m, h1, h2⟩ := C109_bins hl (fun c d => Call.fillWithWeighted c d.1 d.2) (fun _ _ => rfl) (fun _ _ => rfl) hnew hist hr hi
  obtain ⟨q, v, e, g⟩ := C109_weighted_mean (K := K) _ hw0 hW lo up hx h2
  exact ⟨m, q, v, e, h1, g⟩
end

section
attribute [local instance] rel64
/-- With floats the bounds hold up to rounding only: after the single weight w = 1 + 2^-30 the variance is the float below w², after w = 1 + 3·2^-28 it is the float above. -/
theorem C109_counterexample_float : ∃ (s s' : WeightedSum (Flt .f64)) (w w' : Flt .f64),
    fillSeq [(Call.fillWith () w : Call (WeightedSum (Flt .f64)) Unit)] WeightedSum.new = (s, none) ∧
    fillSeq [(Call.fillWith () w' : Call (WeightedSum (Flt .f64)) Unit)] WeightedSum.new = (s', none) ∧
    s.get.isFin ∧ s.variance.isFin ∧ s'.get.isFin ∧ s'.variance.isFin ∧
    1 * s.variance.val < s.get.val ^ 2 ∧ 0 < w'.val ∧ s'.get.val ^ 2 < s'.variance.val := by
  generalize hr : fillSeq [(Call.fillWith () (Flt.ofRat (1 + 1 / 2 ^ 30) : Flt .f64) : Call (WeightedSum (Flt .f64)) Unit)] WeightedSum.new = r
  generalize hs : fillSeq [(Call.fillWith () (Flt.ofRat (1 + 3 / 2 ^ 28) : Flt .f64) : Call (WeightedSum (Flt .f64)) Unit)] WeightedSum.new = s
  refine ⟨r.1, s.1, _, _, hr.trans (Prod.ext rfl ?_), hs.trans (Prod.ext rfl ?_), ?_, ?_, ?_, ?_, ?_, ?_, ?_⟩
  all_goals first | rw [← hr]; decide +kernel | rw [← hs]; decide +kernel | decide +kernel
end
end NdHist
