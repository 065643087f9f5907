import Verif.Props.IntMean
import Verif.Props.IntWMean
import Verif.Props.SparseFill
import Verif.Props.FloatValue
import Verif.Props.FloatTextMore
import Verif.Props.Content
/-!
# C105: means lie between the smallest and the largest sample
-/
namespace NdHist

/-! ## Lists -/
section
variable {K : Type} [Field K] [LinearOrder K] [IsStrictOrderedRing K]

theorem wsum_ge (l : List (K × K)) (hw : ∀ x ∈ l, 0 ≤ x.2) {c : K} (h : ∀ x ∈ l, x.2 ≠ 0 → c ≤ x.1) : c * totalWeight l ≤ (l.map fun x => x.2 * x.1).sum := by
  unfold totalWeight
  rw [← List.sum_map_mul_left]
  refine List.sum_le_sum fun x hx => ?_
  by_cases h0 : x.2 = 0
  · simp [h0]
  · rw [mul_comm]; exact mul_le_mul_of_nonneg_left (h x hx h0) (hw x hx)

theorem wsum_le (l : List (K × K)) (hw : ∀ x ∈ l, 0 ≤ x.2) {c : K} (h : ∀ x ∈ l, x.2 ≠ 0 → x.1 ≤ c) : (l.map fun x => x.2 * x.1).sum ≤ c * totalWeight l := by
  unfold totalWeight
  rw [← List.sum_map_mul_left]
  refine List.sum_le_sum fun x hx => ?_
  by_cases h0 : x.2 = 0
  · simp [h0]
  · rw [mul_comm c]; exact mul_le_mul_of_nonneg_left (h x hx h0) (hw x hx)

theorem totalWeight_pos {l : List (K × K)} (hw : ∀ x ∈ l, 0 ≤ x.2) (hW : totalWeight l ≠ 0) : 0 < totalWeight l := by
  refine lt_of_le_of_ne (List.sum_nonneg ?_) (Ne.symm hW)
  intro y hy
  obtain ⟨x, hx, rfl⟩ := List.mem_map.1 hy
  exact hw x hx

theorem wavg_between {l : List (K × K)} (hw : ∀ x ∈ l, 0 ≤ x.2) (hW : totalWeight l ≠ 0) :
    (∃ x ∈ l, x.2 ≠ 0 ∧ x.1 ≤ wavg l) ∧ ∃ y ∈ l, y.2 ≠ 0 ∧ wavg l ≤ y.1 := by
  have hp := totalWeight_pos hw hW
  have hn : l.filter (fun x => x.2 ≠ 0) ≠ [] := by
    intro h
    apply hW
    unfold totalWeight
    refine List.sum_eq_zero ?_
    intro y hy
    obtain ⟨x, hx, rfl⟩ := List.mem_map.1 hy
    by_contra h0
    have : x ∈ l.filter (fun x => x.2 ≠ 0) := List.mem_filter.2 ⟨hx, by simpa using h0⟩
    rw [h] at this
    cases this
  constructor
  · by_contra hc
    push Not at hc
    -- all are above the mean
    have h1 : ∀ x ∈ l, x.2 ≠ 0 → wavg l < x.1 := fun x hx h0 => hc x hx h0
    have : wavg l * totalWeight l < (l.map fun x => x.2 * x.1).sum := by
      unfold totalWeight
      rw [← List.sum_map_mul_left]
      refine List.sum_lt_sum _ _ (fun x hx => ?_) ?_
      · by_cases h0 : x.2 = 0
        · simp [h0]
        · rw [mul_comm]; exact mul_le_mul_of_nonneg_left (h1 x hx h0).le (hw x hx)
      · obtain ⟨x, hx⟩ := List.exists_mem_of_ne_nil _ hn
        obtain ⟨hx, h0⟩ := List.mem_filter.1 hx
        have h0 : x.2 ≠ 0 := by simpa using h0
        exact ⟨x, hx, by rw [mul_comm]; exact mul_lt_mul_of_pos_left (h1 x hx h0) (lt_of_le_of_ne (hw x hx) (Ne.symm h0))⟩
    rw [wavg, div_mul_cancel₀ _ hW] at this
    exact lt_irrefl _ this
  · by_contra hc
    push Not at hc
    have h1 : ∀ x ∈ l, x.2 ≠ 0 → x.1 < wavg l := fun x hx h0 => hc x hx h0
    have : (l.map fun x => x.2 * x.1).sum < wavg l * totalWeight l := by
      unfold totalWeight
      rw [← List.sum_map_mul_left]
      refine List.sum_lt_sum _ _ (fun x hx => ?_) ?_
      · by_cases h0 : x.2 = 0
        · simp [h0]
        · rw [mul_comm (wavg l)]; exact mul_le_mul_of_nonneg_left (h1 x hx h0).le (hw x hx)
      · obtain ⟨x, hx⟩ := List.exists_mem_of_ne_nil _ hn
        obtain ⟨hx, h0⟩ := List.mem_filter.1 hx
        have h0 : x.2 ≠ 0 := by simpa using h0
        exact ⟨x, hx, by rw [mul_comm (wavg l)]; exact mul_lt_mul_of_pos_left (h1 x hx h0) (lt_of_le_of_ne (hw x hx) (Ne.symm h0))⟩
    rw [wavg, div_mul_cancel₀ _ hW] at this
    exact lt_irrefl _ this

theorem avg_between {l : List K} (hl : l ≠ []) : (∃ x ∈ l, x ≤ avg l) ∧ ∃ y ∈ l, avg l ≤ y := by
  have e1 : ((l.map fun x => (x, (1 : K))).map fun x => x.2).sum = l.length := by simp [Function.comp_def]
  have e2 : ((l.map fun x => (x, (1 : K))).map fun x => x.2 * x.1).sum = l.sum := by simp [Function.comp_def]
  have e : wavg (l.map fun x => (x, (1 : K))) = avg l := by unfold wavg avg totalWeight; rw [e1, e2]
  have := wavg_between (l := l.map fun x => (x, (1 : K))) (by simp) (by
    unfold totalWeight; rw [e1]
    have : l.length ≠ 0 := by simpa using hl
    exact_mod_cast this)
  rw [e] at this
  simpa using this
end

/-! ## Exact arithmetic -/
section
variable [Cfg] {T C K : Type} [Field K] [LinearOrder K] [IsStrictOrderedRing K] [FloorRing K]
  [RNum T] [RNum C] [RFrom T K] [RFrom C K] [Faithful T K] [Faithful C K]

attribute [local instance] exactNum exactAbs in
/-- **C105 (exact arithmetic).** The mean is at least one of the samples and at most one of them. -/
theorem C105_exact (xs : List T) (hne : xs ≠ []) {m : Mean T K C} (h : fillSeq (xs.map fun x => (Call.fillWith () x : Call (Mean T K C) Unit)) RDefault.dflt = (m, none)) :
    ∃ q, m.get = .ok q ∧ (∃ x ∈ xs, RFrom.conv x ≤ q) ∧ ∃ y ∈ xs, q ≤ RFrom.conv y := by
  obtain ⟨h1, -⟩ := C41_mean (K := K) xs hne h
  have := avg_between (l := xs.map fun x => (RFrom.conv x : K)) (by simpa using hne)
  exact ⟨_, h1, by simpa using this.1, by simpa using this.2⟩
end

section
variable [Cfg] {T W C K : Type} [Field K] [LinearOrder K] [IsStrictOrderedRing K] [FloorRing K]
  [RNum T] [RNum W] [RNum C] [RFrom T K] [RFrom W K] [RFrom C K] [Faithful T K] [Faithful W K] [Faithful C K] [RMulBy T W] [FaithfulMul T W K]

attribute [local instance] exactNum in
/-- **C105 (exact arithmetic, weights).** With weights that are not negative and not all zero, the weighted mean is at least one of the samples with a non-zero weight and at most one of them. -/
theorem C105_weighted_exact (xs : List (T × W)) {m : WeightedMean T W K C}
    (h : fillSeq (xs.map fun x => (Call.fillWithWeighted () x.1 x.2 : Call (WeightedMean T W K C) Unit)) RDefault.dflt = (m, none))
    (hw : ∀ x ∈ xs, (0 : K) ≤ RFrom.conv x.2) (hpos : ∃ x ∈ xs, (RFrom.conv x.2 : K) ≠ 0) :
    ∃ q, m.get = .ok q ∧ (∃ x ∈ xs, (RFrom.conv x.2 : K) ≠ 0 ∧ RFrom.conv x.1 ≤ q) ∧ ∃ y ∈ xs, (RFrom.conv y.2 : K) ≠ 0 ∧ q ≤ RFrom.conv y.1 := by
  have hw' : ∀ y ∈ xs.map fun x => ((RFrom.conv x.1 : K), (RFrom.conv x.2 : K)), 0 ≤ y.2 := by
    intro y hy
    obtain ⟨x, hx, rfl⟩ := List.mem_map.1 hy
    exact hw x hx
  have hW : totalWeight (xs.map fun x => ((RFrom.conv x.1 : K), (RFrom.conv x.2 : K))) ≠ 0 := by
    intro h0
    obtain ⟨x, hx, hn⟩ := hpos
    have : ∀ w ∈ (xs.map fun x => ((RFrom.conv x.1 : K), (RFrom.conv x.2 : K))).map fun x => x.2, w ≤ 0 := by
      intro w hm
      rw [← h0]
      refine List.single_le_sum ?_ _ hm
      intro y hy
      obtain ⟨z, hz, rfl⟩ := List.mem_map.1 hy
      exact hw' z hz
    have := this (RFrom.conv x.2) (by simp only [List.map_map, List.mem_map]; exact ⟨x, hx, rfl⟩)
    exact hn (le_antisymm this (hw x hx))
  obtain ⟨h1, -⟩ := C42_weighted_mean (K := K) xs h hW
  have := wavg_between hw' hW
  exact ⟨_, h1, by simpa using this.1, by simpa using this.2⟩
end

/-! ## Integer samples -/
section
variable {F : FFmt}

theorem Closest.ge {x : ℚ} {q z : Flt F} (h : Closest x q) (hz : z.isFin) (hx : z.val ≤ x) : z.val ≤ q.val := by
  by_contra hlt
  push Not at hlt
  have := h.2 z hz
  rw [abs_of_neg (by linarith), abs_of_nonpos (by linarith)] at this
  linarith

theorem Closest.le {x : ℚ} {q z : Flt F} (h : Closest x q) (hz : z.isFin) (hx : x ≤ z.val) : q.val ≤ z.val := by
  by_contra hlt
  push Not at hlt
  have := h.2 z hz
  rw [abs_of_pos (by linarith), abs_of_nonneg (by linarith)] at this
  linarith

/-- a float between two of the samples -/
def BetweenSamples (q : Flt F) (xs : List ℤ) : Prop := q.isFin ∧ (∃ x ∈ xs, (x : ℚ) ≤ q.val) ∧ ∃ y ∈ xs, q.val ≤ (y : ℚ)

theorem between_of_closest {xs : List ℤ} {x : ℚ} {q : Flt F} (h : Closest x q) (hr : ∀ x ∈ xs, |(x : ℚ)| ≤ 2 ^ F.p) (h1 : ∃ y ∈ xs, (y : ℚ) ≤ x) (h2 : ∃ y ∈ xs, x ≤ (y : ℚ)) : BetweenSamples q xs := by
  refine ⟨h.1, ?_, ?_⟩
  · obtain ⟨y, hy, hle⟩ := h1
    obtain ⟨f1, f2⟩ := Flt.ofInt_spec (F := F) (hr y hy)
    exact ⟨y, hy, f2 ▸ h.ge f1 (by rw [f2]; exact hle)⟩
  · obtain ⟨y, hy, hle⟩ := h2
    obtain ⟨f1, f2⟩ := Flt.ofInt_spec (F := F) (hr y hy)
    exact ⟨y, hy, f2 ▸ h.le f1 (by rw [f2]; exact hle)⟩

theorem intCast_sum (xs : List ℤ) : ((xs.sum : ℤ) : ℚ) = (xs.map (Int.cast : ℤ → ℚ)).sum := by
  induction xs with
  | nil => simp
  | cons a t ih => simp [ih]

theorem intCast_avg (xs : List ℤ) : ((xs.sum : ℤ) : ℚ) / (xs.length : ℚ) = avg (xs.map (Int.cast : ℤ → ℚ)) := by
  unfold avg
  rw [List.length_map, intCast_sum]

theorem between_mean {xs : List ℤ} (hne : xs ≠ []) {q : Flt F} (h : Closest (((xs.sum : ℤ) : ℚ) / (xs.length : ℚ)) q) (hr : ∀ x ∈ xs, |(x : ℚ)| ≤ 2 ^ F.p) : BetweenSamples q xs := by
  rw [intCast_avg] at h
  have := avg_between (l := xs.map (Int.cast : ℤ → ℚ)) (fun h => hne (List.map_eq_nil_iff.1 h))
  exact between_of_closest h hr (by simpa using this.1) (by simpa using this.2)

variable [cfg : Cfg] {τ κ : IntTy}
theorem int_abs_le (hτ : -2 ^ F.p ≤ τ.min ∧ τ.max ≤ 2 ^ F.p) (x : MInt τ) : |(x.val : ℚ)| ≤ 2 ^ F.p := by
  have h1 := x.min_le
  have h2 := x.le_max
  rw [abs_le]
  constructor
  · have : -(2 : ℤ) ^ F.p ≤ x.val := le_trans hτ.1 h1
    exact_mod_cast this
  · have : x.val ≤ (2 : ℤ) ^ F.p := le_trans h2 hτ.2
    exact_mod_cast this

variable {A : Type} [Axis A] {axes : A} {n : Nat} {covers : Axis.Interval A → Axis.Coordinate A → Prop} {dom : Axis.Coordinate A → Prop}

theorem samplesIn_abs (hτ : -2 ^ F.p ≤ τ.min ∧ τ.max ≤ 2 ^ F.p) {C B : Type} (covers : B → C → Prop) (b : B) (hist : List (C × MInt τ)) : ∀ x ∈ samplesIn covers b hist, |(x : ℚ)| ≤ 2 ^ F.p := by
  intro x hx
  obtain ⟨cx, -, rfl⟩ := List.mem_map.1 hx
  exact int_abs_le hτ cx.2

/-- **C105 (integer samples).** In a histogram of `Mean`s as in C75 every bin with samples has a mean that is at least one of them and at most one of them, rounding included. -/
theorem C105_means (hc : Cfg.checked = true) (hp3 : 3 ≤ F.p) (hem : F.emin + 2 * F.p + 2 ≤ 0) (hτ : -2 ^ F.p ≤ τ.min ∧ τ.max ≤ 2 ^ F.p) (hκ : κ.max ≤ 2 ^ F.p)
    (hf : FaithfulAxis axes n covers dom) {h : VecHistogram A (Mean (MInt τ) (Flt F) (MInt κ))} (hnew : VecHistogram.new axes = .ok h)
    (hist : List (Axis.Coordinate A × MInt τ)) (hd : ∀ cx ∈ hist, dom cx.1) {h'} (hr : h.callAll (meanFills hist) = (h', none)) :
    ∃ items, h'.iter = .ok items ∧ items.length = n ∧ ∀ i it, items[i]? = some it → it.index = i ∧ Axis.bin axes i = .ok (some it.bin) ∧
      (samplesIn covers it.bin hist ≠ [] → ∃ q, it.value.get = .ok q ∧ BetweenSamples q (samplesIn covers it.bin hist)) := by
  obtain ⟨items, h1, h2, h3⟩ := C75_means hc hp3 hem hτ hκ hf hnew hist hd hr
  refine ⟨items, h1, h2, fun i it hi => ?_⟩
  obtain ⟨g1, g2, -, -, g3⟩ := h3 i it hi
  refine ⟨g1, g2, fun hne => ?_⟩
  obtain ⟨q, _, _, k1, k2, -⟩ := g3 hne
  exact ⟨q, k1, between_mean hne k2 (samplesIn_abs hτ _ _ _)⟩

/-- **C105 (integer samples, sparse).** -/
theorem C105_means_sparse (hc : Cfg.checked = true) (hp3 : 3 ≤ F.p) (hem : F.emin + 2 * F.p + 2 ≤ 0) (hτ : -2 ^ F.p ≤ τ.min ∧ τ.max ≤ 2 ^ F.p) (hκ : κ.max ≤ 2 ^ F.p)
    (hf : FaithfulAxis axes n covers dom) (hist : List (Axis.Coordinate A × MInt τ)) (hd : ∀ cx ∈ hist, dom cx.1) {s'}
    (hr : (HashHistogram.new axes : HashHistogram A (Mean (MInt τ) (Flt F) (MInt κ))).callAll (meanFills hist) = (s', none)) (o : s'.values.Order) :
    ∃ items, s'.iter o = .ok items ∧ ∀ it ∈ items, Axis.bin axes it.index = .ok (some it.bin) ∧
      (samplesIn covers it.bin hist ≠ [] → ∃ q, it.value.get = .ok q ∧ BetweenSamples q (samplesIn covers it.bin hist)) := by
  obtain ⟨items, h1, -, h3, -⟩ := C75_means_sparse hc hp3 hem hτ hκ hf hist hd hr o
  refine ⟨items, h1, fun it hi => ?_⟩
  obtain ⟨g2, -, -, g3⟩ := h3 it hi
  refine ⟨g2, fun hne => ?_⟩
  obtain ⟨q, _, _, k1, k2, -⟩ := g3 hne
  exact ⟨q, k1, between_mean hne k2 (samplesIn_abs hτ _ _ _)⟩

/-- the samples with a non-zero weight among those of the calls with a coordinate in `b` -/
noncomputable def weighedIn {C B : Type} (covers : B → C → Prop) (b : B) (hist : List (C × MInt τ × MInt τ)) : List ℤ :=
  open Classical in ((hist.filter fun cx => covers b cx.1).filter fun cx => cx.2.2.val ≠ 0).map fun cx => cx.2.1.val

theorem between_wmean (hτ : -2 ^ F.p ≤ τ.min ∧ τ.max ≤ 2 ^ F.p) {C : Type} (mine : List (C × MInt τ × MInt τ)) (hw : ∀ cx ∈ mine, 0 ≤ cx.2.2.val)
    {q : Flt F} (hW : (mine.map fun cx => cx.2.2.val).sum ≠ 0) (hq : Closest (((mine.map fun cx => cx.2.2.val * cx.2.1.val).sum : ℤ) / ((mine.map fun cx => cx.2.2.val).sum : ℤ) : ℚ) q) :
    BetweenSamples q ((mine.filter fun cx => cx.2.2.val ≠ 0).map fun cx => cx.2.1.val) := by
  have e1 : totalWeight (mine.map fun cx => ((cx.2.1.val : ℚ), (cx.2.2.val : ℚ))) = ((mine.map fun cx => cx.2.2.val).sum : ℤ) := by
    unfold totalWeight; rw [intCast_sum]; simp [Function.comp_def]
  have e2 : ((mine.map fun cx => ((cx.2.1.val : ℚ), (cx.2.2.val : ℚ))).map fun x => x.2 * x.1).sum = ((mine.map fun cx => cx.2.2.val * cx.2.1.val).sum : ℤ) := by
    rw [intCast_sum]; simp [Function.comp_def]
  have e : wavg (mine.map fun cx => ((cx.2.1.val : ℚ), (cx.2.2.val : ℚ))) = ((mine.map fun cx => cx.2.2.val * cx.2.1.val).sum : ℤ) / ((mine.map fun cx => cx.2.2.val).sum : ℤ) := by
    unfold wavg; rw [e1, e2]
  have := wavg_between (l := mine.map fun cx => ((cx.2.1.val : ℚ), (cx.2.2.val : ℚ))) (by
    intro y hy
    obtain ⟨x, hx, rfl⟩ := List.mem_map.1 hy
    have := hw x hx
    show (0 : ℚ) ≤ (x.2.2.val : ℚ)
    exact_mod_cast this) (by rw [e1]; exact_mod_cast hW)
  rw [← e] at hq
  obtain ⟨⟨x, hx, hx0, hxl⟩, ⟨y, hy, hy0, hyl⟩⟩ := this
  obtain ⟨cx, hcx, rfl⟩ := List.mem_map.1 hx
  obtain ⟨cy, hcy, rfl⟩ := List.mem_map.1 hy
  refine between_of_closest hq ?_ ⟨cx.2.1.val, ?_, hxl⟩ ⟨cy.2.1.val, ?_, hyl⟩
  · intro z hz
    obtain ⟨c, -, rfl⟩ := List.mem_map.1 hz
    exact int_abs_le hτ _
  · exact List.mem_map.2 ⟨cx, List.mem_filter.2 ⟨hcx, by simpa using hx0⟩, rfl⟩
  · exact List.mem_map.2 ⟨cy, List.mem_filter.2 ⟨hcy, by simpa using hy0⟩, rfl⟩

theorem weight_ne_zero {C : Type} {mine : List (C × MInt τ × MInt τ)} (hw : ∀ cx ∈ mine, 0 ≤ cx.2.2.val) (h : (mine.filter fun cx => cx.2.2.val ≠ 0) ≠ []) : (mine.map fun cx => cx.2.2.val).sum ≠ 0 := by
  obtain ⟨x, hx⟩ := List.exists_mem_of_ne_nil _ h
  obtain ⟨hx, h0⟩ := List.mem_filter.1 hx
  have h0 : x.2.2.val ≠ 0 := by simpa using h0
  have h1 : x.2.2.val ≤ (mine.map fun cx => cx.2.2.val).sum := List.single_le_sum (by
    intro y hy
    obtain ⟨z, hz, rfl⟩ := List.mem_map.1 hy
    exact hw z hz) _ (List.mem_map.2 ⟨x, hx, rfl⟩)
  have := hw x hx
  omega

/-- **C105 (integer samples with weights).** In a histogram of `WeightedMean`s as in C75, filled with weights that are not negative, every bin with a sample of non-zero weight has a mean that is at least one of these
samples and at most one of them, rounding included. -/
theorem C105_weighted_means (hc : Cfg.checked = true) (hτ : -2 ^ F.p ≤ τ.min ∧ τ.max ≤ 2 ^ F.p)
    (hf : FaithfulAxis axes n covers dom) {h : VecHistogram A (WeightedMean (MInt τ) (MInt τ) (Flt F) (MInt κ))} (hnew : VecHistogram.new axes = .ok h)
    (hist : List (Axis.Coordinate A × MInt τ × MInt τ)) (hd : ∀ cx ∈ hist, dom cx.1) (hw : ∀ cx ∈ hist, 0 ≤ cx.2.2.val) {h'} (hr : h.callAll (weightedMeanFills hist) = (h', none)) :
    ∃ items, h'.iter = .ok items ∧ items.length = n ∧ ∀ i it, items[i]? = some it → it.index = i ∧ Axis.bin axes i = .ok (some it.bin) ∧
      (weighedIn covers it.bin hist ≠ [] → ∃ q, it.value.get = .ok q ∧ BetweenSamples q (weighedIn covers it.bin hist)) := by
  classical
  obtain ⟨items, h1, h2, h3⟩ := C75_weighted_means hc hτ hf hnew hist hd hr
  refine ⟨items, h1, h2, fun i it hi => ?_⟩
  obtain ⟨g1, g2, -, g3⟩ := h3 i it hi
  refine ⟨g1, g2, fun hne => ?_⟩
  have hw' : ∀ cx ∈ hist.filter fun cx => covers it.bin cx.1, 0 ≤ cx.2.2.val := fun cx hm => hw cx (List.mem_filter.1 hm).1
  have hW : ((hist.filter fun cx => covers it.bin cx.1).map fun cx => cx.2.2.val).sum ≠ 0 := by
    refine weight_ne_zero hw' fun h0 => hne ?_
    unfold weighedIn
    rw [List.map_eq_nil_iff]
    convert h0
  obtain ⟨q, k1, k2⟩ := g3 (by convert hW)
  refine ⟨q, k1, ?_⟩
  have := between_wmean hτ _ hw' hW (q := q) (by convert k2)
  unfold weighedIn
  convert this

/-- **C105 (integer samples with weights, sparse).** -/
theorem C105_weighted_means_sparse (hc : Cfg.checked = true) (hτ : -2 ^ F.p ≤ τ.min ∧ τ.max ≤ 2 ^ F.p)
    (hf : FaithfulAxis axes n covers dom) (hist : List (Axis.Coordinate A × MInt τ × MInt τ)) (hd : ∀ cx ∈ hist, dom cx.1) (hw : ∀ cx ∈ hist, 0 ≤ cx.2.2.val) {s'}
    (hr : (HashHistogram.new axes : HashHistogram A (WeightedMean (MInt τ) (MInt τ) (Flt F) (MInt κ))).callAll (weightedMeanFills hist) = (s', none)) (o : s'.values.Order) :
    ∃ items, s'.iter o = .ok items ∧ ∀ it ∈ items, Axis.bin axes it.index = .ok (some it.bin) ∧
      (weighedIn covers it.bin hist ≠ [] → ∃ q, it.value.get = .ok q ∧ BetweenSamples q (weighedIn covers it.bin hist)) := by
  classical
  obtain ⟨items, h1, -, h3, -⟩ := C75_weighted_means_sparse hc hτ hf hist hd hr o
  refine ⟨items, h1, fun it hi => ?_⟩
  obtain ⟨g2, -, g3⟩ := h3 it hi
  refine ⟨g2, fun hne => ?_⟩
  have hw' : ∀ cx ∈ hist.filter fun cx => covers it.bin cx.1, 0 ≤ cx.2.2.val := fun cx hm => hw cx (List.mem_filter.1 hm).1
  have hW : ((hist.filter fun cx => covers it.bin cx.1).map fun cx => cx.2.2.val).sum ≠ 0 := by
    refine weight_ne_zero hw' fun h0 => hne ?_
    unfold weighedIn
    rw [List.map_eq_nil_iff]
    convert h0
  obtain ⟨q, k1, k2⟩ := g3 (by convert hW)
  refine ⟨q, k1, ?_⟩
  have := between_wmean hτ _ hw' hW (q := q) (by convert k2)
  unfold weighedIn
  convert this

/-! ## The mean of the coordinates in a bin lies in the bin -/

/-- the float is in the bin: at least `start`, below `end` -/
def BinInterval.Holds (q : Flt F) : BinInterval (MInt τ) → Prop
  | .Underflow stop => q.val < stop.val
  | .Overflow start => (start.val : ℚ) ≤ q.val
  | .Bin start stop => (start.val : ℚ) ≤ q.val ∧ q.val < stop.val

theorem holds_of_between {b : BinInterval (MInt τ)} {cs : List (MInt τ)} {q : Flt F} (h : BetweenSamples q (samplesIn BinInterval.Covers b (cs.map fun c => (c, c)))) : b.Holds q := by
  obtain ⟨-, ⟨x, hx, hxl⟩, ⟨y, hy, hyl⟩⟩ := h
  have key : ∀ z ∈ samplesIn BinInterval.Covers b (cs.map fun c => (c, c)), ∃ c : MInt τ, b.Covers c ∧ z = c.val := by
    intro z hz
    obtain ⟨cx, hcx, rfl⟩ := List.mem_map.1 hz
    obtain ⟨h1, h2⟩ := List.mem_filter.1 hcx
    obtain ⟨c, -, rfl⟩ := List.mem_map.1 h1
    exact ⟨c, by simpa using h2, rfl⟩
  obtain ⟨c, hc, rfl⟩ := key x hx
  obtain ⟨d, hd, rfl⟩ := key y hy
  have le : ∀ {a b : MInt τ}, POrd.le a b = true → (a.val : ℚ) ≤ b.val := fun h => by rw [MInt.le_iff, decide_eq_true_iff] at h; exact_mod_cast h
  have lt : ∀ {a b : MInt τ}, POrd.lt a b = true → (a.val : ℚ) < b.val := fun h => by rw [MInt.lt_iff, decide_eq_true_iff] at h; exact_mod_cast h
  cases b with
  | Underflow stop => exact lt_of_le_of_lt hyl (lt hd)
  | Overflow start => exact le_trans (le hc) hxl
  | Bin start stop => exact ⟨le_trans (le hc.1) hxl, lt_of_le_of_lt hyl (lt hd.2)⟩

/-- **C105 (own bin).** A histogram of `Mean`s over an axis of integers, filled with every coordinate as its own sample: the mean of a bin that is not empty lies in the bin. -/
theorem C105_own_bin_uniform (hc : Cfg.checked = true) (hp3 : 3 ≤ F.p) (hem : F.emin + 2 * F.p + 2 ≤ 0) (hτ : -2 ^ F.p ≤ τ.min ∧ τ.max ≤ 2 ^ F.p) (hκ : κ.max ≤ 2 ^ F.p)
    {num : Nat} {low step : MInt τ} {a : Uniform (MInt τ)} (hnew : Uniform.withStepSize num low step = .ok (.ok a)) (hnum : num + 2 < usizeSize) (hbin : (num : ℤ) * (num * step.val) ≤ τ.max)
    {h : VecHistogram (Uniform (MInt τ)) (Mean (MInt τ) (Flt F) (MInt κ))} (hh : VecHistogram.new a = .ok h) (cs : List (MInt τ)) {h'}
    (hr : h.callAll (meanFills (cs.map fun c => (c, c))) = (h', none)) :
    ∃ items, h'.iter = .ok items ∧ items.length = num + 2 ∧ ∀ it ∈ items, (∃ c ∈ cs, it.bin.Covers c) → ∃ q, it.value.get = .ok q ∧ q.isFin ∧ BinInterval.Holds q it.bin := by
  classical
  obtain ⟨items, h1, h2, h3⟩ := C105_means hc hp3 hem hτ hκ (C51_uniform_int hnew (fun h => absurd h (by simp [hc])) hnum hbin) hh (cs.map fun c => (c, c)) (fun _ _ => trivial) hr
  refine ⟨items, h1, h2, fun it hit ⟨c, hcm, hcov⟩ => ?_⟩
  obtain ⟨i, hi⟩ := List.getElem?_of_mem hit
  obtain ⟨-, -, h4⟩ := h3 i it hi
  obtain ⟨q, h5, h6⟩ := h4 (List.ne_nil_of_mem (a := c.val) (List.mem_map.2 ⟨(c, c), List.mem_filter.2 ⟨List.mem_map.2 ⟨c, hcm, rfl⟩, by simpa using hcov⟩, rfl⟩))
  exact ⟨q, h5, h6.1, holds_of_between h6⟩

/-- **C105 (own bin, variable widths).** -/
theorem C105_own_bin_variable [StdLib] (hc : Cfg.checked = true) (hp3 : 3 ≤ F.p) (hem : F.emin + 2 * F.p + 2 ≤ 0) (hτ : -2 ^ F.p ≤ τ.min ∧ τ.max ≤ 2 ^ F.p) (hκ : κ.max ≤ 2 ^ F.p)
    {edges : List (MInt τ)} {a : Variable (MInt τ)} (hnew : Variable.new edges = .ok (.ok a)) (hmem : edges.length + 1 < usizeSize) (hd : edges.Pairwise (fun x y => POrd.eq x y = false))
    {h : VecHistogram (Variable (MInt τ)) (Mean (MInt τ) (Flt F) (MInt κ))} (hh : VecHistogram.new a = .ok h) (cs : List (MInt τ)) {h'}
    (hr : h.callAll (meanFills (cs.map fun c => (c, c))) = (h', none)) :
    ∃ items, h'.iter = .ok items ∧ items.length = edges.length + 1 ∧ ∀ it ∈ items, (∃ c ∈ cs, it.bin.Covers c) → ∃ q, it.value.get = .ok q ∧ q.isFin ∧ BinInterval.Holds q it.bin := by
  classical
  obtain ⟨items, h1, h2, h3⟩ := C105_means hc hp3 hem hτ hκ (C51_variable hnew hmem hd) hh (cs.map fun c => (c, c)) (fun cx _ => by show @POrd.eq (MInt τ) _ cx.1 cx.1 = true; rw [MInt.eq_iff, decide_eq_true_iff]) hr
  refine ⟨items, h1, h2, fun it hit ⟨c, hcm, hcov⟩ => ?_⟩
  obtain ⟨i, hi⟩ := List.getElem?_of_mem hit
  obtain ⟨-, -, h4⟩ := h3 i it hi
  obtain ⟨q, h5, h6⟩ := h4 (List.ne_nil_of_mem (a := c.val) (List.mem_map.2 ⟨(c, c), List.mem_filter.2 ⟨List.mem_map.2 ⟨c, hcm, rfl⟩, by simpa using hcov⟩, rfl⟩))
  exact ⟨q, h5, h6.1, holds_of_between h6⟩
end

/-! ## Floats -/
section
variable [cfg : Cfg] {F : FFmt} {τ : IntTy}

omit cfg in
theorem rs_two_mul (x : Flt F) : F.rs (2 * x.val) = 2 * x.val := by
  apply F.rs_of_rep
  rw [abs_mul, abs_of_pos (by norm_num : (0 : ℚ) < 2)]
  exact F.repU_two x.val_rep.repU

/-- **C105 (two floats).** The mean of two finite floats whose sum is in range lies between them, rounding included. -/
theorem C105_two (x y : Flt F) (hx : x.isFin) (hy : y.isFin) (hxy : x.val ≤ y.val) (hτ : 2 ≤ τ.max) (hp : 1 ≤ F.p) (hr : |x.val + y.val| ≤ F.maxFin) :
    ∀ xs, xs = [x, y] ∨ xs = [y, x] → ∃ (m : Mean (Flt F) (Flt F) (MInt τ)) (q : Flt F), fillSeq (meanCalls xs) RDefault.dflt = (m, none) ∧ m.get = .ok q ∧ q.isFin ∧ x.val ≤ q.val ∧ q.val ≤ y.val := by
  have main : ∀ a b : Flt F, a.isFin → b.isFin → a.val + b.val = x.val + y.val → ∃ (m : Mean (Flt F) (Flt F) (MInt τ)) (q : Flt F), fillSeq (meanCalls [a, b]) RDefault.dflt = (m, none) ∧ m.get = .ok q ∧ q.isFin ∧ x.val ≤ q.val ∧ q.val ≤ y.val := by
    intro a b ha hb hab
    obtain ⟨c, hc', hs⟩ := fillSeq_mean (τ := τ) [a, b] RDefault.dflt (by show (0 : ℤ) + _ ≤ _; simpa using hτ)
    have hcn : c.val = (2 : ℕ) := by rw [hc']; show (0 : ℤ) + _ = _; simp
    obtain ⟨d1, d2⟩ := conv_count (F := F) c hcn (by calc 2 = 2 ^ 1 := rfl
                                                      _ ≤ 2 ^ F.p := Nat.pow_le_pow_right (by norm_num) hp)
    have z1 : (Flt.zero false : Flt F).isFin := trivial
    have r1 := Flt.add_rounds z1 ha
    rw [show (Flt.zero false : Flt F).val = 0 from rfl, zero_add] at r1
    obtain ⟨u1, u2⟩ := r1.fin_of a.val_rep.le_maxFin
    rw [Flt.rs_val] at u2
    have r2 := Flt.add_rounds u1 hb
    rw [u2, hab] at r2
    obtain ⟨v1, v2⟩ := r2.fin_of hr
    have r3 := Flt.div_rounds v1 d1 (by rw [d2]; norm_num)
    rw [d2] at r3
    set v := Flt.add (Flt.add (Flt.zero false) a) b with hv
    have lo : 2 * x.val ≤ v.val := by rw [v2, ← rs_two_mul x]; exact F.rs_mono (by linarith)
    have hi : v.val ≤ 2 * y.val := by rw [v2, ← rs_two_mul y]; exact F.rs_mono (by linarith)
    obtain ⟨q1, q2⟩ := r3.fin_of (by
      rw [abs_div]
      have := v.val_rep.le_maxFin
      have h0 := abs_nonneg v.val
      norm_num
      linarith)
    refine ⟨_, _, hs, rfl, q1, ?_, ?_⟩
    · show x.val ≤ (Flt.div v _).val
      rw [q2, ← Flt.rs_val x]; exact F.rs_mono (by push_cast; linarith)
    · show (Flt.div v _).val ≤ y.val
      rw [q2, ← Flt.rs_val y]; exact F.rs_mono (by push_cast; linarith)
  rintro xs (rfl | rfl)
  · exact main x y hx hy rfl
  · exact main y x hy hx (add_comm _ _)

/-- **C105 (floats).** More finite floats: the mean may leave the range of the samples, but only by the rounding error of C58. -/
theorem C105_floats (xs : List (Flt F)) (hne : xs ≠ []) (hfin : ∀ x ∈ xs, x.isFin) (hc : (xs.length : ℤ) ≤ τ.max) (hp : xs.length ≤ 2 ^ F.p)
    (hr : (1 + F.u) ^ xs.length * (xs.map fun x => |x.val|).sum ≤ F.maxFin) :
    ∃ (m : Mean (Flt F) (Flt F) (MInt τ)) (q : Flt F), fillSeq (meanCalls xs) RDefault.dflt = (m, none) ∧ m.get = .ok q ∧ q.isFin ∧
      (∃ x ∈ xs, x.val - (((1 + F.u) ^ xs.length - 1) * avg (xs.map fun x => |x.val|) + F.eta) ≤ q.val) ∧
      ∃ y ∈ xs, q.val ≤ y.val + (((1 + F.u) ^ xs.length - 1) * avg (xs.map fun x => |x.val|) + F.eta) := by
  obtain ⟨m, q, h1, -, h2, h3, h4⟩ := C58_mean (τ := τ) xs hne hfin hc hp hr
  obtain ⟨⟨a, ha, ha'⟩, ⟨b, hb, hb'⟩⟩ := avg_between (l := xs.map Flt.val) (fun h => hne (List.map_eq_nil_iff.1 h))
  obtain ⟨x, hx, rfl⟩ := List.mem_map.1 ha
  obtain ⟨y, hy, rfl⟩ := List.mem_map.1 hb
  rw [abs_le] at h4
  exact ⟨m, q, h1, h2, h3, ⟨x, hx, by linarith [h4.1]⟩, ⟨y, hy, by linarith [h4.2]⟩⟩
end

section
attribute [local instance] rel64
/-- With three floats the mean need not lie between the samples: 0.1, 0.1, 0.1 has a mean above 0.1. -/
theorem C105_counterexample_three : ∃ (x : Flt .f64) (m : Mean (Flt .f64) (Flt .f64) (MInt .u32)) (q : Flt .f64), fillSeq (meanCalls [x, x, x]) RDefault.dflt = (m, none) ∧ m.get = .ok q ∧ q.isFin ∧ x.val < q.val := by
  obtain ⟨c, hc, hs⟩ := fillSeq_mean (F := .f64) (τ := .u32) [Flt.ofRat (1 / 10), Flt.ofRat (1 / 10), Flt.ofRat (1 / 10)] RDefault.dflt (by decide)
  have hc : c.val = 3 := hc
  have e : (RFrom.conv c : Flt .f64) = Flt.ofRat 3 := by
    show Flt.ofRat (c.val : ℚ) = _
    rw [hc]; rfl
  refine ⟨_, _, Flt.div (Flt.add (Flt.add (Flt.add (Flt.zero false) (Flt.ofRat (1 / 10))) (Flt.ofRat (1 / 10))) (Flt.ofRat (1 / 10))) (Flt.ofRat 3), hs, ?_, by decide +kernel, by decide +kernel⟩
  rw [← e]; rfl

/-- With negative weights the weighted mean need not lie between the samples: 1 with weight 2 and 2 with weight -1 have the mean 0. -/
theorem C105_counterexample_negative : ∃ (m : WeightedMean (MInt .i32) (MInt .i32) (Flt .f64) (MInt .u32)),
    fillSeq [Call.fillWithWeighted () (MInt.lit 1 : MInt .i32) (MInt.lit 2 : MInt .i32), .fillWithWeighted () (MInt.lit 2 : MInt .i32) (MInt.lit (-1) : MInt .i32)] RDefault.dflt = (m, none) ∧
    m.get = .ok (Flt.zero false) := by
  generalize hr : fillSeq [Call.fillWithWeighted () (MInt.lit 1 : MInt .i32) (MInt.lit 2 : MInt .i32), .fillWithWeighted () (MInt.lit 2 : MInt .i32) (MInt.lit (-1) : MInt .i32)]
    (RDefault.dflt : WeightedMean (MInt .i32) (MInt .i32) (Flt .f64) (MInt .u32)) = r
  have h2 : r.2 = none := by rw [← hr]; decide +kernel
  have h3 : r.1.get = .ok (Flt.zero false) := by rw [← hr]; decide +kernel
  exact ⟨r.1, Prod.ext rfl h2, h3⟩
end
end NdHist
