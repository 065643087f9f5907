import Verif.SpecRescale
import Verif.Props.Interchange
import Verif.Props.IntMean
/-!
# C84: coordinates in another type, with another origin or in other units
-/
set_option linter.unusedSectionVars false
namespace NdHist
open Classical

/-! ## Variable-width axes: any conversion that keeps the order -/
section
variable [cfg : Cfg] [StdLib] {T T' : Type} [POrd T] [LawfulPOrd T] [POrd T'] [LawfulPOrd T']

theorem PreservesOrder.le {f : T → T'} {dom : T → Prop} (h : PreservesOrder f dom) {x y : T} (hx : dom x) (hy : dom y) : POrd.le (f x) (f y) = POrd.le x y := by
  unfold POrd.le; rw [h x y hx hy]
theorem PreservesOrder.eq {f : T → T'} {dom : T → Prop} (h : PreservesOrder f dom) {x y : T} (hx : dom x) (hy : dom y) : POrd.eq (f x) (f y) = POrd.eq x y := by
  unfold POrd.eq; rw [h x y hx hy]

theorem PreservesOrder.distinct {f : T → T'} {dom : T → Prop} (h : PreservesOrder f dom) {edges : List T} {edges' : List T'} (hed : ∀ e ∈ edges, dom e) (hperm : edges'.Perm (edges.map f))
    (hd : edges.Pairwise (fun x y => POrd.eq x y = false)) : edges'.Pairwise (fun x y => POrd.eq x y = false) := by
  refine (List.Perm.pairwise_iff (fun {x y} hxy => ?_) hperm).2 ?_
  · rw [Bool.eq_false_iff] at hxy ⊢
    intro hyx
    obtain ⟨k, h1, h2⟩ := LawfulPOrd.eq_iff.1 hyx
    exact hxy (LawfulPOrd.eq_iff.2 ⟨k, h2, h1⟩)
  · rw [List.pairwise_map]
    refine (List.Pairwise.and_mem.1 hd).imp ?_
    rintro x y ⟨hx, hy, hxy⟩
    rw [h.eq (hed x hx) (hed y hy), hxy]

theorem PreservesOrder.count {f : T → T'} {dom : T → Prop} (h : PreservesOrder f dom) {edges : List T} {edges' : List T'} (hed : ∀ e ∈ edges, dom e) (hperm : edges'.Perm (edges.map f)) {c : T} (hc : dom c) :
    edges'.countP (fun e => POrd.le e (f c)) = edges.countP (fun e => POrd.le e c) := by
  rw [hperm.countP_eq, List.countP_map]
  apply List.countP_congr
  intro e he
  simp only [Function.comp_apply]
  rw [h.le (hed e he) hc]

/-- **C84 (`Variable`).** Converting the edges and the coordinates by any function that keeps their order - to a wider type, from integers to floats, to other units, on a logarithmic scale - changes no bin number. -/
theorem C84_variable {f : T → T'} {dom : T → Prop} (h : PreservesOrder f dom) (hself : ∀ c, dom c → POrd.eq c c = true) {edges : List T} {edges' : List T'} (hed : ∀ e ∈ edges, dom e)
    (hperm : edges'.Perm (edges.map f)) (hd : edges.Pairwise (fun x y => POrd.eq x y = false)) (hmem : edges.length + 1 < usizeSize) {a : Variable T} {a' : Variable T'}
    (hnew : Variable.new edges = .ok (.ok a)) (hnew' : Variable.new edges' = .ok (.ok a')) :
    Coarser a (edges.length + 1) BinInterval.Covers a' (edges.length + 1) BinInterval.Covers f dom id := by
  have hlen : edges'.length = edges.length := by simpa using hperm.length_eq
  have hd' := h.distinct hed hperm hd
  have hF' := C51_variable hnew' (by omega) hd'
  rw [hlen] at hF'
  have hs' : ∀ c, dom c → POrd.eq (f c) (f c) = true := fun c hc => by rw [h.eq hc hc, hself c hc]
  refine Coarser.of_index ((C51_variable hnew hmem hd).mono hself) (hF'.mono (by rintro _ ⟨c, hc, rfl⟩; exact hs' c hc)) (fun _ h => h) ?_ ?_
  · intro (c : T) i hc hi
    have hi : a.index c = .ok (some i) := hi
    rw [Variable.index_count hnew hmem hd c (hself c hc)] at hi
    show a'.index (f c) = .ok (some i)
    rw [Variable.index_count hnew' (by omega) hd' _ (hs' c hc), h.count hed hperm hc, hi]
  · intro (c : T) hc hi
    have hi : a.index c = .ok none := hi
    rw [Variable.index_count hnew hmem hd c (hself c hc)] at hi
    cases hi

/-- **C84 (`VariableNoFlow`).** -/
theorem C84_variable_noflow {f : T → T'} {dom : T → Prop} (h : PreservesOrder f dom) (hself : ∀ c, dom c → POrd.eq c c = true) {edges : List T} {edges' : List T'} (hed : ∀ e ∈ edges, dom e)
    (hperm : edges'.Perm (edges.map f)) (hd : edges.Pairwise (fun x y => POrd.eq x y = false)) (hmem : edges.length + 1 < usizeSize) {a : VariableNoFlow T} {a' : VariableNoFlow T'}
    (hnew : VariableNoFlow.new edges = .ok (.ok a)) (hnew' : VariableNoFlow.new edges' = .ok (.ok a')) :
    Coarser a (edges.length - 1) BinInterval.Covers a' (edges.length - 1) BinInterval.Covers f dom id := by
  have hlen : edges'.length = edges.length := by simpa using hperm.length_eq
  have hd' := h.distinct hed hperm hd
  have hF' := C51_variable_noflow hnew' (by omega) hd'
  rw [hlen] at hF'
  have hv := VariableNoFlow.new_ok hnew
  have hv' := VariableNoFlow.new_ok hnew'
  have hc := C84_variable h hself hed hperm hd hmem hv hv'
  have hF := (C51_variable_noflow hnew hmem hd).mono (dom' := dom) fun _ _ => trivial
  refine Coarser.of_bins hF (hF'.mono fun _ _ => trivial) ?_
  intro i b b' hi hb hb' (c : T) hcd
  obtain ⟨-, hm, -⟩ := C14_variable_noflow_bins hnew hmem
  obtain ⟨-, hm', -⟩ := C14_variable_noflow_bins hnew' (by omega)
  obtain ⟨s, e, h1, h2, h3⟩ := hm i (by omega)
  obtain ⟨s', e', h1', h2', h3'⟩ := hm' i (by omega)
  have hb : a.bin i = .ok (some b) := hb
  have hb' : a'.bin i = .ok (some b') := hb'
  rw [h3] at hb; rw [h3'] at hb'
  cases hb; cases hb'
  obtain ⟨t, u, g1, g2, g3⟩ := (C13_variable_bins hv hmem).2.2.2.1 i (by omega)
  obtain ⟨t', u', g1', g2', g3'⟩ := (C13_variable_bins hv' (by omega)).2.2.2.1 i (by omega)
  rw [h1] at g1; rw [h2] at g2; rw [h1'] at g1'; rw [h2'] at g2'
  cases g1; cases g2; cases g1'; cases g2'
  have hu := hc.union (i + 1) (.Bin s' e') (by omega) g3' c hcd
  refine hu.trans ⟨?_, fun hx => ⟨i + 1, _, by omega, rfl, g3, hx⟩⟩
  rintro ⟨j, b, hj, hji, hb, hx⟩
  obtain rfl : j = i + 1 := hji
  have hb : a.axis.bin (i + 1) = .ok (some b) := hb
  rw [g3] at hb
  cases hb
  exact hx
end

/-! ## Renamed categories -/
section
variable [cfg : Cfg] {T T' : Type} [DecidableEq T] [DecidableEq T']

theorem mergeCategories_renamed {values : List T} (hd : values.Nodup) {f : T → T'} (hf : Function.Injective f) {i : Nat} (hi : i < values.length + 1) : mergeCategories values (values.map f) f i = i := by
  unfold mergeCategories
  by_cases h : i < values.length
  · rw [List.getElem?_eq_getElem h]
    show (values.map f).idxOf (f values[i]) = i
    have : (values.map f).Nodup := hd.map hf
    have := this.idxOf_getElem i (by simpa using h)
    simpa using this
  · rw [List.getElem?_eq_none (by omega)]
    simp; omega

theorem Coarser.congr {A A' : Type} [Axis A] [Axis A'] {a : A} {n : Nat} {covers : Axis.Interval A → Axis.Coordinate A → Prop} {a' : A'} {n' : Nat} {covers' : Axis.Interval A' → Axis.Coordinate A' → Prop}
    {same : Axis.Coordinate A → Axis.Coordinate A'} {dom : Axis.Coordinate A → Prop} {m m' : Nat → Nat} (h : Coarser a n covers a' n' covers' same dom m) (hm : ∀ i, i < n → m i = m' i) :
    Coarser a n covers a' n' covers' same dom m' := by
  refine ⟨h.fine, h.coarse, fun i hi => by rw [← hm i hi]; exact h.into i hi, fun j b' hj hb c hc => ?_⟩
  rw [h.union j b' hj hb c hc]
  constructor
  · rintro ⟨i, b, hi, hmi, hr⟩
    exact ⟨i, b, hi, by rw [← hm i hi]; exact hmi, hr⟩
  · rintro ⟨i, b, hi, hmi, hr⟩
    exact ⟨i, b, hi, by rw [hm i hi]; exact hmi, hr⟩

/-- **C84 (categories).** Renaming the categories and the data by an injective function, possibly to another type, changes no bin number. -/
theorem C84_category {values : List T} (hd : values.Nodup) (hmem : values.length + 1 < usizeSize) {f : T → T'} (hf : Function.Injective f) :
    Coarser (Category.new values) (values.length + 1) (SingleValueBinInterval.Covers values) (Category.new (values.map f)) (values.length + 1) (SingleValueBinInterval.Covers (values.map f)) f (fun _ => True) id ∧
    Coarser (CategoryNoFlow.new values) values.length (SingleValueBinInterval.Covers values) (CategoryNoFlow.new (values.map f)) values.length (SingleValueBinInterval.Covers (values.map f)) f
      (fun _ => True) id := by
  have hmap : ∀ c, f c ∈ values.map f ↔ c ∈ values := fun c => by
    rw [List.mem_map]
    exact ⟨fun ⟨x, hx, e⟩ => hf e ▸ hx, fun h => ⟨c, h, rfl⟩⟩
  have h1 := C82_category hd (hd.map hf) hmem (by simpa using hmem) f hmap
  have h2 := C82_category_noflow hd (hd.map hf) hmem (by simpa using hmem) f hmap
  rw [List.length_map] at h1 h2
  exact ⟨h1.congr fun i hi => mergeCategories_renamed hd hf hi, h2.congr fun i hi => mergeCategories_renamed hd hf (by omega)⟩
end

/-! ## Uniform axes: another type, origin or unit -/
section
variable [cfg : Cfg] {A A' : Type} [Axis A] [Axis A'] {a : A} {a' : A'} {n : Nat} {covers : Axis.Interval A → Axis.Coordinate A → Prop} {covers' : Axis.Interval A' → Axis.Coordinate A' → Prop}
  {dom₁ : Axis.Coordinate A → Prop} {dom₂ : Axis.Coordinate A' → Prop} {is₁ : Axis.Coordinate A → ℚ → Prop} {is₂ : Axis.Coordinate A' → ℚ → Prop} {same : Axis.Coordinate A → Axis.Coordinate A'}
  {dom : Axis.Coordinate A → Prop}

/-- **C84 (any axes).** If bin `i` of one axis contains the numbers `S i`, bin `i` of another the numbers `S' i`, and `φ` maps the former to the latter, then the two axes put `x` and `φ x` into bins with the same number. -/
theorem C84_same_numbers {S S' : Nat → Set ℚ} {φ : ℚ → ℚ} (ha : BinsAre a n covers dom₁ is₁ S) (ha' : BinsAre a' n covers' dom₂ is₂ S') (hS : ∀ i x, i < n → (φ x ∈ S' i ↔ x ∈ S i))
    (hsame : ∀ c, dom c → dom₁ c ∧ dom₂ (same c) ∧ ∃ x, is₁ c x ∧ is₂ (same c) (φ x)) : Coarser a n covers a' n covers' same dom id := by
  refine Coarser.of_bins (ha.faithful.mono fun c hc => (hsame c hc).1) (ha'.faithful.mono (by rintro _ ⟨c, hc, rfl⟩; exact (hsame c hc).2.1)) ?_
  intro i b b' hi hb hb' c hc
  obtain ⟨h1, h2, x, hx, hy⟩ := hsame c hc
  rw [ha'.contains i b' hi hb' _ _ h2 hy, ha.contains i b hi hb c x h1 hx, hS i x hi]

/-- **C84 (uniform axes).** If the edges and the coordinates `x` of a uniform axis are replaced by `s * x + δ` (`s > 0`), no bin number changes: another origin, other units, or the same numbers in another type. -/
theorem C84_uniform {num : Nat} {low step s δ : ℚ} (hs : 0 < s) (ha : BinsAre a (num + 2) covers dom₁ is₁ (evenBins num low step)) (ha' : BinsAre a' (num + 2) covers' dom₂ is₂ (evenBins num (s * low + δ) (s * step)))
    (hsame : ∀ c, dom c → dom₁ c ∧ dom₂ (same c) ∧ ∃ x, is₁ c x ∧ is₂ (same c) (s * x + δ)) : Coarser a (num + 2) covers a' (num + 2) covers' same dom id := by
  refine C84_same_numbers (φ := fun x => s * x + δ) ha ha' (fun i x hi => ?_) hsame
  have le : ∀ y, s * low + δ + y * (s * step) ≤ s * x + δ ↔ low + y * step ≤ x := fun y => by
    rw [show s * low + δ + y * (s * step) = s * (low + y * step) + δ by ring, add_le_add_iff_right, mul_le_mul_iff_right₀ hs]
  have lt : ∀ y, s * x + δ < s * low + δ + y * (s * step) ↔ x < low + y * step := fun y => by
    rw [← not_le, ← not_le, le]
  unfold evenBins
  split
  · have := lt 0
    simpa using this
  · split
    · exact le _
    · exact and_congr (le _) (lt _)

/-- **C84 (uniform axes without flow bins).** -/
theorem C84_uniform_noflow {num : Nat} {low step s δ : ℚ} (hs : 0 < s) (ha : BinsAre a num covers dom₁ is₁ (evenBinsNoFlow low step)) (ha' : BinsAre a' num covers' dom₂ is₂ (evenBinsNoFlow (s * low + δ) (s * step)))
    (hsame : ∀ c, dom c → dom₁ c ∧ dom₂ (same c) ∧ ∃ x, is₁ c x ∧ is₂ (same c) (s * x + δ)) : Coarser a num covers a' num covers' same dom id := by
  refine C84_same_numbers (φ := fun x => s * x + δ) ha ha' (fun i x hi => ?_) hsame
  have le : ∀ y, s * low + δ + y * (s * step) ≤ s * x + δ ↔ low + y * step ≤ x := fun y => by
    rw [show s * low + δ + y * (s * step) = s * (low + y * step) + δ by ring, add_le_add_iff_right, mul_le_mul_iff_right₀ hs]
  have lt : ∀ y, s * x + δ < s * low + δ + y * (s * step) ↔ x < low + y * step := fun y => by
    rw [← not_le, ← not_le, le]
  exact and_congr (le _) (lt _)

/-- **C84 (cyclic uniform axes).** -/
theorem C84_uniform_cyclic {num : Nat} {low step s δ : ℚ} (hs : 0 < s) (ha : BinsAre a num covers dom₁ is₁ (evenBinsTurns num low step))
    (ha' : BinsAre a' num covers' dom₂ is₂ (evenBinsTurns num (s * low + δ) (s * step)))
    (hsame : ∀ c, dom c → dom₁ c ∧ dom₂ (same c) ∧ ∃ x, is₁ c x ∧ is₂ (same c) (s * x + δ)) : Coarser a num covers a' num covers' same dom id := by
  refine C84_same_numbers (φ := fun x => s * x + δ) ha ha' (fun i x hi => ?_) hsame
  have le : ∀ y z, s * low + δ + y * (s * step) ≤ s * x + δ + z * (num * (s * step)) ↔ low + y * step ≤ x + z * (num * step) := fun y z => by
    rw [show s * low + δ + y * (s * step) = s * (low + y * step) + δ by ring, show s * x + δ + z * (num * (s * step)) = s * (x + z * (num * step)) + δ by ring, add_le_add_iff_right,
      mul_le_mul_iff_right₀ hs]
  have lt : ∀ y z, s * x + δ + z * (num * (s * step)) < s * low + δ + y * (s * step) ↔ x + z * (num * step) < low + y * step := fun y z => by
    rw [← not_le, ← not_le, le]
  exact exists_congr fun t => and_congr (le _ _) (lt _ _)
end

/-! ## Integer axes -/
section
variable [cfg : Cfg] {τ : IntTy}

/-- **C84 (integers).** The bins of an integer axis. -/
theorem C84_int {num : Nat} {low step : MInt τ} {a : Uniform (MInt τ)} (hnew : Uniform.withStepSize num low step = .ok (.ok a))
    (hfit : Cfg.checked = false → (num : ℤ) * step.val ≤ τ.max ∧ low.val + num * step.val ≤ τ.max) (hnum : num + 2 < usizeSize) (hbin : (num : ℤ) * (num * step.val) ≤ τ.max) :
    BinsAre a (num + 2) (BinInterval.Covers (T := MInt τ)) (fun _ => True) MInt.Is (evenBins num low.val step.val) := by
  obtain ⟨-, -, hs, -⟩ := Uniform.withStepSize_ok hnew hfit
  refine ⟨C51_uniform_int hnew hfit hnum hbin, ?_⟩
  obtain ⟨-, b0, ⟨high, hhigh, blast⟩, bmid, -⟩ := C02_uniform_int_bins_partial hnew hfit hnum
  intro i b hi hb (c : MInt τ) x _ hx
  obtain rfl : (c.val : ℚ) = x := hx
  have hb : a.bin i = .ok (some b) := hb
  rcases Nat.eq_zero_or_pos i with rfl | hpos
  · rw [b0] at hb
    cases hb
    show @POrd.lt (MInt τ) _ c low = true ↔ (c.val : ℚ) < low.val
    rw [MInt.lt_iff, decide_eq_true_eq, Int.cast_lt]
  · obtain ⟨k, rfl⟩ : ∃ k, i = k + 1 := ⟨i - 1, by omega⟩
    by_cases hk : k = num
    · subst hk
      rw [blast] at hb
      cases hb
      show @POrd.le (MInt τ) _ high c = true ↔ _
      unfold evenBins
      rw [if_neg (by omega), if_pos rfl, MInt.le_iff, decide_eq_true_eq, hhigh, Set.mem_ofPred_eq, ← Int.cast_le (R := ℚ)]
      push_cast; rfl
    · have hk : k < num := by omega
      have hle : ((k : ℤ) + 1) * (num * step.val) ≤ τ.max := by
        refine le_trans (mul_le_mul_of_nonneg_right ?_ (by positivity)) hbin
        exact_mod_cast hk
      obtain ⟨s, e, h1, h2, h3⟩ := bmid k hk hle
      rw [h3] at hb
      cases hb
      show @POrd.le (MInt τ) _ s c = true ∧ @POrd.lt (MInt τ) _ c e = true ↔ _
      unfold evenBins
      rw [if_neg (by omega), if_neg (by omega), MInt.le_iff, decide_eq_true_eq, MInt.lt_iff, decide_eq_true_eq, h1, h2, Set.mem_ofPred_eq, ← Int.cast_le (R := ℚ), ← Int.cast_lt (R := ℚ)]
      push_cast; rfl

/-- removing the flow bins -/
theorem BinsAre.noflow {T : Type} [RNum T] {u : Uniform T} {covers : BinInterval T → T → Prop} {dom : T → Prop} {is : T → ℚ → Prop} {low step : ℚ}
    (h : BinsAre u (u.num + 2) covers dom is (evenBins u.num low step)) : BinsAre (UniformNoFlow.mk u) u.num covers dom is (evenBinsNoFlow low step) := by
  have hn : u.num + 2 < usizeSize := h.faithful.lawful.fits
  refine ⟨C51_uniform_noflow h.faithful, ?_⟩
  intro i b hi hb c x hc hx
  have hb : UniformNoFlow.bin ⟨u⟩ i = .ok (some b) := hb
  rw [(C07_noflow_bin u i (by omega) (by omega)).1 hi] at hb
  rw [h.contains (i + 1) b (by omega) hb c x hc hx]
  unfold evenBins evenBinsNoFlow
  rw [if_neg (by omega), if_neg (by omega), Nat.add_sub_cancel]
  push_cast; rfl

/-- **C84 (integers, no flow bins).** -/
theorem C84_int_noflow {num : Nat} {low step : MInt τ} {a : UniformNoFlow (MInt τ)} (hnew : UniformNoFlow.withStepSize num low step = .ok (.ok a))
    (hfit : Cfg.checked = false → (num : ℤ) * step.val ≤ τ.max ∧ low.val + num * step.val ≤ τ.max) (hnum : num + 2 < usizeSize) (hbin : (num : ℤ) * (num * step.val) ≤ τ.max) :
    BinsAre a num (BinInterval.Covers (T := MInt τ)) (fun _ => True) MInt.Is (evenBinsNoFlow low.val step.val) := by
  have hu := UniformNoFlow.withStepSize_inv hnew
  obtain ⟨-, -, -, -, en, -⟩ := Uniform.withStepSize_ok hu hfit
  obtain ⟨u⟩ := a
  have h := C84_int hu hfit hnum hbin
  change u.num = num at en
  subst en
  exact h.noflow

/-- **C84 (integers, cyclic).** -/
theorem C84_int_cyclic {num : Nat} {low step : MInt τ} {a : UniformCyclic (MInt τ)} (hnew : UniformCyclic.withStepSize num low step = .ok (.ok a))
    (hfit : Cfg.checked = false → (num : ℤ) * step.val ≤ τ.max ∧ low.val + num * step.val ≤ τ.max) (hnum : num + 2 < usizeSize) (hbin : (num : ℤ) * (num * step.val) ≤ τ.max) :
    BinsAre a num (BinInterval.CoversTurns (τ := τ) (num * step.val)) (fun c : MInt τ => τ.min ≤ c.val - low.val ∧ c.val - low.val ≤ τ.max) MInt.Is (evenBinsTurns num low.val step.val) := by
  refine ⟨C51_uniform_cyclic_int hnew hfit hnum hbin, ?_⟩
  have hu := UniformCyclic.withStepSize_inv hnew
  obtain ⟨-, -, hs, -, en, -⟩ := Uniform.withStepSize_ok hu hfit
  obtain ⟨⟨u⟩⟩ := a
  change u.num = num at en
  subst en
  obtain ⟨-, -, -, bmid, -⟩ := C02_uniform_int_bins_partial hu hfit hnum
  intro i b hi hb (c : MInt τ) x _ hx
  obtain rfl : (c.val : ℚ) = x := hx
  have hb : UniformNoFlow.bin ⟨u⟩ i = .ok (some b) := hb
  rw [(C07_noflow_bin u i (by omega) (by omega)).1 hi] at hb
  have hle : ((i : ℤ) + 1) * (u.num * step.val) ≤ τ.max := by
    refine le_trans (mul_le_mul_of_nonneg_right ?_ (by positivity)) hbin
    exact_mod_cast hi
  obtain ⟨s, e, h1, h2, h3⟩ := bmid i hi hle
  have h3 : u.bin (i + 1) = _ := h3
  rw [h3] at hb
  cases hb
  refine exists_congr fun t => ?_
  rw [h1, h2, ← Int.cast_le (R := ℚ), ← Int.cast_lt (R := ℚ)]
  push_cast; rfl
end

/-! ## Float axes on a grid -/
section
variable [cfg : Cfg] {F : FFmt} {e z : ℤ} {w : ℕ}

theorem Uniform.OnGrid.binsAre {a : Uniform (Flt F)} (h : a.OnGrid e z w) (hn : a.num + 2 < usizeSize) :
    BinsAre a (a.num + 2) BinInterval.Covers (GridCoord e a.low a.high) Flt.Is (evenBins a.num a.low.val (w * pow2 e)) := by
  refine ⟨h.faithful hn, ?_⟩
  have hbin := Uniform.bin_flt a (by omega)
  intro i b hi hb (c : Flt F) x _ hx
  obtain ⟨hc, rfl⟩ : c.isFin ∧ c.val = x := hx
  have hb : a.bin i = .ok (some b) := hb
  have he : ∀ k : ℕ, a.low.val + k * (w * pow2 e) = (z + k * w) * pow2 e := fun k => by rw [h.low_val]; ring
  rcases Nat.eq_zero_or_pos i with rfl | hpos
  · rw [hbin, if_pos rfl] at hb
    cases hb
    show POrd.lt c a.low = true ↔ c.val < a.low.val
    rw [Flt.lt_fin hc h.low_fin, decide_eq_true_eq]
  · obtain ⟨k, rfl⟩ : ∃ k, i = k + 1 := ⟨i - 1, by omega⟩
    by_cases hk : k = a.num
    · rw [hbin, if_neg (by omega), if_pos (by omega)] at hb
      cases hb
      show POrd.le a.high c = true ↔ _
      unfold evenBins
      rw [if_neg (by omega), if_pos (by omega), Flt.le_fin h.high_fin hc, decide_eq_true_eq, Set.mem_ofPred_eq, he, h.high_val]
    · have hk : k < a.num := by omega
      rw [hbin, if_neg (by omega), if_neg (by omega), if_neg (by omega)] at hb
      cases hb
      obtain ⟨f1, g1⟩ := h.edge (k := k) (by omega)
      obtain ⟨f2, g2⟩ := h.edge (k := k + 1) (by omega)
      show POrd.le (a.fedge (k + 1 - 1)) c = true ∧ POrd.lt c (a.fedge (k + 1)) = true ↔ _
      unfold evenBins
      rw [if_neg (by omega), if_neg (by omega), Nat.add_sub_cancel, Flt.le_fin f1 hc, decide_eq_true_eq, Flt.lt_fin hc f2, decide_eq_true_eq, Set.mem_ofPred_eq, he, he, g1, g2]

/-- **C84 (floats).** The bins of a float axis on a grid (as for C76), built by either constructor. -/
theorem C84_float {num : ℕ} {low : Flt F} {a : Uniform (Flt F)} (hg : GridFits F e z w num) (hl : low.isFin) (hl0 : low.val = z * pow2 e) (hn : num + 2 < usizeSize)
    (hnew : (∃ high : Flt F, high.isFin ∧ high.val = (z + num * w) * pow2 e ∧ Uniform.new num low high = .ok (.ok a)) ∨
      ∃ step : Flt F, step.isFin ∧ step.val = w * pow2 e ∧ Uniform.withStepSize num low step = .ok (.ok a)) :
    BinsAre a (num + 2) BinInterval.Covers (GridCoord e low a.high) Flt.Is (evenBins num low.val (w * pow2 e)) := by
  obtain ⟨h, hnum, hlow⟩ : a.OnGrid e z w ∧ a.num = num ∧ a.low = low := by
    rcases hnew with ⟨high, hh, hh0, hnew⟩ | ⟨step, hs, hs0, hnew⟩
    · obtain ⟨h, h1, h2, -⟩ := Uniform.grid_new hg hl hl0 hh hh0 hnew
      exact ⟨h, h1, h2⟩
    · exact Uniform.grid_step hg hl hl0 hs hs0 hnew
  subst hnum hlow
  exact h.binsAre hn

/-- **C84 (floats, no flow bins).** -/
theorem C84_float_noflow {num : ℕ} {low : Flt F} {a : UniformNoFlow (Flt F)} (hg : GridFits F e z w num) (hl : low.isFin) (hl0 : low.val = z * pow2 e) (hn : num + 2 < usizeSize)
    (hnew : (∃ high : Flt F, high.isFin ∧ high.val = (z + num * w) * pow2 e ∧ UniformNoFlow.new num low high = .ok (.ok a)) ∨
      ∃ step : Flt F, step.isFin ∧ step.val = w * pow2 e ∧ UniformNoFlow.withStepSize num low step = .ok (.ok a)) :
    BinsAre a num BinInterval.Covers (GridCoord e low a.high) Flt.Is (evenBinsNoFlow low.val (w * pow2 e)) := by
  obtain ⟨h, hnum, hlow⟩ : a.axis.OnGrid e z w ∧ a.axis.num = num ∧ a.axis.low = low := by
    rcases hnew with ⟨high, hh, hh0, hnew⟩ | ⟨step, hs, hs0, hnew⟩
    · obtain ⟨h, h1, h2, -⟩ := Uniform.grid_new hg hl hl0 hh hh0 (UniformNoFlow.new_inv hnew)
      exact ⟨h, h1, h2⟩
    · exact Uniform.grid_step hg hl hl0 hs hs0 (UniformNoFlow.withStepSize_inv hnew)
  subst hnum hlow
  exact (h.binsAre hn).noflow

/-- **C84 (floats, cyclic).** -/
theorem C84_float_cyclic {num : ℕ} {low : Flt F} {a : UniformCyclic (Flt F)} (hg : GridFits F e z w num) (hl : low.isFin) (hl0 : low.val = z * pow2 e) (hn : num + 2 < usizeSize)
    (hnew : (∃ high : Flt F, high.isFin ∧ high.val = (z + num * w) * pow2 e ∧ UniformCyclic.new num low high = .ok (.ok a)) ∨
      ∃ step : Flt F, step.isFin ∧ step.val = w * pow2 e ∧ UniformCyclic.withStepSize num low step = .ok (.ok a)) :
    BinsAre a num (BinInterval.CoversTurnsF (num * (w * pow2 e))) (GridTurns e low) Flt.Is (evenBinsTurns num low.val (w * pow2 e)) := by
  refine ⟨(C76_uniform_cyclic hg hl hl0 hn hnew).1, ?_⟩
  obtain ⟨h, hnum, hlow⟩ : a.axis.axis.OnGrid e z w ∧ a.axis.axis.num = num ∧ a.axis.axis.low = low := by
    rcases hnew with ⟨high, hh, hh0, hnew⟩ | ⟨step, hs, hs0, hnew⟩
    · obtain ⟨h, h1, h2, -⟩ := Uniform.grid_new hg hl hl0 hh hh0 (UniformCyclic.new_inv hnew)
      exact ⟨h, h1, h2⟩
    · exact Uniform.grid_step hg hl hl0 hs hs0 (UniformCyclic.withStepSize_inv hnew)
  subst hnum hlow
  obtain ⟨⟨u⟩⟩ := a
  have h : u.OnGrid e z w := h
  intro i b hi hb (c : Flt F) x _ hx
  obtain ⟨hc, rfl⟩ : c.isFin ∧ c.val = x := hx
  change i < u.num at hi
  change u.num + 2 < usizeSize at hn
  have hb : UniformNoFlow.bin ⟨u⟩ i = .ok (some b) := hb
  rw [(C07_noflow_bin u i (by omega) (by omega)).1 hi, Uniform.bin_flt u (by omega), if_neg (by omega), if_neg (by omega), if_neg (by omega)] at hb
  cases hb
  obtain ⟨f1, g1⟩ := h.edge (k := i) (by omega)
  obtain ⟨f2, g2⟩ := h.edge (k := i + 1) (by omega)
  have he : ∀ k : ℚ, u.low.val + k * (w * pow2 e) = (z + k * w) * pow2 e := fun k => by rw [h.low_val]; ring
  refine exists_congr fun t => ?_
  rw [Nat.add_sub_cancel, g1, g2]
  show _ ↔ u.low.val + i * (w * pow2 e) ≤ c.val + t * (u.num * (w * pow2 e)) ∧ c.val + t * (u.num * (w * pow2 e)) < u.low.val + (i + 1) * (w * pow2 e)
  rw [he, he]
  push_cast; rfl

/-- **C84 (`as f64`).** If every value of an integer type is a float (as all 32-bit integers are `f64`s), then converting `low`, `step` and all coordinates of an integer axis changes no bin number. -/
theorem C84_int_as_float {τ : IntTy} (hτ : ∀ c : MInt τ, |(c.val : ℚ)| ≤ 2 ^ F.p) (hq : F.qmin ≤ 0) (hp : (F.p : ℤ) ≤ F.emax) {num : Nat} {low step : MInt τ} {a : Uniform (MInt τ)}
    (hnew : Uniform.withStepSize num low step = .ok (.ok a)) (hfit : Cfg.checked = false → (num : ℤ) * step.val ≤ τ.max ∧ low.val + num * step.val ≤ τ.max) (hnum : num + 2 < usizeSize)
    (hbin : (num : ℤ) * (num * step.val) ≤ τ.max) {a' : Uniform (Flt F)} (hnew' : Uniform.withStepSize num (RFrom.conv low : Flt F) (RFrom.conv step) = .ok (.ok a')) :
    Coarser a (num + 2) (BinInterval.Covers (T := MInt τ)) a' (num + 2) BinInterval.Covers (fun c : MInt τ => (RFrom.conv c : Flt F)) (fun _ => True) id := by
  obtain ⟨hnum0, -, hs, ⟨hf1, hf2⟩, -⟩ := Uniform.withStepSize_ok hnew hfit
  obtain ⟨l1, l2⟩ := Flt.ofInt_spec (F := F) (hτ low)
  obtain ⟨s1, s2⟩ := Flt.ofInt_spec (F := F) (hτ step)
  obtain ⟨w, hw⟩ : ∃ w : ℕ, step.val = w := ⟨step.val.toNat, by omega⟩
  have mx : (τ.max : ℚ) ≤ 2 ^ F.p := by
    have := hτ ⟨τ.max, (low.min_le.trans low.le_max), le_refl _⟩
    exact (le_abs_self _).trans this
  have mx' : τ.max ≤ 2 ^ F.p := by exact_mod_cast mx
  have hg : GridFits F 0 low.val w num := by
    refine ⟨hq, by omega, hnum0, by omega, by exact_mod_cast hτ low, ?_, ?_⟩
    · have hmin := low.min_le
      have := hτ ⟨low.val + num * step.val, by have : 0 ≤ (num : ℤ) * step.val := by positivity
                                               omega, hf2⟩
      have this : |((low.val + num * step.val : ℤ) : ℚ)| ≤ 2 ^ F.p := this
      rw [hw] at this
      exact_mod_cast this
    · rw [hw] at hbin
      exact_mod_cast hbin.trans mx'
  have hA := C84_int hnew hfit hnum hbin
  have hB := C84_float (low := (RFrom.conv low : Flt F)) hg l1 (by rw [pow2_zero, mul_one]; exact l2) hnum (.inr ⟨_, s1, by rw [pow2_zero, mul_one]; exact s2.trans (by rw [hw]; rfl), hnew'⟩)
  refine C84_uniform (s := 1) (δ := 0) one_pos hA (by
    have e1 : (RFrom.conv low : Flt F).val = 1 * (low.val : ℚ) + 0 := by rw [one_mul, add_zero]; exact l2
    have e2 : (w : ℚ) * pow2 0 = 1 * (step.val : ℚ) := by rw [pow2_zero, mul_one, one_mul, hw]; rfl
    rw [e1, e2] at hB
    exact hB) ?_
  intro (c : MInt τ) _
  obtain ⟨c1, c2⟩ := Flt.ofInt_spec (F := F) (hτ c)
  refine ⟨trivial, ⟨?_, fun _ _ => ⟨c.val, ?_⟩⟩, c.val, rfl, c1, ?_⟩
  · intro h
    have c1 : (RFrom.conv c : Flt F).isFin := c1
    rw [h] at c1; exact c1
  · exact c2.trans (by simp)
  · rw [one_mul, add_zero]; exact c2
end
end NdHist
