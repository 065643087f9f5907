import Verif.Props.ReduceFill
/-!
# C80, continued: the parallel total of a histogram of integers filled with weights
-/
namespace NdHist
open RNum
set_option linter.unusedSectionVars false

section
variable [cfg : Cfg] {A : Type} [Axis A] {axes : A} {n : Nat} {covers : Axis.Interval A → Axis.Coordinate A → Prop} {dom : Axis.Coordinate A → Prop} {τ : IntTy}

open Classical in
theorem callsCovered_num {T : Type} [RNum T] [RDefault T] (hf : FaithfulAxis axes n covers dom) (hist : List (Axis.Coordinate A × Option T)) (hd : ∀ cw ∈ hist, dom cw.1) :
    callsCovered axes (numCalls hist) = numCalls (hist.filter fun cw => InSomeBin axes n covers cw.1) := by
  unfold callsCovered
  rw [numCalls_eq, numCalls_eq, List.filter_map]
  refine congrArg (List.map _) (List.filter_congr fun cw hm => ?_)
  have hdc := hd cw hm
  simp only [Function.comp, numCall_coord]
  have key : InSomeBin axes n covers cw.1 ↔ ∃ i, Axis.index axes cw.1 = .ok (some i) := by
    constructor
    · rintro ⟨i, b, h1, h2, h3⟩
      exact ⟨i, (hf.index_iff _ hdc i b h1 h2).2 h3⟩
    · rintro ⟨i, hi⟩
      have hin := hf.lawful.index_lt _ _ hi
      obtain ⟨b, hb⟩ := hf.lawful.bin_some i hin
      exact ⟨i, b, hin, hb, (hf.index_iff _ hdc i b hin hb).1 hi⟩
  rw [eq_comm]
  split
  · next i hi => rw [eq_comm]; simpa using key.2 ⟨i, hi⟩
  · next hne => simpa using fun h => by obtain ⟨i, hi⟩ := key.1 h; exact hne i hi

open Classical in
theorem weight_values (hc : Cfg.checked = true) (hf : FaithfulAxis axes n covers dom) {h h' : VecHistogram A (MInt τ)} (hnew : VecHistogram.new axes = .ok h)
    {hist : List (Axis.Coordinate A × Option (MInt τ))} (hd : ∀ cw ∈ hist, dom cw.1) (hr : h.callAll (numCalls hist) = (h', none)) :
    (h'.values.map MInt.val).sum = ((hist.filter fun cw => InSomeBin axes n covers cw.1).map (weightOf MInt.val)).sum ∧
    ((∀ cw ∈ hist, 0 ≤ weightOf MInt.val cw) → ∀ v ∈ h'.values, 0 ≤ v.val) := by
  constructor
  · have := C30_conservation MInt.val callWeight (calls := numCalls hist) (fun call hm => (callWeight_adds hc hist call hm).on) rfl hf.lawful hnew hr
    rw [this, callsCovered_num hf hist hd, callWeight_numCalls]
  · intro h0 v hv
    obtain ⟨h₁, p, pre, items, d1, d2, d3, d4, d5, d6, d7⟩ := C73_checked hc hf hnew _ hd
    rw [hr] at d1
    obtain ⟨rfl, rfl⟩ := Prod.mk.inj d1
    obtain ⟨-, rfl⟩ | ⟨hp, -⟩ := d7
    · have hok : h'.Ok n := by
        have := VecHistogram.callAll_ok (h := h) (calls := numCalls pre) (by rw [hr])
        rw [hr] at this
        rw [show h' = _ from this]
        exact (C28_dense hf.lawful hnew (numCalls pre)).1
      obtain ⟨items', i1, -, -, i4⟩ := C38_iter hok
      rw [d3] at i1
      obtain rfl := Except.ok.inj i1
      have hv' : v ∈ h'.valuesIter := hv
      rw [i4] at hv'
      obtain ⟨it, hit, rfl⟩ := List.mem_map.1 hv'
      obtain ⟨k, hk, rfl⟩ := List.getElem_of_mem hit
      rw [(d5 k _ (List.getElem?_eq_getElem hk)).2.2]
      unfold totalIn
      refine List.sum_nonneg fun x hx => ?_
      obtain ⟨cw, hcw, rfl⟩ := List.mem_map.1 hx
      exact h0 cw (List.mem_of_mem_filter hcw)
    · cases hp

open Classical in
/-- **C80 (totals of weights).** Fill a histogram of integers with weights, in a build with overflow checks, without a panic. However the work is divided, the parallel sum of all bins is the sum of the weights of the
coordinates that some bin contains, or an overflow panic; without negative weights it is an overflow panic exactly if that sum does not fit in the type. -/
theorem C80_weights (hc : Cfg.checked = true) (hf : FaithfulAxis axes n covers dom) {h h' : VecHistogram A (MInt τ)} (hnew : VecHistogram.new axes = .ok h)
    (hist : List (Axis.Coordinate A × Option (MInt τ))) (hd : ∀ cw ∈ hist, dom cw.1) (hr : h.callAll (numCalls hist) = (h', none)) (s : Split (MInt τ)) (hs : s.items = h'.parValues) :
    let total := ((hist.filter fun cw => InSomeBin axes n covers cw.1).map (weightOf MInt.val)).sum
    ((∃ v, s.sum = .ok v ∧ v.val = total) ∨ s.sum = .error .overflow) ∧
    ((∀ cw ∈ hist, 0 ≤ weightOf MInt.val cw) → (s.sum = .error .overflow ↔ τ.max < total)) := by
  obtain ⟨k1, k2⟩ := weight_values hc hf hnew hd hr
  obtain ⟨c1, c2⟩ := C80_checked_sum hc s
  have e : (s.items.map MInt.val).sum = ((hist.filter fun cw => InSomeBin axes n covers cw.1).map (weightOf MInt.val)).sum := by rw [hs]; exact k1
  rw [e] at c1 c2
  refine ⟨c1, fun h0 => ⟨fun hE => ?_, fun hlt => ?_⟩⟩
  · by_contra hle
    have nn : (0 : ℤ) ≤ ((hist.filter fun cw => InSomeBin axes n covers cw.1).map (weightOf MInt.val)).sum := by
      refine List.sum_nonneg fun x hx => ?_
      obtain ⟨cw, hcw, rfl⟩ := List.mem_map.1 hx
      exact h0 cw (List.mem_of_mem_filter hcw)
    obtain ⟨v, hv⟩ := c2 (.inl (by rw [hs]; exact k2 h0)) ⟨τ.min_le_zero.trans nn, not_lt.1 hle⟩
    rw [hE] at hv; cases hv
  · obtain ⟨w, w1, w2⟩ | h1 := c1
    · have := w.le_max; omega
    · exact h1

open Classical in
/-- **C80 (totals of weights, sparse).** The same for sparse histograms, whatever the order in which the map yields its entries. -/
theorem C80_weights_sparse (hc : Cfg.checked = true) (hf : FaithfulAxis axes n covers dom) {h' : HashHistogram A (MInt τ)}
    (hist : List (Axis.Coordinate A × Option (MInt τ))) (hd : ∀ cw ∈ hist, dom cw.1) (hr : (HashHistogram.new axes : HashHistogram A (MInt τ)).callAll (numCalls hist) = (h', none))
    (o : h'.values.Order) (s : Split (MInt τ)) (hs : s.items = h'.parValues o) :
    let total := ((hist.filter fun cw => InSomeBin axes n covers cw.1).map (weightOf MInt.val)).sum
    ((∃ v, s.sum = .ok v ∧ v.val = total) ∨ s.sum = .error .overflow) ∧
    ((∀ cw ∈ hist, 0 ≤ weightOf MInt.val cw) → (s.sum = .error .overflow ↔ τ.max < total)) := by
  obtain ⟨d, hnew, -⟩ := C26_new (V := MInt τ) hf.lawful
  obtain ⟨same, hp⟩ := (SameFilled.new hf.lawful hnew).callAll (numCalls hist)
  rw [hr] at same hp
  obtain ⟨k1, k2⟩ := weight_values hc hf hnew hd (Prod.ext rfl hp.symm : d.callAll (numCalls hist) = (_, none))
  have hsum := same.sum MInt.val rfl o
  obtain ⟨c1, c2⟩ := C80_checked_sum hc s
  have e : (s.items.map MInt.val).sum = ((hist.filter fun cw => InSomeBin axes n covers cw.1).map (weightOf MInt.val)).sum := by rw [hs, ← k1]; exact hsum
  rw [e] at c1 c2
  refine ⟨c1, fun h0 => ⟨fun hE => ?_, fun hlt => ?_⟩⟩
  · by_contra hle
    have nn : (0 : ℤ) ≤ ((hist.filter fun cw => InSomeBin axes n covers cw.1).map (weightOf MInt.val)).sum := by
      refine List.sum_nonneg fun x hx => ?_
      obtain ⟨cw, hcw, rfl⟩ := List.mem_map.1 hx
      exact h0 cw (List.mem_of_mem_filter hcw)
    have nv : ∀ v ∈ s.items, 0 ≤ v.val := by
      rw [hs]
      intro v hv
      obtain ⟨kv, hkv, rfl⟩ := List.mem_map.1 hv
      have h1 : h'.valueAtIndex kv.1 = some kv.2 := (HMap.mem_entries_iff same.oks.nodup _ _).1 (o.perm.mem_iff.1 hkv)
      have hi : kv.1 < n := same.oks.valid _ (List.mem_map.2 ⟨kv, o.perm.mem_iff.1 hkv, rfl⟩)
      have := same.val _ hi
      rw [h1] at this
      exact k2 h0 _ (List.mem_of_getElem? this)
    obtain ⟨v, hv⟩ := c2 (.inl nv) ⟨τ.min_le_zero.trans nn, not_lt.1 hle⟩
    rw [hE] at hv; cases hv
  · obtain ⟨w, w1, w2⟩ | h1 := c1
    · have := w.le_max; omega
    · exact h1
end
end NdHist
