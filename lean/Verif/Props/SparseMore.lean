import Verif.Props.Ratio
import Verif.Props.Snapshots
import Verif.Props.WrapOps
/-!
# Sparse versions of theorems on weighted histograms (C73, C86, C94)
-/
namespace NdHist
open scoped Classical

section
variable [cfg : Cfg] {F : FFmt} {A : Type} [Axis A] [PEq A] {axes : A} {n : Nat} {covers : Axis.Interval A → Axis.Coordinate A → Prop} {dom : Axis.Coordinate A → Prop} {e : ℤ}

omit [PEq A] in
theorem numCalls_exists (b : Axis.Interval A) (l : List (Axis.Coordinate A × Option (Flt F))) : (∃ call ∈ numCalls l, covers b call.coord) ↔ ∃ cw ∈ l, covers b cw.1 := by
  constructor
  · rintro ⟨call, hc, hb⟩
    obtain ⟨⟨c, _ | w⟩, h1, rfl⟩ := List.mem_map.1 hc <;> exact ⟨_, h1, hb⟩
  · rintro ⟨⟨c, _ | w⟩, h1, hb⟩
    exacts [⟨.fill c, List.mem_map.2 ⟨_, h1, rfl⟩, hb⟩, ⟨.fillWith c w, List.mem_map.2 ⟨_, h1, rfl⟩, hb⟩]

omit [PEq A] in
/-- the bin of a sparse histogram after calls: missing exactly if no call belongs to the bin -/
theorem sparse_bin {V : Type} [RDefault V] (hf : FaithfulAxis axes n covers dom) (calls : List (Call V (Axis.Coordinate A))) (hd : ∀ call ∈ calls, dom call.coord) {i : Nat} {b : Axis.Interval A}
    (hi : i < n) (hb : Axis.bin axes i = .ok (some b)) :
    ((HashHistogram.new axes : HashHistogram A V).callAllCaught calls).valueAtIndex i =
      if calls.filter (fun call => covers b call.coord) = [] then none else some (filledWith (calls.filter fun call => covers b call.coord) RDefault.dflt) := by
  rw [C28_sparse axes calls i, callsIn_eq_covers hf hd hi hb]

/-- **C86 (weights, sparse).** For sparse histograms the same; the ratio has a value for exactly the bins in which something was counted (`part` is 0 where the histogram of the part has no bin). -/
theorem C86_weighted_sparse (hf : FaithfulAxis axes n covers dom) (hrefl : PEq.peq axes axes = true)
    (all passed : List (Axis.Coordinate A × Option (Flt F))) (hsub : passed.Sublist all) (hd : ∀ cw ∈ all, dom cw.1)
    (hw : ∀ cw ∈ all, ∀ w, cw.2 = some w → POrd.ge w (Flt.zero false) = true) :
    ∃ t p, (HashHistogram.new axes : HashHistogram A (Flt F)).callAll (numCalls all) = (t, none) ∧ (HashHistogram.new axes).callAll (numCalls passed) = (p, none) ∧
      ∀ ko : HashHistogram.KeyOrder p t, ∃ m, p.opBorrow .div t ko = .ok (.ok m) ∧ ∀ o : m.values.Order, ∃ items, m.iter o = .ok items ∧ (items.map (·.index)).Nodup ∧
        (∀ it ∈ items, it.index < n ∧ Axis.bin axes it.index = .ok (some it.bin) ∧ (∃ cw ∈ all, covers it.bin cw.1) ∧
          ∃ part whole, (p.valueAtIndex it.index = some part ∨ p.valueAtIndex it.index = none ∧ part = Flt.zero false) ∧ t.valueAtIndex it.index = some whole ∧
            POrd.ge part (Flt.zero false) = true ∧ POrd.ge whole part = true ∧
            (it.value = .nan ↔ (whole.isFin ∧ whole.val = 0) ∨ part = .inf false) ∧ (it.value ≠ .nan → it.value.isFin ∧ 0 ≤ it.value.val ∧ it.value.val ≤ 1)) ∧
        ∀ i b, i < n → Axis.bin axes i = .ok (some b) → (∃ cw ∈ all, covers b cw.1) → ∃ it ∈ items, it.index = i ∧ it.bin = b := by
  have hd1 := numCalls_dom (hist := passed) (p := dom) (fun c hc => hd c (hsub.subset hc))
  have hd2 := numCalls_dom (hist := all) (p := dom) hd
  have ex : ∀ b : Axis.Interval A, (∃ call ∈ numCalls passed ++ numCalls all, covers b call.coord) ↔ ∃ cw ∈ all, covers b cw.1 := by
    intro b
    constructor
    · rintro ⟨call, hc, hb⟩
      rcases List.mem_append.1 hc with hc | hc
      · obtain ⟨cw, h1, h2⟩ := (numCalls_exists b passed).1 ⟨call, hc, hb⟩
        exact ⟨cw, hsub.subset h1, h2⟩
      · exact (numCalls_exists b all).1 ⟨call, hc, hb⟩
    · intro h
      obtain ⟨call, h1, h2⟩ := (numCalls_exists b all).2 h
      exact ⟨call, List.mem_append_right _ h1, h2⟩
  refine ⟨_, _, callAll_total_sparse hf hd2 numCalls_total, callAll_total_sparse hf hd1 numCalls_total, fun ko => ?_⟩
  obtain ⟨m, m1, m2⟩ := op_filled_sparse hf hrefl .div (numCalls passed) (numCalls all) hd1 hd2 (fun _ _ _ _ _ => ⟨_, rfl⟩) ko
  refine ⟨m, m1, fun o => ?_⟩
  obtain ⟨items, i1, i2, i3, i4⟩ := m2 o
  refine ⟨items, i1, i2, ?_, fun i b hi hb hc => i4 i b hi hb ((ex b).2 hc)⟩
  intro it hit
  obtain ⟨k1, k2, k3, k4⟩ := i3 it hit
  have k3' := (ex _).1 k3
  refine ⟨k1, k2, k3', filledWith ((numCalls passed).filter fun call => covers it.bin call.coord) RDefault.dflt,
    filledWith ((numCalls all).filter fun call => covers it.bin call.coord) RDefault.dflt, ?_, ?_, ?_⟩
  · rw [sparse_bin hf _ hd1 k1 k2]
    split
    · rename_i hnil
      exact .inr ⟨rfl, by rw [hnil]; rfl⟩
    · exact .inl rfl
  · rw [sparse_bin hf _ hd2 k1 k2, if_neg]
    intro hnil
    obtain ⟨call, h1, h2⟩ := (numCalls_exists it.bin all).2 k3'
    have := List.filter_eq_nil_iff.1 hnil call h1
    exact this (by simpa using h2)
  · have e := Except.ok.inj k4
    rw [← e]
    rw [numCalls_coord _ (fun c => decide (covers it.bin c)), numCalls_coord _ (fun c => decide (covers it.bin c)), filledWith_flt, filledWith_flt]
    have h0 : POrd.ge (RDefault.dflt : Flt F) (Flt.zero false) = true := Flt.ge_zero_of_fin (x := Flt.zero false) trivial le_rfl
    have hs := hsub.filter fun cw => decide (covers it.bin cw.1)
    have g1 := (foldl_ge (passed.filter fun cw => decide (covers it.bin cw.1)) (fun cw hc => hw cw (hsub.subset (List.mem_of_mem_filter hc))) h0).2
    have g2 := foldl_sublist_ge hs (fun cw hc => hw cw (List.mem_of_mem_filter hc)) h0 h0
    exact ⟨g1, g2, ratio_part g1 g2⟩

/-- **C94 (snapshots of sparse float histograms).** As `C94_float`; the difference has exactly the bins filled before or after the snapshot. -/
theorem C94_float_sparse (he : F.qmin ≤ e ∧ e + F.p ≤ F.emax) (hf : FaithfulAxis axes n covers dom) (hrefl : PEq.peq axes axes = true)
    (hist₁ hist₂ : List (Axis.Coordinate A × Option (Flt F))) (hd : ∀ cw ∈ hist₁ ++ hist₂, dom cw.1) (hfin : ∀ cw ∈ hist₁ ++ hist₂, ∀ w, cw.2 = some w → w.isFin)
    (hg : ∀ cw ∈ hist₁ ++ hist₂, OnGrid e (fltWeight cw)) :
    ∃ s t, (HashHistogram.new axes : HashHistogram A (Flt F)).callAll (numCalls hist₁) = (s, none) ∧ s.callAll (numCalls hist₂) = (t, none) ∧
      ∀ ko : HashHistogram.KeyOrder t s, ∃ m, t.opBorrow .sub s ko = .ok (.ok m) ∧ ∀ o : m.values.Order, ∃ items, m.iter o = .ok items ∧ (items.map (·.index)).Nodup ∧
        (∀ it ∈ items, it.index < n ∧ Axis.bin axes it.index = .ok (some it.bin) ∧ (∃ cw ∈ hist₁ ++ hist₂, covers it.bin cw.1) ∧
          (fltAbsIn covers it.bin (hist₁ ++ hist₂) ≤ (2 : ℚ) ^ (e + F.p) → it.value.isFin ∧ it.value.val = fltTotalIn covers it.bin hist₂)) ∧
        ∀ i b, i < n → Axis.bin axes i = .ok (some b) → (∃ cw ∈ hist₁ ++ hist₂, covers b cw.1) → ∃ it ∈ items, it.index = i ∧ it.bin = b := by
  have sub1 : ∀ cw ∈ hist₁, cw ∈ hist₁ ++ hist₂ := fun cw h => List.mem_append.2 (.inl h)
  have hd1 := numCalls_dom (hist := hist₁) (p := dom) (fun c hc => hd c (sub1 c hc))
  have hd2 := numCalls_dom (hist := hist₁ ++ hist₂) (p := dom) hd
  have e12 : numCalls (hist₁ ++ hist₂) = numCalls hist₁ ++ numCalls hist₂ := List.map_append ..
  have ex : ∀ b : Axis.Interval A, (∃ call ∈ numCalls (hist₁ ++ hist₂) ++ numCalls hist₁, covers b call.coord) ↔ ∃ cw ∈ hist₁ ++ hist₂, covers b cw.1 := by
    intro b
    constructor
    · rintro ⟨call, hc, hb⟩
      rcases List.mem_append.1 hc with hc | hc
      · exact (numCalls_exists b _).1 ⟨call, hc, hb⟩
      · obtain ⟨cw, h1, h2⟩ := (numCalls_exists b hist₁).1 ⟨call, hc, hb⟩
        exact ⟨cw, sub1 cw h1, h2⟩
    · intro h
      obtain ⟨call, h1, h2⟩ := (numCalls_exists b _).2 h
      exact ⟨call, List.mem_append_left _ h1, h2⟩
  have rs := callAll_total_sparse (V := Flt F) hf hd1 numCalls_total
  have rt := callAll_total_sparse (V := Flt F) hf hd2 numCalls_total
  have rt' := rt
  rw [e12, HashHistogram.callAll_append, rs] at rt'
  rw [← e12] at rt'
  refine ⟨_, _, rs, rt', fun ko => ?_⟩
  obtain ⟨m, m1, m2⟩ := op_filled_sparse hf hrefl .sub (numCalls (hist₁ ++ hist₂)) (numCalls hist₁) hd2 hd1 (fun _ _ _ _ _ => ⟨_, rfl⟩) ko
  refine ⟨m, m1, fun o => ?_⟩
  obtain ⟨items, i1, i2, i3, i4⟩ := m2 o
  refine ⟨items, i1, i2, ?_, fun i b hi hb hc => i4 i b hi hb ((ex b).2 hc)⟩
  intro it hit
  obtain ⟨k1, k2, k3, k4⟩ := i3 it hit
  refine ⟨k1, k2, (ex _).1 k3, fun hr => ?_⟩
  set b := it.bin with hb
  have e1 : fltTotalIn covers b (hist₁ ++ hist₂) = fltTotalIn covers b hist₁ + fltTotalIn covers b hist₂ := by
    simp only [fltTotalIn, List.filter_append, List.map_append, List.sum_append]
  have e2 : fltAbsIn covers b (hist₁ ++ hist₂) = fltAbsIn covers b hist₁ + fltAbsIn covers b hist₂ := by
    simp only [fltAbsIn, List.filter_append, List.map_append, List.sum_append]
  have nn : ∀ q : List (Axis.Coordinate A × Option (Flt F)), 0 ≤ fltAbsIn covers b q := fun q => sum_nonneg' _ _ (fun _ _ => abs_nonneg _)
  have le : ∀ q : List (Axis.Coordinate A × Option (Flt F)), |fltTotalIn covers b q| ≤ fltAbsIn covers b q := fun q => abs_sum_le_sum_abs' _ _
  obtain ⟨f1, v1⟩ := grid_bin he.1 he.2 ((hist₁ ++ hist₂).filter fun cw => decide (covers b cw.1)) (fun cw hc => hfin cw (List.mem_of_mem_filter hc))
    (fun cw hc => hg cw (List.mem_of_mem_filter hc)) hr
  obtain ⟨f2, v2⟩ := grid_bin he.1 he.2 (hist₁.filter fun cw => decide (covers b cw.1)) (fun cw hc => hfin cw (sub1 _ (List.mem_of_mem_filter hc)))
    (fun cw hc => hg cw (sub1 _ (List.mem_of_mem_filter hc))) (by show fltAbsIn covers b hist₁ ≤ _; linarith [nn hist₂])
  have hv := (Except.ok.inj k4).symm
  rw [numCalls_coord _ (fun c => decide (covers b c)), numCalls_coord _ (fun c => decide (covers b c))] at hv
  have v1 : (filledWith (numCalls ((hist₁ ++ hist₂).filter fun cw => decide (covers b cw.1))) (RDefault.dflt : Flt F)).val = fltTotalIn covers b (hist₁ ++ hist₂) := v1
  have v2 : (filledWith (numCalls (hist₁.filter fun cw => decide (covers b cw.1))) (RDefault.dflt : Flt F)).val = fltTotalIn covers b hist₁ := v2
  have ed := congrArg₂ (· - ·) v1 v2
  simp only [e1, add_sub_cancel_left] at ed
  have := Flt.sub_grid he.1 he.2 f1 f2 (e := e) (by rw [ed]; exact OnGrid.sum fun cw hc => hg cw (List.mem_append.2 (.inr (List.mem_of_mem_filter hc))))
    (by rw [ed]; linarith [le hist₂, nn hist₁])
  rw [ed] at this
  rw [hv]
  exact this
end

section
variable [cfg : Cfg] {T : Type} [RNum T] {val : T → ℤ} {N : ℤ} {A : Type} [Axis A] {axes : A} {n : Nat} {covers : Axis.Interval A → Axis.Coordinate A → Prop} {dom : Axis.Coordinate A → Prop}

/-- **C73 (modular weighted sums, sparse).** The same for sparse histograms; a bin is present exactly if one of the coordinates is in it. -/
theorem C73_modulo_weighted_sum_sparse (hT : RingModulo val N) (hf : FaithfulAxis axes n covers dom) (hist : List (Axis.Coordinate A × Option T)) (hd : ∀ cw ∈ hist, dom cw.1) :
    ∃ h', (HashHistogram.new axes : HashHistogram A (WeightedSum T)).callAll (weightedSumCalls hist) = (h', none) ∧ ∀ o : h'.values.Order, ∃ items, h'.iter o = .ok items ∧
      (items.map (·.index)).Nodup ∧
      (∀ it ∈ items, Axis.bin axes it.index = .ok (some it.bin) ∧ (∃ cw ∈ hist, covers it.bin cw.1) ∧ val it.value.get ≡ totalIn val covers it.bin hist [ZMOD N] ∧
        val it.value.variance ≡ ((hist.filter fun cw => covers it.bin cw.1).map fun cw => weightOf val cw ^ 2).sum [ZMOD N]) ∧
      ∀ i b, i < n → Axis.bin axes i = .ok (some b) → (∃ cw ∈ hist, covers b cw.1) → ∃ it ∈ items, it.index = i ∧ it.bin = b := by
  have hd' : ∀ call ∈ weightedSumCalls hist, dom call.coord := by
    intro call hc
    obtain ⟨⟨c, _ | w⟩, h1, rfl⟩ := List.mem_map.1 hc <;> exact hd _ h1
  refine ⟨_, callAll_total_sparse hf hd' (hT.ws_total hist), fun o => ?_⟩
  obtain ⟨items, hit, hnd, hall, hex⟩ := C51_sparse hf _ hd' o
  refine ⟨items, hit, hnd, ?_, ?_⟩
  · intro it hi
    obtain ⟨-, h2, hc, h3⟩ := hall it hi
    refine ⟨h2, ?_, ?_⟩
    · obtain ⟨call, c1, c2⟩ := hc
      obtain ⟨⟨c, _ | w⟩, h1, rfl⟩ := List.mem_map.1 c1 <;> exact ⟨_, h1, c2⟩
    · rw [weightedSumCalls_coord hist (fun c => decide (covers it.bin c))] at h3
      rw [h3]
      obtain ⟨j1, j2⟩ := hT.ws_filled (hist.filter fun cw => decide (covers it.bin cw.1)) RDefault.dflt
      have z1 : val (RDefault.dflt : WeightedSum T).sumw = 0 := hT.zero
      have z2 : val (RDefault.dflt : WeightedSum T).sumw2 = 0 := hT.zero
      rw [z1, zero_add] at j1
      rw [z2, zero_add] at j2
      exact ⟨j1, j2⟩
  · rintro i b hi hb ⟨cw, hcw, hc⟩
    refine hex i b hi hb ?_
    obtain ⟨c, w⟩ := cw
    refine ⟨_, List.mem_map.2 ⟨(c, w), hcw, rfl⟩, ?_⟩
    cases w <;> exact hc
end
end NdHist
