import Verif.Props.FloatSqrt
/-!
# C79: a bad weight spoils the bin it is counted in, and no other

C57 and C58 assume that all weights of a histogram are finite and that no bin can overflow. Here nothing is assumed: every bin is described by the weights that
went into it, however bad the others were.
-/
namespace NdHist
open RNum

section
variable {F : FFmt}

/-! ## Vocabulary -/

/-- `v` is what a float sum of the weights `ws` can be: NaN if one of them is; the infinity, or NaN, if one of them is infinite (so NaN if both infinities occur). And if
the finite ones cannot overflow (`Flt.val` of the others is 0) and none is NaN: the infinity if one of the infinities occurs and the other does not, and if all
are finite then `v` is so, and the exact sum up to `k` roundings in a row. -/
structure SumOf (k : Nat) (v : Flt F) (ws : List (Flt F)) : Prop where
  nan : .nan ∈ ws → v = .nan
  inf : ∀ s, .inf s ∈ ws → v = .inf s ∨ v = .nan
  clash : .inf true ∈ ws → .inf false ∈ ws → v = .nan
  onlyInf : (1 + F.u) ^ k * (ws.map fun w => |w.val|).sum ≤ F.maxFin → .nan ∉ ws → ∀ s, .inf s ∈ ws → .inf (!s) ∉ ws → v = .inf s
  finite : (1 + F.u) ^ k * (ws.map fun w => |w.val|).sum ≤ F.maxFin → (∀ w ∈ ws, w.isFin) →
    v.isFin ∧ |v.val - (ws.map Flt.val).sum| ≤ ((1 + F.u) ^ k - 1) * (ws.map fun w => |w.val|).sum

/-! ## Sums -/

theorem SumOf.near {k : Nat} {v : Flt F} {ws : List (Flt F)} (h : SumOf k v ws) (hr : (1 + F.u) ^ k * (ws.map fun w => |w.val|).sum ≤ F.maxFin)
    (hf : ∀ w ∈ ws, w.isFin) : Near k v (ws.map Flt.val).sum (ws.map fun w => |w.val|).sum 0 := by
  obtain ⟨f, e⟩ := h.finite hr hf
  refine ⟨f, by simpa using e, ?_, le_rfl⟩
  clear e f hr h
  induction ws with
  | nil => simp
  | cons w ws ih =>
    simp only [List.map_cons, List.sum_cons]
    exact (abs_add_le _ _).trans (add_le_add le_rfl (ih fun w hw => hf w (List.mem_cons_of_mem _ hw)))

theorem SumOf.of_near {k : Nat} {v : Flt F} {ws : List (Flt F)} (hf : ∀ w ∈ ws, w.isFin)
    (h : (1 + F.u) ^ k * (ws.map fun w => |w.val|).sum ≤ F.maxFin → Near k v (ws.map Flt.val).sum (ws.map fun w => |w.val|).sum 0) : SumOf k v ws where
  nan h := (hf _ h).elim
  inf s h := (hf _ h).elim
  clash h := (hf _ h).elim
  onlyInf _ _ s h := (hf _ h).elim
  finite hr _ := ⟨(h hr).fin, by simpa using (h hr).err⟩

theorem Flt.nan_or_inf_or_fin (ws : List (Flt F)) : .nan ∈ ws ∨ (∃ s, .inf s ∈ ws) ∨ ∀ w ∈ ws, w.isFin := by
  by_cases h1 : Flt.nan ∈ ws
  · exact .inl h1
  by_cases h2 : ∃ s, Flt.inf s ∈ ws
  · exact .inr (.inl h2)
  refine .inr (.inr fun w hw => ?_)
  cases w with
  | nan => exact absurd hw h1
  | inf s => exact absurd ⟨s, hw⟩ h2
  | fin => trivial

theorem Flt.add_nan_left (w : Flt F) : Flt.add .nan w = .nan := by cases w <;> rfl
theorem Flt.add_nan_right (w : Flt F) : Flt.add w .nan = .nan := by cases w <;> rfl
theorem Flt.inf_add {w : Flt F} (s : Bool) (h : w.isFin) : Flt.add (.inf s) w = .inf s := by
  cases w with
  | nan => exact h.elim
  | inf => exact h.elim
  | fin => rfl
theorem Flt.add_inf {w : Flt F} (s : Bool) (h : w.isFin) : Flt.add w (.inf s) = .inf s := by
  cases w with
  | nan => exact h.elim
  | inf => exact h.elim
  | fin => rfl
theorem Flt.inf_add_cases (s : Bool) (w : Flt F) : Flt.add (.inf s) w = .inf s ∨ Flt.add (.inf s) w = .nan := by
  cases w with
  | nan => exact .inr rfl
  | inf t => simp only [Flt.add]; split <;> simp
  | fin => exact .inl rfl
theorem Flt.add_inf_cases (s : Bool) (w : Flt F) : Flt.add w (.inf s) = .inf s ∨ Flt.add w (.inf s) = .nan := by
  cases w with
  | nan => exact .inr rfl
  | inf t => simp only [Flt.add]; split <;> simp_all
  | fin => exact .inl rfl

theorem SumOf.exact (w : Flt F) : SumOf 0 w [w] := by
  rcases Flt.nan_or_inf_or_fin [w] with h | ⟨s, h⟩ | h
  · obtain rfl := List.mem_singleton.1 h
    exact ⟨fun _ => rfl, by simp, by simp, by simp, fun _ h => (h .nan (by simp)).elim⟩
  · obtain rfl := List.mem_singleton.1 h
    refine ⟨by simp, ?_, ?_, ?_, fun _ h => (h (.inf s) (by simp)).elim⟩
    · intro t ht; simp at ht; exact .inl (by rw [ht])
    · intro h1 h2; simp at h1 h2; rw [h1] at h2; cases h2
    · intro _ _ t ht _; simp at ht; rw [ht]
  · refine SumOf.of_near h fun _ => ?_
    have := Near.exact (h w (by simp))
    simpa using this

theorem SumOf.nil (s : Bool) : SumOf 0 (Flt.zero s : Flt F) [] := by
  refine SumOf.of_near (by simp) fun _ => ?_
  have := Near.exact (v := (Flt.zero s : Flt F)) trivial
  simpa [Flt.zero, Flt.val, Flt.sval] using this

theorem sum_abs_nonneg (ws : List (Flt F)) : 0 ≤ (ws.map fun w => |w.val|).sum := sum_nonneg' _ _ fun _ _ => abs_nonneg _

theorem SumOf.add {k j : Nat} {v w : Flt F} {vs ws : List (Flt F)} (hv : SumOf k v vs) (hw : SumOf j w ws) : SumOf (max k j + 1) (Flt.add v w) (vs ++ ws) := by
  have rng : (1 + F.u) ^ (max k j + 1) * ((vs ++ ws).map fun w => |w.val|).sum ≤ F.maxFin →
      (1 + F.u) ^ max k j * ((vs.map fun w => |w.val|).sum + (ws.map fun w => |w.val|).sum) ≤ F.maxFin ∧
      (1 + F.u) ^ k * (vs.map fun w => |w.val|).sum ≤ F.maxFin ∧ (1 + F.u) ^ j * (ws.map fun w => |w.val|).sum ≤ F.maxFin := by
    intro hr
    rw [List.map_append, List.sum_append] at hr
    have a := sum_abs_nonneg vs; have b := sum_abs_nonneg ws
    have g0 : ∀ k, 0 ≤ (1 + F.u) ^ k := fun k => zero_le_one.trans (one_le_growth k)
    refine ⟨le_trans (mul_le_mul_of_nonneg_right (growth_mono (by omega)) (by linarith)) hr, le_trans ?_ hr, le_trans ?_ hr⟩
    · exact mul_le_mul (growth_mono (by omega)) (by linarith) a (g0 _)
    · exact mul_le_mul (growth_mono (by omega)) (by linarith) b (g0 _)
  have infs : ∀ s, .inf s ∈ vs ++ ws → Flt.add v w = .inf s ∨ Flt.add v w = .nan := by
    intro s h
    rcases List.mem_append.1 h with h | h
    · rcases hv.inf s h with rfl | rfl
      · exact Flt.inf_add_cases _ _
      · exact .inr (Flt.add_nan_left _)
    · rcases hw.inf s h with rfl | rfl
      · exact Flt.add_inf_cases _ _
      · exact .inr (Flt.add_nan_right _)
  refine ⟨?_, infs, ?_, ?_, ?_⟩
  · intro h
    rcases List.mem_append.1 h with h | h
    · rw [hv.nan h]; exact Flt.add_nan_left _
    · rw [hw.nan h]; exact Flt.add_nan_right _
  · intro h1 h2
    rcases infs _ h1 with h | h
    · rcases infs _ h2 with h' | h'
      · rw [h] at h'; cases h'
      · exact h'
    · exact h
  · intro hr hn s h1 h2
    obtain ⟨-, r1, r2⟩ := rng hr
    simp only [List.mem_append, not_or] at hn h2
    -- each side is finite or the same infinity
    have side : ∀ {k : Nat} {v : Flt F} {vs : List (Flt F)}, SumOf k v vs → (1 + F.u) ^ k * (vs.map fun w => |w.val|).sum ≤ F.maxFin → .nan ∉ vs → .inf (!s) ∉ vs →
        (.inf s ∈ vs ∧ v = .inf s) ∨ (.inf s ∉ vs ∧ v.isFin) := by
      intro k v vs hv r hn h2
      by_cases h : .inf s ∈ vs
      · exact .inl ⟨h, hv.onlyInf r hn s h h2⟩
      · refine .inr ⟨h, (hv.finite r ?_).1⟩
        intro w hw
        cases w with
        | nan => exact absurd hw hn
        | inf t =>
          by_cases e : t = s
          · subst e; exact absurd hw h
          · have : t = !s := by cases t <;> cases s <;> simp_all
            subst this; exact absurd hw h2
        | fin => trivial
    rcases side hv r1 hn.1 h2.1 with ⟨-, rfl⟩ | ⟨g1, g2⟩ <;> rcases side hw r2 hn.2 h2.2 with ⟨-, rfl⟩ | ⟨k1, k2⟩
    · simp [Flt.add]
    · exact Flt.inf_add _ k2
    · exact Flt.add_inf _ g2
    · rcases List.mem_append.1 h1 with h | h
      · exact absurd h g1
      · exact absurd h k1
  · intro hr hf
    obtain ⟨r0, r1, r2⟩ := rng hr
    have := (hv.near r1 fun w h => hf w (by simp [h])).add (hw.near r2 fun w h => hf w (by simp [h])) (by simpa using r0)
    refine ⟨this.fin, ?_⟩
    simpa using this.err

/-- more roundings are allowed than happen -/
theorem SumOf.mono {k l : Nat} {v : Flt F} {ws : List (Flt F)} (h : SumOf k v ws) (hkl : k ≤ l) : SumOf l v ws := by
  have r : (1 + F.u) ^ l * (ws.map fun w => |w.val|).sum ≤ F.maxFin → (1 + F.u) ^ k * (ws.map fun w => |w.val|).sum ≤ F.maxFin := fun hr =>
    le_trans (mul_le_mul_of_nonneg_right (growth_mono hkl) (sum_abs_nonneg ws)) hr
  refine ⟨h.nan, h.inf, h.clash, fun hr => h.onlyInf (r hr), fun hr hf => ?_⟩
  have := (h.near (r hr) hf).mono hkl
  exact ⟨this.fin, by simpa using this.err⟩

/-- adding to zero is exact -/
theorem SumOf.zero_add {s : Bool} (w : Flt F) : SumOf 0 (Flt.add (Flt.zero s) w) [w] := by
  rcases Flt.nan_or_inf_or_fin [w] with h | ⟨t, h⟩ | h
  · obtain rfl := List.mem_singleton.1 h; exact SumOf.exact _
  · obtain rfl := List.mem_singleton.1 h
    exact SumOf.exact _
  · refine SumOf.of_near h fun _ => ?_
    have := Near.zero_add (v := Flt.zero s) trivial (by simp [Flt.zero, Flt.val, Flt.sval]) (Near.exact (h w (by simp)))
    simpa using this

theorem SumOf.foldl {k : Nat} {v : Flt F} {vs : List (Flt F)} (hv : SumOf k v vs) (ws : List (Flt F)) :
    SumOf (k + ws.length) (ws.foldl Flt.add v) (vs ++ ws) := by
  induction ws generalizing k v vs with
  | nil => simpa using hv
  | cons w ws ih =>
    have := ih (hv.add (SumOf.exact w))
    rw [Nat.max_zero] at this
    simp only [List.foldl_cons, List.length_cons]
    rw [show vs ++ w :: ws = vs ++ [w] ++ ws by simp, show k + (ws.length + 1) = k + 1 + ws.length by omega]
    exact this

/-- Summing up from zero. -/
theorem sumOf_foldl (s : Bool) (ws : List (Flt F)) : SumOf (ws.length - 1) (ws.foldl Flt.add (Flt.zero s)) ws := by
  cases ws with
  | nil => exact SumOf.nil s
  | cons w ws =>
    have := (SumOf.zero_add (s := s) w).foldl ws
    simpa using this
end

/-! ## Histograms -/

section
variable [cfg : Cfg] {F : FFmt} {A : Type} [Axis A] {axes : A} {n : Nat} {covers : Axis.Interval A → Axis.Coordinate A → Prop}
  {dom : Axis.Coordinate A → Prop}

open Classical in
/-- the weights of the coordinates an interval contains, 1 for `fill` -/
noncomputable def weightsIn {I C : Type} (covers : I → C → Prop) (b : I) (hist : List (C × Option (Flt F))) : List (Flt F) :=
  (hist.filter fun cw => covers b cw.1).map fltAdd

omit cfg in
theorem foldl_fltAdd {C : Type} (l : List (C × Option (Flt F))) (v : Flt F) :
    l.foldl (fun v cw => Flt.add v (fltAdd cw)) v = (l.map fltAdd).foldl Flt.add v := by rw [List.foldl_map]

open Classical in
theorem sumOf_weightsIn {I C : Type} {covers : I → C → Prop} (hist : List (C × Option (Flt F))) (b : I) :
    SumOf ((weightsIn covers b hist).length - 1) (((hist.filter fun cw => decide (covers b cw.1)).map fltAdd).foldl Flt.add RDefault.dflt) (weightsIn covers b hist) :=
  sumOf_foldl false _

/-- **C79 (dense histograms).** Filling a float histogram with any weights whatsoever does not panic, and every bin is a float sum (`SumOf`) of the weights of the
coordinates its interval contains: NaN if one of these is NaN or both infinities are among them, infinite if one of the infinities is and the rest is in range, and
finite and right up to rounding if they are finite and in range. The weights in other bins do not matter. -/
theorem C79_dense (hf : FaithfulAxis axes n covers dom) {h : VecHistogram A (Flt F)} (hnew : VecHistogram.new axes = .ok h)
    (hist : List (Axis.Coordinate A × Option (Flt F))) (hd : ∀ cw ∈ hist, dom cw.1) :
    ∃ h' items, h.callAll (numCalls hist) = (h', none) ∧ h'.iter = .ok items ∧ items.length = n ∧
      ∀ i it, items[i]? = some it → it.index = i ∧ Axis.bin axes i = .ok (some it.bin) ∧
        SumOf ((weightsIn covers it.bin hist).length - 1) it.value (weightsIn covers it.bin hist) := by
  classical
  obtain ⟨items, hit, hlen, hall⟩ := C51_dense hf hnew _ (numCalls_dom hd)
  refine ⟨_, items, callAll_total hf hnew (numCalls_dom hd) numCalls_total, hit, hlen, ?_⟩
  intro i it hi
  obtain ⟨h1, h2, h3⟩ := hall i it hi
  refine ⟨h1, h2, ?_⟩
  rw [numCalls_coord hist (fun c => decide (covers it.bin c)), filledWith_flt, foldl_fltAdd] at h3
  rw [h3]
  exact sumOf_weightsIn hist it.bin

/-- **C79 (sparse histograms).** The same; a bin that contains a coordinate is there, however bad its weight. -/
theorem C79_sparse (hf : FaithfulAxis axes n covers dom)
    (hist : List (Axis.Coordinate A × Option (Flt F))) (hd : ∀ cw ∈ hist, dom cw.1) :
    ∃ h', (HashHistogram.new axes : HashHistogram A (Flt F)).callAll (numCalls hist) = (h', none) ∧ ∀ o : h'.values.Order, ∃ items, h'.iter o = .ok items ∧
      (∀ it ∈ items, Axis.bin axes it.index = .ok (some it.bin) ∧
        SumOf ((weightsIn covers it.bin hist).length - 1) it.value (weightsIn covers it.bin hist)) ∧
      ∀ i b, i < n → Axis.bin axes i = .ok (some b) → (∃ cw ∈ hist, covers b cw.1) → ∃ it ∈ items, it.index = i ∧ it.bin = b := by
  classical
  refine ⟨_, callAll_total_sparse hf (numCalls_dom hd) numCalls_total, fun o => ?_⟩
  obtain ⟨items, hit, -, hall, hex⟩ := C51_sparse hf _ (numCalls_dom hd) o
  refine ⟨items, hit, fun it hi => ?_, fun i b hi hb hc => hex i b hi hb ?_⟩
  · obtain ⟨h1, h2, -, h3⟩ := hall it hi
    refine ⟨h2, ?_⟩
    rw [numCalls_coord hist (fun c => decide (covers it.bin c)), filledWith_flt, foldl_fltAdd] at h3
    rw [h3]
    exact sumOf_weightsIn hist it.bin
  · obtain ⟨cw, m, k⟩ := hc
    obtain ⟨c, _ | w⟩ := cw
    · exact ⟨.fill c, List.mem_map.2 ⟨_, m, rfl⟩, k⟩
    · exact ⟨.fillWith c w, List.mem_map.2 ⟨_, m, rfl⟩, k⟩

open Classical in
theorem sumOf_plan (hf : FaithfulAxis axes n covers dom) [PEq A] (hrefl : PEq.peq axes axes = true) {h : VecHistogram A (Flt F)}
    (hnew : VecHistogram.new axes = .ok h) (plan : MergePlan (Axis.Coordinate A × Option (Flt F))) (hd : ∀ cw ∈ plan.calls, dom cw.1) :
    ∃ m, plan.numCalls.run h = .ok (.ok m) ∧ m.Ok n ∧ m.axes = axes ∧ ∀ i, i < n → ∃ v, m.valueAtIndex i = some v ∧
      SumOf plan.depth v ((plan.calls.filter fun cw => Axis.index axes cw.1 = .ok (some i)).map fltAdd) := by
  induction plan with
  | share hist =>
    simp only [MergePlan.calls] at hd
    have hc := callAll_total hf hnew (numCalls_dom hd) numCalls_total
    obtain ⟨ok, hax, hval⟩ := C28_dense hf.lawful hnew (numCalls hist)
    refine ⟨h.callAllCaught (numCalls hist), ?_, ok, hax, ?_⟩
    · simp only [MergePlan.numCalls, MergePlan.run, hc]
    intro i hi
    refine ⟨_, by rw [hval i, if_pos hi], ?_⟩
    simp only [MergePlan.calls, MergePlan.depth]
    unfold callsIn
    rw [numCalls_coord hist (fun c => decide (Axis.index axes c = .ok (some i))), filledWith_flt, foldl_fltAdd]
    refine (sumOf_foldl false _).mono ?_
    have := List.length_filter_le (fun cw => decide (Axis.index axes cw.1 = .ok (some i))) hist
    rw [List.length_map]
    omega
  | merge l r ihl ihr =>
    simp only [MergePlan.calls, List.mem_append] at hd
    obtain ⟨a, a1, a2, a3, a4⟩ := ihl (fun cw hc => hd cw (.inl hc))
    obtain ⟨b, b1, b2, b3, b4⟩ := ihr (fun cw hc => hd cw (.inr hc))
    rcases C33_binwise_dense .add a2 b2 (by rw [a3, b3]; exact hrefl) with ⟨m, m1, m2, m3, m4⟩ | ⟨p, i, x, y, -, -, -, hp⟩
    · refine ⟨m, ?_, m2, by rw [m3, a3], ?_⟩
      · simp only [MergePlan.numCalls, MergePlan.run, a1, b1, m1]
      intro i hi
      obtain ⟨x, y, z, l1, l2, l3, l4⟩ := m4 i hi
      obtain ⟨x', x1, x2⟩ := a4 i hi
      obtain ⟨y', y1, y2⟩ := b4 i hi
      rw [l1] at x1; rw [l2] at y1; cases x1; cases y1
      have hz : z = Flt.add x y := (Except.ok.inj l3).symm
      subst hz
      refine ⟨_, l4, ?_⟩
      simpa only [MergePlan.calls, MergePlan.depth, List.filter_append, List.map_append] using x2.add y2
    · cases hp

/-- **C79 (filling in parts).** The same for data split into any shares, filled into histograms of their own, which are added in any order and grouping. -/
theorem C79_plan (hf : FaithfulAxis axes n covers dom) [PEq A] (hrefl : PEq.peq axes axes = true) {h : VecHistogram A (Flt F)}
    (hnew : VecHistogram.new axes = .ok h) (plan : MergePlan (Axis.Coordinate A × Option (Flt F))) (hd : ∀ cw ∈ plan.calls, dom cw.1) :
    ∃ m items, plan.numCalls.run h = .ok (.ok m) ∧ m.iter = .ok items ∧ items.length = n ∧
      ∀ i it, items[i]? = some it → it.index = i ∧ Axis.bin axes i = .ok (some it.bin) ∧ SumOf plan.depth it.value (weightsIn covers it.bin plan.calls) := by
  classical
  obtain ⟨m, m1, m2, m3, m4⟩ := sumOf_plan hf hrefl hnew plan hd
  obtain ⟨items, hit, hlen, hall, -⟩ := C38_iter m2
  refine ⟨m, items, m1, hit, hlen, ?_⟩
  intro i it hi
  have hin : i < n := by rw [← hlen]; exact (List.getElem?_eq_some_iff.1 hi).1
  obtain ⟨b, v, h1, h2, h3⟩ := hall i hin
  rw [hi] at h1
  cases h1
  rw [m3] at h2
  obtain ⟨v', v1, v2⟩ := m4 i hin
  rw [h3] at v1
  cases v1
  refine ⟨rfl, h2, ?_⟩
  have e : plan.calls.filter (fun cw => decide (Axis.index axes cw.1 = .ok (some i))) = plan.calls.filter (fun cw => decide (covers b cw.1)) := by
    apply List.filter_congr
    intro cw hcw
    exact decide_eq_decide.2 (hf.index_iff cw.1 (hd cw hcw) i b hin h2)
  rw [e] at v2
  exact v2

/-! ## Weighted sums and means -/

omit cfg in
theorem foldl_fltSq {C : Type} (l : List (C × Option (Flt F))) (v : Flt F) :
    l.foldl (fun v cw => Flt.add v (fltSq cw)) v = (l.map fltSq).foldl Flt.add v := by rw [List.foldl_map]

open Classical in
/-- **C79 (weighted sums).** A histogram of `WeightedSum` filled with any weights: the value of each bin is a float sum of its weights, and its variance is NaN exactly if
one of them is NaN, infinity if one is infinite and none NaN, never negative, and finite and right up to rounding if they are finite and their squares in range. -/
theorem C79_weighted_sum (hf : FaithfulAxis axes n covers dom) {h : VecHistogram A (WeightedSum (Flt F))} (hnew : VecHistogram.new axes = .ok h)
    (hist : List (Axis.Coordinate A × Option (Flt F))) (hd : ∀ cw ∈ hist, dom cw.1) :
    ∃ h' items, h.callAll (wsCalls hist) = (h', none) ∧ h'.iter = .ok items ∧ items.length = n ∧
      ∀ i it, items[i]? = some it → it.index = i ∧ Axis.bin axes i = .ok (some it.bin) ∧
        let ws := weightsIn covers it.bin hist
        SumOf (ws.length - 1) it.value.get ws ∧
        (it.value.variance = .nan ↔ .nan ∈ ws) ∧ it.value.variance ≠ .inf true ∧ 0 ≤ it.value.variance.val ∧
        (.nan ∉ ws → (∃ s, .inf s ∈ ws) → it.value.variance = .inf false) ∧
        ((∀ w ∈ ws, w.isFin) → (1 + F.u) ^ ws.length * ((ws.map fun w => w.val ^ 2).sum + ws.length * F.eta) ≤ F.maxFin →
          it.value.variance.isFin ∧ |it.value.variance.val - (ws.map fun w => w.val ^ 2).sum| ≤
            ((1 + F.u) ^ ws.length - 1) * (ws.map fun w => w.val ^ 2).sum + (1 + F.u) ^ (ws.length - 1) * (ws.length * F.eta)) := by
  obtain ⟨items, hit, hlen, hall⟩ := C51_dense hf hnew _ (wsCalls_dom hd)
  refine ⟨_, items, callAll_total hf hnew (wsCalls_dom hd) wsCalls_total, hit, hlen, ?_⟩
  intro i it hi
  obtain ⟨h1, h2, h3⟩ := hall i it hi
  refine ⟨h1, h2, ?_⟩
  intro ws
  rw [wsCalls_coord hist (fun c => decide (covers it.bin c)), filledWith_ws] at h3
  set l := hist.filter fun cw => decide (covers it.bin cw.1) with hl
  have hws : ws = l.map fltAdd := rfl
  have hone : ∀ cw ∈ l, (fltAdd cw).val = fltWeight cw := by
    rintro ⟨c, _ | w⟩ _
    · obtain ⟨o1, o2⟩ := Flt.ofNat_spec (F := F) (n := 1) (Nat.one_le_two_pow)
      rw [Nat.cast_one] at o1 o2
      exact o2
    · rfl
  have honef : (Flt.ofRat 1 : Flt F).isFin := by
    obtain ⟨o1, o2⟩ := Flt.ofNat_spec (F := F) (n := 1) (Nat.one_le_two_pow)
    rwa [Nat.cast_one] at o1
  have hnan : .nan ∈ ws ↔ ∃ cw ∈ l, cw.2 = some .nan := by
    rw [hws, List.mem_map]
    constructor
    · rintro ⟨⟨c, _ | w⟩, m, e⟩
      · rw [show fltAdd (c, none) = (Flt.ofRat 1 : Flt F) from rfl] at e
        rw [e] at honef; exact honef.elim
      · exact ⟨_, m, by rw [← e]; rfl⟩
    · rintro ⟨⟨c, w⟩, m, e⟩
      simp only at e
      subst e
      exact ⟨_, m, rfl⟩
  have hget : it.value.get = (l.map fltAdd).foldl Flt.add (Flt.zero false) := by rw [h3]; exact foldl_fltAdd _ _
  have hvar : it.value.variance = l.foldl (fun v cw => Flt.add v (fltSq cw)) (Flt.zero false) := by rw [h3]; rfl
  obtain ⟨q1, q2⟩ := fold_sq_cases l (Flt.zero false) Flt.nonNeg_zero
  have nn : .nan ∉ ws → (l.foldl (fun v cw => Flt.add v (fltSq cw)) (Flt.zero false)).NonNeg := by
    intro h
    refine q2 fun cw m e => h (hnan.2 ⟨cw, m, e⟩)
  refine ⟨by rw [hget, hws]; exact sumOf_foldl false _, ?_, ?_, ?_, ?_, ?_⟩
  · rw [hvar]
    refine ⟨fun e => ?_, fun e => q1 (hnan.1 e)⟩
    by_contra h
    exact (nn h).1 e
  · rw [hvar]
    by_cases h : .nan ∈ ws
    · rw [q1 (hnan.1 h)]; simp
    · exact (nn h).2.1
  · rw [hvar]
    by_cases h : .nan ∈ ws
    · rw [q1 (hnan.1 h)]; simp [Flt.val]
    · exact (nn h).2.2
  · rintro h ⟨s, hs⟩
    rw [hvar, foldl_fltSq]
    have hm : .inf false ∈ l.map fltSq := by
      rw [hws] at hs
      obtain ⟨⟨c, _ | w⟩, m, e⟩ := List.mem_map.1 hs
      · rw [show fltAdd (c, none) = (Flt.ofRat 1 : Flt F) from rfl] at e
        rw [e] at honef; exact honef.elim
      · rw [show fltAdd (c, some w) = w from rfl] at e
        subst e
        refine List.mem_map.2 ⟨_, m, ?_⟩
        simp [fltSq, Flt.mul]
    rcases (sumOf_foldl false (l.map fltSq)).inf false hm with e | e
    · exact e
    · rw [← foldl_fltSq] at e
      exact absurd e (nn h).1
  · intro hfin hr
    have e2 : (ws.map fun w => w.val ^ 2).sum = (l.map fun cw => fltWeight cw ^ 2).sum := by
      rw [hws, List.map_map]
      congr 1
      apply List.map_congr_left
      intro cw m
      simp only [Function.comp_apply, hone cw m]
    have e3 : ws.length = l.length := by rw [hws, List.length_map]
    rw [e2, e3] at hr ⊢
    rw [hvar]
    refine near_sq l ?_ hr
    rintro ⟨c, w⟩ m w' rfl
    exact hfin _ (by rw [hws]; exact List.mem_map.2 ⟨_, m, rfl⟩)

variable {τ : IntTy}

/-- **C79 (means).** `Mean` of any float samples, at least one and not more than the count type and the float's mantissa hold: it does not panic and counts all of them, and
the mean is NaN if a sample is NaN or both infinities occur, and infinite if one of them does and the finite samples are in range. -/
theorem C79_mean (xs : List (Flt F)) (hne : xs ≠ []) (hc : (xs.length : ℤ) ≤ τ.max) (hp : xs.length ≤ 2 ^ F.p) :
    ∃ (m : Mean (Flt F) (Flt F) (MInt τ)) (q : Flt F), fillSeq (meanCalls xs) RDefault.dflt = (m, none) ∧ m.numSamples.val = xs.length ∧ m.get = .ok q ∧
      (.nan ∈ xs → q = .nan) ∧ (.inf true ∈ xs → .inf false ∈ xs → q = .nan) ∧
      ((1 + F.u) ^ (xs.length - 1) * (xs.map fun x => |x.val|).sum ≤ F.maxFin → .nan ∉ xs → ∀ s, .inf s ∈ xs → .inf (!s) ∉ xs → q = .inf s) := by
  obtain ⟨c, hc', hs⟩ := fillSeq_mean (τ := τ) xs RDefault.dflt (by show (0 : ℤ) + _ ≤ _; omega)
  have hcn : c.val = (xs.length : ℕ) := by rw [hc']; show (0 : ℤ) + _ = _; simp
  have hlen : 0 < xs.length := List.length_pos_iff.2 hne
  obtain ⟨d1, d2⟩ := conv_count (F := F) c hcn hp
  have sum : SumOf (xs.length - 1) (xs.foldl (fun v x => Flt.add v x) (Flt.zero false)) xs := sumOf_foldl false xs
  refine ⟨_, _, hs, by exact_mod_cast hcn, rfl, ?_, ?_, ?_⟩
  · intro h
    show Flt.div (xs.foldl (fun v x => Flt.add v x) (Flt.zero false)) _ = _
    rw [sum.nan h]; rfl
  · intro h1 h2
    show Flt.div (xs.foldl (fun v x => Flt.add v x) (Flt.zero false)) _ = _
    rw [sum.clash h1 h2]; rfl
  · intro hr hn s h1 h2
    show Flt.div (xs.foldl (fun v x => Flt.add v x) (Flt.zero false)) (RFrom.conv c : Flt F) = _
    rw [sum.onlyInf hr hn s h1 h2]
    cases hq : (RFrom.conv c : Flt F) with
    | nan => rw [hq] at d1; exact d1.elim
    | inf => rw [hq] at d1; exact d1.elim
    | fin t m hm =>
      rw [hq] at d2
      cases t with
      | false => simp [Flt.div]
      | true =>
        simp only [Flt.val, Flt.sval] at d2
        have := hm.nonneg
        have h3 : (0 : ℚ) < xs.length := by exact_mod_cast hlen
        simp at d2
        linarith
end
end NdHist
