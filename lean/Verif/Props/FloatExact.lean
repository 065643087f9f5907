import Verif.Props.FloatValue
import Verif.Model.Eq
/-!
# C74: float bins filled with whole numbers, or with multiples of a power of two, are exact
-/
namespace NdHist

/-! ## Vocabulary -/

/-- a multiple of `2^e` -/
def OnGrid (e : ℤ) (x : ℚ) : Prop := ∃ k : ℤ, x = k * (2 : ℚ) ^ e

/-- the sum of the weights of the calls with a coordinate in `b`, and that of their absolute values -/
noncomputable def fltTotalIn {F : FFmt} {C B : Type} (covers : B → C → Prop) (b : B) (hist : List (C × Option (Flt F))) : ℚ :=
  open Classical in ((hist.filter fun cw => covers b cw.1).map fltWeight).sum
noncomputable def fltAbsIn {F : FFmt} {C B : Type} (covers : B → C → Prop) (b : B) (hist : List (C × Option (Flt F))) : ℚ :=
  open Classical in ((hist.filter fun cw => covers b cw.1).map fun cw => |fltWeight cw|).sum

/-! ## Exact additions -/

section
variable {F : FFmt} {e : ℤ}

theorem OnGrid.add {x y : ℚ} (hx : OnGrid e x) (hy : OnGrid e y) : OnGrid e (x + y) := by
  obtain ⟨k, rfl⟩ := hx
  obtain ⟨l, rfl⟩ := hy
  exact ⟨k + l, by push_cast; ring⟩

theorem OnGrid.zero : OnGrid e 0 := ⟨0, by simp⟩

theorem OnGrid.sum {α : Type} {f : α → ℚ} {l : List α} (h : ∀ a ∈ l, OnGrid e (f a)) : OnGrid e (l.map f).sum := by
  induction l with
  | nil => exact OnGrid.zero
  | cons a l ih =>
    rw [List.map_cons, List.sum_cons]
    exact (h a (by simp)).add (ih fun b hb => h b (by simp [hb]))

theorem FFmt.rep_grid {x : ℚ} (h1 : F.qmin ≤ e) (h2 : e + F.p ≤ F.emax) (hx : OnGrid e x) (hb : |x| ≤ (2 : ℚ) ^ (e + F.p)) : F.Rep |x| := by
  obtain ⟨k, rfl⟩ := hx
  have hpos : (0 : ℚ) < 2 ^ e := by positivity
  have hk : |((k : ℤ) : ℚ) * 2 ^ e| = (k.natAbs : ℚ) * pow2 e := by
    rw [abs_mul, abs_of_pos hpos, pow2_eq, Nat.cast_natAbs, Int.cast_abs]
  rw [hk] at hb ⊢
  have hn : k.natAbs ≤ 2 ^ F.p := by
    rw [zpow_add₀ (by norm_num), pow2_eq, mul_comm ((2 : ℚ) ^ e), zpow_natCast] at hb
    have := le_of_mul_le_mul_right hb hpos
    exact_mod_cast this
  have hp := F.p_ge
  rcases hn.lt_or_eq with h | h
  · exact ⟨k.natAbs, e, rfl, h, h1, by omega⟩
  · refine ⟨2 ^ (F.p - 1), e + 1, ?_, Nat.pow_lt_pow_right (by norm_num) (by omega), by omega, by omega⟩
    rw [h, pow2_succ]
    obtain ⟨j, hj⟩ : ∃ j, F.p = j + 1 := ⟨F.p - 1, by omega⟩
    rw [hj, Nat.add_sub_cancel]; push_cast; rw [pow_succ]; ring

theorem Flt.add_grid {a b : Flt F} (h1 : F.qmin ≤ e) (h2 : e + F.p ≤ F.emax) (ha : a.isFin) (hb : b.isFin)
    (hx : OnGrid e (a.val + b.val)) (hr : |a.val + b.val| ≤ (2 : ℚ) ^ (e + F.p)) : (Flt.add a b).isFin ∧ (Flt.add a b).val = a.val + b.val := by
  have rep := FFmt.rep_grid h1 h2 hx hr
  obtain ⟨f1, f2⟩ := (Flt.add_rounds ha hb).fin_of rep.le_maxFin
  exact ⟨f1, by rw [f2, F.rs_of_rep rep.repU]⟩

theorem abs_sum_le_sum_abs' {α : Type} (f : α → ℚ) (l : List α) : |(l.map f).sum| ≤ (l.map fun a => |f a|).sum := by
  induction l with
  | nil => simp
  | cons a l ih =>
    simp only [List.map_cons, List.sum_cons]
    exact (abs_add_le _ _).trans (add_le_add_right ih _)

theorem foldl_grid {α : Type} (x : α → Flt F) (h1 : F.qmin ≤ e) (h2 : e + F.p ≤ F.emax) (l : List α) (hfin : ∀ a ∈ l, (x a).isFin)
    (hg : ∀ a ∈ l, OnGrid e (x a).val) {v : Flt F} (hv : v.isFin) (hvg : OnGrid e v.val)
    (hb : |v.val| + (l.map fun a => |(x a).val|).sum ≤ (2 : ℚ) ^ (e + F.p)) :
    (l.foldl (fun v a => Flt.add v (x a)) v).isFin ∧ (l.foldl (fun v a => Flt.add v (x a)) v).val = v.val + (l.map fun a => (x a).val).sum := by
  induction l generalizing v with
  | nil => exact ⟨hv, by simp⟩
  | cons a l ih =>
    simp only [List.map_cons, List.sum_cons] at hb
    have hnn := sum_nonneg' l (fun a => |(x a).val|) (fun _ _ => abs_nonneg _)
    have htri := abs_add_le v.val (x a).val
    have hgr : OnGrid e (v.val + (x a).val) := hvg.add (hg a (by simp))
    obtain ⟨g1, g2⟩ := Flt.add_grid h1 h2 hv (hfin a (by simp)) hgr (by linarith)
    obtain ⟨k1, k2⟩ := ih (fun b hb => hfin b (by simp [hb])) (fun b hb => hg b (by simp [hb])) g1 (by rw [g2]; exact hgr) (by rw [g2]; linarith)
    refine ⟨k1, ?_⟩
    rw [List.foldl_cons, k2, g2, List.map_cons, List.sum_cons, add_assoc]
end

/-! ## Histograms -/

section
variable [cfg : Cfg] {F : FFmt} {A : Type} [Axis A] {axes : A} {n : Nat} {covers : Axis.Interval A → Axis.Coordinate A → Prop} {dom : Axis.Coordinate A → Prop} {e : ℤ}

theorem fltAdd_spec {C : Type} {cw : C × Option (Flt F)} (h : ∀ w, cw.2 = some w → w.isFin) : (fltAdd cw).isFin ∧ (fltAdd cw).val = fltWeight cw := by
  obtain ⟨c, _ | w⟩ := cw
  · have := Flt.ofNat_spec (F := F) (n := 1) (Nat.one_le_two_pow)
    rwa [Nat.cast_one] at this
  · exact ⟨h w rfl, rfl⟩

theorem grid_bin {C : Type} (h1 : F.qmin ≤ e) (h2 : e + F.p ≤ F.emax) (l : List (C × Option (Flt F))) (hfin : ∀ cw ∈ l, ∀ w, cw.2 = some w → w.isFin)
    (hg : ∀ cw ∈ l, OnGrid e (fltWeight cw)) (hb : (l.map fun cw => |fltWeight cw|).sum ≤ (2 : ℚ) ^ (e + F.p)) :
    (filledWith (numCalls l) (RDefault.dflt : Flt F)).isFin ∧ (filledWith (numCalls l) (RDefault.dflt : Flt F)).val = (l.map fltWeight).sum := by
  have hs : ∀ cw ∈ l, (fltAdd cw).val = fltWeight cw := fun cw h => (fltAdd_spec (hfin cw h)).2
  have z : (RDefault.dflt : Flt F).val = 0 := rfl
  have e1 : (l.map fun cw => |(fltAdd cw).val|) = l.map fun cw => |fltWeight cw| := List.map_congr_left fun cw h => by rw [hs cw h]
  have e2 : (l.map fun cw => (fltAdd cw).val) = l.map fltWeight := List.map_congr_left fun cw h => hs cw h
  have := foldl_grid (F := F) (e := e) fltAdd h1 h2 l (fun cw h => (fltAdd_spec (hfin cw h)).1) (fun cw h => by rw [hs cw h]; exact hg cw h)
    (v := RDefault.dflt) trivial (by rw [z]; exact OnGrid.zero) (by rw [z, abs_zero, zero_add, e1]; exact hb)
  rw [filledWith_flt]
  rw [e2, z, zero_add] at this
  exact this

/-- **C74 (dense).** Fill a histogram of floats with weights that are multiples of `2^e` (whole numbers if `e = 0`). No call panics, and every bin whose weights' absolute
values add up to at most `2^(e+p)` (`2^53` for whole numbers and `f64`) holds their exact sum. -/
theorem C74_dense (he : F.qmin ≤ e ∧ e + F.p ≤ F.emax) (hf : FaithfulAxis axes n covers dom) {h : VecHistogram A (Flt F)} (hnew : VecHistogram.new axes = .ok h)
    (hist : List (Axis.Coordinate A × Option (Flt F))) (hd : ∀ cw ∈ hist, dom cw.1) (hfin : ∀ cw ∈ hist, ∀ w, cw.2 = some w → w.isFin)
    (hg : ∀ cw ∈ hist, OnGrid e (fltWeight cw)) :
    ∃ h' items, h.callAll (numCalls hist) = (h', none) ∧ h'.iter = .ok items ∧ items.length = n ∧
      ∀ i it, items[i]? = some it → it.index = i ∧ Axis.bin axes i = .ok (some it.bin) ∧
        (fltAbsIn covers it.bin hist ≤ (2 : ℚ) ^ (e + F.p) → it.value.isFin ∧ it.value.val = fltTotalIn covers it.bin hist) := by
  classical
  obtain ⟨items, hit, hlen, hall⟩ := C51_dense hf hnew _ (numCalls_dom hd)
  refine ⟨_, items, callAll_total hf hnew (numCalls_dom hd) numCalls_total, hit, hlen, ?_⟩
  intro i it hi
  obtain ⟨k1, k2, k3⟩ := hall i it hi
  refine ⟨k1, k2, fun hb => ?_⟩
  rw [numCalls_coord hist (fun c => decide (covers it.bin c))] at k3
  rw [k3]
  exact grid_bin he.1 he.2 _ (fun cw hc => hfin cw (List.mem_of_mem_filter hc)) (fun cw hc => hg cw (List.mem_of_mem_filter hc)) hb

/-- **C74 (sparse).** The same for sparse histograms, in whatever order their bins are iterated over. -/
theorem C74_sparse (he : F.qmin ≤ e ∧ e + F.p ≤ F.emax) (hf : FaithfulAxis axes n covers dom)
    (hist : List (Axis.Coordinate A × Option (Flt F))) (hd : ∀ cw ∈ hist, dom cw.1) (hfin : ∀ cw ∈ hist, ∀ w, cw.2 = some w → w.isFin)
    (hg : ∀ cw ∈ hist, OnGrid e (fltWeight cw)) :
    ∃ h', (HashHistogram.new axes : HashHistogram A (Flt F)).callAll (numCalls hist) = (h', none) ∧ ∀ o : h'.values.Order, ∃ items, h'.iter o = .ok items ∧
      (∀ it ∈ items, Axis.bin axes it.index = .ok (some it.bin) ∧
        (fltAbsIn covers it.bin hist ≤ (2 : ℚ) ^ (e + F.p) → it.value.isFin ∧ it.value.val = fltTotalIn covers it.bin hist)) ∧
      ∀ i b, i < n → Axis.bin axes i = .ok (some b) → (∃ cw ∈ hist, covers b cw.1) → ∃ it ∈ items, it.index = i ∧ it.bin = b := by
  classical
  refine ⟨_, callAll_total_sparse hf (numCalls_dom hd) numCalls_total, fun o => ?_⟩
  obtain ⟨items, hit, -, hall, hex⟩ := C51_sparse hf _ (numCalls_dom hd) o
  refine ⟨items, hit, ?_, ?_⟩
  · intro it hi
    obtain ⟨-, k2, -, k3⟩ := hall it hi
    refine ⟨k2, fun hb => ?_⟩
    rw [numCalls_coord hist (fun c => decide (covers it.bin c))] at k3
    rw [k3]
    exact grid_bin he.1 he.2 _ (fun cw hc => hfin cw (List.mem_of_mem_filter hc)) (fun cw hc => hg cw (List.mem_of_mem_filter hc)) hb
  · rintro i b hi hb ⟨cw, hcw, hc⟩
    refine hex i b hi hb ?_
    obtain ⟨c, w⟩ := cw
    refine ⟨_, List.mem_map.2 ⟨(c, w), hcw, rfl⟩, ?_⟩
    cases w <;> exact hc

theorem grid_plan (he : F.qmin ≤ e ∧ e + F.p ≤ F.emax) (hf : FaithfulAxis axes n covers dom) [PEq A] (hrefl : PEq.peq axes axes = true) {h : VecHistogram A (Flt F)}
    (hnew : VecHistogram.new axes = .ok h) (plan : MergePlan (Axis.Coordinate A × Option (Flt F))) (hd : ∀ cw ∈ plan.calls, dom cw.1)
    (hfin : ∀ cw ∈ plan.calls, ∀ w, cw.2 = some w → w.isFin) (hg : ∀ cw ∈ plan.calls, OnGrid e (fltWeight cw)) :
    ∃ m, plan.numCalls.run h = .ok (.ok m) ∧ m.Ok n ∧ m.axes = axes ∧ ∀ i b, i < n → Axis.bin axes i = .ok (some b) →
      ∃ v, m.valueAtIndex i = some v ∧ (fltAbsIn covers b plan.calls ≤ (2 : ℚ) ^ (e + F.p) → v.isFin ∧ v.val = fltTotalIn covers b plan.calls) := by
  classical
  induction plan with
  | share hist =>
    simp only [MergePlan.calls] at hd hfin hg
    have hc := callAll_total hf hnew (numCalls_dom hd) numCalls_total
    obtain ⟨ok, hax, hval⟩ := C28_dense hf.lawful hnew (numCalls hist)
    refine ⟨h.callAllCaught (numCalls hist), ?_, ok, hax, ?_⟩
    · simp only [MergePlan.numCalls, MergePlan.run, hc]
    intro i b hi hb
    refine ⟨_, by rw [hval i, if_pos hi], fun hr => ?_⟩
    rw [callsIn_eq_covers hf (numCalls_dom hd) hi hb, numCalls_coord hist (fun c => decide (covers b c))]
    exact grid_bin he.1 he.2 _ (fun cw hc => hfin cw (List.mem_of_mem_filter hc)) (fun cw hc => hg cw (List.mem_of_mem_filter hc)) hr
  | merge l r ihl ihr =>
    simp only [MergePlan.calls, List.mem_append] at hd hfin hg
    obtain ⟨a, a1, a2, a3, a4⟩ := ihl (fun cw hc => hd cw (.inl hc)) (fun cw hc => hfin cw (.inl hc)) (fun cw hc => hg cw (.inl hc))
    obtain ⟨b, b1, b2, b3, b4⟩ := ihr (fun cw hc => hd cw (.inr hc)) (fun cw hc => hfin cw (.inr hc)) (fun cw hc => hg cw (.inr hc))
    rcases C33_binwise_dense .add a2 b2 (by rw [a3, b3]; exact hrefl) with ⟨m, m1, m2, m3, m4⟩ | ⟨p, i, x, y, -, -, -, hp⟩
    · refine ⟨m, ?_, m2, by rw [m3, a3], ?_⟩
      · simp only [MergePlan.numCalls, MergePlan.run, a1, b1, m1]
      intro i bb hi hb
      obtain ⟨x, y, z, l1, l2, l3, l4⟩ := m4 i hi
      obtain ⟨x', x1, x2⟩ := a4 i bb hi hb
      obtain ⟨y', y1, y2⟩ := b4 i bb hi hb
      rw [l1] at x1; rw [l2] at y1; cases x1; cases y1
      have hz : z = Flt.add x y := (Except.ok.inj l3).symm
      subst hz
      refine ⟨_, l4, fun hr => ?_⟩
      have e1 : fltTotalIn covers bb (MergePlan.merge l r).calls = fltTotalIn covers bb l.calls + fltTotalIn covers bb r.calls := by
        simp only [fltTotalIn, MergePlan.calls, List.filter_append, List.map_append, List.sum_append]
      have e2 : fltAbsIn covers bb (MergePlan.merge l r).calls = fltAbsIn covers bb l.calls + fltAbsIn covers bb r.calls := by
        simp only [fltAbsIn, MergePlan.calls, List.filter_append, List.map_append, List.sum_append]
      have nn : ∀ q : List (Axis.Coordinate A × Option (Flt F)), 0 ≤ fltAbsIn covers bb q := fun q => sum_nonneg' _ _ (fun _ _ => abs_nonneg _)
      have le : ∀ q : List (Axis.Coordinate A × Option (Flt F)), |fltTotalIn covers bb q| ≤ fltAbsIn covers bb q := fun q => abs_sum_le_sum_abs' _ _
      have gr : ∀ q : List (Axis.Coordinate A × Option (Flt F)), (∀ cw ∈ q, OnGrid e (fltWeight cw)) → OnGrid e (fltTotalIn covers bb q) :=
        fun q hq => OnGrid.sum fun cw hc => hq cw (List.mem_of_mem_filter hc)
      rw [e2] at hr
      obtain ⟨f1, v1⟩ := x2 (by linarith [nn r.calls])
      obtain ⟨f2, v2⟩ := y2 (by linarith [nn l.calls])
      have := Flt.add_grid he.1 he.2 f1 f2 (e := e) (by rw [v1, v2]; exact (gr _ fun cw hc => hg cw (.inl hc)).add (gr _ fun cw hc => hg cw (.inr hc)))
        (by rw [v1, v2]; exact (abs_add_le _ _).trans ((add_le_add (le _) (le _)).trans hr))
      rw [v1, v2, ← e1] at this
      exact this
    · cases hp

/-- **C74 (filling in parts).** The same for data split into any shares, filled into histograms of their own, which are added in any order and grouping. -/
theorem C74_plan (he : F.qmin ≤ e ∧ e + F.p ≤ F.emax) (hf : FaithfulAxis axes n covers dom) [PEq A] (hrefl : PEq.peq axes axes = true) {h : VecHistogram A (Flt F)}
    (hnew : VecHistogram.new axes = .ok h) (plan : MergePlan (Axis.Coordinate A × Option (Flt F))) (hd : ∀ cw ∈ plan.calls, dom cw.1)
    (hfin : ∀ cw ∈ plan.calls, ∀ w, cw.2 = some w → w.isFin) (hg : ∀ cw ∈ plan.calls, OnGrid e (fltWeight cw)) :
    ∃ m items, plan.numCalls.run h = .ok (.ok m) ∧ m.iter = .ok items ∧ items.length = n ∧
      ∀ i it, items[i]? = some it → it.index = i ∧ Axis.bin axes i = .ok (some it.bin) ∧
        (fltAbsIn covers it.bin plan.calls ≤ (2 : ℚ) ^ (e + F.p) → it.value.isFin ∧ it.value.val = fltTotalIn covers it.bin plan.calls) := by
  obtain ⟨m, m1, m2, m3, m4⟩ := grid_plan he hf hrefl hnew plan hd hfin hg
  obtain ⟨items, hit, hlen, hall, -⟩ := C38_iter m2
  refine ⟨m, items, m1, hit, hlen, ?_⟩
  intro i it hi
  have hin : i < n := by rw [← hlen]; exact (List.getElem?_eq_some_iff.1 hi).1
  obtain ⟨b, v, h1, h2, h3⟩ := hall i hin
  rw [hi] at h1
  cases h1
  rw [m3] at h2
  obtain ⟨v', v1, v2⟩ := m4 i b hin h2
  rw [h3] at v1
  cases v1
  exact ⟨rfl, h2, v2⟩

attribute [local instance] numPEq in
/-- **C74 (order and grouping).** If in addition the absolute values of the weights of every bin add up to at most `2^(e+p)`, the result does not depend on the order of the fills, nor on how
the data is split into shares and the shares are added: any two plans for the same data give histograms that compare equal. -/
theorem C74_order (he : F.qmin ≤ e ∧ e + F.p ≤ F.emax) (hf : FaithfulAxis axes n covers dom) [PEq A] (hrefl : PEq.peq axes axes = true) {h : VecHistogram A (Flt F)}
    (hnew : VecHistogram.new axes = .ok h) (plan plan' : MergePlan (Axis.Coordinate A × Option (Flt F))) (hp : plan.calls.Perm plan'.calls)
    (hd : ∀ cw ∈ plan.calls, dom cw.1) (hfin : ∀ cw ∈ plan.calls, ∀ w, cw.2 = some w → w.isFin) (hg : ∀ cw ∈ plan.calls, OnGrid e (fltWeight cw))
    (hb : ∀ i b, i < n → Axis.bin axes i = .ok (some b) → fltAbsIn covers b plan.calls ≤ (2 : ℚ) ^ (e + F.p)) :
    ∃ m m', plan.numCalls.run h = .ok (.ok m) ∧ plan'.numCalls.run h = .ok (.ok m') ∧ m.beq m' = true := by
  classical
  obtain ⟨m, m1, m2, m3, m4⟩ := grid_plan he hf hrefl hnew plan hd hfin hg
  obtain ⟨m', k1, k2, k3, k4⟩ := grid_plan he hf hrefl hnew plan' (fun cw hc => hd cw (hp.mem_iff.2 hc)) (fun cw hc => hfin cw (hp.mem_iff.2 hc))
    (fun cw hc => hg cw (hp.mem_iff.2 hc))
  refine ⟨m, m', m1, k1, (C45_dense m2 k2).2 ⟨by rw [m3, k3]; exact hrefl, fun i hi => ?_⟩⟩
  obtain ⟨b, hbin⟩ := hf.lawful.bin_some i hi
  obtain ⟨v, v1, v2⟩ := m4 i b hi hbin
  obtain ⟨w, w1, w2⟩ := k4 i b hi hbin
  have e1 : fltTotalIn covers b plan'.calls = fltTotalIn covers b plan.calls := ((hp.symm.filter _).map _).sum_eq
  have e2 : fltAbsIn covers b plan'.calls = fltAbsIn covers b plan.calls := ((hp.symm.filter _).map _).sum_eq
  obtain ⟨f1, f2⟩ := v2 (hb i b hi hbin)
  obtain ⟨g1, g2⟩ := w2 (by rw [e2]; exact hb i b hi hbin)
  refine ⟨v, w, v1, w1, ?_⟩
  show POrd.eq v w = true
  rw [Flt.eq_fin f1 g1, f2, g2, e1]
  exact decide_eq_true rfl

theorem OnGrid.sq {x : ℚ} (h : OnGrid e x) : OnGrid (2 * e) (x ^ 2) := by
  obtain ⟨k, rfl⟩ := h
  refine ⟨k ^ 2, ?_⟩
  rw [mul_pow, ← zpow_natCast ((2 : ℚ) ^ e), ← zpow_mul, mul_comm e]; push_cast; rfl

open Classical in
/-- **C74 (weighted sums).** In a histogram of `WeightedSum`, filled with multiples of `2^e`, a bin has the exact sum if the absolute values of its weights add up to at most `2^(e+p)`, and the exact
sum of squares as its variance if that is at most `2^(2e+p)`. -/
theorem C74_weighted_sum (he : F.qmin ≤ e ∧ e + F.p ≤ F.emax) (he2 : F.qmin ≤ 2 * e ∧ 2 * e + F.p ≤ F.emax) (hf : FaithfulAxis axes n covers dom)
    {h : VecHistogram A (WeightedSum (Flt F))} (hnew : VecHistogram.new axes = .ok h)
    (hist : List (Axis.Coordinate A × Option (Flt F))) (hd : ∀ cw ∈ hist, dom cw.1) (hfin : ∀ cw ∈ hist, ∀ w, cw.2 = some w → w.isFin)
    (hg : ∀ cw ∈ hist, OnGrid e (fltWeight cw)) :
    ∃ h' items, h.callAll (wsCalls hist) = (h', none) ∧ h'.iter = .ok items ∧ items.length = n ∧
      ∀ i it, items[i]? = some it → it.index = i ∧ Axis.bin axes i = .ok (some it.bin) ∧
        (fltAbsIn covers it.bin hist ≤ (2 : ℚ) ^ (e + F.p) → it.value.get.isFin ∧ it.value.get.val = fltTotalIn covers it.bin hist) ∧
        let squares := ((hist.filter fun cw => covers it.bin cw.1).map fun cw => fltWeight cw ^ 2).sum
        (squares ≤ (2 : ℚ) ^ (2 * e + F.p) → it.value.variance.isFin ∧ it.value.variance.val = squares) := by
  obtain ⟨items, hit, hlen, hall⟩ := C51_dense hf hnew _ (wsCalls_dom hd)
  refine ⟨_, items, callAll_total hf hnew (wsCalls_dom hd) wsCalls_total, hit, hlen, ?_⟩
  intro i it hi
  obtain ⟨k1, k2, k3⟩ := hall i it hi
  rw [wsCalls_coord hist (fun c => decide (covers it.bin c)), filledWith_ws] at k3
  refine ⟨k1, k2, fun hb => ?_, ?_⟩
  · have := grid_bin he.1 he.2 _ (fun cw hc => hfin cw (List.mem_of_mem_filter hc)) (fun cw hc => hg cw (List.mem_of_mem_filter hc)) hb
    rw [filledWith_flt] at this
    rw [k3]; exact this
  · intro squares hb
    set l := hist.filter fun cw => decide (covers it.bin cw.1) with hl
    have hs : ∀ cw ∈ l, (fltSq cw).isFin ∧ (fltSq cw).val = fltWeight cw ^ 2 := by
      intro cw hc
      have hm := List.mem_of_mem_filter hc
      have hle : fltWeight cw ^ 2 ≤ squares := le_sum_of_mem (f := fun cw => fltWeight cw ^ 2) (fun _ _ => sq_nonneg _) hc
      have hgr := (hg cw hm).sq
      obtain ⟨c, _ | w⟩ := cw
      · have := Flt.ofNat_spec (F := F) (n := 1) (Nat.one_le_two_pow)
        rw [Nat.cast_one] at this
        exact ⟨this.1, this.2.trans (by simp [fltWeight])⟩
      · have hw := hfin _ hm w rfl
        have e0 : fltWeight ((c, some w) : Axis.Coordinate A × Option (Flt F)) ^ 2 = w.val * w.val := pow_two _
        rw [e0] at hle hgr ⊢
        have rep := FFmt.rep_grid (F := F) he2.1 he2.2 hgr (by rw [abs_of_nonneg (mul_self_nonneg _)]; exact hle.trans hb)
        obtain ⟨f1, f2⟩ := (Flt.mul_rounds hw hw).fin_of rep.le_maxFin
        exact ⟨f1, f2.trans (F.rs_of_rep rep.repU)⟩
    have e1 : (l.map fun cw => |(fltSq cw).val|) = l.map fun cw => fltWeight cw ^ 2 :=
      List.map_congr_left fun cw h => by rw [(hs cw h).2, abs_of_nonneg (sq_nonneg _)]
    have e2 : (l.map fun cw => (fltSq cw).val) = l.map fun cw => fltWeight cw ^ 2 := List.map_congr_left fun cw h => (hs cw h).2
    have z : (Flt.zero false : Flt F).val = 0 := rfl
    have := foldl_grid (F := F) (e := 2 * e) fltSq he2.1 he2.2 l (fun cw h => (hs cw h).1)
      (fun cw h => by rw [(hs cw h).2]; exact (hg cw (List.mem_of_mem_filter h)).sq)
      (v := Flt.zero false) trivial (by rw [z]; exact OnGrid.zero) (by rw [z, abs_zero, zero_add, e1]; exact hb)
    rw [e2, z, zero_add] at this
    rw [k3]; exact this

/-! ## Counting in floats -/

/-- one more than the largest power of two up to which all whole numbers are floats rounds down -/
theorem FFmt.rs_limit (F : FFmt) : F.rs (2 ^ F.p + 1) = 2 ^ F.p := by
  have hp := F.p_ge
  have hpos : (0 : ℚ) < 2 ^ F.p + 1 := by positivity
  obtain ⟨l1, l2⟩ := ilog2_spec hpos
  have hone : (1 : ℚ) < 2 ^ F.p := one_lt_pow₀ (by norm_num) (by omega)
  have hP : pow2 (F.p : ℤ) = 2 ^ F.p := by rw [pow2_eq, zpow_natCast]
  have hlog : ilog2 ((2 : ℚ) ^ F.p + 1) = F.p := by
    have a : ilog2 ((2 : ℚ) ^ F.p + 1) < F.p + 1 := by
      rw [← pow2_lt, pow2_succ, hP]; exact l1.trans_lt (by linarith)
    have b : (F.p : ℤ) < ilog2 ((2 : ℚ) ^ F.p + 1) + 1 := by
      rw [← pow2_lt, hP]; exact lt_trans (by linarith) l2
    omega
  have hq : F.qexp (2 ^ F.p + 1) = 1 := by
    have := F.emin_le
    unfold FFmt.qexp; rw [hlog, max_eq_left (by omega)]; ring
  rw [F.rs_nonneg hpos.le]
  unfold FFmt.rnd
  rw [hq, pow2_one]
  obtain ⟨j, hj⟩ : ∃ j, F.p = j + 2 := ⟨F.p - 2, by omega⟩
  have hfl : ⌊((2 : ℚ) ^ F.p + 1) / 2⌋ = 2 * 2 ^ j := by
    rw [Int.floor_eq_iff, hj]
    push_cast
    constructor <;> rw [pow_add] <;> linarith
  have hr : rne (((2 : ℚ) ^ F.p + 1) / 2) = 2 * 2 ^ j := by
    unfold rne
    have hd : ((2 : ℚ) ^ F.p + 1) / 2 - ((2 * 2 ^ j : ℤ) : ℚ) = 1 / 2 := by push_cast; rw [hj, pow_add]; ring
    simp only [hfl, hd, lt_irrefl, if_false]
    rw [if_pos (by omega)]
  rw [hr, hj, pow_add]; push_cast; ring

theorem count_foldl {α : Type} (l : List α) {k : ℕ} {v : Flt F} (hv : v.isFin) (hk : v.val = min (k : ℚ) (2 ^ F.p)) :
    (l.foldl (fun v _ => Flt.add v (@RNum.one (Flt F) cfg _)) v).isFin ∧
      (l.foldl (fun v _ => Flt.add v (@RNum.one (Flt F) cfg _)) v).val = min ((k + l.length : ℕ) : ℚ) (2 ^ F.p) := by
  induction l generalizing k v with
  | nil => exact ⟨hv, by simpa using hk⟩
  | cons a l ih =>
    have h1 : (@RNum.one (Flt F) cfg _).isFin ∧ (@RNum.one (Flt F) cfg _).val = 1 := by
      have := Flt.ofNat_spec (F := F) (n := 1) (Nat.one_le_two_pow)
      rwa [Nat.cast_one] at this
    have step : (Flt.add v (@RNum.one (Flt F) cfg _)).isFin ∧ (Flt.add v (@RNum.one (Flt F) cfg _)).val = min ((k + 1 : ℕ) : ℚ) (2 ^ F.p) := by
      rcases le_or_gt (2 ^ F.p) k with hle | hlt
      · have hle' : (2 : ℚ) ^ F.p ≤ k := by exact_mod_cast hle
        rw [min_eq_right hle'] at hk
        have hm : |v.val + (@RNum.one (Flt F) cfg _).val| ≤ F.maxFin := by
          rw [hk, h1.2, abs_of_pos (by positivity)]
          unfold FFmt.maxFin
          have h2 : (2 : ℚ) ≤ pow2 (F.emax - (F.p - 1)) := by rw [← pow2_one, pow2_le]; have := F.emax_ge; omega
          have h4 : (2 : ℚ) ^ 2 ≤ 2 ^ F.p := pow_le_pow_right₀ (by norm_num) F.p_ge
          push_cast
          nlinarith
        obtain ⟨f1, f2⟩ := (Flt.add_rounds hv h1.1).fin_of hm
        refine ⟨f1, ?_⟩
        rw [f2, hk, h1.2, F.rs_limit, min_eq_right (by push_cast; linarith)]
      · have hlt' : (k : ℚ) + 1 ≤ 2 ^ F.p := by exact_mod_cast hlt
        rw [min_eq_left (by linarith)] at hk
        have hem := F.emax_ge
        have hmi := F.emin_le
        have hpg := F.p_ge
        have hsum : v.val + (@RNum.one (Flt F) cfg _).val = k + 1 := by rw [hk, h1.2]
        have hnn : (0 : ℚ) ≤ k + 1 := by positivity
        obtain ⟨f1, f2⟩ := Flt.add_grid (F := F) (e := 0) (by unfold FFmt.qmin; omega) (by omega) hv h1.1
          ⟨k + 1, by rw [hsum]; push_cast; simp⟩ (by rw [hsum, abs_of_nonneg hnn, zero_add, zpow_natCast]; exact hlt')
        refine ⟨f1, ?_⟩
        rw [f2, hsum, min_eq_left (by push_cast; exact hlt')]; push_cast; rfl
    have := ih step.1 step.2
    rw [List.foldl_cons, List.length_cons, show k + (l.length + 1) = k + 1 + l.length by omega]
    exact this

open Classical in
/-- **C74 (counts).** A histogram of floats filled without weights counts exactly up to `2^p` (16 777 216 for `f32`, 9 007 199 254 740 992 for `f64`), and stops counting there: every bin has the number of its
fills, or `2^p` if that is smaller. -/
theorem C74_counts (hf : FaithfulAxis axes n covers dom) {h : VecHistogram A (Flt F)} (hnew : VecHistogram.new axes = .ok h)
    (coords : List (Axis.Coordinate A)) (hd : ∀ c ∈ coords, dom c) :
    ∃ h' items, h.callAll (coords.map .fill) = (h', none) ∧ h'.iter = .ok items ∧ items.length = n ∧
      ∀ i it, items[i]? = some it → it.index = i ∧ Axis.bin axes i = .ok (some it.bin) ∧
        it.value.isFin ∧ it.value.val = min ((coords.countP fun c => covers it.bin c : ℕ) : ℚ) (2 ^ F.p) := by
  have e0 : (coords.map .fill : List (Call (Flt F) _)) = numCalls (coords.map fun c => (c, none)) := by
    unfold numCalls; rw [List.map_map]; rfl
  have hd' : ∀ cw ∈ (coords.map fun c => ((c, none) : Axis.Coordinate A × Option (Flt F))), dom cw.1 := by
    intro cw hc
    obtain ⟨c, h1, rfl⟩ := List.mem_map.1 hc
    exact hd c h1
  rw [e0]
  obtain ⟨items, hit, hlen, hall⟩ := C51_dense hf hnew _ (numCalls_dom hd')
  refine ⟨_, items, callAll_total hf hnew (numCalls_dom hd') numCalls_total, hit, hlen, ?_⟩
  intro i it hi
  obtain ⟨k1, k2, k3⟩ := hall i it hi
  refine ⟨k1, k2, ?_⟩
  rw [numCalls_coord _ (fun c => decide (covers it.bin c)), filledWith_flt, List.filter_map, List.foldl_map] at k3
  rw [k3, List.countP_eq_length_filter]
  have := count_foldl (F := F) (coords.filter fun c => decide (covers it.bin c)) (k := 0) (v := RDefault.dflt) trivial
    (by rw [Nat.cast_zero, min_eq_left (by positivity)]; rfl)
  rw [zero_add] at this
  exact this
end
end NdHist
