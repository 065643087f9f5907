import Verif.Props.Stability
import Verif.Props.More
/-!
# C108, continued: quantiles of weighted data, and floats
-/
namespace NdHist
open scoped Classical
set_option linter.unusedSectionVars false

section
variable [cfg : Cfg] {A : Type} [Axis A] {a : A} {n : Nat} {dom : Axis.Coordinate A → Prop} {le : Axis.Coordinate A → Axis.Coordinate A → Prop} {V M : Type}
  [AddCommGroup M] [LinearOrder M] [IsOrderedAddMonoid M]

theorem sum_filter_le_filter {α : Type*} (w : α → M) (p p' : α → Bool) (l : List α) (hw : ∀ x ∈ l, 0 ≤ w x) (hp : ∀ x, p x = true → p' x = true) : ((l.filter p).map w).sum ≤ ((l.filter p').map w).sum := by
  induction l with
  | nil => simp
  | cons x l ih =>
    have ih := ih fun y hy => hw y (by simp [hy])
    have hx := hw x (by simp)
    by_cases h : p x = true
    · rw [List.filter_cons_of_pos h, List.filter_cons_of_pos (hp x h), List.map_cons, List.map_cons, List.sum_cons, List.sum_cons]
      exact add_le_add le_rfl ih
    · rw [List.filter_cons_of_neg (by simpa using h)]
      by_cases h' : p' x = true
      · rw [List.filter_cons_of_pos h', List.map_cons, List.sum_cons]; exact ih.trans (le_add_of_nonneg_left hx)
      · rw [List.filter_cons_of_neg (by simpa using h')]; exact ih

theorem any_lt_of_le {o : Option Nat} {j i : Nat} (hij : j ≤ i) (h : o.any (· < j) = true) : o.any (· < i) = true := by
  cases o with
  | none => simp at h
  | some k => simp only [Option.any_some, decide_eq_true_eq] at h ⊢; omega

/-- **C108 (quantiles, dense).** If samples move up, every quantile read off the running totals (the bin in which the total passes `k`) stays in its bin or moves to a later one. -/
theorem C108_quantile [RDefault V] (hm : MonotoneAxis a n dom le) {h : VecHistogram A V} (hnew : VecHistogram.new a = .ok h) {calls calls' : List (Call V (Axis.Coordinate A))} (q : V → M)
    (w : Call V (Axis.Coordinate A) → M) (hq : ∀ l : List (Call V (Axis.Coordinate A)), l.Sublist calls ∨ l.Sublist calls' → q (filledWith l RDefault.dflt) = (l.map w).sum)
    (hup : List.Forall₂ (fun x y => dom x.coord ∧ dom y.coord ∧ le x.coord y.coord ∧ (∃ i, Axis.index a x.coord = .ok (some i)) ∧ (∃ j, Axis.index a y.coord = .ok (some j)) ∧ w x = w y ∧ 0 ≤ w x) calls calls')
    {k : M} {i j : Nat} (hi : cumulative q (h.callAllCaught calls).valueAtIndex i ≤ k ∧ k < cumulative q (h.callAllCaught calls).valueAtIndex (i + 1))
    (hj : cumulative q (h.callAllCaught calls').valueAtIndex j ≤ k ∧ k < cumulative q (h.callAllCaught calls').valueAtIndex (j + 1)) : i ≤ j := by
  by_contra hij
  have hw : ∀ x ∈ calls, 0 ≤ w x := fun x hx => by
    obtain ⟨i, hi, rfl⟩ := List.mem_iff_getElem.1 hx
    have := (List.forall₂_iff_get.1 hup)
    exact (this.2 i hi (by rw [← this.1]; exact hi)).2.2.2.2.2.2
  have key := C108_moved_up hm hnew q w hq hup (j + 1)
  have hmono : cumulative q (h.callAllCaught calls).valueAtIndex (j + 1) ≤ cumulative q (h.callAllCaught calls).valueAtIndex i := by
    rw [cumulative_dense hm.lawful hnew calls q w fun l hl => hq l (.inl hl), cumulative_dense hm.lawful hnew calls q w fun l hl => hq l (.inl hl)]
    exact sum_filter_le_filter w _ _ calls hw fun x hx => any_lt_of_le (show j + 1 ≤ i by omega) hx
  exact absurd (hj.2.trans_le (key.trans (hmono.trans hi.1))) (lt_irrefl _)

/-- **C108 (quantiles, sparse).** -/
theorem C108_quantile_sparse [RDefault V] (hm : MonotoneAxis a n dom le) {calls calls' : List (Call V (Axis.Coordinate A))} (q : V → M)
    (w : Call V (Axis.Coordinate A) → M) (hq : ∀ l : List (Call V (Axis.Coordinate A)), l.Sublist calls ∨ l.Sublist calls' → q (filledWith l RDefault.dflt) = (l.map w).sum)
    (hup : List.Forall₂ (fun x y => dom x.coord ∧ dom y.coord ∧ le x.coord y.coord ∧ (∃ i, Axis.index a x.coord = .ok (some i)) ∧ (∃ j, Axis.index a y.coord = .ok (some j)) ∧ w x = w y ∧ 0 ≤ w x) calls calls')
    {k : M} {i j : Nat} (hi : cumulative q ((HashHistogram.new a).callAllCaught calls).valueAtIndex i ≤ k ∧ k < cumulative q ((HashHistogram.new a).callAllCaught calls).valueAtIndex (i + 1))
    (hj : cumulative q ((HashHistogram.new a).callAllCaught calls').valueAtIndex j ≤ k ∧ k < cumulative q ((HashHistogram.new a).callAllCaught calls').valueAtIndex (j + 1)) : i ≤ j := by
  by_contra hij
  have hw : ∀ x ∈ calls, 0 ≤ w x := fun x hx => by
    obtain ⟨i, hi, rfl⟩ := List.mem_iff_getElem.1 hx
    have := (List.forall₂_iff_get.1 hup)
    exact (this.2 i hi (by rw [← this.1]; exact hi)).2.2.2.2.2.2
  have key := C108_moved_up_sparse hm q w hq hup (j + 1)
  have hmono : cumulative q ((HashHistogram.new a).callAllCaught calls).valueAtIndex (j + 1) ≤ cumulative q ((HashHistogram.new a).callAllCaught calls).valueAtIndex i := by
    rw [cumulative_sparse calls q w fun l hl => hq l (.inl hl), cumulative_sparse calls q w fun l hl => hq l (.inl hl)]
    exact sum_filter_le_filter w _ _ calls hw fun x hx => any_lt_of_le (show j + 1 ≤ i by omega) hx
  exact absurd (hj.2.trans_le (key.trans (hmono.trans hi.1))) (lt_irrefl _)
end

/-! ## Floats -/

section
variable [cfg : Cfg] {F : FFmt} {A : Type} [Axis A] {a : A} {n : Nat} {dom : Axis.Coordinate A → Prop} {le : Axis.Coordinate A → Axis.Coordinate A → Prop} {e : ℤ}

/-- weights that are multiples of `2^e`, which add up to at most `2^(e+p)` in absolute value (for `f64` and whole numbers: `2^53`) -/
structure ExactData {C : Type} (e : ℤ) (hist : List (C × Option (Flt F))) : Prop where
  fin : ∀ cw ∈ hist, ∀ w, cw.2 = some w → w.isFin
  grid : ∀ cw ∈ hist, OnGrid e (fltWeight cw)
  bound : (hist.map fun cw => |fltWeight cw|).sum ≤ (2 : ℚ) ^ (e + F.p)

/-- what a call makes of zero -/
private def oneCallWeight {C : Type} (c : Call (Flt F) C) : ℚ := (c.on RDefault.dflt).1.val

theorem ExactData.sublist {C : Type} {hist l : List (C × Option (Flt F))} (h : ExactData e hist) (hl : l.Sublist hist) : ExactData e l :=
  ⟨fun cw hc => h.fin cw (hl.subset hc), fun cw hc => h.grid cw (hl.subset hc),
    ((hl.map fun cw => |fltWeight cw|).sum_le_sum (fun x hx => by obtain ⟨cw, -, rfl⟩ := List.mem_map.1 hx; exact abs_nonneg _)).trans h.bound⟩

private theorem callWeight_eq (he : F.qmin ≤ e ∧ e + F.p ≤ F.emax) {C : Type} {hist : List (C × Option (Flt F))} (h : ExactData e hist) {cw : C × Option (Flt F)} (hc : cw ∈ hist) :
    oneCallWeight (oneCall cw) = fltWeight cw := by
  have hs := h.sublist (List.singleton_sublist.2 hc)
  have := (grid_bin he.1 he.2 [cw] hs.fin hs.grid hs.bound).2
  simpa [filledWith, numCalls_eq, oneCallWeight] using this

private theorem additive_float (he : F.qmin ≤ e ∧ e + F.p ≤ F.emax) {C : Type} {hist : List (C × Option (Flt F))} (h : ExactData e hist) {l : List (Call (Flt F) C)} (hl : l.Sublist (numCalls hist)) :
    (filledWith l RDefault.dflt).val = (l.map oneCallWeight).sum := by
  rw [numCalls_eq] at hl
  obtain ⟨l, hsub, rfl⟩ := List.sublist_map_iff.1 hl
  have hs := h.sublist hsub
  have := (grid_bin he.1 he.2 l hs.fin hs.grid hs.bound).2
  rw [numCalls_eq] at this
  rw [this, List.map_map]
  exact congrArg List.sum (List.map_congr_left fun cw hc => (callWeight_eq he hs hc).symm)

private theorem abs_weights (he : F.qmin ≤ e ∧ e + F.p ≤ F.emax) {C : Type} {hist xs : List (C × Option (Flt F))} (h : ExactData e hist) (hx : ∀ x ∈ xs, x ∈ hist) :
    ((xs.map oneCall).map fun x => |oneCallWeight x|).sum = (xs.map fun x => |fltWeight x|).sum := by
  rw [List.map_map]
  exact congrArg List.sum (List.map_congr_left fun cw hc => by show |oneCallWeight (oneCall cw)| = _; rw [callWeight_eq he h (hx cw hc)])

private theorem differ_map {C : Type} {hist hist' common xs ys : List (C × Option (Flt F))} (hd : Differ hist hist' common xs ys) :
    Differ (numCalls hist) (numCalls hist') (common.map oneCall) (xs.map oneCall) (ys.map oneCall) :=
  ⟨by rw [numCalls_eq, ← List.map_append]; exact hd.left.map _, by rw [numCalls_eq, ← List.map_append]; exact hd.right.map _⟩

/-- **C108 (floats).** Two data sets of float weights within the limits of exact sums that differ in `xs` and `ys`: the contents of all bins together differ by at most the absolute weights of `xs` and `ys`, dense and
sparse, and bins in which none of these is counted hold the same number. -/
theorem C108_float (he : F.qmin ≤ e ∧ e + F.p ≤ F.emax) (hl : LawfulAxis a n) {h : VecHistogram A (Flt F)} (hnew : VecHistogram.new a = .ok h) {hist hist' common xs ys : List (Axis.Coordinate A × Option (Flt F))}
    (hd : Differ hist hist' common xs ys) (hx : ExactData e hist) (hx' : ExactData e hist') :
    (∀ I : Finset Nat, ∑ i ∈ I, |content Flt.val (h.callAllCaught (numCalls hist)).valueAtIndex i - content Flt.val (h.callAllCaught (numCalls hist')).valueAtIndex i| ≤
      (xs.map fun x => |fltWeight x|).sum + (ys.map fun x => |fltWeight x|).sum) ∧
    (∀ I : Finset Nat, ∑ i ∈ I, |content Flt.val ((HashHistogram.new a : HashHistogram A (Flt F)).callAllCaught (numCalls hist)).valueAtIndex i -
      content Flt.val ((HashHistogram.new a : HashHistogram A (Flt F)).callAllCaught (numCalls hist')).valueAtIndex i| ≤ (xs.map fun x => |fltWeight x|).sum + (ys.map fun x => |fltWeight x|).sum) ∧
    ∀ i, (∀ x ∈ xs ++ ys, Axis.index a x.1 ≠ .ok (some i)) → content Flt.val (h.callAllCaught (numCalls hist)).valueAtIndex i = content Flt.val (h.callAllCaught (numCalls hist')).valueAtIndex i := by
  have hq : ∀ l : List (Call (Flt F) (Axis.Coordinate A)), l.Sublist (numCalls hist) ∨ l.Sublist (numCalls hist') → (filledWith l RDefault.dflt).val = (l.map oneCallWeight).sum := by
    rintro l (hl | hl)
    · exact additive_float he hx hl
    · exact additive_float he hx' hl
  have e1 := abs_weights he hx (xs := xs) fun x h => hd.left.mem_iff.2 (List.mem_append_right _ h)
  have e2 := abs_weights he hx' (xs := ys) fun x h => hd.right.mem_iff.2 (List.mem_append_right _ h)
  obtain ⟨h1, h2⟩ := C108_dense hl hnew (differ_map hd) Flt.val _ hq
  obtain ⟨h3, -⟩ := C108_sparse (a := a) (differ_map hd) Flt.val _ hq
  rw [e1, e2] at h1 h3
  refine ⟨h1, h3, fun i hi => h2 i fun x hx => ?_⟩
  rw [← List.map_append] at hx
  obtain ⟨cw, hc, rfl⟩ := List.mem_map.1 hx
  rw [numCall_coord]
  exact hi cw hc

/-- **C108 (floats, samples that move up).** Within the limits of exact sums and without negative weights, no running total of float bins gets larger, and every quantile stays in its bin or moves to a later one. -/
theorem C108_moved_up_float (he : F.qmin ≤ e ∧ e + F.p ≤ F.emax) (hm : MonotoneAxis a n dom le) {h : VecHistogram A (Flt F)} (hnew : VecHistogram.new a = .ok h)
    {hist hist' : List (Axis.Coordinate A × Option (Flt F))} (hx : ExactData e hist) (hx' : ExactData e hist')
    (hup : List.Forall₂ (fun x y => dom x.1 ∧ dom y.1 ∧ le x.1 y.1 ∧ (∃ i, Axis.index a x.1 = .ok (some i)) ∧ (∃ j, Axis.index a y.1 = .ok (some j)) ∧ fltWeight x = fltWeight y ∧ 0 ≤ fltWeight x) hist hist') :
    (∀ m, cumulative Flt.val (h.callAllCaught (numCalls hist')).valueAtIndex m ≤ cumulative Flt.val (h.callAllCaught (numCalls hist)).valueAtIndex m) ∧
    ∀ (k : ℚ) (i j : Nat), (cumulative Flt.val (h.callAllCaught (numCalls hist)).valueAtIndex i ≤ k ∧ k < cumulative Flt.val (h.callAllCaught (numCalls hist)).valueAtIndex (i + 1)) →
      (cumulative Flt.val (h.callAllCaught (numCalls hist')).valueAtIndex j ≤ k ∧ k < cumulative Flt.val (h.callAllCaught (numCalls hist')).valueAtIndex (j + 1)) → i ≤ j := by
  have hq : ∀ l : List (Call (Flt F) (Axis.Coordinate A)), l.Sublist (numCalls hist) ∨ l.Sublist (numCalls hist') → (filledWith l RDefault.dflt).val = (l.map oneCallWeight).sum := by
    rintro l (hl | hl)
    · exact additive_float he hx hl
    · exact additive_float he hx' hl
  have hup' : List.Forall₂ (fun x y : Call (Flt F) (Axis.Coordinate A) => dom x.coord ∧ dom y.coord ∧ le x.coord y.coord ∧ (∃ i, Axis.index a x.coord = .ok (some i)) ∧ (∃ j, Axis.index a y.coord = .ok (some j)) ∧
      oneCallWeight x = oneCallWeight y ∧ 0 ≤ oneCallWeight x) (numCalls hist) (numCalls hist') := by
    rw [numCalls_eq, numCalls_eq, List.forall₂_map_left_iff, List.forall₂_map_right_iff]
    rw [List.forall₂_iff_get] at hup ⊢
    refine ⟨hup.1, fun i h1 h2 => ?_⟩
    obtain ⟨g1, g2, g3, g4, g5, g6, g7⟩ := hup.2 i h1 h2
    rw [numCall_coord, numCall_coord, callWeight_eq he hx (List.get_mem _ _), callWeight_eq he hx' (List.get_mem _ _)]
    exact ⟨g1, g2, g3, g4, g5, g6, g7⟩
  exact ⟨C108_moved_up hm hnew Flt.val _ hq hup', fun k i j hi hj => C108_quantile hm hnew Flt.val _ hq hup' hi hj⟩
end
end NdHist
