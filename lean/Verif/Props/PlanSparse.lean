import Verif.Props.MergeTreeSparse
import Verif.Props.BadWeights
import Verif.Props.FloatExact
import Verif.Props.Wrap
/-!
# C57, C73, C74, C79 for sparse histograms filled in parts and merged
-/
set_option linter.unusedSectionVars false
namespace NdHist
open Classical

section
variable {A T : Type} [cfg : Cfg] [Axis A] [PEq A] [RNum T]
variable {axes : A} {n : Nat} {covers : Axis.Interval A → Axis.Coordinate A → Prop} {dom : Axis.Coordinate A → Prop}

/-- However a plan is run with sparse histograms (every form of addition, every iteration order), it ends with a histogram, and not with a panic or an error. Whatever order the items of that
histogram are visited in: no two are of the same bin, each has the interval of its bin, which contains a coordinate of the data, and a value with the property `claim`; and every
bin that contains a coordinate of the data has an item. -/
def EverySparseRun (axes : A) (n : Nat) (covers : Axis.Interval A → Axis.Coordinate A → Prop) (plan : MergePlan (Axis.Coordinate A × Option T)) (claim : Axis.Interval A → T → Prop) : Prop :=
  (∃ x, SparseOutcome axes plan.numCalls x) ∧ ∀ x, SparseOutcome axes plan.numCalls x → ∃ m : HashHistogram A T, x = .ok (.ok m) ∧ ∀ o : m.values.Order, ∃ items, m.iter o = .ok items ∧
    (items.map (·.index)).Nodup ∧
    (∀ it ∈ items, it.index < n ∧ Axis.bin axes it.index = .ok (some it.bin) ∧ (∃ cw ∈ plan.calls, covers it.bin cw.1) ∧ claim it.bin it.value) ∧
    ∀ i b, i < n → Axis.bin axes i = .ok (some b) → (∃ cw ∈ plan.calls, covers b cw.1) → ∃ it ∈ items, it.index = i ∧ it.bin = b

theorem MergePlan.numCalls_calls {C : Type} (plan : MergePlan (C × Option T)) : plan.numCalls.calls = NdHist.numCalls plan.calls := by
  induction plan with
  | share => rfl
  | merge l r ihl ihr => simp only [MergePlan.numCalls, MergePlan.calls, ihl, ihr, NdHist.numCalls, List.map_append]

/-- A property of values that holds of what a share puts into a bin, and is kept by additions, holds of what a plan puts into a bin. -/
theorem EverySparseRun.of_invariant (hf : FaithfulAxis axes n covers dom) (hrefl : PEq.peq axes axes = true) (Q : MergePlan (Axis.Coordinate A × Option T) → Prop)
    (P : MergePlan (Axis.Coordinate A × Option T) → Axis.Interval A → T → Prop) (hQ : ∀ l r, Q (.merge l r) → Q l ∧ Q r)
    (total : ∀ hist, Q (.share hist) → ∀ call ∈ NdHist.numCalls hist, ∀ v, (call.on v).2 = none)
    (leaf : ∀ hist b, Q (.share hist) → P (.share hist) b (filledWith (NdHist.numCalls (hist.filter fun cw => decide (covers b cw.1))) RDefault.dflt))
    (none_ : ∀ plan b, Q plan → (∀ cw ∈ plan.calls, ¬ covers b cw.1) → P plan b RDefault.dflt)
    (skip : ∀ l r b x, Q (.merge l r) → (∀ cw ∈ r.calls, ¬ covers b cw.1) → P l b x → P (.merge l r) b x)
    (add : ∀ l r b x y, Q (.merge l r) → P l b x → P r b y → ∃ z, RNum.add x y = .ok z ∧ P (.merge l r) b z)
    (plan : MergePlan (Axis.Coordinate A × Option T)) (hd : ∀ cw ∈ plan.calls, dom cw.1) (hq : Q plan) : EverySparseRun axes n covers plan (P plan) := by
  have hl := hf.lawful
  -- what a histogram holds that a plan ended with
  let Good (plan : MergePlan (Axis.Coordinate A × Option T)) (m : HashHistogram A T) : Prop :=
    m.Ok n ∧ m.axes = axes ∧ ∀ i b, i < n → Axis.bin axes i = .ok (some b) → (m.valueAtIndex i = none ↔ ∀ cw ∈ plan.calls, ¬ covers b cw.1) ∧ ∀ v, m.valueAtIndex i = some v → P plan b v
  have getD : ∀ {plan m i b}, Q plan → Good plan m → i < n → Axis.bin axes i = .ok (some b) → P plan b ((m.valueAtIndex i).getD RDefault.dflt) := by
    intro plan m i b hq hg hi hb
    obtain ⟨h1, h2⟩ := hg.2.2 i b hi hb
    rcases hv : m.valueAtIndex i with _ | v
    · exact none_ plan b hq (h1.1 hv)
    · exact h2 v hv
  have lt : ∀ {m : HashHistogram A T} {i}, m.Ok n → m.valueAtIndex i ≠ none → i < n := by
    intro m i ok h
    rcases hv : m.valueAtIndex i with _ | v
    · exact absurd hv h
    · exact ok.valid _ ((HMap.get_isSome _ _).1 ⟨_, hv⟩)
  have bin : ∀ {i}, i < n → ∃ b, Axis.bin axes i = .ok (some b) := fun {i} hi => hl.bin_some i hi
  have merge : ∀ {l r a b m}, Q (.merge l r) → Good l a → Good r b → ((∃ ko, a.opBorrow .add b ko = .ok (.ok m)) ∨ ∃ ro, a.opAssign .add b ro = (m, none)) → Good (.merge l r) m := by
    intro l r a b m hq ha hb h
    obtain ⟨ql, qr⟩ := hQ l r hq
    have nil : ∀ I, (∀ cw ∈ (MergePlan.merge l r).calls, ¬ covers I cw.1) ↔ (∀ cw ∈ l.calls, ¬ covers I cw.1) ∧ ∀ cw ∈ r.calls, ¬ covers I cw.1 := by
      intro I
      simp only [MergePlan.calls, List.mem_append]
      exact ⟨fun h => ⟨fun cw hc => h cw (.inl hc), fun cw hc => h cw (.inr hc)⟩, fun h cw hc => hc.elim (h.1 cw) (h.2 cw)⟩
    rcases h with ⟨ko, h⟩ | ⟨ro, h⟩
    · obtain ⟨o, ax, v⟩ := C33_binwise_sparse .add ha.1 hb.1 ko h
      refine ⟨o, by rw [ax, ha.2.1], fun i I hi hI => ?_⟩
      have hv := v i
      obtain ⟨a1, -⟩ := ha.2.2 i I hi hI
      obtain ⟨b1, -⟩ := hb.2.2 i I hi hI
      have pa := getD ql ha hi hI
      have pb := getD qr hb hi hI
      obtain ⟨z, z1, z2⟩ := add l r I _ _ hq pa pb
      have z1 : ROps.op .add _ _ = .ok z := z1
      rw [nil, ← a1, ← b1]
      rcases hx : a.valueAtIndex i with _ | x <;> rcases hy : b.valueAtIndex i with _ | y <;> rw [hx, hy] at hv z1 <;>
        simp only [HashHistogram.merged, Option.getD_some, Option.getD_none] at hv z1
      · rw [← Except.ok.inj hv]; simp
      all_goals
        rw [z1] at hv
        rw [← Except.ok.inj hv]
        refine ⟨by simp, fun w hw => ?_⟩
        obtain rfl := Option.some.inj hw
        exact z2
    · obtain ⟨o, ax, v1, v2⟩ := C33_assign_sparse .add ha.1 hb.1 ro h
      refine ⟨o, by rw [ax, ha.2.1], fun i I hi hI => ?_⟩
      obtain ⟨a1, a2⟩ := ha.2.2 i I hi hI
      obtain ⟨b1, b2⟩ := hb.2.2 i I hi hI
      have pa := getD ql ha hi hI
      rw [nil, ← a1, ← b1]
      rcases hy : b.valueAtIndex i with _ | y
      · rw [v1 i hy]
        exact ⟨by simp, fun w hw => skip l r I w hq (b1.1 hy) (a2 w hw)⟩
      · obtain ⟨z, z1, z2⟩ := v2 i y hy
        rw [z2]
        obtain ⟨z', y1, y2⟩ := add l r I _ _ hq pa (b2 y hy)
        have y1 : ROps.op .add _ _ = .ok z' := y1
        rw [z1] at y1
        obtain rfl := Except.ok.inj y1
        refine ⟨by simp, fun w hw => ?_⟩
        obtain rfl := Option.some.inj hw
        exact y2
  have key : ∀ plan : MergePlan (Axis.Coordinate A × Option T), (∀ cw ∈ plan.calls, dom cw.1) → Q plan →
      (∃ x, SparseOutcome axes plan.numCalls x) ∧ ∀ x, SparseOutcome axes plan.numCalls x → ∃ m, x = .ok (.ok m) ∧ Good plan m := by
    intro plan
    induction plan with
    | share hist =>
      intro hd hq
      have hd : ∀ cw ∈ hist, dom cw.1 := hd
      have hc := callAll_total_sparse hf (numCalls_dom hd) (total hist hq)
      have hg : Good (.share hist) ((HashHistogram.new axes : HashHistogram A T).callAllCaught (NdHist.numCalls hist)) := by
        refine ⟨(HashHistogram.new_ok hl).callAllCaught _, by rw [HashHistogram.callAllCaught_axes]; rfl, fun i b hi hb => ?_⟩
        rw [C28_sparse, callsIn_eq_covers hf (numCalls_dom hd) hi hb, numCalls_coord hist (fun c => decide (covers b c))]
        have e : NdHist.numCalls (hist.filter fun cw => decide (covers b cw.1)) = [] ↔ ∀ cw ∈ hist, ¬ covers b cw.1 := by
          unfold NdHist.numCalls
          rw [List.map_eq_nil_iff, List.filter_eq_nil_iff]
          simp
        by_cases hn : ∀ cw ∈ hist, ¬ covers b cw.1
        · rw [if_pos (e.2 hn)]; exact ⟨by simpa [MergePlan.calls] using hn, by simp⟩
        · rw [if_neg (fun h => hn (e.1 h))]
          refine ⟨by simpa [MergePlan.calls] using hn, fun v hv => ?_⟩
          obtain rfl := Option.some.inj hv
          exact leaf hist b hq
      refine ⟨⟨_, .share hc⟩, fun x hx => ?_⟩
      cases hx with
      | share h =>
        rw [hc] at h
        obtain ⟨rfl, -⟩ := Prod.mk.inj h
        exact ⟨_, rfl, hg⟩
      | sharePanic h =>
        rw [hc] at h
        cases (Prod.mk.inj h).2
    | merge l r ihl ihr =>
      intro hd hq
      obtain ⟨ql, qr⟩ := hQ l r hq
      obtain ⟨⟨x1, s1⟩, t1⟩ := ihl (fun cw hc => hd cw (List.mem_append_left _ hc)) ql
      obtain ⟨⟨x2, s2⟩, t2⟩ := ihr (fun cw hc => hd cw (List.mem_append_right _ hc)) qr
      have good1 : ∀ {a}, SparseOutcome axes l.numCalls (.ok (.ok a)) → Good l a := fun ha => by
        obtain ⟨m, h, g⟩ := t1 _ ha
        obtain rfl := Except.ok.inj (Except.ok.inj h)
        exact g
      have good2 : ∀ {a}, SparseOutcome axes r.numCalls (.ok (.ok a)) → Good r a := fun ha => by
        obtain ⟨m, h, g⟩ := t2 _ ha
        obtain rfl := Except.ok.inj (Except.ok.inj h)
        exact g
      have hadd : ∀ a b, SparseOutcome axes l.numCalls (.ok (.ok a)) → SparseOutcome axes r.numCalls (.ok (.ok b)) →
          (∀ ko, ∃ m, a.opBorrow .add b ko = .ok (.ok m)) ∧ (∀ ro, ∃ m, a.opOwned .add b ro = .ok (.ok m)) ∧ ∀ ro, ∃ m, a.opAssign .add b ro = (m, none) := by
        intro a b ha hb
        have ga := good1 ha
        have gb := good2 hb
        have hax : PEq.peq a.axes b.axes = true := by rw [ga.2.1, gb.2.1]; exact hrefl
        have hsum : ∀ i, i < n → ∃ z, ROps.op .add ((a.valueAtIndex i).getD RDefault.dflt) ((b.valueAtIndex i).getD RDefault.dflt) = .ok z := by
          intro i hi
          obtain ⟨I, hI⟩ := bin hi
          obtain ⟨z, z1, -⟩ := add l r I _ _ hq (getD ql ga hi hI) (getD qr gb hi hI)
          exact ⟨z, z1⟩
        have hown : ∀ ro, ∃ m, a.opOwned .add b ro = .ok (.ok m) := fun ro =>
          (C35_sparse_exact .add ga.1 gb.1 hax (HashHistogram.someKeyOrder a b) ro).2.1.2 fun i h => hsum i (lt gb.1 h)
        refine ⟨fun ko => (C35_sparse_exact .add ga.1 gb.1 hax ko (HMap.someOrder _)).1.2 fun i h => hsum i (h.elim (lt ga.1) (lt gb.1)), hown, fun ro => ?_⟩
        obtain ⟨m, hm⟩ := hown ro
        exact ⟨m, HashHistogram.opOwned_assign ro hm⟩
      obtain ⟨a, rfl, -⟩ := t1 x1 s1
      obtain ⟨b, rfl, -⟩ := t2 x2 s2
      refine ⟨⟨_, .borrow (HashHistogram.someKeyOrder a b) s1 s2⟩, fun x hx => ?_⟩
      cases hx with
      | borrow ko ha hb =>
        obtain ⟨m, hm⟩ := (hadd _ _ ha hb).1 ko
        exact ⟨m, hm, merge hq (good1 ha) (good2 hb) (.inl ⟨ko, hm⟩)⟩
      | owned ro ha hb =>
        obtain ⟨m, hm⟩ := (hadd _ _ ha hb).2.1 ro
        exact ⟨m, hm, merge hq (good1 ha) (good2 hb) (.inr ⟨ro, HashHistogram.opOwned_assign ro hm⟩)⟩
      | assign ro ha hb h => exact ⟨_, rfl, merge hq (good1 ha) (good2 hb) (.inr ⟨ro, h⟩)⟩
      | assignPanic ro ha hb h =>
        obtain ⟨m', hm'⟩ := (hadd _ _ ha hb).2.2 ro
        rw [hm'] at h; cases h
      | leftFails h hx =>
        obtain ⟨m, rfl, -⟩ := t1 _ h
        exact absurd rfl (hx m)
      | rightFails h hx =>
        obtain ⟨m, rfl, -⟩ := t2 _ h
        exact absurd rfl (hx m)
  obtain ⟨he, ht⟩ := key plan hd hq
  refine ⟨he, fun x hx => ?_⟩
  obtain ⟨m, rfl, ok, hax, hval⟩ := ht x hx
  refine ⟨m, rfl, fun o => ?_⟩
  obtain ⟨items, hit, hnd, hall, hex, -⟩ := C32_iter ok o
  refine ⟨items, hit, hnd, ?_, ?_⟩
  · intro it hmem
    obtain ⟨h1, h2⟩ := hall it hmem
    rw [hax] at h2
    have hlt : it.index < n := lt ok (by rw [h1]; simp)
    obtain ⟨v1, v2⟩ := hval _ _ hlt h2
    refine ⟨hlt, h2, ?_, v2 _ h1⟩
    by_contra hc
    push Not at hc
    rw [v1.2 hc] at h1
    cases h1
  · rintro i b hi hb ⟨cw, hcw, hc⟩
    obtain ⟨v1, -⟩ := hval i b hi hb
    rcases hv : m.valueAtIndex i with _ | v
    · exact absurd hc (v1.1 hv cw hcw)
    · obtain ⟨it, hmem, rfl, -⟩ := hex i _ hv
      have := (hall it hmem).2
      rw [hax, hb] at this
      exact ⟨it, hmem, rfl, by simpa using this.symm⟩

theorem EverySparseRun.mono {plan : MergePlan (Axis.Coordinate A × Option T)} {p q : Axis.Interval A → T → Prop} (h : EverySparseRun axes n covers plan p) (hpq : ∀ b v, p b v → q b v) :
    EverySparseRun axes n covers plan q := by
  refine ⟨h.1, fun x hx => ?_⟩
  obtain ⟨m, rfl, hm⟩ := h.2 x hx
  refine ⟨m, rfl, fun o => ?_⟩
  obtain ⟨items, h1, h2, h3, h4⟩ := hm o
  exact ⟨items, h1, h2, fun it hi => ⟨(h3 it hi).1, (h3 it hi).2.1, (h3 it hi).2.2.1, hpq _ _ (h3 it hi).2.2.2⟩, h4⟩
end

section
variable {A : Type} [cfg : Cfg] [Axis A] [PEq A] {F : FFmt}
variable {axes : A} {n : Nat} {covers : Axis.Interval A → Axis.Coordinate A → Prop} {dom : Axis.Coordinate A → Prop}

theorem filter_none {C : Type} {l : List C} {p : C → Prop} (h : ∀ c ∈ l, ¬ p c) : l.filter (fun c => decide (p c)) = [] := by
  rw [List.filter_eq_nil_iff]
  intro c hc
  simpa using h c hc

/-- **C79 (sparse histograms, filled in parts).** -/
theorem C79_plan_sparse (hf : FaithfulAxis axes n covers dom) (hrefl : PEq.peq axes axes = true) (plan : MergePlan (Axis.Coordinate A × Option (Flt F))) (hd : ∀ cw ∈ plan.calls, dom cw.1) :
    EverySparseRun axes n covers plan (fun b v => SumOf plan.depth v (weightsIn covers b plan.calls)) := by
  refine EverySparseRun.of_invariant hf hrefl (fun _ => True) (fun plan b v => SumOf plan.depth v (weightsIn covers b plan.calls)) (fun _ _ _ => ⟨trivial, trivial⟩)
    (fun _ _ => numCalls_total) ?_ ?_ ?_ ?_ plan hd trivial
  · intro hist b _
    rw [filledWith_flt, foldl_fltAdd]
    refine (sumOf_foldl false _).mono ?_
    have := List.length_filter_le (fun cw => decide (covers b cw.1)) hist
    simp only [MergePlan.depth, List.length_map]
    omega
  · intro plan b _ h
    unfold weightsIn
    rw [filter_none (p := fun cw : Axis.Coordinate A × Option (Flt F) => covers b cw.1) h]
    exact (SumOf.nil false).mono (Nat.zero_le _)
  · intro l r b x _ h hx
    have e : weightsIn covers b (MergePlan.merge l r).calls = weightsIn covers b l.calls := by
      unfold weightsIn
      rw [MergePlan.calls, List.filter_append, filter_none (p := fun cw : Axis.Coordinate A × Option (Flt F) => covers b cw.1) h, List.append_nil]
    rw [e]
    refine hx.mono ?_
    simp only [MergePlan.depth]; omega
  · intro l r b x y _ hx hy
    refine ⟨_, rfl, ?_⟩
    have e : weightsIn covers b (MergePlan.merge l r).calls = weightsIn covers b l.calls ++ weightsIn covers b r.calls := by
      unfold weightsIn
      rw [MergePlan.calls, List.filter_append, List.map_append]
    rw [e]
    exact hx.add hy

theorem fltAdd_fin {C : Type} {cw : C × Option (Flt F)} (h : ∀ w, cw.2 = some w → w.isFin) : (fltAdd cw).isFin ∧ (fltAdd cw).val = fltWeight cw := by
  obtain ⟨c, _ | w⟩ := cw
  · have := Flt.ofNat_spec (F := F) (n := 1) (Nat.one_le_two_pow)
    rw [Nat.cast_one] at this
    exact this
  · exact ⟨h w rfl, rfl⟩

/-- **C57 (sparse histograms, filled in parts).** -/
theorem C57_plan_sparse (hf : FaithfulAxis axes n covers dom) (hrefl : PEq.peq axes axes = true) (plan : MergePlan (Axis.Coordinate A × Option (Flt F))) (hd : ∀ cw ∈ plan.calls, dom cw.1)
    (hfin : ∀ cw ∈ plan.calls, ∀ w, cw.2 = some w → w.isFin)
    (hr : (1 + F.u) ^ plan.depth * (plan.calls.map fun cw => |fltWeight cw|).sum ≤ F.maxFin) :
    EverySparseRun axes n covers plan (fun b v => v.isFin ∧ |v.val - ((plan.calls.filter fun cw => covers b cw.1).map fltWeight).sum| ≤
      ((1 + F.u) ^ plan.depth - 1) * ((plan.calls.filter fun cw => covers b cw.1).map fun cw => |fltWeight cw|).sum) := by
  refine (C79_plan_sparse hf hrefl plan hd).mono fun b v hv => ?_
  have hw : ∀ cw ∈ plan.calls, (fltAdd cw).isFin ∧ (fltAdd cw).val = fltWeight cw := fun cw hc => fltAdd_fin (hfin cw hc)
  have e1 : (weightsIn covers b plan.calls).map Flt.val = (plan.calls.filter fun cw => covers b cw.1).map fltWeight := by
    unfold weightsIn
    rw [List.map_map]
    exact List.map_congr_left fun cw hc => (hw cw (List.mem_of_mem_filter hc)).2
  have e2 : (weightsIn covers b plan.calls).map (fun w => |w.val|) = (plan.calls.filter fun cw => covers b cw.1).map fun cw => |fltWeight cw| := by
    unfold weightsIn
    rw [List.map_map]
    exact List.map_congr_left fun cw hc => by rw [Function.comp, (hw cw (List.mem_of_mem_filter hc)).2]
  have := hv.finite (by
    rw [e2]
    refine le_trans (mul_le_mul_of_nonneg_left (sum_filter_le _ _ _ fun _ _ => abs_nonneg _) ?_) hr
    exact zero_le_one.trans (one_le_growth _)) (by
    intro w hwm
    obtain ⟨cw, hc, rfl⟩ := List.mem_map.1 hwm
    exact (hw cw (List.mem_of_mem_filter hc)).1)
  rwa [e1, e2] at this

variable {e : ℤ}

/-- **C74 (sparse histograms, filled in parts).** -/
theorem C74_plan_sparse (he : F.qmin ≤ e ∧ e + F.p ≤ F.emax) (hf : FaithfulAxis axes n covers dom) (hrefl : PEq.peq axes axes = true) (plan : MergePlan (Axis.Coordinate A × Option (Flt F)))
    (hd : ∀ cw ∈ plan.calls, dom cw.1) (hfin : ∀ cw ∈ plan.calls, ∀ w, cw.2 = some w → w.isFin) (hg : ∀ cw ∈ plan.calls, OnGrid e (fltWeight cw)) :
    EverySparseRun axes n covers plan (fun b v => fltAbsIn covers b plan.calls ≤ (2 : ℚ) ^ (e + F.p) → v.isFin ∧ v.val = fltTotalIn covers b plan.calls) := by
  refine EverySparseRun.of_invariant hf hrefl (fun plan => (∀ cw ∈ plan.calls, ∀ w, cw.2 = some w → w.isFin) ∧ ∀ cw ∈ plan.calls, OnGrid e (fltWeight cw))
    (fun plan b v => fltAbsIn covers b plan.calls ≤ (2 : ℚ) ^ (e + F.p) → v.isFin ∧ v.val = fltTotalIn covers b plan.calls) ?_
    (fun _ _ => numCalls_total) ?_ ?_ ?_ ?_ plan hd ⟨hfin, hg⟩
  · rintro l r ⟨h1, h2⟩
    exact ⟨⟨fun cw hc => h1 cw (List.mem_append_left _ hc), fun cw hc => h2 cw (List.mem_append_left _ hc)⟩,
      fun cw hc => h1 cw (List.mem_append_right _ hc), fun cw hc => h2 cw (List.mem_append_right _ hc)⟩
  · rintro hist b ⟨h1, h2⟩ hr
    exact grid_bin he.1 he.2 _ (fun cw hc => h1 cw (List.mem_of_mem_filter hc)) (fun cw hc => h2 cw (List.mem_of_mem_filter hc)) hr
  · intro plan b _ h _
    unfold fltTotalIn
    rw [filter_none (p := fun cw : Axis.Coordinate A × Option (Flt F) => covers b cw.1) h]
    exact ⟨trivial, rfl⟩
  · intro l r b x _ h hx hr
    have h0 := filter_none (p := fun cw : Axis.Coordinate A × Option (Flt F) => covers b cw.1) h
    have e1 : fltAbsIn covers b (MergePlan.merge l r).calls = fltAbsIn covers b l.calls := by
      unfold fltAbsIn
      rw [MergePlan.calls, List.filter_append, h0, List.append_nil]
    have e2 : fltTotalIn covers b (MergePlan.merge l r).calls = fltTotalIn covers b l.calls := by
      unfold fltTotalIn
      rw [MergePlan.calls, List.filter_append, h0, List.append_nil]
    rw [e2]
    exact hx (by rwa [e1] at hr)
  · rintro l r bb x y ⟨-, hg⟩ x2 y2
    refine ⟨_, rfl, fun hr => ?_⟩
    have e1 : fltTotalIn covers bb (MergePlan.merge l r).calls = fltTotalIn covers bb l.calls + fltTotalIn covers bb r.calls := by
      simp only [fltTotalIn, MergePlan.calls, List.filter_append, List.map_append, List.sum_append]
    have e2 : fltAbsIn covers bb (MergePlan.merge l r).calls = fltAbsIn covers bb l.calls + fltAbsIn covers bb r.calls := by
      simp only [fltAbsIn, MergePlan.calls, List.filter_append, List.map_append, List.sum_append]
    have nn : ∀ q : List (Axis.Coordinate A × Option (Flt F)), 0 ≤ fltAbsIn covers bb q := fun q => sum_nonneg' _ _ (fun _ _ => abs_nonneg _)
    have le : ∀ q : List (Axis.Coordinate A × Option (Flt F)), |fltTotalIn covers bb q| ≤ fltAbsIn covers bb q := fun q => abs_sum_le_sum_abs' _ _
    have gr : ∀ q : List (Axis.Coordinate A × Option (Flt F)), (∀ cw ∈ q, OnGrid e (fltWeight cw)) → OnGrid e (fltTotalIn covers bb q) :=
      fun q hq => OnGrid.sum fun cw hc => hq cw (List.mem_of_mem_filter hc)
    rw [e2] at hr
    obtain ⟨f1, v1⟩ := x2 (by linarith [nn r.calls])
    obtain ⟨f2, v2⟩ := y2 (by linarith [nn l.calls])
    have := Flt.add_grid he.1 he.2 f1 f2 (e := e) (by rw [v1, v2]; exact (gr _ fun cw hc => hg cw (List.mem_append_left _ hc)).add (gr _ fun cw hc => hg cw (List.mem_append_right _ hc)))
      (by rw [v1, v2]; exact (abs_add_le _ _).trans ((add_le_add (le _) (le _)).trans hr))
    rw [v1, v2, ← e1] at this
    exact this
end

section
variable {A T : Type} [cfg : Cfg] [Axis A] [PEq A] [RNum T] {val : T → ℤ} {N : ℤ}
variable {axes : A} {n : Nat} {covers : Axis.Interval A → Axis.Coordinate A → Prop} {dom : Axis.Coordinate A → Prop}

/-- **C73 (sparse histograms, filled in parts).** -/
theorem C73_modulo_plan_sparse (hT : AddsModulo val N) (hf : FaithfulAxis axes n covers dom) (hrefl : PEq.peq axes axes = true) (plan : MergePlan (Axis.Coordinate A × Option T))
    (hd : ∀ cw ∈ plan.calls, dom cw.1) : EverySparseRun axes n covers plan (fun b v => val v ≡ totalIn val covers b plan.calls [ZMOD N]) := by
  have z : val (RDefault.dflt : T) = 0 := hT.zero
  refine EverySparseRun.of_invariant hf hrefl (fun _ => True) (fun plan b v => val v ≡ totalIn val covers b plan.calls [ZMOD N]) (fun _ _ _ => ⟨trivial, trivial⟩)
    (fun hist _ => hT.total hist) ?_ ?_ ?_ ?_ plan hd trivial
  · intro hist b _
    have := hT.filledWith (hist.filter fun cw => decide (covers b cw.1)) RDefault.dflt
    rw [z, zero_add] at this
    exact this
  · intro plan b _ h
    unfold totalIn
    rw [filter_none (p := fun cw : Axis.Coordinate A × Option T => covers b cw.1) h, z]
    rfl
  · intro l r b x _ h hx
    have e : totalIn val covers b (MergePlan.merge l r).calls = totalIn val covers b l.calls := by
      unfold totalIn
      rw [MergePlan.calls, List.filter_append, filter_none (p := fun cw : Axis.Coordinate A × Option T => covers b cw.1) h, List.append_nil]
    rwa [e]
  · intro l r b x y _ hx hy
    obtain ⟨c, c1, c2⟩ := hT.add x y
    refine ⟨c, c1, c2.trans ?_⟩
    have e : totalIn val covers b (MergePlan.merge l r).calls = totalIn val covers b l.calls + totalIn val covers b r.calls := by
      simp only [totalIn, MergePlan.calls, List.filter_append, List.map_append, List.sum_append]
    rw [e]
    exact hx.add hy
end
end NdHist
