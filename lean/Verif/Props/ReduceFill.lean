import Verif.Props.Reduce
import Verif.Props.StabilityMore
/-!
# C80, continued: the parallel total of a histogram of floats
-/
namespace NdHist
open RNum
set_option linter.unusedSectionVars false

section
variable [cfg : Cfg] {F : FFmt} {A : Type} [Axis A] {axes : A} {n : Nat} {covers : Axis.Interval A → Axis.Coordinate A → Prop} {dom : Axis.Coordinate A → Prop} {e : ℤ}

theorem SameFilled.callAllCaught {V : Type} [RDefault V] {d : VecHistogram A V} {s : HashHistogram A V} (h : SameFilled n d s) (calls : List (Call V (Axis.Coordinate A))) :
    SameFilled n (d.callAllCaught calls) (s.callAllCaught calls) := by
  induction calls generalizing d s with
  | nil => exact h
  | cons c cs ih => exact ih (h.call c).1

open Classical in
private theorem exact_bin (he : F.qmin ≤ e ∧ e + F.p ≤ F.emax) {hist : List (Axis.Coordinate A × Option (Flt F))} (hx : ExactData e hist) (i : Nat) :
    (filledWith (callsIn axes i (numCalls hist)) RDefault.dflt : Flt F).isFin ∧
    (filledWith (callsIn axes i (numCalls hist)) RDefault.dflt : Flt F).val = ((hist.filter fun cw => binNo axes cw.1 = some i).map fltWeight).sum := by
  have hs := hx.sublist (l := hist.filter fun cw => binNo axes cw.1 = some i) List.filter_sublist
  have ec : callsIn axes i (numCalls hist) = numCalls (hist.filter fun cw => binNo axes cw.1 = some i) := by
    rw [callsIn_binNo, numCalls_eq, numCalls_eq, List.filter_map]
    refine congrArg _ (List.filter_congr fun cw _ => ?_)
    simp only [Function.comp, numCall_coord]
  rw [ec]
  exact grid_bin he.1 he.2 _ hs.fin hs.grid hs.bound

open Classical in
private theorem exact_values (he : F.qmin ≤ e ∧ e + F.p ≤ F.emax) (hf : FaithfulAxis axes n covers dom) {h : VecHistogram A (Flt F)} (hnew : VecHistogram.new axes = .ok h)
    {hist : List (Axis.Coordinate A × Option (Flt F))} (hd : ∀ cw ∈ hist, dom cw.1) (hx : ExactData e hist) :
    (∀ v ∈ (h.callAllCaught (numCalls hist)).values, v.isFin ∧ OnGrid e v.val) ∧
    ((h.callAllCaught (numCalls hist)).values.map fun v => |v.val|).sum ≤ (2 : ℚ) ^ (e + F.p) ∧
    ((h.callAllCaught (numCalls hist)).values.map Flt.val).sum = ((hist.filter fun cw => InSomeBin axes n covers cw.1).map fltWeight).sum := by
  obtain ⟨ok, -, hv⟩ := C28_dense hf.lawful hnew (numCalls hist)
  have ev : (h.callAllCaught (numCalls hist)).values = (List.range n).map fun i => filledWith (callsIn axes i (numCalls hist)) RDefault.dflt := by
    apply List.ext_getElem?
    intro i
    have := hv i
    unfold VecHistogram.valueAtIndex at this
    rw [this, List.getElem?_map]
    by_cases hi : i < n
    · rw [if_pos hi, List.getElem?_range hi]; rfl
    · rw [if_neg hi, List.getElem?_eq_none (by simpa using hi)]; rfl
  rw [ev]
  have key : ∀ f : Axis.Coordinate A × Option (Flt F) → ℚ, ((List.range n).map fun i => ((hist.filter fun cw => binNo axes cw.1 = some i).map f).sum).sum =
      ((hist.filter fun cw => (binNo axes cw.1).any (· < n)).map f).sum := by
    intro f
    rw [← sum_filter_range (fun cw : Axis.Coordinate A × Option (Flt F) => binNo axes cw.1)]
    rfl
  refine ⟨?_, ?_, ?_⟩
  · intro v hv
    obtain ⟨i, -, rfl⟩ := List.mem_map.1 hv
    obtain ⟨h1, h2⟩ := exact_bin (axes := axes) he hx i
    exact ⟨h1, by rw [h2]; exact OnGrid.sum fun cw hc => hx.grid cw (List.mem_of_mem_filter hc)⟩
  · rw [List.map_map]
    refine (sum_map_le _ _ (fun i => ((hist.filter fun cw => binNo axes cw.1 = some i).map fun cw => |fltWeight cw|).sum) fun i _ => ?_).trans ?_
    · show |(filledWith _ _ : Flt F).val| ≤ _
      rw [(exact_bin he hx i).2]
      induction hist.filter fun cw => binNo axes cw.1 = some i with
      | nil => simp
      | cons x l ih => simp only [List.map_cons, List.sum_cons]; exact (abs_add_le _ _).trans (add_le_add le_rfl ih)
    · rw [key]
      exact (hx.sublist List.filter_sublist).bound
  · rw [List.map_map]
    have e1 : (Flt.val ∘ fun i => (filledWith (callsIn axes i (numCalls hist)) RDefault.dflt : Flt F)) = fun i => ((hist.filter fun cw => binNo axes cw.1 = some i).map fltWeight).sum :=
      funext fun i => (exact_bin he hx i).2
    rw [e1, key]
    refine congrArg (fun l => (List.map fltWeight l).sum) (List.filter_congr fun cw hm => ?_)
    have hdc := hd cw hm
    rw [Bool.eq_iff_iff, decide_eq_true_iff, Option.any_eq_true]
    constructor
    · rintro ⟨i, hi, -⟩
      have hi' := (binNo_iff _ _ _).1 hi
      have hin := hf.lawful.index_lt _ _ hi'
      obtain ⟨b, hb⟩ := hf.lawful.bin_some i hin
      exact ⟨i, b, hin, hb, (hf.index_iff _ hdc i b hin hb).1 hi'⟩
    · rintro ⟨i, b, h1, h2, h3⟩
      exact ⟨i, (binNo_iff _ _ _).2 ((hf.index_iff _ hdc i b h1 h2).2 h3), by simpa using h1⟩

open Classical in
/-- **C80 (totals of floats).** Fill a histogram of floats with weights within the limits of exact sums. However the work is divided, the parallel sum of all bins is exactly the sum of the weights of the coordinates
that some bin contains. -/
theorem C80_float_fills (he : F.qmin ≤ e ∧ e + F.p ≤ F.emax) (hf : FaithfulAxis axes n covers dom) {h : VecHistogram A (Flt F)} (hnew : VecHistogram.new axes = .ok h)
    {hist : List (Axis.Coordinate A × Option (Flt F))} (hd : ∀ cw ∈ hist, dom cw.1) (hx : ExactData e hist) (s : Split (Flt F)) (hs : s.items = (h.callAllCaught (numCalls hist)).parValues) :
    ∃ v, s.sum = .ok v ∧ v.isFin ∧ v.val = ((hist.filter fun cw => InSomeBin axes n covers cw.1).map fltWeight).sum := by
  obtain ⟨h1, h2, h3⟩ := exact_values he hf hnew hd hx
  obtain ⟨v, v1, v2, v3⟩ := C80_float_exact he s (fun v hv => (h1 v (by rw [hs] at hv; exact hv)).1) (fun v hv => (h1 v (by rw [hs] at hv; exact hv)).2) (by rw [hs]; exact h2)
  exact ⟨v, v1, v2, by rw [v3, hs]; exact h3⟩

open Classical in
/-- **C80 (totals of floats, sparse).** The same for sparse histograms, whatever the order in which the map yields its entries. -/
theorem C80_float_fills_sparse (he : F.qmin ≤ e ∧ e + F.p ≤ F.emax) (hf : FaithfulAxis axes n covers dom)
    {hist : List (Axis.Coordinate A × Option (Flt F))} (hd : ∀ cw ∈ hist, dom cw.1) (hx : ExactData e hist)
    (o : ((HashHistogram.new axes : HashHistogram A (Flt F)).callAllCaught (numCalls hist)).values.Order) (s : Split (Flt F))
    (hs : s.items = ((HashHistogram.new axes : HashHistogram A (Flt F)).callAllCaught (numCalls hist)).parValues o) :
    ∃ v, s.sum = .ok v ∧ v.isFin ∧ v.val = ((hist.filter fun cw => InSomeBin axes n covers cw.1).map fltWeight).sum := by
  obtain ⟨d, hnew, -⟩ := C26_new (V := Flt F) hf.lawful
  have same := (SameFilled.new hf.lawful hnew).callAllCaught (numCalls hist)
  obtain ⟨h1, h2, h3⟩ := exact_values he hf hnew hd hx
  have z : (RDefault.dflt : Flt F).val = 0 := rfl
  have s1 := same.sum (fun v => |v.val|) (by rw [z, abs_zero]) o
  have s2 := same.sum Flt.val z o
  have mem : ∀ v ∈ s.items, v ∈ (d.callAllCaught (numCalls hist)).values := by
    rw [hs]
    intro v hv
    obtain ⟨kv, hkv, rfl⟩ := List.mem_map.1 hv
    have g1 := (HMap.mem_entries_iff same.oks.nodup _ _).1 (o.perm.mem_iff.1 hkv)
    have hi : kv.1 < n := same.oks.valid _ (List.mem_map.2 ⟨kv, o.perm.mem_iff.1 hkv, rfl⟩)
    have := same.val _ hi
    rw [show HashHistogram.valueAtIndex _ kv.1 = some kv.2 from g1] at this
    exact List.mem_of_getElem? this
  obtain ⟨v, v1, v2, v3⟩ := C80_float_exact he s (fun v hv => (h1 v (mem v hv)).1) (fun v hv => (h1 v (mem v hv)).2) (by rw [hs]; exact s1.trans_le h2)
  exact ⟨v, v1, v2, by rw [v3, hs]; exact s2.trans h3⟩
end
end NdHist
