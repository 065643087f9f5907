import Verif.Lemmas.Hist
import Verif.Props.Axes
import Mathlib.Algebra.BigOperators.Group.List.Basic
import Mathlib.Algebra.Group.Basic
import Mathlib.Data.List.Perm.Basic
/-!
# Filling histograms: C26 - C32
-/
namespace NdHist
section
variable {A V : Type} [Cfg] [Axis A]

/-! ## C26 -/

/-- C26: a new dense histogram has one default value for each bin number below `num_bins`. -/
theorem C26_new [RDefault V] {axes : A} {n : Nat} (hl : LawfulAxis axes n) :
    ∃ h : VecHistogram A V, VecHistogram.new axes = .ok h ∧ h.Ok n ∧ h.axes = axes ∧
      ∀ i, h.valueAtIndex i = if i < n then some RDefault.dflt else none := by
  refine ⟨⟨axes, List.replicate n RDefault.dflt⟩, ?_, ⟨hl, by simp⟩, rfl, ?_⟩
  · simp only [VecHistogram.new, hl.numBins]; rfl
  · intro i
    simp only [VecHistogram.valueAtIndex, List.getElem?_replicate]

/-- C26: reading by coordinate and by bin number agree: `value(c)` is the value of the bin containing `c`, which exists, and
`None` exactly when the axes have no bin for `c`. -/
theorem C26_value {h : VecHistogram A V} {n : Nat} (ok : h.Ok n) (c : Axis.Coordinate A) :
    (∀ i, Axis.index h.axes c = .ok (some i) → ∃ v, h.valueAtIndex i = some v ∧ h.value c = .ok (some v)) ∧
    (Axis.index h.axes c = .ok none ↔ h.value c = .ok none) ∧
    (∀ p, Axis.index h.axes c = .error p ↔ h.value c = .error p) ∧
    (∀ i, (∃ v, h.valueAtIndex i = some v) ↔ i < n) := by
  have hs : ∀ i, Axis.index h.axes c = .ok (some i) → ∃ v, h.valueAtIndex i = some v ∧ h.value c = .ok (some v) := by
    intro i hi
    obtain ⟨v, hv⟩ := ok.get (ok.lawful.index_lt _ _ hi)
    refine ⟨v, hv, ?_⟩
    simp only [VecHistogram.value, hi]
    exact congrArg Except.ok hv
  refine ⟨hs, ?_, ?_, ?_⟩
  · rcases hi : Axis.index h.axes c with p | _ | i
    · simp [VecHistogram.value, hi, bind, Except.bind]
    · simp [VecHistogram.value, hi, bind, Except.bind, pure, Except.pure]
    · obtain ⟨v, _, hv⟩ := hs i hi
      simp [hv]
  · intro p
    rcases hi : Axis.index h.axes c with q | _ | i
    · simp [VecHistogram.value, hi, bind, Except.bind]
    · simp [VecHistogram.value, hi, bind, Except.bind, pure, Except.pure]
    · obtain ⟨v, _, hv⟩ := hs i hi
      simp [hv]
  · intro i
    rw [← Option.isSome_iff_exists, ← Option.ne_none_iff_isSome, Ne, ok.get_none, Nat.not_le]

/-! ## C27 -/

/-- C27, dense: a fill applies the value's own fill once to the value of the bin containing the coordinate, reports exactly its
panic, and changes nothing else; if the axes have no bin for the coordinate nothing changes. -/
theorem C27_dense {h : VecHistogram A V} {n : Nat} (ok : h.Ok n) (call : Call V (Axis.Coordinate A)) :
    (h.call call).1.axes = h.axes ∧ (h.call call).1.Ok n ∧
    (∀ i, Axis.index h.axes call.coord = .ok (some i) →
      (∃ v, h.valueAtIndex i = some v ∧ (h.call call).1.valueAtIndex i = some (call.on v).1 ∧
        (h.call call).2 = (call.on v).2) ∧
      ∀ j, j ≠ i → (h.call call).1.valueAtIndex j = h.valueAtIndex j) ∧
    (Axis.index h.axes call.coord = .ok none → h.call call = (h, none)) ∧
    (∀ p, Axis.index h.axes call.coord = .error p → h.call call = (h, some p)) := by
  refine ⟨VecHistogram.call_axes h call, ok.call call, ?_, fun hi => VecHistogram.call_none hi,
    fun p hi => VecHistogram.call_error hi⟩
  intro i hi
  obtain ⟨v, hv⟩ := ok.get (ok.lawful.index_lt _ _ hi)
  refine ⟨⟨v, hv, ?_, ?_⟩, ?_⟩
  · rw [VecHistogram.call_get, if_pos hi, hv]; rfl
  · rw [VecHistogram.call_some hi hv]
  · intro j hj
    rw [VecHistogram.call_get, if_neg]
    rw [hi]; simpa using fun e => hj e.symm

/-- C27, sparse: the same, where a bin without a value is treated as holding the default. -/
theorem C27_sparse [RDefault V] {h : HashHistogram A V} {n : Nat} (ok : h.Ok n) (call : Call V (Axis.Coordinate A)) :
    (h.call call).1.axes = h.axes ∧ (h.call call).1.Ok n ∧
    (∀ i, Axis.index h.axes call.coord = .ok (some i) →
      (h.call call).1.valueAtIndex i = some (call.on ((h.valueAtIndex i).getD RDefault.dflt)).1 ∧
      (h.call call).2 = (call.on ((h.valueAtIndex i).getD RDefault.dflt)).2 ∧
      ∀ j, j ≠ i → (h.call call).1.valueAtIndex j = h.valueAtIndex j) ∧
    (Axis.index h.axes call.coord = .ok none → h.call call = (h, none)) ∧
    (∀ p, Axis.index h.axes call.coord = .error p → h.call call = (h, some p)) := by
  refine ⟨HashHistogram.call_axes h call, ok.call call, ?_, ?_, ?_⟩
  · intro i hi
    refine ⟨by rw [HashHistogram.call_get, if_pos hi], ?_, ?_⟩
    · rw [HashHistogram.call_eq, hi]; rfl
    · intro j hj
      rw [HashHistogram.call_get, if_neg]
      rw [hi]; simpa using fun e => hj e.symm
  · intro hi; rw [HashHistogram.call_eq, hi]
  · intro p hi; rw [HashHistogram.call_eq, hi]

/-! ## C28 -/

/-- C28, dense: after any history, bin `i` holds the default value filled with exactly the data whose coordinate lies in
bin `i`, in the order of the history. Panicking calls may be among them (a program that catches panics). -/
theorem C28_dense [RDefault V] {axes : A} {n : Nat} (hl : LawfulAxis axes n) {h : VecHistogram A V}
    (hnew : VecHistogram.new axes = .ok h) (calls : List (Call V (Axis.Coordinate A))) :
    (h.callAllCaught calls).Ok n ∧ (h.callAllCaught calls).axes = axes ∧
    ∀ i, (h.callAllCaught calls).valueAtIndex i =
      if i < n then some (filledWith (callsIn axes i calls) RDefault.dflt) else none := by
  obtain ⟨h', h1, h2, h3, h4⟩ := C26_new (V := V) hl
  rw [hnew] at h1; cases h1
  refine ⟨h2.callAllCaught calls, by rw [VecHistogram.callAllCaught_axes, h3], fun i => ?_⟩
  rw [VecHistogram.callAllCaught_get, h4, h3]
  split <;> rfl

/-- C28, sparse: after any history, bin `i` has a value exactly if some coordinate lay in it, and it is the default value
filled with exactly the data whose coordinate lies in bin `i`, in order. -/
theorem C28_sparse [RDefault V] (axes : A) (calls : List (Call V (Axis.Coordinate A))) (i : Nat) :
    ((HashHistogram.new axes).callAllCaught calls).valueAtIndex i =
      if callsIn axes i calls = [] then none
      else some (filledWith (callsIn axes i calls) RDefault.dflt) := by
  rw [HashHistogram.callAllCaught_get]
  rfl

/-- C28: a program that does not catch panics: if it ends normally the histogram is the one above; if it panics, the
histogram is the one after the calls up to and including the panicking one. -/
theorem C28_until_panic (h : VecHistogram A V) (calls : List (Call V (Axis.Coordinate A))) :
    ((h.callAll calls).2 = none → (h.callAll calls).1 = h.callAllCaught calls) ∧
    (∀ p, (h.callAll calls).2 = some p → ∃ pre c post, calls = pre ++ c :: post ∧
      ((h.callAllCaught pre).call c).2 = some p ∧ (h.callAll calls).1 = h.callAllCaught (pre ++ [c])) := by
  refine ⟨VecHistogram.callAll_ok, fun p hp => ?_⟩
  obtain ⟨pre, c, post, h1, h2, h3, h4⟩ := VecHistogram.callAll_panic hp
  exact ⟨pre, c, post, h1, by rw [← VecHistogram.callAll_ok h2]; exact h3, h4⟩

/-- C28: the same for sparse histograms. -/
theorem C28_until_panic_sparse [RDefault V] (h : HashHistogram A V) (calls : List (Call V (Axis.Coordinate A))) :
    ((h.callAll calls).2 = none → (h.callAll calls).1 = h.callAllCaught calls) ∧
    (∀ p, (h.callAll calls).2 = some p → ∃ pre c post, calls = pre ++ c :: post ∧
      ((h.callAllCaught pre).call c).2 = some p ∧ (h.callAll calls).1 = h.callAllCaught (pre ++ [c])) := by
  refine ⟨HashHistogram.callAll_ok, fun p hp => ?_⟩
  obtain ⟨pre, c, post, h1, h2, h3, h4⟩ := HashHistogram.callAll_panic hp
  exact ⟨pre, c, post, h1, by rw [← HashHistogram.callAll_ok h2]; exact h3, h4⟩

/-! ## C29 -/

theorem callsIn_perm {axes : A} {calls calls' : List (Call V (Axis.Coordinate A))} (hp : calls.Perm calls') (i : Nat) :
    (callsIn axes i calls).Perm (callsIn axes i calls') := hp.filter _

theorem filledWith_perm {C : Type} {calls calls' : List (Call V C)} (hp : calls.Perm calls')
    (hc : ∀ a ∈ calls, ∀ b ∈ calls, ∀ v, (b.on (a.on v).1).1 = (a.on (b.on v).1).1) (v : V) :
    filledWith calls v = filledWith calls' v :=
  hp.foldl_eq' (fun a ha b hb v => (hc a ha b hb v)) v

/-- C29: if the values' fills commute, any two orders of the same calls give the same dense histogram. -/
theorem C29_order_dense {h : VecHistogram A V}
    {calls calls' : List (Call V (Axis.Coordinate A))} (hp : calls.Perm calls')
    (hc : ∀ a ∈ calls, ∀ b ∈ calls, ∀ v, (b.on (a.on v).1).1 = (a.on (b.on v).1).1) :
    h.callAllCaught calls = h.callAllCaught calls' := by
  apply VecHistogram.ext_get
  · rw [VecHistogram.callAllCaught_axes, VecHistogram.callAllCaught_axes]
  · intro i
    rw [VecHistogram.callAllCaught_get, VecHistogram.callAllCaught_get]
    congr 1
    funext v
    exact filledWith_perm (callsIn_perm hp i)
      (fun a ha b hb => hc a (List.mem_of_mem_filter ha) b (List.mem_of_mem_filter hb)) v

/-- C29, sparse: the same, as far as any reader of the histogram can see (every bin has the same value, or none, in both). -/
theorem C29_order_sparse [RDefault V] {h : HashHistogram A V}
    {calls calls' : List (Call V (Axis.Coordinate A))} (hp : calls.Perm calls')
    (hc : ∀ a ∈ calls, ∀ b ∈ calls, ∀ v, (b.on (a.on v).1).1 = (a.on (b.on v).1).1) :
    (h.callAllCaught calls).axes = (h.callAllCaught calls').axes ∧
    ∀ i, (h.callAllCaught calls).valueAtIndex i = (h.callAllCaught calls').valueAtIndex i := by
  refine ⟨by rw [HashHistogram.callAllCaught_axes, HashHistogram.callAllCaught_axes], fun i => ?_⟩
  rw [HashHistogram.callAllCaught_get, HashHistogram.callAllCaught_get]
  have hpi := callsIn_perm (axes := h.axes) hp i
  have he : callsIn h.axes i calls = [] ↔ callsIn h.axes i calls' = [] := by
    constructor
    · intro e; rw [e] at hpi; exact hpi.nil_eq.symm
    · intro e; rw [e] at hpi; exact hpi.eq_nil
  simp only [he]
  split
  · rfl
  · rw [filledWith_perm hpi
      (fun a ha b hb => hc a (List.mem_of_mem_filter ha) b (List.mem_of_mem_filter hb))]

/-! ## C30 -/

theorem sum_modify {M : Type} [AddCommMonoid M] (μ : V → M) (l : List V) (i : Nat) (v : V) (f : V → V) (w : M)
    (hv : l[i]? = some v) (hw : μ (f v) = μ v + w) : ((l.modify i f).map μ).sum = (l.map μ).sum + w := by
  induction l generalizing i with
  | nil => simp at hv
  | cons x xs ih =>
    cases i with
    | zero =>
      simp at hv; subst hv
      simp [hw, add_right_comm]
    | succ i =>
      simp only [List.getElem?_cons_succ] at hv
      simp [ih i hv, add_assoc]

theorem sum_callAll {M : Type} [AddCommMonoid M] (μ : V → M)
    (weight : Call V (Axis.Coordinate A) → M) {calls : List (Call V (Axis.Coordinate A))}
    (hw : ∀ call ∈ calls, ∀ v, (call.on v).2 = none → μ (call.on v).1 = μ v + weight call)
    {h : VecHistogram A V} {n : Nat} (ok : h.Ok n) (hp : (h.callAll calls).2 = none) :
    ((h.callAll calls).1.values.map μ).sum = (h.values.map μ).sum + ((callsCovered h.axes calls).map weight).sum := by
  induction calls generalizing h with
  | nil => simp [VecHistogram.callAll, callsCovered]
  | cons c cs ih =>
    rcases hc : h.call c with ⟨h', _ | q⟩
    · simp only [VecHistogram.callAll, hc] at hp ⊢
      have hax : h'.axes = h.axes := by have := VecHistogram.call_axes h c; rwa [hc] at this
      have ok' : h'.Ok n := by have := ok.call c; rwa [hc] at this
      rw [ih (fun call hm => hw call (List.mem_cons_of_mem _ hm)) ok' hp, hax]
      unfold callsCovered
      rw [List.filter_cons]
      rcases hi : Axis.index h.axes c.coord with p | _ | i
      · rw [VecHistogram.call_error hi] at hc; cases hc
      · rw [VecHistogram.call_none hi] at hc; cases hc
        simp
      · obtain ⟨v, hv⟩ := ok.get (ok.lawful.index_lt _ _ hi)
        rw [VecHistogram.call_some hi hv] at hc
        simp only [Prod.mk.injEq] at hc
        obtain ⟨rfl, hcn⟩ := hc
        simp only [if_true, List.map_cons, List.sum_cons]
        rw [sum_modify μ h.values i v _ (weight c) hv (hw c (List.mem_cons_self ..) v hcn), add_assoc]
    · simp [VecHistogram.callAll, hc] at hp

/-- C30: whatever additive quantity `μ` of the bin values (their value, their sum of squares, their sample count, ...) each fill
increases by its `weight`, after any history that did not panic the total over all bins is the total of the weights of exactly the
calls whose coordinate lies in some bin. -/
theorem C30_conservation [RDefault V] {M : Type} [AddCommMonoid M] (μ : V → M)
    (weight : Call V (Axis.Coordinate A) → M) {calls : List (Call V (Axis.Coordinate A))}
    (hw : ∀ call ∈ calls, ∀ v, (call.on v).2 = none → μ (call.on v).1 = μ v + weight call)
    (h0 : μ RDefault.dflt = 0)
    {axes : A} {n : Nat} (hl : LawfulAxis axes n) {h : VecHistogram A V} (hnew : VecHistogram.new axes = .ok h)
    {h' : VecHistogram A V} (hrun : h.callAll calls = (h', none)) :
    (h'.values.map μ).sum = ((callsCovered axes calls).map weight).sum := by
  obtain ⟨h₀, h1, h2, h3, h4⟩ := C26_new (V := V) hl
  have he : h = h₀ := by rw [hnew] at h1; exact Except.ok.inj h1
  subst he
  have := sum_callAll μ weight hw h2 (by rw [hrun])
  rw [hrun, h3] at this
  rw [this]
  have hz : ∀ x ∈ h.values.map μ, x = 0 := by
    intro x hx
    obtain ⟨v, hv, rfl⟩ := List.mem_map.1 hx
    obtain ⟨i, hi⟩ := List.mem_iff_getElem?.1 hv
    have := h4 i
    rw [VecHistogram.valueAtIndex, hi] at this
    split at this
    · cases this; exact h0
    · cases this
  rw [List.sum_eq_zero hz, zero_add]

/-- C30: if no coordinate of the history is without a bin (axes with flow bins), all calls are counted. -/
theorem C30_all_counted {axes : A} {calls : List (Call V (Axis.Coordinate A))}
    (hc : ∀ call ∈ calls, ∃ i, Axis.index axes call.coord = .ok (some i)) : callsCovered axes calls = calls := by
  unfold callsCovered
  rw [List.filter_eq_self]
  intro call hm
  obtain ⟨i, hi⟩ := hc call hm
  simp [hi]

/-! ## C31 -/

/-- C31: after the same history the sparse histogram has a value exactly for the bins that were filled, and it is the value
the dense histogram has; the dense histogram has the default for the other bins. -/
theorem C31_sparse_dense [RDefault V] {axes : A} {n : Nat} (hl : LawfulAxis axes n) {d : VecHistogram A V}
    (hnew : VecHistogram.new axes = .ok d) (calls : List (Call V (Axis.Coordinate A))) (i : Nat) :
    let s : HashHistogram A V := HashHistogram.new axes
    ((∃ call ∈ calls, Axis.index axes call.coord = .ok (some i)) →
      ∃ v, (s.callAllCaught calls).valueAtIndex i = some v ∧ (d.callAllCaught calls).valueAtIndex i = some v) ∧
    ((¬ ∃ call ∈ calls, Axis.index axes call.coord = .ok (some i)) →
      (s.callAllCaught calls).valueAtIndex i = none ∧
      (i < n → (d.callAllCaught calls).valueAtIndex i = some RDefault.dflt)) := by
  intro s
  have hd := (C28_dense hl hnew calls).2.2 i
  have hs := C28_sparse (V := V) axes calls i
  have he : callsIn axes i calls = [] ↔ ¬ ∃ call ∈ calls, Axis.index axes call.coord = .ok (some i) := by
    unfold callsIn; rw [List.filter_eq_nil_iff]; simp
  constructor
  · rintro ⟨call, hm, hi⟩
    rw [if_pos (hl.index_lt _ _ hi)] at hd
    rw [if_neg (fun e => (he.1 e) ⟨call, hm, hi⟩)] at hs
    exact ⟨_, hs, hd⟩
  · intro hno
    have e := he.2 hno
    rw [if_pos e] at hs
    refine ⟨hs, fun hin => ?_⟩
    rw [if_pos hin, e] at hd
    exact hd

/-- C31, by coordinate: `value(c)` of the sparse histogram is `None` where the axes have no bin or the bin was never filled, and
otherwise what the dense histogram gives. A panic of the axis is the same on both. -/
theorem C31_value [RDefault V] {axes : A} {n : Nat} (hl : LawfulAxis axes n) {d : VecHistogram A V}
    (hnew : VecHistogram.new axes = .ok d) (calls : List (Call V (Axis.Coordinate A))) (c : Axis.Coordinate A) :
    ((HashHistogram.new axes : HashHistogram A V).callAllCaught calls).value c =
      match Axis.index axes c with
      | .ok (some i) =>
        if ∃ call ∈ calls, Axis.index axes call.coord = .ok (some i) then (d.callAllCaught calls).value c else .ok none
      | .ok none => .ok none
      | .error p => .error p := by
  have hax : ((HashHistogram.new axes : HashHistogram A V).callAllCaught calls).axes = axes := by
    rw [HashHistogram.callAllCaught_axes]; rfl
  have hdx : (d.callAllCaught calls).axes = axes := (C28_dense hl hnew calls).2.1
  rcases hi : Axis.index axes c with p | _ | i
  · simp [HashHistogram.value, hax, hi, bind, Except.bind]
  · simp [HashHistogram.value, hax, hi, bind, Except.bind, pure, Except.pure]
  · have hv : ((HashHistogram.new axes : HashHistogram A V).callAllCaught calls).value c =
        .ok (((HashHistogram.new axes : HashHistogram A V).callAllCaught calls).valueAtIndex i) := by
      simp [HashHistogram.value, hax, hi, bind, Except.bind, pure, Except.pure]
    have hw : (d.callAllCaught calls).value c = .ok ((d.callAllCaught calls).valueAtIndex i) := by
      simp [VecHistogram.value, hdx, hi, bind, Except.bind, pure, Except.pure, VecHistogram.valueAtIndex]
    obtain ⟨h1, h2⟩ := C31_sparse_dense hl hnew calls i
    simp only
    split
    · rename_i hex
      obtain ⟨v, hs, hd⟩ := h1 hex
      rw [hv, hw, hs, hd]
    · rename_i hex
      rw [hv, (h2 hex).1]

/-! ## C32 -/

/-- C32: the backing map has exactly one entry for each bin that was filled, and every key is a bin number. -/
theorem C32_keys [RDefault V] {axes : A} {n : Nat} (hl : LawfulAxis axes n) (calls : List (Call V (Axis.Coordinate A))) :
    let s := (HashHistogram.new axes : HashHistogram A V).callAllCaught calls
    s.Ok n ∧ s.values.keys.Nodup ∧
    (∀ i, i ∈ s.values.keys ↔ ∃ call ∈ calls, Axis.index axes call.coord = .ok (some i)) ∧
    s.values.len ≤ n := by
  intro s
  have ok : s.Ok n := HashHistogram.Ok.callAllCaught ⟨hl, HMap.nodup_empty, by simp [HashHistogram.new, HMap.empty, HMap.keys]⟩ calls
  refine ⟨ok, ok.nodup, ?_, ?_⟩
  · intro i
    rw [← HMap.get_isSome]
    have := C28_sparse (V := V) axes calls i
    change (∃ v, s.valueAtIndex i = some v) ↔ _
    rw [this]
    have he : callsIn axes i calls = [] ↔ ¬ ∃ call ∈ calls, Axis.index axes call.coord = .ok (some i) := by
      unfold callsIn; rw [List.filter_eq_nil_iff]; simp
    split
    · rename_i e; simpa using he.1 e
    · rename_i e
      exact ⟨fun _ => Classical.not_not.1 fun hn => e (he.2 hn), fun _ => ⟨_, rfl⟩⟩
  · rw [HMap.len_eq_keys]
    have hsub : s.values.keys ⊆ List.range n := fun i hi => List.mem_range.2 (ok.valid i hi)
    have := (List.subperm_of_subset ok.nodup hsub).length_le
    simpa using this

theorem mapM_iter {a : A} (l : List (Nat × V)) (h : ∀ kv ∈ l, ∃ b, Axis.bin a kv.1 = .ok (some b)) :
    ∃ items : List (Item (Axis.Interval A) V),
      (l.mapM fun (index, value) => do
        let b ← Axis.bin a index
        let bin ← expect b
        return ({ index, bin, value } : Item (Axis.Interval A) V)) = .ok items ∧
      items.map (fun it => (it.index, it.value)) = l ∧
      ∀ it ∈ items, Axis.bin a it.index = .ok (some it.bin) := by
  induction l with
  | nil => exact ⟨[], rfl, rfl, by simp⟩
  | cons kv rest ih =>
    obtain ⟨items, h1, h2, h3⟩ := ih (fun kv hm => h kv (List.mem_cons_of_mem _ hm))
    obtain ⟨b, hb⟩ := h kv (List.mem_cons_self ..)
    refine ⟨⟨kv.1, b, kv.2⟩ :: items, ?_, by simp [h2], ?_⟩
    · rw [List.mapM_cons, h1]
      simp [hb, bind, Except.bind, expect, pure, Except.pure]
    · intro it hit
      rcases List.mem_cons.1 hit with rfl | hit
      · exact hb
      · exact h3 it hit

/-- C32: iterating over a sparse histogram, in whatever order the map yields its entries, does not panic and visits each
bin that has a value exactly once, with its bin interval and its value, and no other. -/
theorem C32_iter {h : HashHistogram A V} {n : Nat} (ok : h.Ok n) (o : h.values.Order) :
    ∃ items, h.iter o = .ok items ∧ (items.map (·.index)).Nodup ∧
      (∀ it ∈ items, h.valueAtIndex it.index = some it.value ∧ Axis.bin h.axes it.index = .ok (some it.bin)) ∧
      (∀ i v, h.valueAtIndex i = some v → ∃ it ∈ items, it.index = i ∧ it.value = v) ∧
      (h.valuesIter o).Perm (items.map (·.value)) := by
  obtain ⟨items, h1, h2, h3⟩ := mapM_iter (a := h.axes) o.list (fun kv hm => by
    have : kv.1 ∈ h.values.keys := List.mem_map.2 ⟨kv, o.perm.mem_iff.1 hm, rfl⟩
    exact ok.lawful.bin_some _ (ok.valid _ this))
  have hidx : items.map (·.index) = o.list.map (·.1) := by rw [← h2]; simp
  have hval : items.map (·.value) = o.list.map (·.2) := by rw [← h2]; simp
  refine ⟨items, h1, ?_, ?_, ?_, ?_⟩
  · rw [hidx]
    exact ((o.perm.map _).nodup_iff).2 ok.nodup
  · intro it hit
    refine ⟨?_, h3 it hit⟩
    have : (it.index, it.value) ∈ o.list := by rw [← h2]; exact List.mem_map.2 ⟨it, hit, rfl⟩
    exact (HMap.mem_entries_iff ok.nodup _ _).1 (o.perm.mem_iff.1 this)
  · intro i v hv
    have : (i, v) ∈ o.list := o.perm.mem_iff.2 ((HMap.mem_entries_iff ok.nodup _ _).2 hv)
    rw [← h2] at this
    obtain ⟨it, hit, he⟩ := List.mem_map.1 this
    simp only [Prod.mk.injEq] at he
    exact ⟨it, hit, he.1, he.2⟩
  · rw [hval]; exact List.Perm.refl _

end

/-! ## The hypotheses are met by concrete histograms -/

section
attribute [local instance] dbg64

/-- two listed categories and no overflow bin: two bins, coordinates other than "a", "b" have no bin -/
def exAxis : CategoryNoFlow String := CategoryNoFlow.new ["a", "b"]

theorem exAxis_lawful : LawfulAxis exAxis 2 := C25_lawful_category_noflow ["a", "b"] (by decide)

/-- unit fills and weighted fills, one of them outside the axis -/
def exCalls : List (Call (MInt .u8) String) :=
  [.fill "a", .fillWith "b" (MInt.lit 7 : MInt .u8), .fill "zzz", .fillWith "a" (MInt.lit 3 : MInt .u8)]

/-- the histogram after `exCalls`, with and without stopping at panics, dense and sparse -/
example : ∃ h, VecHistogram.new exAxis = .ok h ∧
    h.callAllCaught exCalls = ⟨exAxis, [MInt.lit 4, MInt.lit 7]⟩ ∧
    h.callAll exCalls = (⟨exAxis, [MInt.lit 4, MInt.lit 7]⟩, none) ∧
    (callsIn exAxis 0 exCalls).length = 2 ∧ (callsCovered exAxis exCalls).length = 3 := by
  exact ⟨⟨exAxis, [MInt.lit 0, MInt.lit 0]⟩, rfl, rfl, rfl, rfl, rfl⟩

/-- C27 with a panic inside the fill: the other bin keeps its value -/
example : ∃ h : VecHistogram (CategoryNoFlow String) (MInt .u8), h.Ok 2 ∧
    h.call (.fill "a") = (h, some .overflow) ∧ h.valueAtIndex 1 = some (MInt.lit 9) :=
  ⟨⟨exAxis, [MInt.lit 255, MInt.lit 9]⟩, ⟨exAxis_lawful, rfl⟩, rfl, rfl⟩

/-- C31, C32: the sparse histogram after the same calls minus those to "b" -/
example : ((HashHistogram.new exAxis).callAllCaught [.fill "a", .fill "zzz"]).valueAtIndex 0 = some (MInt.lit 1 : MInt .u8) ∧
    ((HashHistogram.new exAxis).callAllCaught [.fill "a", .fill "zzz"]).valueAtIndex 1 = (none : Option (MInt .u8)) ∧
    ((HashHistogram.new exAxis : HashHistogram _ (MInt .u8)).callAllCaught [.fill "a", .fill "zzz"]).values.len = 1 := ⟨rfl, rfl, rfl⟩

example : ∃ (h : HashHistogram (CategoryNoFlow String) (MInt .u8)) (_ : h.values.Order), h.Ok 2 ∧ h.values.len = 2 := by
  refine ⟨(HashHistogram.new exAxis).callAllCaught exCalls, ⟨_, List.Perm.refl _⟩, (C32_keys exAxis_lawful exCalls).1, by decide⟩
end
end NdHist
