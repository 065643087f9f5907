import Verif.Props.Fill
import Verif.Props.Reduce
/-!
# C102: user-written axes, with no assumption about `index`, `num_bins` and `bin`

`Axis` is a public trait: a user may implement it, and nothing checks that `index` returns numbers below `num_bins`, that
`bin` is defined there, or that the methods do not panic. The theorems of this file hold for every such implementation.
-/
namespace NdHist
section
variable {A V : Type} [Cfg] [Axis A]

/-- C102: making a dense histogram panics exactly if `num_bins` panics, with the same panic; otherwise there are `num_bins`
default values. -/
theorem C102_new [RDefault V] (axes : A) :
    (∀ p, VecHistogram.new (V := V) axes = .error p ↔ Axis.numBins axes = .error p) ∧
    (∀ n, Axis.numBins axes = .ok n → ∃ h : VecHistogram A V, VecHistogram.new axes = .ok h ∧ h.axes = axes ∧
      h.valuesIter.length = n ∧ ∀ i, h.valueAtIndex i = if i < n then some RDefault.dflt else none) := by
  constructor
  · intro p
    cases hn : Axis.numBins axes <;> simp [VecHistogram.new, hn, bind, Except.bind, pure, Except.pure]
  · intro n hn
    refine ⟨⟨axes, List.replicate n RDefault.dflt⟩, ?_, rfl, by simp [VecHistogram.valuesIter], ?_⟩
    · simp only [VecHistogram.new, hn]; rfl
    · intro i; simp only [VecHistogram.valueAtIndex, List.getElem?_replicate]

/-- C102: one fill of a dense histogram. Axes and number of values never change. A panic of `index` is passed on with the
histogram unchanged; a coordinate without a bin, or whose index is not below the number of values, is ignored silently;
otherwise exactly the value of that number is filled, and the panic, if any, is that of the value's fill. -/
theorem C102_call (h : VecHistogram A V) (call : Call V (Axis.Coordinate A)) :
    (h.call call).1.axes = h.axes ∧
    (h.call call).1.valuesIter.length = h.valuesIter.length ∧
    (∀ p, Axis.index h.axes call.coord = .error p → h.call call = (h, some p)) ∧
    (Axis.index h.axes call.coord = .ok none → h.call call = (h, none)) ∧
    (∀ i, Axis.index h.axes call.coord = .ok (some i) → h.valuesIter.length ≤ i → h.call call = (h, none)) ∧
    (∀ i v, Axis.index h.axes call.coord = .ok (some i) → h.valueAtIndex i = some v →
      (h.call call).2 = (call.on v).2 ∧ (h.call call).1.valueAtIndex i = some (call.on v).1 ∧
      ∀ j, j ≠ i → (h.call call).1.valueAtIndex j = h.valueAtIndex j) := by
  refine ⟨VecHistogram.call_axes h call, VecHistogram.call_length h call, fun p hp => VecHistogram.call_error hp,
    fun hn => VecHistogram.call_none hn, ?_, ?_⟩
  · intro i hi hle
    exact VecHistogram.call_out hi (List.getElem?_eq_none_iff.2 hle)
  · intro i v hi hv
    refine ⟨by rw [VecHistogram.call_some hi hv], ?_, ?_⟩
    · rw [VecHistogram.call_get, if_pos hi, hv]; rfl
    · intro j hj
      rw [VecHistogram.call_get, if_neg]
      rw [hi]; simpa using fun e => hj e.symm

/-- C102: one fill of a sparse histogram: as for the dense one, except that a value is created for *every* index returned,
whether or not it is below `num_bins` (which is not called). -/
theorem C102_call_sparse [RDefault V] (h : HashHistogram A V) (call : Call V (Axis.Coordinate A)) :
    (h.call call).1.axes = h.axes ∧
    (∀ p, Axis.index h.axes call.coord = .error p → h.call call = (h, some p)) ∧
    (Axis.index h.axes call.coord = .ok none → h.call call = (h, none)) ∧
    (∀ i, Axis.index h.axes call.coord = .ok (some i) →
      (h.call call).2 = (call.on ((h.valueAtIndex i).getD RDefault.dflt)).2 ∧
      (h.call call).1.valueAtIndex i = some (call.on ((h.valueAtIndex i).getD RDefault.dflt)).1 ∧
      ∀ j, j ≠ i → (h.call call).1.valueAtIndex j = h.valueAtIndex j) := by
  refine ⟨HashHistogram.call_axes h call, ?_, ?_, ?_⟩
  · intro p hp; rw [HashHistogram.call_eq, hp]
  · intro hn; rw [HashHistogram.call_eq, hn]
  · intro i hi
    refine ⟨by rw [HashHistogram.call_eq, hi]; rfl, ?_, ?_⟩
    · rw [HashHistogram.call_get, if_pos hi]
    · intro j hj
      rw [HashHistogram.call_get, if_neg]
      rw [hi]; simpa using fun e => hj e.symm

/-- C102: any history of fills (panics caught) of a dense and of a sparse histogram with the same axes: below the number of values, the
two agree (the sparse one with defaults not stored); at or above it, the dense histogram has no value, and the sparse one keeps
what was filled there. In both, the value is the default filled, in order, with the calls whose coordinate has that index. -/
theorem C102_history [RDefault V] {axes : A} {h : VecHistogram A V} (hn : VecHistogram.new axes = .ok h)
    (calls : List (Call V (Axis.Coordinate A))) (i : Nat) :
    let mine := calls.filter fun call => Axis.index axes call.coord = .ok (some i)
    let d := h.callAllCaught calls
    let s := (HashHistogram.new (V := V) axes).callAllCaught calls
    d.valuesIter.length = h.valuesIter.length ∧
    (i < h.valuesIter.length → d.valueAtIndex i = some (mine.foldl (fun v call => (call.on v).1) RDefault.dflt) ∧
      (s.valueAtIndex i).getD RDefault.dflt = mine.foldl (fun v call => (call.on v).1) RDefault.dflt) ∧
    (h.valuesIter.length ≤ i → d.valueAtIndex i = none) ∧
    (mine = [] → s.valueAtIndex i = none) ∧
    (mine ≠ [] → s.valueAtIndex i = some (mine.foldl (fun v call => (call.on v).1) RDefault.dflt)) := by
  intro mine d s
  have hm : mine = callsIn axes i calls := rfl
  obtain ⟨n, hnb⟩ : ∃ n, Axis.numBins axes = .ok n := by
    cases hb : Axis.numBins axes with
    | ok n => exact ⟨n, rfl⟩
    | error p => rw [((C102_new axes).1 p).2 hb] at hn; cases hn
  obtain ⟨h', e, hax, hlen, hget⟩ := (C102_new (V := V) axes).2 n hnb
  rw [hn] at e; cases e
  have hd : d.valueAtIndex i = (h.valueAtIndex i).map (filledWith mine) := by
    rw [VecHistogram.callAllCaught_get, hax, hm]
  have hs := C28_sparse (V := V) axes calls i
  rw [← hm] at hs
  refine ⟨VecHistogram.callAllCaught_length h calls, ?_, ?_, fun e => by rw [if_pos e] at hs; exact hs,
    fun e => by rw [if_neg e] at hs; exact hs⟩
  · intro hi
    rw [hlen] at hi
    refine ⟨by rw [hd, hget, if_pos hi]; rfl, ?_⟩
    change (HashHistogram.valueAtIndex _ i).getD _ = _
    rw [hs]
    split
    · rename_i e; rw [e]; rfl
    · rfl
  · intro hi
    rw [hlen] at hi
    rw [hd, hget, if_neg (by omega)]; rfl

/-- C102: reading by coordinate: the panic of `index` is passed on; otherwise the value of the index, if there is one. -/
theorem C102_value (h : VecHistogram A V) (s : HashHistogram A V) (c : Axis.Coordinate A) :
    (∀ p, h.value c = .error p ↔ Axis.index h.axes c = .error p) ∧
    (Axis.index h.axes c = .ok none → h.value c = .ok none) ∧
    (∀ i, Axis.index h.axes c = .ok (some i) → h.value c = .ok (h.valueAtIndex i)) ∧
    (∀ p, s.value c = .error p ↔ Axis.index s.axes c = .error p) ∧
    (Axis.index s.axes c = .ok none → s.value c = .ok none) ∧
    (∀ i, Axis.index s.axes c = .ok (some i) → s.value c = .ok (s.valueAtIndex i)) := by
  refine ⟨?_, ?_, ?_, ?_, ?_, ?_⟩
  · intro p
    rcases hi : Axis.index h.axes c with q | _ | i <;> simp [VecHistogram.value, hi, bind, Except.bind, pure, Except.pure]
  · intro hi; simp only [VecHistogram.value, hi]; rfl
  · intro i hi; simp only [VecHistogram.value, hi]; rfl
  · intro p
    rcases hi : Axis.index s.axes c with q | _ | i <;> simp [HashHistogram.value, hi, bind, Except.bind, pure, Except.pure]
  · intro hi; simp only [HashHistogram.value, hi]; rfl
  · intro i hi; simp only [HashHistogram.value, hi]; rfl

/-- a `mapM` whose function is successful everywhere -/
theorem anyAxis_mapM_ok {α β : Type} {f : α → Res β} {g : α → β} {l : List α} (hf : ∀ x ∈ l, f x = .ok (g x)) :
    l.mapM f = .ok (l.map g) := by
  induction l with
  | nil => rfl
  | cons x l ih =>
    rw [List.mapM_cons, hf x (by simp), ih fun y hy => hf y (by simp [hy])]
    rfl

/-- the panic of a `mapM` is that of the first element that has one -/
theorem anyAxis_mapM_error {α β : Type} {f : α → Res β} {l : List α} {p : Panic} :
    l.mapM f = .error p ↔ ∃ pre x post, l = pre ++ x :: post ∧ (∀ y ∈ pre, ∃ z, f y = .ok z) ∧ f x = .error p := by
  induction l with
  | nil => simp [pure, Except.pure]
  | cons a l ih =>
    rw [List.mapM_cons]
    cases ha : f a with
    | error q =>
      simp only [bind, Except.bind, Except.error.injEq]
      constructor
      · rintro rfl; exact ⟨[], a, l, rfl, by simp, ha⟩
      · rintro ⟨pre, x, post, he, hpre, hx⟩
        cases pre with
        | nil => simp only [List.nil_append, List.cons.injEq] at he; rw [← he.1, ha] at hx; cases hx; rfl
        | cons y pre =>
          simp only [List.cons_append, List.cons.injEq] at he
          obtain ⟨z, hz⟩ := hpre y (by simp)
          rw [← he.1, ha] at hz; cases hz
    | ok b =>
      have : (do let ys ← l.mapM f; pure (b :: ys) : Res (List β)) = .error p ↔ l.mapM f = .error p := by
        cases l.mapM f <;> simp [bind, Except.bind, pure, Except.pure]
      change (do let ys ← l.mapM f; pure (b :: ys) : Res (List β)) = .error p ↔ _
      rw [this, ih]
      constructor
      · rintro ⟨pre, x, post, rfl, hpre, hx⟩
        refine ⟨a :: pre, x, post, rfl, ?_, hx⟩
        intro y hy
        rcases List.mem_cons.1 hy with rfl | hy
        · exact ⟨b, ha⟩
        · exact hpre y hy
      · rintro ⟨pre, x, post, he, hpre, hx⟩
        cases pre with
        | nil => simp only [List.nil_append, List.cons.injEq] at he; rw [← he.1, ha] at hx; cases hx
        | cons y pre =>
          simp only [List.cons_append, List.cons.injEq] at he
          exact ⟨pre, x, post, he.2, fun z hz => hpre z (by simp [hz]), hx⟩

/-- C102: iterating over the axes. With `num_bins = n`, the iteration succeeds exactly if `bin` gives an interval for every number
below `n`, and then lists them in order; it panics with the panic of the first number for which `bin` panics or (the message of `expect`)
is `None`. A panic of `num_bins` is passed on. -/
theorem C102_axis_iter (axes : A) :
    (∀ p, Axis.numBins axes = .error p → Axis.iter axes = .error p) ∧
    (∀ n, Axis.numBins axes = .ok n →
      ((∃ l, Axis.iter axes = .ok l) ↔ ∀ i < n, ∃ b, Axis.bin axes i = .ok (some b)) ∧
      (∀ l, Axis.iter axes = .ok l → l.length = n ∧ ∀ i x, l[i]? = some x → x.1 = i ∧ Axis.bin axes i = .ok (some x.2)) ∧
      (∀ p, Axis.iter axes = .error p ↔ ∃ i < n, (∀ j < i, ∃ b, Axis.bin axes j = .ok (some b)) ∧
        (Axis.bin axes i = .error p ∨ (Axis.bin axes i = .ok none ∧ p = .expectNone)))) := by
  have step : ∀ i, (∀ x, (do let b ← Axis.bin axes i; let b ← expect b; return (i, b) : Res (Nat × Axis.Interval A)) = .ok x ↔
      x.1 = i ∧ Axis.bin axes i = .ok (some x.2)) ∧
      (∀ p, (do let b ← Axis.bin axes i; let b ← expect b; return (i, b) : Res (Nat × Axis.Interval A)) = .error p ↔
        (Axis.bin axes i = .error p ∨ (Axis.bin axes i = .ok none ∧ p = .expectNone))) := by
    intro i
    rcases hb : Axis.bin axes i with q | _ | b
    · simp [bind, Except.bind]
    · simp [bind, Except.bind, expect, eq_comm]
    · constructor
      · rintro ⟨j, c⟩
        simp [bind, Except.bind, expect, pure, Except.pure, eq_comm]
      · simp [bind, Except.bind, expect, pure, Except.pure]
  constructor
  · intro p hp; simp only [Axis.iter, Axis.indices, hp]; rfl
  · intro n hn
    have e : Axis.iter axes = (List.range n).mapM fun it => do let b ← Axis.bin axes it; let b ← expect b; return (it, b) := by
      simp only [Axis.iter, Axis.indices, hn]; rfl
    have hsome : (∃ l, Axis.iter axes = .ok l) ↔ ∀ i < n, ∃ b, Axis.bin axes i = .ok (some b) := by
      rw [e, mapM_ok_iff]
      constructor
      · intro h i hi
        obtain ⟨y, hy⟩ := h i (List.mem_range.2 hi)
        exact ⟨y.2, (((step i).1 y).1 hy).2⟩
      · intro h i hi
        obtain ⟨b, hb⟩ := h i (List.mem_range.1 hi)
        exact ⟨(i, b), ((step i).1 (i, b)).2 ⟨rfl, hb⟩⟩
    refine ⟨hsome, ?_, ?_⟩
    · intro l hl
      have hall := hsome.1 ⟨l, hl⟩
      classical
      rcases Nat.eq_zero_or_pos n with rfl | hpos
      · rw [e] at hl
        simp only [List.range_zero, List.mapM_nil, pure, Except.pure, Except.ok.injEq] at hl
        subst hl; simp
      · obtain ⟨b0, -⟩ := hall 0 hpos
        let g : Nat → Axis.Interval A := fun i => if h : i < n then (hall i h).choose else b0
        have hg : ∀ i < n, Axis.bin axes i = .ok (some (g i)) := by
          intro i hi
          have := (hall i hi).choose_spec
          simpa only [g, dif_pos hi] using this
        have : l = (List.range n).map fun i => (i, g i) := by
          rw [e, anyAxis_mapM_ok (g := fun i => (i, g i))] at hl
          · exact (Except.ok.inj hl).symm
          · intro i hi; exact ((step i).1 (i, g i)).2 ⟨rfl, hg i (List.mem_range.1 hi)⟩
        subst this
        refine ⟨by simp, ?_⟩
        intro i x hx
        rw [List.getElem?_map] at hx
        rcases hr : (List.range n)[i]? with _ | k
        · rw [hr] at hx; cases hx
        · obtain ⟨hi, rfl⟩ := List.getElem?_eq_some_iff.1 hr
          rw [hr] at hx
          simp only [List.getElem_range, List.length_range, Option.map_some, Option.some.injEq] at hx hi
          subst hx
          exact ⟨rfl, hg i hi⟩
    · intro p
      rw [e, anyAxis_mapM_error]
      constructor
      · rintro ⟨pre, x, post, he, hpre, hx⟩
        have hlen : pre.length < n := by
          have := congrArg List.length he; simp at this; omega
        have hxe : x = pre.length := by
          have := congrArg (fun l => l[pre.length]?) he
          simpa [hlen] using this.symm
        subst hxe
        refine ⟨pre.length, hlen, ?_, ((step _).2 p).1 hx⟩
        intro j hj
        have hjm : j ∈ pre := by
          have := congrArg (fun l => l[j]?) he
          simp only [List.getElem?_append_left hj] at this
          rw [List.getElem?_range (by omega)] at this
          exact List.mem_of_getElem? this.symm
        obtain ⟨y, hy⟩ := hpre j hjm
        exact ⟨y.2, (((step j).1 y).1 hy).2⟩
      · rintro ⟨i, hi, hpre, hx⟩
        refine ⟨List.range i, i, List.range' (i + 1) (n - i - 1), ?_, ?_, ((step i).2 p).2 hx⟩
        · have h2 : (i :: List.range' (i + 1) (n - i - 1)) = List.range' i (n - i) := by
            have : n - i = (n - i - 1) + 1 := by omega
            rw [this, List.range'_succ]; simp
          rw [h2, List.range_eq_range', List.range_eq_range']
          have := List.range'_append_1 (s := 0) (m := i) (n := n - i)
          rw [Nat.zero_add] at this
          rw [this]; congr 1; omega
        · intro j hj
          obtain ⟨b, hb⟩ := hpre j (List.mem_range.1 hj)
          exact ⟨(j, b), ((step j).1 (j, b)).2 ⟨rfl, hb⟩⟩

/-- C102: iterating over a sparse histogram succeeds exactly if `bin` gives an interval for every stored number; so a value filled at
a number for which the axis has no bin makes every later iteration panic. -/
theorem C102_iter_sparse (s : HashHistogram A V) (o : s.values.Order) :
    (∃ items, s.iter o = .ok items) ↔ ∀ i v, s.valueAtIndex i = some v → ∃ b, Axis.bin s.axes i = .ok (some b) := by
  have key : ∀ i, (∃ v, s.valueAtIndex i = some v) ↔ ∃ v, (i, v) ∈ o.list := by
    intro i
    change (∃ v, s.values.get i = some v) ↔ _
    rw [HMap.get_isSome, HMap.keys, List.mem_map]
    constructor
    · rintro ⟨⟨j, v⟩, hm, rfl⟩; exact ⟨v, o.perm.mem_iff.2 hm⟩
    · rintro ⟨v, hm⟩; exact ⟨(i, v), o.perm.mem_iff.1 hm, rfl⟩
  unfold HashHistogram.iter
  rw [mapM_ok_iff]
  constructor
  · intro h i v hv
    obtain ⟨w, hw⟩ := (key i).1 ⟨v, hv⟩
    obtain ⟨y, hy⟩ := h (i, w) hw
    rcases hb : Axis.bin s.axes i with q | _ | b
    · simp [hb, bind, Except.bind] at hy
    · simp [hb, bind, Except.bind, expect] at hy
    · exact ⟨b, rfl⟩
  · rintro h ⟨i, w⟩ hm
    obtain ⟨v, hv⟩ := (key i).2 ⟨w, hm⟩
    obtain ⟨b, hb⟩ := h i v hv
    exact ⟨⟨i, b, w⟩, by simp [hb, bind, Except.bind, expect, pure, Except.pure]⟩

/-- C102: iterating over a dense histogram with as many values as bins succeeds exactly if iterating over its axes does, lists the values in order
with their bins, and otherwise panics in the same way. -/
theorem C102_iter (h : VecHistogram A V) (hn : Axis.numBins h.axes = .ok h.valuesIter.length) :
    (∀ p, h.iter = .error p ↔ Axis.iter h.axes = .error p) ∧
    (∀ l, Axis.iter h.axes = .ok l → ∃ items, h.iter = .ok items ∧ items.length = h.valuesIter.length ∧
      ∀ i it, items[i]? = some it → it.index = i ∧ Axis.bin h.axes i = .ok (some it.bin) ∧ h.valueAtIndex i = some it.value) := by
  have hok : ∀ l, Axis.iter h.axes = .ok l → ∃ items, h.iter = .ok items ∧ items.length = h.valuesIter.length ∧
      ∀ i it, items[i]? = some it → it.index = i ∧ Axis.bin h.axes i = .ok (some it.bin) ∧ h.valueAtIndex i = some it.value := by
    intro l hl
    obtain ⟨hlen, hget⟩ := (((C102_axis_iter h.axes).2 _ hn).2.1) l hl
    have e : h.iter = l.mapM fun x => do
        let value ← expect (h.valueAtIndex x.1)
        return { index := x.1, bin := x.2, value } := by
      simp only [VecHistogram.iter, hl]; rfl
    have hval : ∀ x ∈ l, ∃ v, h.valueAtIndex x.1 = some v := by
      intro x hx
      obtain ⟨i, hi⟩ := List.mem_iff_getElem?.1 hx
      obtain ⟨h1, -⟩ := hget i x hi
      obtain ⟨hlt, -⟩ := List.getElem?_eq_some_iff.1 hi
      rw [hlen] at hlt
      rw [h1]
      exact ⟨h.values[i]'hlt, List.getElem?_eq_getElem (l := h.values) hlt⟩
    rcases hv : h.valuesIter with _ | ⟨v0, vs⟩
    · rw [hv] at hlen
      have : l = [] := List.length_eq_zero_iff.1 hlen
      subst this
      exact ⟨[], e, rfl, by simp⟩
    · refine ⟨l.map fun x => { index := x.1, bin := x.2, value := (h.valueAtIndex x.1).getD v0 }, ?_, by simp [hlen, hv], ?_⟩
      · rw [e]
        apply anyAxis_mapM_ok
        intro x hx
        obtain ⟨v, hv⟩ := hval x hx
        simp [hv, expect, bind, Except.bind, pure, Except.pure]
      · intro i it hit
        rw [List.getElem?_map] at hit
        rcases hx : l[i]? with _ | x
        · rw [hx] at hit; cases hit
        · rw [hx] at hit
          simp only [Option.map_some, Option.some.injEq] at hit
          obtain ⟨h1, h2⟩ := hget i x hx
          obtain ⟨v, hv⟩ := hval x (List.mem_of_getElem? hx)
          subst hit
          refine ⟨h1, h2, ?_⟩
          simp only [hv, Option.getD_some]
          rw [← h1]; exact hv
  refine ⟨?_, hok⟩
  intro p
  cases hl : Axis.iter h.axes with
  | error q => simp [VecHistogram.iter, hl, bind, Except.bind]
  | ok l =>
    obtain ⟨items, hi, -⟩ := hok l hl
    simp [hi]

/-- the elements before the one that panics are updated without a panic -/
theorem anyAxis_updEach {F : Nat → Upd V} {i : Nat} {l : List V} {p : Panic} (h : (updEach F i l).2 = some p) :
    ∃ (k : Nat) (v : V), l[k]? = some v ∧ (F (i + k) v).2 = some p ∧ (updEach F i l).1[k]? = some (F (i + k) v).1 ∧
      (∀ j w, j < k → l[j]? = some w → (F (i + j) w).2 = none ∧ (updEach F i l).1[j]? = some (F (i + j) w).1) ∧
      ∀ j, k < j → (updEach F i l).1[j]? = l[j]? := by
  induction l generalizing i with
  | nil => simp [updEach] at h
  | cons v vs ih =>
    rcases hf : F i v with ⟨v', _ | q⟩
    · simp only [updEach, hf] at h ⊢
      obtain ⟨k, w, h1, h2, h3, h4, h5⟩ := ih h
      have e : ∀ m, i + 1 + m = i + (m + 1) := fun m => by omega
      refine ⟨k + 1, w, by simpa using h1, by rw [← e]; exact h2, by rw [← e k]; simpa using h3, ?_, ?_⟩
      · intro j x hj hx
        cases j with
        | zero =>
          simp only [List.getElem?_cons_zero, Option.some.injEq] at hx
          subst hx
          simp [hf]
        | succ j =>
          rw [← e]
          simpa using h4 j x (by omega) (by simpa using hx)
      · intro j hj
        cases j with
        | zero => omega
        | succ j => simpa using h5 j (by omega)
    · simp only [updEach, hf, Option.some.injEq] at h ⊢
      subst h
      refine ⟨0, v, rfl, by simp [hf], by simp [hf], by omega, ?_⟩
      intro j hj
      cases j with
      | zero => omega
      | succ j => simp

/-- C102: a loop over `iter_mut` of a dense histogram, also one with more or fewer values than bins. Axes and number of values stay. It ends without a panic exactly if, for every
number below `num_bins` with a value, `bin` gives an interval and the body does not panic, and, if the values are fewer than the bins, `bin` gives an interval
for the first number without a value as well; then exactly these values are updated. If it panics, there is a number such that the values before it are updated, and those after it are not. -/
theorem C102_iter_mut (h : VecHistogram A V) (f : Nat → Axis.Interval A → Upd V) :
    (h.iterMut f).1.axes = h.axes ∧ (h.iterMut f).1.valuesIter.length = h.valuesIter.length ∧
    (∀ p, Axis.numBins h.axes = .error p → h.iterMut f = (h, some p)) ∧
    ∀ n, Axis.numBins h.axes = .ok n →
      ((h.iterMut f).2 = none ↔
        (∀ i v, i < n → h.valueAtIndex i = some v → ∃ b, Axis.bin h.axes i = .ok (some b) ∧ (f i b v).2 = none) ∧
        (h.valuesIter.length < n → ∃ b, Axis.bin h.axes h.valuesIter.length = .ok (some b))) ∧
      ((h.iterMut f).2 = none → ∀ i b v, h.valueAtIndex i = some v → Axis.bin h.axes i = .ok (some b) →
        (h.iterMut f).1.valueAtIndex i = some (if i < n then (f i b v).1 else v)) ∧
      (∀ p, (h.iterMut f).2 = some p → ∃ k, k ≤ h.valuesIter.length ∧
        (∀ j v, j < k → h.valueAtIndex j = some v → ∃ b, Axis.bin h.axes j = .ok (some b) ∧ (h.iterMut f).1.valueAtIndex j = some (f j b v).1) ∧
        (Axis.bin h.axes k = .error p ∨ (Axis.bin h.axes k = .ok none ∧ p = .expectNone) ∨
          ∃ b v, Axis.bin h.axes k = .ok (some b) ∧ h.valueAtIndex k = some v ∧ (f k b v).2 = some p ∧ (h.iterMut f).1.valueAtIndex k = some (f k b v).1) ∧
        ∀ j, k < j → (h.iterMut f).1.valueAtIndex j = h.valueAtIndex j) := by
  rcases hn : Axis.numBins h.axes with p | n
  · have e : h.iterMut f = (h, some p) := by simp only [VecHistogram.iterMut, hn]
    rw [e]
    refine ⟨rfl, rfl, ?_, ?_⟩
    · intro q hq; cases hq; rfl
    · intro m hm; cases hm
  obtain ⟨body, hbody⟩ : ∃ body : Nat → Upd V, (∀ i p v, Axis.bin h.axes i = .error p → body i v = (v, some p)) ∧
      (∀ i v, Axis.bin h.axes i = .ok none → body i v = (v, some .expectNone)) ∧ (∀ i b v, Axis.bin h.axes i = .ok (some b) → body i v = f i b v) ∧
      h.iterMut f = ({ h with values := (updEach body 0 (h.values.take n)).1 ++ h.values.drop n }, (updEach body 0 (h.values.take n)).2.or (h.iterMutTail n)) := by
    have he : ∃ body : Nat → Upd V, (body = fun i v => (match Axis.bin h.axes i with
        | .error p => (v, some p)
        | .ok none => (v, some .expectNone)
        | .ok (some b) => f i b v : V × Option Panic)) ∧
        h.iterMut f = ({ h with values := (updEach body 0 (h.values.take n)).1 ++ h.values.drop n }, (updEach body 0 (h.values.take n)).2.or (h.iterMutTail n)) := by
      apply Exists.intro
      constructor
      rotate_left
      · rw [VecHistogram.iterMut, hn]
      · funext i v
        rcases Axis.bin h.axes i with p | _ | b <;> rfl
    obtain ⟨body, hb, he⟩ := he
    refine ⟨body, ?_, ?_, ?_, he⟩
    · intro i p v hx; simp only [hb, hx]
    · intro i v hx; simp only [hb, hx]
    · intro i b v hx; simp only [hb, hx]
  obtain ⟨b1, b2, b3, e⟩ := hbody
  have bnone : ∀ i v, (body i v).2 = none → ∃ b, Axis.bin h.axes i = .ok (some b) ∧ body i v = f i b v := by
    intro i v hv
    rcases hb : Axis.bin h.axes i with p | _ | b
    · rw [b1 i p v hb] at hv; cases hv
    · rw [b2 i v hb] at hv; cases hv
    · exact ⟨b, rfl, b3 i b v hb⟩
  have tnone : h.iterMutTail n = none ↔ (h.valuesIter.length < n → ∃ b, Axis.bin h.axes h.valuesIter.length = .ok (some b)) := by
    unfold VecHistogram.iterMutTail VecHistogram.valuesIter
    split
    · rename_i hlt
      rcases hb : Axis.bin h.axes h.values.length with p | _ | b <;> simp [hlt]
    · rename_i hlt; simp [hlt]
  have take_get : ∀ i, (h.values.take n)[i]? = if i < n then h.valueAtIndex i else none := by
    intro i; rw [List.getElem?_take]; rfl
  have get : ∀ i, (h.iterMut f).1.valueAtIndex i = if i < n then (updEach body 0 (h.values.take n)).1[i]? else h.valueAtIndex i := by
    intro i
    rw [e]
    change ((updEach body 0 (h.values.take n)).1 ++ h.values.drop n)[i]? = _
    by_cases hi : i < (h.values.take n).length
    · rw [List.getElem?_append_left (by rw [updEach_length]; exact hi), if_pos (by rw [List.length_take] at hi; omega)]
    · rw [List.getElem?_append_right (by rw [updEach_length]; omega), updEach_length, List.getElem?_drop]
      rw [List.length_take] at hi ⊢
      split
      · rename_i hlt
        have h1 : h.values.length ≤ i := by omega
        rw [List.getElem?_eq_none_iff.2 (by omega), List.getElem?_eq_none_iff.2 (by rw [updEach_length, List.length_take]; omega)]
      · rename_i hlt
        change _ = h.values[i]?
        by_cases hle : n ≤ h.values.length
        · rw [Nat.min_eq_left hle]; congr 1; omega
        · rw [List.getElem?_eq_none_iff.2 (by omega), List.getElem?_eq_none_iff.2 (by omega)]
  have hlen : (h.iterMut f).1.valuesIter.length = h.valuesIter.length := by
    rw [e]
    change ((updEach body 0 (h.values.take n)).1 ++ h.values.drop n).length = h.values.length
    rw [List.length_append, updEach_length, List.length_take, List.length_drop]; omega
  refine ⟨by rw [e], hlen, fun p hp => (nomatch hp), ?_⟩
  intro m hm
  obtain rfl : n = m := by cases hm; rfl
  have epanic : (h.iterMut f).2 = (updEach body 0 (h.values.take n)).2.or (h.iterMutTail n) := by rw [e]
  refine ⟨?_, ?_, ?_⟩
  · rw [epanic, Option.or_eq_none_iff, tnone]
    apply and_congr_left
    intro _
    constructor
    · intro hu i v hi hv
      have := (updEach_ok hu i).2 v (by rw [take_get, if_pos hi]; exact hv)
      rw [Nat.zero_add] at this
      obtain ⟨b, hb, hbf⟩ := bnone i v this
      exact ⟨b, hb, by rw [← hbf]; exact this⟩
    · intro hall
      apply updEach_none
      intro j v hj
      rw [take_get] at hj
      split at hj
      · rename_i hlt
        obtain ⟨b, hb, hf⟩ := hall j v hlt hj
        rw [Nat.zero_add, b3 j b v hb]; exact hf
      · cases hj
  · intro hnone i b v hv hb
    rw [epanic, Option.or_eq_none_iff] at hnone
    rw [get]
    split
    · rename_i hlt
      rw [(updEach_ok hnone.1 i).1, take_get, if_pos hlt, hv, Nat.zero_add, Option.map_some, b3 i b v hb]
    · exact hv
  · intro p hp
    rw [epanic] at hp
    rcases hu : (updEach body 0 (h.values.take n)).2 with _ | q
    · rw [hu, Option.none_or] at hp
      have hlt : h.values.length < n := by
        by_contra hlt
        rw [VecHistogram.iterMutTail, if_neg hlt] at hp; cases hp
      refine ⟨h.values.length, Nat.le_refl _, ?_, ?_, ?_⟩
      · intro j v hj hv
        obtain ⟨k1, k2⟩ := updEach_ok hu j
        have hv' : (h.values.take n)[j]? = some v := by rw [take_get, if_pos (by omega)]; exact hv
        have := k2 v hv'
        rw [Nat.zero_add] at this
        obtain ⟨b, hb, hbf⟩ := bnone j v this
        refine ⟨b, hb, ?_⟩
        rw [get, if_pos (by omega), k1, hv', Nat.zero_add, Option.map_some, hbf]
      · rw [VecHistogram.iterMutTail, if_pos hlt] at hp
        rcases hb : Axis.bin h.axes h.values.length with q | _ | b
        · rw [hb] at hp; left; cases hp; rfl
        · rw [hb] at hp; right; left; cases hp; exact ⟨rfl, rfl⟩
        · rw [hb] at hp; cases hp
      · intro j hj
        have h1 : h.valueAtIndex j = none := List.getElem?_eq_none_iff.2 (by omega)
        have h2 : (h.iterMut f).1.valueAtIndex j = none := List.getElem?_eq_none_iff.2 (by
          change (h.iterMut f).1.valuesIter.length ≤ j
          rw [hlen]; change h.values.length ≤ j; omega)
        rw [h1, h2]
    · rw [hu, Option.some_or] at hp
      cases hp
      obtain ⟨k, v, h1, h2, h3, h4, h5⟩ := anyAxis_updEach hu
      rw [Nat.zero_add] at h2 h3
      rw [take_get] at h1
      have hk : k < n := by by_contra hk; rw [if_neg hk] at h1; cases h1
      rw [if_pos hk] at h1
      have hkl : k < h.values.length := (List.getElem?_eq_some_iff.1 h1).1
      refine ⟨k, Nat.le_of_lt hkl, ?_, ?_, ?_⟩
      · intro j w hj hw
        obtain ⟨g1, g2⟩ := h4 j w hj (by rw [take_get, if_pos (by omega)]; exact hw)
        rw [Nat.zero_add] at g1 g2
        obtain ⟨b, hb, hbf⟩ := bnone j w g1
        exact ⟨b, hb, by rw [get, if_pos (by omega), g2, hbf]⟩
      · rcases hb : Axis.bin h.axes k with q' | _ | b
        · rw [b1 k q' v hb] at h2; left; cases h2; rfl
        · rw [b2 k v hb] at h2; right; left; cases h2; exact ⟨rfl, rfl⟩
        · right; right
          rw [b3 k b v hb] at h2 h3
          exact ⟨b, v, rfl, h1, h2, by rw [get, if_pos hk, h3]⟩
      · intro j hj
        rw [get]
        split
        · rename_i hlt
          rw [h5 j hj, take_get, if_pos hlt]
        · rfl

/-- a user's axis that breaks the contract: it has two bins, but `index` is the coordinate itself -/
structure WildAxis where
deriving DecidableEq
/-- `index(c) = Some(c)`, `num_bins() = 2`, `bin(i) = Some(i)` for `i < 2` -/
instance wildAxis : Axis WildAxis where
  Coordinate := Nat
  Interval := Nat
  index _ c := .ok (some c)
  numBins _ := .ok 2
  bin _ i := .ok (if i < 2 then some i else none)

end

section
attribute [local instance] dbg64

/-- C102: with an index that is not below `num_bins`, the same fill is ignored silently by a dense histogram and stored by a sparse one, whose iterators
then panic. -/
theorem C102_counterexample_out_of_range :
    let d : VecHistogram WildAxis (MInt .u8) := ⟨⟨⟩, [MInt.lit 0, MInt.lit 0]⟩
    let s := ((HashHistogram.new WildAxis.mk : HashHistogram WildAxis (MInt .u8)).fill (5 : Nat)).1
    VecHistogram.new WildAxis.mk = .ok d ∧ d.fill (5 : Nat) = (d, none) ∧ d.value (5 : Nat) = .ok none ∧
    s.value (5 : Nat) = .ok (some (MInt.lit 1)) ∧ ∀ o, s.iter o = .error .expectNone := by
  refine ⟨by decide +kernel, by decide +kernel, by decide +kernel, by decide +kernel, ?_⟩
  rintro ⟨l, hl⟩
  have : l = [(5, (MInt.lit 1 : MInt .u8))] := List.perm_singleton.1 hl
  subst this
  rfl

/-- C102: in a tuple of axes, an index of a component that is not below its `num_bins` lands in the bin of another coordinate: the fill at `(2, 0)` is found at `(0, 1)`, in the
bin of `(0, 1)`. -/
theorem C102_counterexample_tuple :
    let t : AxTy := ⟨WildAxis, wildAxis⟩
    let a : AxesTuple t t [] := ⟨(⟨⟩, ⟨⟩, ()), [2, 4]⟩
    let d : VecHistogram (AxesTuple t t []) (MInt .u8) := ⟨a, [MInt.lit 0, MInt.lit 0, MInt.lit 0, MInt.lit 0]⟩
    AxesTuple.fromTuple (t₀ := t) (t₁ := t) (ts := []) (⟨⟩, ⟨⟩, ()) = .ok a ∧ VecHistogram.new a = .ok d ∧
    (d.fill (((2 : Nat), (0 : Nat), ()) : Coords [t, t])).1.value (((0 : Nat), (1 : Nat), ()) : Coords [t, t]) = .ok (some (MInt.lit 1)) ∧
    (d.fill (((2 : Nat), (0 : Nat), ()) : Coords [t, t])).1.valuesIter = [MInt.lit 0, MInt.lit 0, MInt.lit 1, MInt.lit 0] ∧
    a.bin 2 = .ok (some ((0 : Nat), (1 : Nat), ())) := by
  refine ⟨rfl, rfl, ?_, ?_, rfl⟩
  · rfl
  · rfl
end
end NdHist
