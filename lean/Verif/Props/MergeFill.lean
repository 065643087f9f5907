import Verif.Props.Merge
import Mathlib.Data.ZMod.Basic
/-!
# Merging and filling: C29 (additive values), C30 (totals of integer histograms), C33 (merge = fill both), C35 (sparse)
-/
namespace NdHist

/-! ## Sum-like values -/

/-- `V` is a type of sums: `μ` is the number a value stands for, different values stand for different numbers, the default
stands for zero, and `+` gives the value that stands for the sum whenever there is one. -/
structure SumLike {V M : Type} [ROps V] [RDefault V] [AddCommMonoid M] (μ : V → M) : Prop where
  inj : ∀ x y, μ x = μ y → x = y
  dflt : μ RDefault.dflt = 0
  add : ∀ x y v, μ v = μ x + μ y → ROps.op .add x y = .ok v

section
variable {A V M : Type} [Cfg] [Axis A]

/-! ## per bin, a history without panics is a sequence of fills without panics -/

theorem VecHistogram.callAll_seq {h h' : VecHistogram A V} {calls : List (Call V (Axis.Coordinate A))}
    (hr : h.callAll calls = (h', none)) (j : Nat) {v : V} (hv : h.valueAtIndex j = some v) :
    ∃ v', h'.valueAtIndex j = some v' ∧ fillSeq (callsIn h.axes j calls) v = (v', none) := by
  induction calls generalizing h v with
  | nil =>
    simp only [VecHistogram.callAll, Prod.mk.injEq, and_true] at hr
    subst hr
    exact ⟨v, hv, rfl⟩
  | cons c cs ih =>
    rcases hc : h.call c with ⟨h₁, _ | q⟩
    · simp only [VecHistogram.callAll, hc] at hr
      have hax : h₁.axes = h.axes := by have := VecHistogram.call_axes h c; rwa [hc] at this
      have hg := VecHistogram.call_get h c j
      rw [hc] at hg
      unfold callsIn
      rw [List.filter_cons]
      by_cases hi : Axis.index h.axes c.coord = .ok (some j)
      · rw [if_pos hi, hv] at hg
        obtain ⟨v', h1, h2⟩ := ih hr (v := (c.on v).1) hg
        rw [hax] at h2
        refine ⟨v', h1, ?_⟩
        have hn : (c.on v).2 = none := by
          have := VecHistogram.call_some hi hv
          rw [hc] at this
          exact (congrArg Prod.snd this).symm
        have he : c.on v = ((c.on v).1, none) := Prod.ext rfl hn
        simp only [hi, decide_true, if_true, fillSeq]
        rw [he]
        exact h2
      · rw [if_neg hi, hv] at hg
        obtain ⟨v', h1, h2⟩ := ih hr hg
        rw [hax] at h2
        refine ⟨v', h1, ?_⟩
        simp only [hi, decide_false, Bool.false_eq_true, if_false]
        exact h2
    · simp [VecHistogram.callAll, hc] at hr

theorem HashHistogram.callAll_seq [RDefault V] {h h' : HashHistogram A V} {calls : List (Call V (Axis.Coordinate A))}
    (hr : h.callAll calls = (h', none)) (j : Nat) :
    fillSeq (callsIn h.axes j calls) ((h.valueAtIndex j).getD RDefault.dflt) =
      ((h'.valueAtIndex j).getD RDefault.dflt, none) := by
  induction calls generalizing h with
  | nil =>
    simp only [HashHistogram.callAll, Prod.mk.injEq, and_true] at hr
    subst hr
    rfl
  | cons c cs ih =>
    rcases hc : h.call c with ⟨h₁, _ | q⟩
    · simp only [HashHistogram.callAll, hc] at hr
      have hax : h₁.axes = h.axes := by have := HashHistogram.call_axes h c; rwa [hc] at this
      have hg := HashHistogram.call_get h c j
      rw [hc] at hg
      have := ih hr
      rw [hax] at this
      unfold callsIn
      rw [List.filter_cons]
      by_cases hi : Axis.index h.axes c.coord = .ok (some j)
      · rw [if_pos hi] at hg
        simp only at hg
        rw [hg, Option.getD_some] at this
        have hn : (c.on ((h.valueAtIndex j).getD RDefault.dflt)).2 = none := by
          have e := HashHistogram.call_eq h c
          rw [hc, hi] at e
          exact (congrArg Prod.snd e).symm
        simp only [hi, decide_true, if_true, fillSeq]
        rw [show c.on ((h.valueAtIndex j).getD RDefault.dflt) =
          ((c.on ((h.valueAtIndex j).getD RDefault.dflt)).1, none) from Prod.ext rfl hn]
        exact this
      · rw [if_neg hi] at hg
        simp only at hg
        rw [hg] at this
        simp only [hi, decide_false, Bool.false_eq_true, if_false]
        exact this
    · simp [HashHistogram.callAll, hc] at hr

theorem fillSeq_adds' {C : Type} [AddMonoid M] {μ : V → M} (weight : Call V C → M) {l : List (Call V C)}
    (h : ∀ a ∈ l, Adds μ a.on (weight a)) {v v' : V} (hr : fillSeq l v = (v', none)) :
    μ v' = μ v + (l.map weight).sum := by
  induction l generalizing v with
  | nil => simp only [fillSeq, Prod.mk.injEq, and_true] at hr; subst hr; simp
  | cons c cs ih =>
    rcases hc : c.on v with ⟨w, _ | p⟩
    · simp only [fillSeq, hc] at hr
      rw [ih (fun call hm => h call (List.mem_cons_of_mem _ hm)) hr, h c (List.mem_cons_self ..) v w hc]
      simp [add_assoc]
    · simp [fillSeq, hc] at hr

theorem Res.bind_eq_error {α β : Type} {x : Res α} {f : α → Res β} {p : Panic} (h : (x >>= f) = .error p) :
    x = .error p ∨ ∃ a, x = .ok a ∧ f a = .error p := by
  rcases x with q | a
  · left; simpa [bind, Except.bind] using h
  · right; exact ⟨a, rfl, h⟩

theorem mapM_error {α β : Type} {f : α → Res β} {l : List α} {p : Panic} (h : l.mapM f = .error p) :
    ∃ x ∈ l, f x = .error p := by
  rcases mapM_res f l with ⟨z, h1, _⟩ | ⟨q, x, h1, h2, h3⟩
  · rw [h1] at h; cases h
  · rw [h1] at h; cases h; exact ⟨x, h2, h3⟩

/-- a panic of the borrowing operator is the panic of the value operator on some bin -/
theorem HashHistogram.opBorrow_error [PEq A] [ROps V] [RDefault V] {o : Op} {l r : HashHistogram A V} {ko : KeyOrder l r}
    {p : Panic} (h : l.opBorrow o r ko = .error p) :
    ∃ i, ROps.op o ((l.valueAtIndex i).getD RDefault.dflt) ((r.valueAtIndex i).getD RDefault.dflt) = .error p := by
  unfold opBorrow at h
  cases hax : PEq.peq l.axes r.axes
  · simp [hax, pure, Except.pure] at h
  · simp only [hax, Bool.true_eq_false, if_false] at h
    rcases Res.bind_eq_error h with h | ⟨_, _, h⟩
    · obtain ⟨i, hi, h⟩ := mapM_error h
      have hk := (ko.mem_iff i).1 hi
      rw [← HMap.get_isSome, ← HMap.get_isSome] at hk
      refine ⟨i, ?_⟩
      change ROps.op o ((l.values.get i).getD RDefault.dflt) ((r.values.get i).getD RDefault.dflt) = .error p
      cases hx : l.values.get i <;> cases hy : r.values.get i <;> rw [hx, hy] at h hk
      · simp at hk
      all_goals
        rcases Res.bind_eq_error h with h | ⟨_, _, h⟩
        · exact h
        · simp [pure, Except.pure] at h
    · simp [pure, Except.pure] at h

variable [AddCommMonoid M] {μ : V → M} {weight : Call V (Axis.Coordinate A) → M}

theorem VecHistogram.callAll_measure {h h' : VecHistogram A V} {calls : List (Call V (Axis.Coordinate A))}
    (hw : ∀ call ∈ calls, Adds μ call.on (weight call))
    (hr : h.callAll calls = (h', none)) {j : Nat} {v : V} (hv : h.valueAtIndex j = some v) :
    ∃ v', h'.valueAtIndex j = some v' ∧ μ v' = μ v + ((callsIn h.axes j calls).map weight).sum := by
  obtain ⟨v', h1, h2⟩ := VecHistogram.callAll_seq hr j hv
  refine ⟨v', h1, ?_⟩
  exact fillSeq_adds' weight (fun a ha => hw a (List.mem_of_mem_filter ha)) h2

theorem HashHistogram.callAll_measure [RDefault V] {h h' : HashHistogram A V} {calls : List (Call V (Axis.Coordinate A))}
    (hw : ∀ call ∈ calls, Adds μ call.on (weight call))
    (hr : h.callAll calls = (h', none)) (j : Nat) :
    μ ((h'.valueAtIndex j).getD RDefault.dflt) =
      μ ((h.valueAtIndex j).getD RDefault.dflt) + ((callsIn h.axes j calls).map weight).sum :=
  fillSeq_adds' weight (fun a ha => hw a (List.mem_of_mem_filter ha)) (HashHistogram.callAll_seq hr j)

theorem HashHistogram.callAll_isSome [RDefault V] {h h' : HashHistogram A V} {calls : List (Call V (Axis.Coordinate A))}
    (hr : h.callAll calls = (h', none)) (j : Nat) :
    h'.valueAtIndex j = none ↔ h.valueAtIndex j = none ∧ callsIn h.axes j calls = [] := by
  have e : h' = h.callAllCaught calls := by
    have := HashHistogram.callAll_ok (h := h) (calls := calls) (by rw [hr])
    rwa [hr] at this
  rw [e, HashHistogram.callAllCaught_get]
  split <;> simp_all

/-! ## C29 -/

/-- C29, additive values: two orders of the same history, neither of which panicked, give the same dense histogram. `μ` is
any faithful account of the value to which each fill adds its weight: the value itself for sums, the pair of sums for weighted sums,
and so on. -/
theorem C29_additive_dense (hinj : ∀ x y, μ x = μ y → x = y) {h h' h'' : VecHistogram A V}
    {calls calls' : List (Call V (Axis.Coordinate A))} (hp : calls.Perm calls')
    (hw : ∀ call ∈ calls, Adds μ call.on (weight call))
    (hr : h.callAll calls = (h', none)) (hr' : h.callAll calls' = (h'', none)) : h' = h'' := by
  have a1 : h'.axes = h.axes := by
    have := VecHistogram.callAll_ok (h := h) (calls := calls) (by rw [hr])
    rw [hr] at this; simp only at this; rw [this, VecHistogram.callAllCaught_axes]
  have a2 : h''.axes = h.axes := by
    have := VecHistogram.callAll_ok (h := h) (calls := calls') (by rw [hr'])
    rw [hr'] at this; simp only at this; rw [this, VecHistogram.callAllCaught_axes]
  apply VecHistogram.ext_get (by rw [a1, a2])
  intro j
  cases hv : h.valueAtIndex j with
  | none =>
    have e1 := VecHistogram.callAll_ok (h := h) (calls := calls) (by rw [hr])
    have e2 := VecHistogram.callAll_ok (h := h) (calls := calls') (by rw [hr'])
    rw [hr] at e1; rw [hr'] at e2
    simp only at e1 e2
    rw [e1, e2, VecHistogram.callAllCaught_get, VecHistogram.callAllCaught_get, hv]; rfl
  | some v =>
    obtain ⟨x, h1, h2⟩ := VecHistogram.callAll_measure hw hr hv
    obtain ⟨y, h3, h4⟩ := VecHistogram.callAll_measure (fun c hc => hw c (hp.mem_iff.2 hc)) hr' hv
    rw [h1, h3, hinj x y (by rw [h2, h4, ((callsIn_perm hp j).map weight).sum_eq])]

/-- C29, additive values, sparse. -/
theorem C29_additive_sparse [RDefault V] (hinj : ∀ x y, μ x = μ y → x = y) {h h' h'' : HashHistogram A V}
    {calls calls' : List (Call V (Axis.Coordinate A))} (hp : calls.Perm calls')
    (hw : ∀ call ∈ calls, Adds μ call.on (weight call))
    (hr : h.callAll calls = (h', none)) (hr' : h.callAll calls' = (h'', none)) :
    h'.axes = h''.axes ∧ ∀ j, h'.valueAtIndex j = h''.valueAtIndex j := by
  have e1 := HashHistogram.callAll_ok (h := h) (calls := calls) (by rw [hr])
  have e2 := HashHistogram.callAll_ok (h := h) (calls := calls') (by rw [hr'])
  rw [hr] at e1; rw [hr'] at e2
  simp only at e1 e2
  refine ⟨by rw [e1, e2, HashHistogram.callAllCaught_axes, HashHistogram.callAllCaught_axes], fun j => ?_⟩
  have m1 := HashHistogram.callAll_measure hw hr j
  have m2 := HashHistogram.callAll_measure (fun c hc => hw c (hp.mem_iff.2 hc)) hr' j
  rw [((callsIn_perm hp j).map weight).sum_eq, ← m2] at m1
  have m3 := hinj _ _ m1
  have n1 := HashHistogram.callAll_isSome hr j
  have n2 := HashHistogram.callAll_isSome hr' j
  have he : callsIn h.axes j calls = [] ↔ callsIn h.axes j calls' = [] := by
    have hpi := callsIn_perm (axes := h.axes) hp j
    constructor
    · intro e; rw [e] at hpi; exact hpi.nil_eq.symm
    · intro e; rw [e] at hpi; exact hpi.eq_nil
  rw [he, ← n2] at n1
  cases hx : h'.valueAtIndex j <;> cases hy : h''.valueAtIndex j <;> simp_all

/-! ## C33 -/

/-- C33, dense: if filling a new histogram with each of two data sets, and with both, does not panic, then adding the
two histograms gives exactly the histogram filled with both (in particular the addition does not panic or fail). The axes must be equal to themselves
(false only if they contain NaN). -/
theorem C33_merge_dense [PEq A] [ROps V] [RDefault V] (hμ : SumLike μ) {axes : A} {n : Nat} (hl : LawfulAxis axes n)
    (hrefl : PEq.peq axes axes = true) {calls₁ calls₂ : List (Call V (Axis.Coordinate A))}
    (hw : ∀ call ∈ calls₁ ++ calls₂, Adds μ call.on (weight call))
    {h h₁ h₂ h₁₂ : VecHistogram A V} (hnew : VecHistogram.new axes = .ok h)
    (r₁ : h.callAll calls₁ = (h₁, none)) (r₂ : h.callAll calls₂ = (h₂, none))
    (r₁₂ : h.callAll (calls₁ ++ calls₂) = (h₁₂, none)) :
    h₁.opBorrow .add h₂ = .ok (.ok h₁₂) := by
  obtain ⟨h₀, b1, b2, b3, b4⟩ := C26_new (V := V) hl
  have he : h = h₀ := by rw [hnew] at b1; exact Except.ok.inj b1
  subst he
  have e : ∀ {calls h'}, h.callAll calls = (h', none) → h' = h.callAllCaught calls := by
    intro calls h' hr
    have := VecHistogram.callAll_ok (h := h) (calls := calls) (by rw [hr])
    rwa [hr] at this
  have o₁ : h₁.Ok n := by rw [e r₁]; exact b2.callAllCaught _
  have o₂ : h₂.Ok n := by rw [e r₂]; exact b2.callAllCaught _
  have o₁₂ : h₁₂.Ok n := by rw [e r₁₂]; exact b2.callAllCaught _
  have a₁ : h₁.axes = axes := by rw [e r₁, VecHistogram.callAllCaught_axes, b3]
  have a₂ : h₂.axes = axes := by rw [e r₂, VecHistogram.callAllCaught_axes, b3]
  have a₁₂ : h₁₂.axes = axes := by rw [e r₁₂, VecHistogram.callAllCaught_axes, b3]
  have key : ∀ i, i < n → ∃ x y z, h₁.valueAtIndex i = some x ∧ h₂.valueAtIndex i = some y ∧
      h₁₂.valueAtIndex i = some z ∧ ROps.op .add x y = .ok z := by
    intro i hi
    have hv : h.valueAtIndex i = some RDefault.dflt := by rw [b4, if_pos hi]
    obtain ⟨x, x1, x2⟩ := VecHistogram.callAll_measure (fun c hc => hw c (List.mem_append_left _ hc)) r₁ hv
    obtain ⟨y, y1, y2⟩ := VecHistogram.callAll_measure (fun c hc => hw c (List.mem_append_right _ hc)) r₂ hv
    obtain ⟨z, z1, z2⟩ := VecHistogram.callAll_measure hw r₁₂ hv
    refine ⟨x, y, z, x1, y1, z1, hμ.add x y z ?_⟩
    rw [z2, x2, y2, hμ.dflt]
    unfold callsIn
    rw [List.filter_append, List.map_append, List.sum_append]
    simp
  rcases C33_binwise_dense .add o₁ o₂ (by rw [a₁, a₂]; exact hrefl) with ⟨m, m1, m2, m3, m4⟩ | ⟨p, i, x, y, -, p2, p3, p4⟩
  · rw [m1]
    congr 2
    apply VecHistogram.ext_get (by rw [m3, a₁, a₁₂])
    intro i
    by_cases hi : i < n
    · obtain ⟨x, y, z, k1, k2, k3, k4⟩ := key i hi
      obtain ⟨x', y', z', l1, l2, l3, l4⟩ := m4 i hi
      rw [k1] at l1; rw [k2] at l2; cases l1; cases l2
      rw [k4] at l3; cases l3
      rw [k3, l4]
    · rw [(m2.get_none).2 (by omega), (o₁₂.get_none).2 (by omega)]
  · exfalso
    have hi : i < n := by
      by_contra hn
      rw [(o₁.get_none).2 (by omega)] at p2; cases p2
    obtain ⟨x', y', z, k1, k2, k3, k4⟩ := key i hi
    rw [k1] at p2; rw [k2] at p3; cases p2; cases p3
    rw [k4] at p4; cases p4

/-- C33, sparse: the same, up to the (unobservable) order of the entries of the map; for the borrowing and the assigning form and any iteration
orders. -/
theorem C33_merge_sparse [PEq A] [ROps V] [LawfulROps V] [RDefault V] (hμ : SumLike μ) {axes : A} {n : Nat} (hl : LawfulAxis axes n)
    (hrefl : PEq.peq axes axes = true) {calls₁ calls₂ : List (Call V (Axis.Coordinate A))}
    (hw : ∀ call ∈ calls₁ ++ calls₂, Adds μ call.on (weight call))
    {h₁ h₂ h₁₂ : HashHistogram A V}
    (r₁ : (HashHistogram.new axes).callAll calls₁ = (h₁, none)) (r₂ : (HashHistogram.new axes).callAll calls₂ = (h₂, none))
    (r₁₂ : (HashHistogram.new axes).callAll (calls₁ ++ calls₂) = (h₁₂, none)) (ko : HashHistogram.KeyOrder h₁ h₂)
    (ro : h₂.values.Order) :
    (∃ m, h₁.opBorrow .add h₂ ko = .ok (.ok m) ∧ m.axes = h₁₂.axes ∧ ∀ i, m.valueAtIndex i = h₁₂.valueAtIndex i) ∧
    (∃ m, h₁.opAssign .add h₂ ro = (m, none) ∧ m.axes = h₁₂.axes ∧ ∀ i, m.valueAtIndex i = h₁₂.valueAtIndex i) := by
  have e : ∀ {calls} {h' : HashHistogram A V}, (HashHistogram.new axes).callAll calls = (h', none) →
      h' = (HashHistogram.new axes).callAllCaught calls := by
    intro calls h' hr
    have := HashHistogram.callAll_ok (h := (HashHistogram.new axes : HashHistogram A V)) (calls := calls) (by rw [hr])
    rwa [hr] at this
  have b2 : (HashHistogram.new axes : HashHistogram A V).Ok n :=
    ⟨hl, HMap.nodup_empty, by simp [HashHistogram.new, HMap.empty, HMap.keys]⟩
  have o₁ : h₁.Ok n := by rw [e r₁]; exact b2.callAllCaught _
  have o₂ : h₂.Ok n := by rw [e r₂]; exact b2.callAllCaught _
  have a₁ : h₁.axes = axes := by rw [e r₁, HashHistogram.callAllCaught_axes]; rfl
  have a₂ : h₂.axes = axes := by rw [e r₂, HashHistogram.callAllCaught_axes]; rfl
  have a₁₂ : h₁₂.axes = axes := by rw [e r₁₂, HashHistogram.callAllCaught_axes]; rfl
  have hax : PEq.peq h₁.axes h₂.axes = true := by rw [a₁, a₂]; exact hrefl
  have key : ∀ i, ROps.op .add ((h₁.valueAtIndex i).getD RDefault.dflt) ((h₂.valueAtIndex i).getD RDefault.dflt) =
      .ok ((h₁₂.valueAtIndex i).getD RDefault.dflt) := by
    intro i
    have x2 := HashHistogram.callAll_measure (fun c hc => hw c (List.mem_append_left _ hc)) r₁ i
    have y2 := HashHistogram.callAll_measure (fun c hc => hw c (List.mem_append_right _ hc)) r₂ i
    have z2 := HashHistogram.callAll_measure hw r₁₂ i
    apply hμ.add
    rw [z2, x2, y2]
    have : (HashHistogram.new axes : HashHistogram A V).valueAtIndex i = none := rfl
    rw [this, Option.getD_none, hμ.dflt]
    unfold callsIn
    rw [List.filter_append, List.map_append, List.sum_append]
    simp
  have hnone : ∀ i, h₁₂.valueAtIndex i = none ↔ h₁.valueAtIndex i = none ∧ h₂.valueAtIndex i = none := by
    intro i
    have n1 := HashHistogram.callAll_isSome r₁ i
    have n2 := HashHistogram.callAll_isSome r₂ i
    have n3 := HashHistogram.callAll_isSome r₁₂ i
    rw [n1, n2, n3]
    unfold callsIn
    rw [List.filter_append, List.append_eq_nil_iff]
    tauto
  have hself : ∀ i x, h₁.valueAtIndex i = some x → h₂.valueAtIndex i = none → h₁₂.valueAtIndex i = some x := by
    intro i x hx hy
    have x2 := HashHistogram.callAll_measure (fun c hc => hw c (List.mem_append_left _ hc)) r₁ i
    have y2 := HashHistogram.callAll_measure (fun c hc => hw c (List.mem_append_right _ hc)) r₂ i
    have z2 := HashHistogram.callAll_measure hw r₁₂ i
    have hne : h₁₂.valueAtIndex i ≠ none := fun h => by rw [hnone] at h; rw [hx] at h; cases h.1
    obtain ⟨z, hz⟩ := Option.ne_none_iff_exists'.1 hne
    have hn2 := ((HashHistogram.callAll_isSome r₂ i).1 hy).2
    rw [hz] at z2 ⊢
    rw [hx] at x2
    simp only [Option.getD_some] at z2 x2
    have : callsIn (HashHistogram.new axes : HashHistogram A V).axes i (calls₁ ++ calls₂) =
        callsIn (HashHistogram.new axes : HashHistogram A V).axes i calls₁ := by
      unfold callsIn at hn2 ⊢
      rw [List.filter_append, hn2, List.append_nil]
    rw [this, ← x2] at z2
    rw [hμ.inj _ _ z2]
  constructor
  · obtain ⟨m, hb⟩ : ∃ m, h₁.opBorrow .add h₂ ko = .ok (.ok m) := by
      rcases hz : h₁.opBorrow .add h₂ ko with p | _ | m
      · obtain ⟨i, hi⟩ := HashHistogram.opBorrow_error hz
        rw [key i] at hi; cases hi
      · have := (C34_sparse .add h₁ h₂ ko ro).1.1 hz
        rw [hax] at this; cases this
      · exact ⟨m, rfl⟩
    obtain ⟨-, m1, m2⟩ := C33_binwise_sparse .add o₁ o₂ ko hb
    refine ⟨_, hb, by rw [m1, a₁, a₁₂], fun i => ?_⟩
    have := m2 i
    have k := key i
    have hn := hnone i
    cases hx : h₁.valueAtIndex i <;> cases hy : h₂.valueAtIndex i <;> rw [hx, hy] at this k hn <;>
      simp only [HashHistogram.merged, Option.getD_some, Option.getD_none, and_self, iff_true, reduceCtorEq, and_false,
        false_and, iff_false] at this k hn
    · rw [hn]; exact (Except.ok.inj this).symm
    all_goals
      rw [k] at this
      obtain ⟨w, hw⟩ := Option.ne_none_iff_exists'.1 hn
      rw [hw] at this ⊢
      exact (Except.ok.inj this).symm
  · have hloop : ∀ (rl : List (Nat × V)) (lv : HMap Nat V), (rl.map (·.1)).Nodup →
        (∀ k y, (k, y) ∈ rl → h₂.valueAtIndex k = some y ∧ lv.get k = h₁.valueAtIndex k) →
        (HashHistogram.mergeLoop .add rl lv).2 = none := by
      intro rl
      induction rl with
      | nil => intros; rfl
      | cons kv rest ih =>
        intro lv hnd hall
        obtain ⟨k, y⟩ := kv
        obtain ⟨h3, h4⟩ := hall k y (List.mem_cons_self ..)
        have kk := key k
        rw [h3, ← h4, Option.getD_some] at kk
        have he : HashHistogram.entryUpd lv k (ROps.opAssign .add y) =
            (lv.insert k ((h₁₂.valueAtIndex k).getD RDefault.dflt), none) := by
          simp [HashHistogram.entryUpd, LawfulROps.assign, kk]
        simp only [HashHistogram.mergeLoop, he]
        simp only [List.map_cons, List.nodup_cons] at hnd
        refine ih _ hnd.2 fun k' y' hm => ?_
        have := hall k' y' (List.mem_cons_of_mem _ hm)
        refine ⟨this.1, ?_⟩
        rw [HMap.get_insert_ne _ _ (fun e => hnd.1 (List.mem_map.2 ⟨(k', y'), hm, e.symm⟩))]
        exact this.2
    have hnd : (ro.list.map (·.1)).Nodup := ((ro.perm.map _).nodup_iff).2 o₂.nodup
    have hnp := hloop ro.list h₁.values hnd fun k y hm =>
      ⟨(HMap.mem_entries_iff o₂.nodup _ _).1 (ro.perm.mem_iff.1 hm), rfl⟩
    have hb : h₁.opAssign .add h₂ ro = (⟨h₁.axes, (HashHistogram.mergeLoop .add ro.list h₁.values).1⟩, none) := by
      simp only [HashHistogram.opAssign, hax, Bool.true_eq_false, if_false, hnp]
    obtain ⟨-, m1, m2, m3⟩ := C33_assign_sparse .add o₁ o₂ ro hb
    refine ⟨_, hb, by rw [m1, a₁, a₁₂], fun i => ?_⟩
    have k := key i
    have hn := hnone i
    cases hy : h₂.valueAtIndex i with
    | none =>
      rw [m2 i hy]
      cases hx : h₁.valueAtIndex i with
      | none => rw [hn.2 ⟨hx, hy⟩]
      | some x => rw [hself i x hx hy]
    | some y =>
      obtain ⟨z, z1, z2⟩ := m3 i y hy
      rw [z2]
      rw [hy, Option.getD_some] at k
      rw [k] at z1
      have hne : h₁₂.valueAtIndex i ≠ none := fun h => by rw [hn] at h; rw [hy] at h; cases h.2
      obtain ⟨w, hw⟩ := Option.ne_none_iff_exists'.1 hne
      rw [hw] at z1 ⊢
      exact congrArg some (Except.ok.inj z1).symm
end

/-! ## The crate's own sum-like values: numbers -/

/-- A history of `fill(c)` (`none`) and `fill_with(c, w)` (`some w`) calls on a histogram of numbers. -/
def numCalls {T C : Type} [Cfg] [RNum T] (hist : List (C × Option T)) : List (Call T C) :=
  hist.map fun cw => match cw.2 with
    | none => Call.fill cw.1
    | some w => Call.fillWith cw.1 w

section
variable [cfg : Cfg] {τ : IntTy}

/-- integers in a build with overflow checks -/
theorem int_sumLike_checked (hc : Cfg.checked = true) : SumLike (fun x : MInt τ => x.val) where
  inj x y h := MInt.ext h
  dflt := rfl
  add x y v h := by
    have h' : v.val = x.val + y.val := h
    show MInt.arith (x.val + y.val) = .ok v
    rw [← h', MInt.arith, dif_pos ⟨v.min_le, v.le_max⟩]

/-- the residue class a machine integer stands for -/
def residue (x : MInt τ) : ZMod (2 ^ τ.bits) := (x.val : ZMod (2 ^ τ.bits))

theorem residue_inj (x y : MInt τ) (h : residue x = residue y) : x = y := by
  apply MInt.ext
  have h1 := (ZMod.intCast_eq_intCast_iff_dvd_sub x.val y.val (2 ^ τ.bits)).1 h
  have hs := τ.size_eq
  have := x.min_le; have := x.le_max; have := y.min_le; have := y.le_max
  obtain ⟨k, hk⟩ := h1
  push_cast at hk
  have hpos : (0 : Int) < 2 ^ τ.bits := by positivity
  have hk0 : k = 0 := by
    rcases lt_trichotomy k 0 with hneg | h0 | hpos'
    · have : (2 : Int) ^ τ.bits * k ≤ 2 ^ τ.bits * (-1) := by apply mul_le_mul_of_nonneg_left <;> omega
      omega
    · exact h0
    · have : (2 : Int) ^ τ.bits * 1 ≤ 2 ^ τ.bits * k := by apply mul_le_mul_of_nonneg_left <;> omega
      omega
  rw [hk0] at hk
  omega

theorem residue_wrapping (n : Int) : residue (MInt.wrapping n : MInt τ) = (n : ZMod (2 ^ τ.bits)) := by
  unfold residue
  rw [ZMod.intCast_eq_intCast_iff_dvd_sub]
  simp only [MInt.wrapping, MInt.wrapVal]
  push_cast
  refine ⟨(n - τ.min) / 2 ^ τ.bits, ?_⟩
  have := Int.mul_ediv_add_emod (n - τ.min) (2 ^ τ.bits)
  omega

theorem residue_arith {n : Int} {v : MInt τ} (h : MInt.arith n = .ok v) : residue v = (n : ZMod (2 ^ τ.bits)) := by
  unfold MInt.arith at h
  split at h
  · cases h; rfl
  · split at h
    · cases h
    · cases h; exact residue_wrapping n

/-- integers in a build without overflow checks: residue classes -/
theorem int_sumLike_release (hc : Cfg.checked = false) : SumLike (fun x : MInt τ => residue x) where
  inj := residue_inj
  dflt := by show ((0 : Int) : ZMod (2 ^ τ.bits)) = 0; simp
  add x y v h := by
    show MInt.arith (x.val + y.val) = .ok v
    obtain ⟨w, hw⟩ : ∃ w : MInt τ, MInt.arith (x.val + y.val) = .ok w := by
      unfold MInt.arith
      split
      · exact ⟨_, rfl⟩
      · rw [if_neg (by simp [hc])]; exact ⟨_, rfl⟩
    rw [hw]
    congr 1
    apply residue_inj
    rw [residue_arith hw]
    refine (show residue v = residue x + residue y from h).symm ▸ ?_
    simp [residue]

theorem int_addAssign_val (hc : Cfg.checked = true) (d : MInt τ) : Adds (fun x : MInt τ => x.val) (addAssign d) d.val := by
  intro v v' h
  have := addAssign_none h
  change MInt.arith (v.val + d.val) = .ok v' at this
  unfold MInt.arith at this
  split at this
  · cases this; rfl
  · simp [hc] at this

theorem int_addAssign_residue (d : MInt τ) : Adds (fun x : MInt τ => residue x) (addAssign d) (residue d) := by
  intro v v' h
  have := addAssign_none h
  change MInt.arith (v.val + d.val) = .ok v' at this
  simp only [residue_arith this]
  simp [residue]

/-- what a call adds to an integer -/
def intWeight {C : Type} (cw : C × Option (MInt τ)) : MInt τ := cw.2.getD (@RNum.one (MInt τ) cfg MInt.instRNum)

theorem numCalls_adds {C M : Type} [AddCommMonoid M] {μ : MInt τ → M} (ν : MInt τ → M)
    (h : ∀ d, Adds μ (addAssign d) (ν d)) (hist : List (C × Option (MInt τ))) :
    ∀ call ∈ numCalls hist, ∃ w, Adds μ call.on w := by
  intro call hm
  obtain ⟨⟨c, w⟩, hm, rfl⟩ := List.mem_map.1 hm
  cases w with
  | none => exact ⟨_, h _⟩
  | some w => exact ⟨_, h w⟩

open Classical in
/-- some weight function, if there is one -/
noncomputable def someWeight {V C M : Type} [AddCommMonoid M] (μ : V → M) (call : Call V C) : M :=
  if h : ∃ w, Adds μ call.on w then h.choose else 0

theorem someWeight_adds {V C M : Type} [AddCommMonoid M] {μ : V → M} {call : Call V C} (h : ∃ w, Adds μ call.on w) :
    Adds μ call.on (someWeight μ call) := by
  rw [someWeight, dif_pos h]; exact h.choose_spec

variable {A : Type} [Axis A]

/-- C33 for histograms of any integer type, in either build profile. -/
theorem C33_merge_int_dense [PEq A] {axes : A} {n : Nat} (hl : LawfulAxis axes n) (hrefl : PEq.peq axes axes = true)
    (hist₁ hist₂ : List (Axis.Coordinate A × Option (MInt τ))) {h h₁ h₂ h₁₂ : VecHistogram A (MInt τ)}
    (hnew : VecHistogram.new axes = .ok h)
    (r₁ : h.callAll (numCalls hist₁) = (h₁, none)) (r₂ : h.callAll (numCalls hist₂) = (h₂, none))
    (r₁₂ : h.callAll (numCalls (hist₁ ++ hist₂)) = (h₁₂, none)) :
    h₁.opBorrow .add h₂ = .ok (.ok h₁₂) := by
  rw [numCalls, List.map_append] at r₁₂
  cases hc : Cfg.checked
  · refine C33_merge_dense (int_sumLike_release hc) hl hrefl (fun call hm => someWeight_adds ?_) hnew r₁ r₂ r₁₂
    rcases List.mem_append.1 hm with hm | hm <;> exact numCalls_adds residue int_addAssign_residue _ call hm
  · refine C33_merge_dense (int_sumLike_checked hc) hl hrefl (fun call hm => someWeight_adds ?_) hnew r₁ r₂ r₁₂
    rcases List.mem_append.1 hm with hm | hm <;> exact numCalls_adds MInt.val (int_addAssign_val hc) _ call hm

/-- C33 for sparse histograms of any integer type, in either build profile. -/
theorem C33_merge_int_sparse [PEq A] {axes : A} {n : Nat} (hl : LawfulAxis axes n) (hrefl : PEq.peq axes axes = true)
    (hist₁ hist₂ : List (Axis.Coordinate A × Option (MInt τ))) {h₁ h₂ h₁₂ : HashHistogram A (MInt τ)}
    (r₁ : (HashHistogram.new axes).callAll (numCalls hist₁) = (h₁, none))
    (r₂ : (HashHistogram.new axes).callAll (numCalls hist₂) = (h₂, none))
    (r₁₂ : (HashHistogram.new axes).callAll (numCalls (hist₁ ++ hist₂)) = (h₁₂, none))
    (ko : HashHistogram.KeyOrder h₁ h₂) (ro : h₂.values.Order) :
    (∃ m, h₁.opBorrow .add h₂ ko = .ok (.ok m) ∧ m.axes = h₁₂.axes ∧ ∀ i, m.valueAtIndex i = h₁₂.valueAtIndex i) ∧
    (∃ m, h₁.opAssign .add h₂ ro = (m, none) ∧ m.axes = h₁₂.axes ∧ ∀ i, m.valueAtIndex i = h₁₂.valueAtIndex i) := by
  rw [numCalls, List.map_append] at r₁₂
  cases hc : Cfg.checked
  · refine C33_merge_sparse (int_sumLike_release hc) hl hrefl (fun call hm => someWeight_adds ?_) r₁ r₂ r₁₂ ko ro
    rcases List.mem_append.1 hm with hm | hm <;> exact numCalls_adds residue int_addAssign_residue _ call hm
  · refine C33_merge_sparse (int_sumLike_checked hc) hl hrefl (fun call hm => someWeight_adds ?_) r₁ r₂ r₁₂ ko ro
    rcases List.mem_append.1 hm with hm | hm <;> exact numCalls_adds MInt.val (int_addAssign_val hc) _ call hm

/-- C29 for histograms of any integer type: two orders of the same fills that do not panic give the same histogram. -/
theorem C29_int_dense {hist hist' : List (Axis.Coordinate A × Option (MInt τ))} (hp : hist.Perm hist')
    {h h' h'' : VecHistogram A (MInt τ)}
    (r : h.callAll (numCalls hist) = (h', none)) (r' : h.callAll (numCalls hist') = (h'', none)) : h' = h'' :=
  C29_additive_dense residue_inj (hp.map _)
    (fun call hm => someWeight_adds (numCalls_adds residue int_addAssign_residue _ call hm)) r r'

/-- C29 for sparse histograms of any integer type. -/
theorem C29_int_sparse {hist hist' : List (Axis.Coordinate A × Option (MInt τ))} (hp : hist.Perm hist')
    {h h' h'' : HashHistogram A (MInt τ)}
    (r : h.callAll (numCalls hist) = (h', none)) (r' : h.callAll (numCalls hist') = (h'', none)) :
    h'.axes = h''.axes ∧ ∀ j, h'.valueAtIndex j = h''.valueAtIndex j :=
  C29_additive_sparse residue_inj (hp.map _)
    (fun call hm => someWeight_adds (numCalls_adds residue int_addAssign_residue _ call hm)) r r'

/-- The entries of a history whose coordinate lies in some bin. -/
def histCovered {T : Type} (axes : A) (hist : List (Axis.Coordinate A × Option T)) : List (Axis.Coordinate A × Option T) :=
  hist.filter fun cw => match Axis.index axes cw.1 with
    | .ok (some _) => true
    | _ => false

/-- C30 for integers: the bins of a histogram filled without a panic add up to the number of unit fills plus the total of the
weights, counting the fills whose coordinate lies in some bin (checked build; in a release build modulo `2^bits`). -/
theorem C30_int_total {axes : A} {n : Nat} (hl : LawfulAxis axes n)
    (hist : List (Axis.Coordinate A × Option (MInt τ))) {h h' : VecHistogram A (MInt τ)}
    (hnew : VecHistogram.new axes = .ok h) (r : h.callAll (numCalls hist) = (h', none)) :
    (Cfg.checked = true → (h'.values.map MInt.val).sum =
      ((histCovered axes hist).map fun cw => match cw.2 with | none => 1 | some w => w.val).sum) ∧
    (((h'.values.map MInt.val).sum : ZMod (2 ^ τ.bits)) =
      (((histCovered axes hist).map fun cw => match cw.2 with | none => 1 | some w => w.val).sum : Int)) := by
  have hcov : callsCovered axes (numCalls hist) = numCalls (histCovered axes hist) := by
    unfold callsCovered numCalls histCovered
    rw [List.filter_map]
    congr 1
    apply List.filter_congr
    rintro ⟨c, _ | w⟩ _ <;> rfl
  have main : ∀ {M : Type} [AddCommGroup M] (μ : MInt τ → M), (∀ d, Adds μ (addAssign d) (μ d)) →
      μ (RDefault.dflt) = 0 → (h'.values.map μ).sum = ((histCovered axes hist).map fun cw => μ (intWeight cw)).sum := by
    intro M _ μ hμ h0
    have := C30_conservation μ (someWeight μ) (calls := numCalls hist)
      (fun call hm => (someWeight_adds (numCalls_adds μ hμ _ call hm)).on) h0 hl hnew r
    rw [this, hcov, numCalls, List.map_map]
    congr 1
    apply List.map_congr_left
    intro cw _
    have hz : ∃ v : MInt τ, ∃ v', addAssign (intWeight cw) v = (v', none) := by
      refine ⟨⟨0, τ.min_le_zero, by have := τ.max_ge; omega⟩, intWeight cw, ?_⟩
      have : MInt.arith (0 + (intWeight cw).val) = .ok (intWeight cw) := by
        rw [MInt.arith, dif_pos (by rw [zero_add]; exact ⟨(intWeight cw).min_le, (intWeight cw).le_max⟩)]
        simp
      show Upd.store (fun s : MInt τ => MInt.arith (s.val + (intWeight cw).val)) _ = _
      simp only [Upd.store, this]
    obtain ⟨v, v', hv⟩ := hz
    have e1 := hμ (intWeight cw) v v' hv
    have e2 := (someWeight_adds (numCalls_adds μ hμ [cw] _ (List.mem_singleton.2 rfl))) v v' (by
      obtain ⟨c, _ | w⟩ := cw <;> exact hv)
    have e3 : μ v + someWeight μ _ = μ v + μ (intWeight cw) := e2.symm.trans e1
    exact add_left_cancel e3
  have hcast : ∀ l : List (Axis.Coordinate A × Option (MInt τ)), (l.map fun cw => (intWeight cw).val) =
      l.map fun cw => match cw.2 with | none => 1 | some w => w.val := by
    intro l
    apply List.map_congr_left
    rintro ⟨c, _ | w⟩ _
    · exact MInt.one_val
    · rfl
  constructor
  · intro hc
    rw [main (fun x => x.val) (int_addAssign_val hc) rfl, hcast]
  · have := main (fun x => residue x) int_addAssign_residue (by show ((0 : Int) : ZMod (2 ^ τ.bits)) = 0; simp)
    have hc2 : ∀ l : List Int, ((l.sum : Int) : ZMod (2 ^ τ.bits)) = (l.map fun x : Int => (x : ZMod (2 ^ τ.bits))).sum := by
      intro l; induction l with
      | nil => simp
      | cons a l ih => simp [ih]
    rw [hc2, List.map_map]
    refine Eq.trans this ?_
    rw [← hcast, hc2, List.map_map]
    rfl

/-! ## C35, sparse: where the forms agree and where they do not -/

/-- `x + 0` and `x - 0` are `x` -/
theorem int_neutral (o : Op) (ho : o = .add ∨ o = .sub) (x : MInt τ) : ROps.op o x RDefault.dflt = .ok x := by
  rcases ho with rfl | rfl
  · show MInt.arith (x.val + 0) = .ok x
    rw [add_zero, MInt.arith, dif_pos ⟨x.min_le, x.le_max⟩]
  · show MInt.arith (x.val - 0) = .ok x
    rw [sub_zero, MInt.arith, dif_pos ⟨x.min_le, x.le_max⟩]

/-- C35 for sparse histograms of integers, `+` and `-`: the borrowing form and the assigning form give the same histogram. -/
theorem C35_sparse_int [PEq A] (o : Op) (ho : o = .add ∨ o = .sub) {l r m m' : HashHistogram A (MInt τ)} {n : Nat}
    (hl : l.Ok n) (hr : r.Ok n) (ko : HashHistogram.KeyOrder l r) (ro : r.values.Order)
    (h : l.opBorrow o r ko = .ok (.ok m)) (h' : l.opAssign o r ro = (m', none)) :
    m'.axes = m.axes ∧ ∀ i, m'.valueAtIndex i = m.valueAtIndex i :=
  C35_sparse_neutral o (int_neutral o ho) hl hr ko ro h h'
end

/-! ## Concrete cases and counterexamples -/

section
attribute [local instance] dbg64

/-- a sparse histogram with the value 5 in bin 0 only -/
def exL : HashHistogram (CategoryNoFlow String) (MInt .u8) := ⟨exAxis, ⟨[(0, MInt.lit 5)]⟩⟩
/-- a sparse histogram without values -/
def exR : HashHistogram (CategoryNoFlow String) (MInt .u8) := ⟨exAxis, ⟨[]⟩⟩
/-- the keys of both -/
def exKeys : HashHistogram.KeyOrder exL exR :=
  ⟨[0], by decide, by intro k; simp [exL, exR, HMap.keys]⟩

/-- C35 is false for sparse histograms and `*`: a bin filled only on the left is multiplied by the default (zero) by `&h1 * &h2`, but
left alone by `h1 * &h2` and `h1 *= &h2`. -/
theorem C35_counterexample_mul :
    exL.Ok 2 ∧ exR.Ok 2 ∧
    (exL.opBorrow .mul exR exKeys).map (fun r => r.map fun m => m.valueAtIndex 0) = .ok (.ok (some (MInt.lit 0))) ∧
    (exL.opOwned .mul exR ⟨[], List.Perm.refl _⟩).map (fun r => r.map fun m => m.valueAtIndex 0) = .ok (.ok (some (MInt.lit 5))) ∧
    (exL.opAssign .mul exR ⟨[], List.Perm.refl _⟩).1.valueAtIndex 0 = some (MInt.lit 5) := by
  refine ⟨⟨exAxis_lawful, by unfold HMap.NodupKeys; decide, by decide⟩, ⟨exAxis_lawful, by unfold HMap.NodupKeys; decide, by decide⟩,
    by decide +kernel, by decide +kernel,
    by decide +kernel⟩

/-- C35 is false for sparse histograms and `/`: with integer values `&h1 / &h2` panics (division by the default, zero) where
`h1 /= &h2` leaves the bin alone. -/
theorem C35_counterexample_div :
    (exL.opBorrow .div exR exKeys).map (fun r => r.map fun m => m.valueAtIndex 0) = .error .divZero ∧
    (exL.opAssign .div exR ⟨[], List.Perm.refl _⟩).2 = none := by
  refine ⟨by decide +kernel, by decide +kernel⟩

/-- C33 is about exact sums: floating-point addition is not associative, and merging gives a different result than filling. -/
theorem C33_counterexample_float :
    ∃ h h₁ h₂ h₁₂ m : VecHistogram (CategoryNoFlow String) F64, VecHistogram.new exAxis = .ok h ∧
      h.callAll [.fillWith "a" (f64 0.1)] = (h₁, none) ∧
      h.callAll [.fillWith "a" (f64 0.2), .fillWith "a" (f64 0.3)] = (h₂, none) ∧
      h.callAll [.fillWith "a" (f64 0.1), .fillWith "a" (f64 0.2), .fillWith "a" (f64 0.3)] = (h₁₂, none) ∧
      h₁.opBorrow .add h₂ = .ok (.ok m) ∧
      (m.valueAtIndex 0).map (fun x => POrd.lt x ((h₁₂.valueAtIndex 0).getD x)) = some true := by
  refine ⟨_, _, _, _, _, rfl, rfl, rfl, rfl, rfl, ?_⟩
  decide +kernel

/-- C33: a merge of two integer histograms -/
example : ∃ h h₁ h₂ h₁₂ : VecHistogram (CategoryNoFlow String) (MInt .u8), VecHistogram.new exAxis = .ok h ∧
    h.callAll (numCalls [("a", none), ("b", some (MInt.lit 7))]) = (h₁, none) ∧
    h.callAll (numCalls [("x", none), ("b", some (MInt.lit 3))]) = (h₂, none) ∧
    h.callAll (numCalls ([("a", none), ("b", some (MInt.lit 7))] ++ [("x", none), ("b", some (MInt.lit 3))])) = (h₁₂, none) ∧
    h₁.opBorrow .add h₂ = .ok (.ok h₁₂) ∧ h₁₂.values = [MInt.lit 1, MInt.lit 10] ∧ PEq.peq exAxis exAxis = true :=
  ⟨_, _, _, _, rfl, rfl, rfl, rfl, rfl, rfl, rfl⟩

/-- C34: axes that differ -/
example : PEq.peq exAxis (CategoryNoFlow.new ["a", "c"]) = false ∧ PEq.peq exAxis exAxis = true := by decide +kernel

/-- C36: a scalar operation, without and with a panic -/
example : ∃ h : VecHistogram (CategoryNoFlow String) (MInt .u8), h.Ok 2 ∧
    h.opScalar .mul (MInt.lit 3) = .ok ⟨exAxis, [MInt.lit 12, MInt.lit 27]⟩ ∧ h.opScalar .mul (MInt.lit 100) = .error .overflow :=
  ⟨⟨exAxis, [MInt.lit 4, MInt.lit 9]⟩, ⟨exAxis_lawful, rfl⟩, rfl, rfl⟩

/-- the sparse operators on histograms with overlapping bins -/
example : ((exL.opAssign .sub exL ⟨_, List.Perm.refl _⟩).1.valueAtIndex 0 = some (MInt.lit 0)) ∧
    (exL.opAssign .sub exL ⟨_, List.Perm.refl _⟩).2 = none := by
  decide +kernel

/-- C29: a signed history for which one order panics and another does not -/
example : ∃ h : VecHistogram (CategoryNoFlow String) (MInt .i8), VecHistogram.new exAxis = .ok h ∧
    (h.callAll (numCalls [("a", some (MInt.lit 100)), ("a", some (MInt.lit 100)), ("a", some (MInt.lit (-90)))])).2 = some .overflow ∧
    (h.callAll (numCalls [("a", some (MInt.lit 100)), ("a", some (MInt.lit (-90))), ("a", some (MInt.lit 100))])).2 = none ∧
    (h.callAll (numCalls [("a", some (MInt.lit (-90))), ("a", some (MInt.lit 100)), ("a", some (MInt.lit 100))])).2 = none :=
  ⟨_, rfl, rfl, rfl, rfl⟩
end
end NdHist
