import Verif.SpecThreads
import Verif.Props.Batch
import Verif.Props.Content
import Verif.Props.Wrap
import Verif.Props.FloatExact
import Verif.Props.FloatSum
/-!
# C92: threads that share a histogram behind a lock
-/
set_option linter.unusedSectionVars false
namespace NdHist
open RNum

section
variable {α : Type u} {β : Type v}

theorem Interleaving.perm {ts : List (List α)} {run : List α} (h : Interleaving ts run) : run.Perm ts.flatten := by
  induction h with
  | @done ts h =>
    have : ts.flatten = [] := List.flatten_eq_nil_iff.2 h
    rw [this]
  | @step ts k c rest run hk _ ih =>
    obtain ⟨hk', e⟩ := List.getElem?_eq_some_iff.1 hk
    refine (List.Perm.cons c ih).trans ?_
    -- taking a call off a thread
    have key : ∀ (ts : List (List α)) (k : Nat), ts[k]? = some (c :: rest) → (c :: (ts.set k rest).flatten).Perm ts.flatten := by
      intro ts
      induction ts with
      | nil => intro k h; simp at h
      | cons t ts ih =>
        intro k h
        cases k with
        | zero =>
          simp only [List.getElem?_cons_zero, Option.some.injEq] at h
          subst h
          simp
        | succ k =>
          simp only [List.getElem?_cons_succ] at h
          rw [List.set_cons_succ, List.flatten_cons, List.flatten_cons]
          exact (List.perm_middle.symm).trans (List.Perm.append_left t (ih k h))
    exact key ts k hk

/-- every thread's calls at once, thread after thread, is one of the orders -/
theorem Interleaving.sequential (ts : List (List α)) : Interleaving ts ts.flatten := by
  -- threads before the current one are done
  suffices ∀ (n : Nat) (done rest : List (List α)), rest.flatten.length = n → (∀ t ∈ done, t = []) → Interleaving (done ++ rest) rest.flatten from
    this _ [] ts rfl (by simp)
  intro n
  induction n with
  | zero =>
    intro done rest hn hd
    have h0 : rest.flatten = [] := List.eq_nil_of_length_eq_zero hn
    rw [h0]
    refine .done fun t ht => ?_
    rcases List.mem_append.1 ht with ht | ht
    · exact hd t ht
    · exact List.flatten_eq_nil_iff.1 h0 t ht
  | succ n ih =>
    intro done rest hn hd
    induction rest generalizing done with
    | nil => simp at hn
    | cons t rest ihr =>
      cases t with
      | nil =>
        have := ihr (done ++ [[]]) (by simpa using hn) (by
          intro t ht
          rcases List.mem_append.1 ht with ht | ht
          · exact hd t ht
          · simpa using ht)
        simpa using this
      | cons c t =>
        rw [List.flatten_cons, List.cons_append]
        refine .step (k := done.length) (rest := t) (by simp) ?_
        have e : (done ++ (c :: t) :: rest).set done.length t = done ++ t :: rest := by
          rw [List.set_append_right _ _ (Nat.le_refl _)]; simp
        rw [e]
        exact ih done (t :: rest) (by simp at hn ⊢; omega) hd

theorem Interleaving.map {ts : List (List α)} {run : List α} (f : α → β) (h : Interleaving ts run) : Interleaving (ts.map (List.map f)) (run.map f) := by
  induction h with
  | done h => exact .done (by simpa using h)
  | @step ts k c rest run hk _ ih =>
    refine .step (k := k) (rest := rest.map f) (by rw [List.getElem?_map, hk]; rfl) ?_
    rw [← List.map_set]; exact ih

theorem Interleaving.filter {ts : List (List α)} {run : List α} (p : α → Bool) (h : Interleaving ts run) : Interleaving (ts.map (List.filter p)) (run.filter p) := by
  induction h with
  | done h =>
    refine .done fun t ht => ?_
    obtain ⟨u, hu, rfl⟩ := List.mem_map.1 ht
    rw [h u hu]; rfl
  | @step ts k c rest run hk _ ih =>
    rw [List.map_set] at ih
    have hm : (ts.map (List.filter p))[k]? = some ((c :: rest).filter p) := by rw [List.getElem?_map, hk]; rfl
    by_cases hc : p c = true
    · rw [List.filter_cons_of_pos hc] at hm ⊢
      exact .step hm ih
    · rw [List.filter_cons_of_neg hc] at hm ⊢
      have e : (ts.map (List.filter p)).set k (rest.filter p) = ts.map (List.filter p) := by
        obtain ⟨h1, h2⟩ := List.getElem?_eq_some_iff.1 hm
        rw [← h2]; exact List.set_getElem_self h1
      rw [e] at ih
      exact ih

theorem Interleaving.split {ts : List (List α)} {pre post : List α} (h : Interleaving ts (pre ++ post)) :
    ∃ ps qs : List (List α), ps.length = ts.length ∧ qs.length = ts.length ∧ (∀ k : ℕ, ts[k]? = (ps[k]?).bind fun p => (qs[k]?).map fun q => p ++ q) ∧ Interleaving ps pre ∧ Interleaving qs post := by
  induction pre generalizing ts with
  | nil =>
    refine ⟨ts.map fun _ => [], ts, by simp, rfl, fun k => ?_, .done (by simp), h⟩
    rw [List.getElem?_map]
    cases hk : ts[k]? <;> simp
  | cons c pre ih =>
    rw [List.cons_append] at h
    cases h with
    | @step _ k _ rest _ hk hr =>
      obtain ⟨ps, qs, h1, h2, h3, h4, h5⟩ := ih hr
      obtain ⟨hk', e⟩ := List.getElem?_eq_some_iff.1 hk
      rw [List.length_set] at h1 h2
      have hkp : k < ps.length := by omega
      have hkq : k < qs.length := by omega
      refine ⟨ps.set k (c :: ps[k]), qs, by rw [List.length_set, h1], h2, fun j => ?_, .step (k := k) (rest := ps[k]) (by simp [hkp]) ?_, h5⟩
      · have := h3 j
        rw [List.getElem?_set] at this ⊢
        by_cases hj : k = j
        · subst hj
          rw [if_pos rfl, if_pos hk'] at this
          rw [if_pos rfl, if_pos hkp, hk]
          rw [List.getElem?_eq_getElem hkp, List.getElem?_eq_getElem hkq] at this
          rw [List.getElem?_eq_getElem hkq]
          have e2 : rest = ps[k] ++ qs[k] := by simpa using this
          simp [e2]
        · rw [if_neg hj] at this ⊢
          exact this
      · rw [List.set_set, List.set_getElem_self]; exact h4

/-- **C92 (any moment).** What has happened at any moment is an interleaving of a beginning of each thread, and what is still to come is one of what is left of each. -/
theorem C92_any_moment {ts : List (List α)} {pre post : List α} (h : Interleaving ts (pre ++ post)) :
    ∃ ps qs : List (List α), ps.length = qs.length ∧ ts = List.zipWith (· ++ ·) ps qs ∧ Interleaving ps pre ∧ Interleaving qs post := by
  obtain ⟨ps, qs, h1, h2, h3, h4, h5⟩ := h.split
  refine ⟨ps, qs, h1.trans h2.symm, List.ext_getElem? fun k => ?_, h4, h5⟩
  rw [h3 k, List.getElem?_zipWith]
  cases ps[k]? <;> cases qs[k]? <;> rfl
end

/-! ## Any value type -/

section
variable [cfg : Cfg] {A V : Type} [Axis A]

/-- **C92 (each bin).** Whatever the value type and the schedule: in the end (panics caught) each bin is the default value filled with an interleaving of the calls that the threads made for this bin:
the calls of one thread come in its order, and nothing else reaches the bin. -/
theorem C92_bins [RDefault V] {axes : A} {n : Nat} (hl : LawfulAxis axes n) {h : VecHistogram A V} (hnew : VecHistogram.new axes = .ok h)
    {ts : List (List (Call V (Axis.Coordinate A)))} {run : List (Call V (Axis.Coordinate A))} (hi : Interleaving ts run) :
    (h.callAllCaught run).Ok n ∧ (h.callAllCaught run).axes = axes ∧
    ∀ i, i < n → ∃ r, Interleaving (ts.map (callsIn axes i)) r ∧ (h.callAllCaught run).valueAtIndex i = some (filledWith r RDefault.dflt) := by
  obtain ⟨h1, h2, h3⟩ := C28_dense hl hnew run
  exact ⟨h1, h2, fun i hin => ⟨callsIn axes i run, hi.filter _, by rw [h3, if_pos hin]⟩⟩

/-- **C92 (each bin, sparse).** -/
theorem C92_bins_sparse [RDefault V] (axes : A) {ts : List (List (Call V (Axis.Coordinate A)))} {run : List (Call V (Axis.Coordinate A))} (hi : Interleaving ts run) (i : Nat) :
    ∃ r, Interleaving (ts.map (callsIn axes i)) r ∧
      ((HashHistogram.new axes).callAllCaught run).valueAtIndex i = if r = [] then none else some (filledWith r (RDefault.dflt : V)) :=
  ⟨callsIn axes i run, hi.filter _, C28_sparse axes run i⟩

/-! ## Calls that can be swapped -/

omit cfg in
theorem fillSeq_perm {C : Type} {calls calls' : List (Call V C)} (hp : calls.Perm calls') (hs : ∀ a ∈ calls, ∀ b ∈ calls, Swappable a b) (v : V)
    (h : (fillSeq calls v).2 = none) : fillSeq calls' v = fillSeq calls v := by
  induction hp generalizing v with
  | nil => rfl
  | cons x _ ih =>
    rw [fillSeq] at h ⊢
    rw [fillSeq]
    rcases hx : x.on v with ⟨w, _ | p⟩
    · rw [hx] at h
      exact ih (fun a ha b hb => hs a (by simp [ha]) b (by simp [hb])) w h
    · rfl
  | swap x y l =>
    have e1 : fillSeq (y :: x :: l) v = fillSeq ([y, x] ++ l) v := rfl
    have e2 : fillSeq (x :: y :: l) v = fillSeq ([x, y] ++ l) v := rfl
    rw [e1, fillSeq_append] at h
    rw [e1, e2, fillSeq_append, fillSeq_append]
    rcases h2 : fillSeq [y, x] v with ⟨w, _ | p⟩
    · rw [hs y (by simp) x (by simp) v (by rw [h2]), h2]
    · rw [h2] at h; cases h
  | @trans l₁ l₂ l₃ hp1 hp2 ih1 ih2 =>
    have := ih1 hs v h
    rw [ih2 (fun a ha b hb => hs a (hp1.mem_iff.2 ha) b (hp1.mem_iff.2 hb)) v (by rw [this]; exact h), this]

/-- when a sequence of calls does not panic: every coordinate can be looked up and no bin panics -/
theorem VecHistogram.callAll_none_iff (h : VecHistogram A V) (calls : List (Call V (Axis.Coordinate A))) :
    (h.callAll calls).2 = none ↔ (∀ c ∈ calls, IndexTotal h.axes c.coord) ∧ ∀ i v, h.valueAtIndex i = some v → (fillSeq (callsIn h.axes i calls) v).2 = none := by
  induction calls generalizing h with
  | nil => exact ⟨fun _ => ⟨by simp, fun _ _ _ => rfl⟩, fun _ => rfl⟩
  | cons c cs ih =>
    have hcons : ∀ j, callsIn h.axes j (c :: cs) = if Axis.index h.axes c.coord = .ok (some j) then c :: callsIn h.axes j cs else callsIn h.axes j cs := by
      intro j
      unfold callsIn; rw [List.filter_cons]; split <;> rename_i hc <;> simp at hc <;> simp [hc]
    rw [VecHistogram.callAll]
    rcases hi : Axis.index h.axes c.coord with p | _ | i
    · rw [VecHistogram.call_error hi]
      refine ⟨fun h => (by cases h), fun h => ?_⟩
      obtain ⟨o, ho⟩ := h.1 c (by simp)
      rw [hi] at ho; cases ho
    · rw [VecHistogram.call_none hi, ih]
      refine and_congr ?_ ?_
      · simp only [List.mem_cons, forall_eq_or_imp]
        exact ⟨fun h => ⟨⟨_, hi⟩, h⟩, fun h => h.2⟩
      · refine forall_congr' fun j => ?_
        rw [hcons j, hi, if_neg (by simp)]
    · have htot : (∀ x ∈ c :: cs, IndexTotal h.axes x.coord) ↔ ∀ x ∈ cs, IndexTotal h.axes x.coord := by
        simp only [List.mem_cons, forall_eq_or_imp]
        exact ⟨fun h => h.2, fun h => ⟨⟨_, hi⟩, h⟩⟩
      cases hv : h.valueAtIndex i with
      | none =>
        rw [VecHistogram.call_out hi hv, ih, htot]
        refine and_congr Iff.rfl (forall_congr' fun j => ?_)
        rw [hcons j, hi]
        by_cases hij : i = j
        · subst hij
          exact ⟨fun _ v h => absurd (hv.symm.trans h) (by simp), fun _ v h => absurd (hv.symm.trans h) (by simp)⟩
        · rw [if_neg (by simpa using hij)]
      | some v =>
        have hget := VecHistogram.call_get h c
        have hax := VecHistogram.call_axes h c
        have hcall := VecHistogram.call_some hi hv
        rcases hon : c.on v with ⟨w, _ | p⟩
        · have h2 : (h.call c).2 = none := by rw [hcall, hon]
          rw [show h.call c = ((h.call c).1, none) from Prod.ext rfl h2]
          simp only
          rw [ih, htot, hax]
          refine and_congr Iff.rfl (forall_congr' fun j => ?_)
          rw [hcons j, hget j, hi]
          by_cases hij : i = j
          · subst hij
            rw [if_pos rfl, if_pos rfl, hv]
            simp only [Option.map_some, Option.some.injEq, forall_eq']
            rw [fillSeq, hon]
          · rw [if_neg (by simpa using hij), if_neg (by simpa using hij)]
        · have h2 : (h.call c).2 = some p := by rw [hcall, hon]
          rw [show h.call c = ((h.call c).1, some p) from Prod.ext rfl h2]
          refine ⟨fun h => (by cases h), fun hh => ?_⟩
          have := hh.2 i v hv
          rw [hcons i, if_pos hi, fillSeq, hon] at this
          cases this

theorem HashHistogram.callAll_none_iff [RDefault V] (h : HashHistogram A V) (calls : List (Call V (Axis.Coordinate A))) :
    (h.callAll calls).2 = none ↔
      (∀ c ∈ calls, IndexTotal h.axes c.coord) ∧ ∀ i, (fillSeq (callsIn h.axes i calls) ((h.valueAtIndex i).getD RDefault.dflt)).2 = none := by
  induction calls generalizing h with
  | nil => exact ⟨fun _ => ⟨by simp, fun _ => rfl⟩, fun _ => rfl⟩
  | cons c cs ih =>
    have hcons : ∀ j, callsIn h.axes j (c :: cs) = if Axis.index h.axes c.coord = .ok (some j) then c :: callsIn h.axes j cs else callsIn h.axes j cs := by
      intro j
      unfold callsIn; rw [List.filter_cons]; split <;> rename_i hc <;> simp at hc <;> simp [hc]
    have hce := HashHistogram.call_eq h c
    rw [HashHistogram.callAll]
    rcases hi : Axis.index h.axes c.coord with p | _ | i
    · rw [hi] at hce
      rw [hce]
      refine ⟨fun h => (by cases h), fun h => ?_⟩
      obtain ⟨o, ho⟩ := h.1 c (by simp)
      rw [hi] at ho; cases ho
    · rw [hi] at hce
      rw [hce, ih]
      refine and_congr ?_ ?_
      · simp only [List.mem_cons, forall_eq_or_imp]
        exact ⟨fun h => ⟨⟨_, hi⟩, h⟩, fun h => h.2⟩
      · refine forall_congr' fun j => ?_
        rw [hcons j, hi, if_neg (by simp)]
    · have htot : (∀ x ∈ c :: cs, IndexTotal h.axes x.coord) ↔ ∀ x ∈ cs, IndexTotal h.axes x.coord := by
        simp only [List.mem_cons, forall_eq_or_imp]
        exact ⟨fun h => h.2, fun h => ⟨⟨_, hi⟩, h⟩⟩
      have hget := HashHistogram.call_get h c
      have hax := HashHistogram.call_axes h c
      have hsnd : (h.call c).2 = (c.on ((h.valueAtIndex i).getD RDefault.dflt)).2 := by rw [hce, hi]; rfl
      rcases hon : c.on ((h.valueAtIndex i).getD RDefault.dflt) with ⟨w, _ | p⟩
      · rw [hon] at hsnd
        rw [show h.call c = ((h.call c).1, none) from Prod.ext rfl hsnd]
        simp only
        rw [ih, htot, hax]
        refine and_congr Iff.rfl (forall_congr' fun j => ?_)
        rw [hcons j, hget j, hi]
        by_cases hij : i = j
        · subst hij
          rw [if_pos rfl, if_pos rfl, Option.getD_some, fillSeq, hon]
        · rw [if_neg (by simpa using hij), if_neg (by simpa using hij)]
      · rw [hon] at hsnd
        rw [show h.call c = ((h.call c).1, some p) from Prod.ext rfl hsnd]
        refine ⟨fun h => (by cases h), fun hh => ?_⟩
        have := hh.2 i
        rw [hcons i, if_pos hi, fillSeq, hon] at this
        cases this

/-- **C92 (order).** If the calls can be swapped pairwise, on the values: making them in another order panics exactly if making them in this order does, and otherwise gives the same histogram. -/
theorem C92_order (h : VecHistogram A V) {calls calls' : List (Call V (Axis.Coordinate A))} (hp : calls.Perm calls') (hs : ∀ a ∈ calls, ∀ b ∈ calls, Swappable a b) :
    ((h.callAll calls).2 = none ↔ (h.callAll calls').2 = none) ∧ ((h.callAll calls).2 = none → h.callAll calls' = h.callAll calls) := by
  have hin : ∀ i, (callsIn h.axes i calls).Perm (callsIn h.axes i calls') := fun i => hp.filter _
  have mem : ∀ {l : List (Call V (Axis.Coordinate A))} {i a}, a ∈ callsIn h.axes i l → a ∈ l := fun ha => (List.mem_filter.1 ha).1
  have hs' : ∀ a ∈ calls', ∀ b ∈ calls', Swappable a b := fun a ha b hb => hs a (hp.mem_iff.2 ha) b (hp.mem_iff.2 hb)
  have one : (h.callAll calls).2 = none → (h.callAll calls').2 = none := by
    rw [VecHistogram.callAll_none_iff, VecHistogram.callAll_none_iff]
    rintro ⟨h1, h2⟩
    refine ⟨fun c hc => h1 c (hp.mem_iff.2 hc), fun i v hv => ?_⟩
    rw [fillSeq_perm (hin i) (fun a ha b hb => hs a (mem ha) b (mem hb)) v (h2 i v hv)]
    exact h2 i v hv
  have two : (h.callAll calls').2 = none → (h.callAll calls).2 = none := by
    rw [VecHistogram.callAll_none_iff, VecHistogram.callAll_none_iff]
    rintro ⟨h1, h2⟩
    refine ⟨fun c hc => h1 c (hp.mem_iff.1 hc), fun i v hv => ?_⟩
    rw [fillSeq_perm (hin i).symm (fun a ha b hb => hs' a (mem ha) b (mem hb)) v (h2 i v hv)]
    exact h2 i v hv
  refine ⟨⟨one, two⟩, fun hn => ?_⟩
  have hn' := one hn
  refine Prod.ext ?_ (hn'.trans hn.symm)
  rw [(C28_until_panic h calls).1 hn, (C28_until_panic h calls').1 hn']
  refine VecHistogram.ext_get (by rw [VecHistogram.callAllCaught_axes, VecHistogram.callAllCaught_axes]) fun i => ?_
  rw [VecHistogram.callAllCaught_get, VecHistogram.callAllCaught_get]
  cases hv : h.valueAtIndex i with
  | none => rfl
  | some v =>
    have q := ((VecHistogram.callAll_none_iff h calls).1 hn).2 i v hv
    have q' := fillSeq_perm (hin i) (fun a ha b hb => hs a (mem ha) b (mem hb)) v q
    show some _ = some _
    rw [← fillSeq_eq (Prod.ext rfl q : fillSeq (callsIn h.axes i calls) v = (_, none)), ← fillSeq_eq (Prod.ext rfl (by rw [q']; exact q) : fillSeq (callsIn h.axes i calls') v = (_, none)), q']

/-- **C92 (order, sparse).** -/
theorem C92_order_sparse [RDefault V] (h : HashHistogram A V) {calls calls' : List (Call V (Axis.Coordinate A))} (hp : calls.Perm calls') (hs : ∀ a ∈ calls, ∀ b ∈ calls, Swappable a b) :
    ((h.callAll calls).2 = none ↔ (h.callAll calls').2 = none) ∧
    ((h.callAll calls).2 = none → (h.callAll calls').1.axes = (h.callAll calls).1.axes ∧ ∀ i, (h.callAll calls').1.valueAtIndex i = (h.callAll calls).1.valueAtIndex i) := by
  have hin : ∀ i, (callsIn h.axes i calls).Perm (callsIn h.axes i calls') := fun i => hp.filter _
  have mem : ∀ {l : List (Call V (Axis.Coordinate A))} {i a}, a ∈ callsIn h.axes i l → a ∈ l := fun ha => (List.mem_filter.1 ha).1
  have hs' : ∀ a ∈ calls', ∀ b ∈ calls', Swappable a b := fun a ha b hb => hs a (hp.mem_iff.2 ha) b (hp.mem_iff.2 hb)
  have one : (h.callAll calls).2 = none → (h.callAll calls').2 = none := by
    rw [HashHistogram.callAll_none_iff, HashHistogram.callAll_none_iff]
    rintro ⟨h1, h2⟩
    refine ⟨fun c hc => h1 c (hp.mem_iff.2 hc), fun i => ?_⟩
    rw [fillSeq_perm (hin i) (fun a ha b hb => hs a (mem ha) b (mem hb)) _ (h2 i)]
    exact h2 i
  have two : (h.callAll calls').2 = none → (h.callAll calls).2 = none := by
    rw [HashHistogram.callAll_none_iff, HashHistogram.callAll_none_iff]
    rintro ⟨h1, h2⟩
    refine ⟨fun c hc => h1 c (hp.mem_iff.1 hc), fun i => ?_⟩
    rw [fillSeq_perm (hin i).symm (fun a ha b hb => hs' a (mem ha) b (mem hb)) _ (h2 i)]
    exact h2 i
  refine ⟨⟨one, two⟩, fun hn => ?_⟩
  have hn' := one hn
  rw [(C28_until_panic_sparse h calls).1 hn, (C28_until_panic_sparse h calls').1 hn']
  refine ⟨by rw [HashHistogram.callAllCaught_axes, HashHistogram.callAllCaught_axes], fun i => ?_⟩
  rw [HashHistogram.callAllCaught_get, HashHistogram.callAllCaught_get]
  have he : callsIn h.axes i calls' = [] ↔ callsIn h.axes i calls = [] := by
    rw [← List.length_eq_zero_iff, ← List.length_eq_zero_iff, (hin i).length_eq]
  by_cases h0 : callsIn h.axes i calls = []
  · rw [if_pos h0, if_pos (he.2 h0)]
  · rw [if_neg h0, if_neg fun h => h0 (he.1 h)]
    have q := ((HashHistogram.callAll_none_iff h calls).1 hn).2 i
    have q' := fillSeq_perm (hin i) (fun a ha b hb => hs a (mem ha) b (mem hb)) _ q
    rw [← fillSeq_eq (Prod.ext rfl q : fillSeq (callsIn h.axes i calls) _ = (_, none)), ← fillSeq_eq (Prod.ext rfl (by rw [q']; exact q) : fillSeq (callsIn h.axes i calls') _ = (_, none)), q']

/-- **C92 (schedules).** If the calls of the threads can be swapped pairwise: whether the program panics does not depend on the schedule, and if it does not, neither does the histogram; it is the same as
when the threads run one after another. -/
theorem C92_schedules (h : VecHistogram A V) {ts : List (List (Call V (Axis.Coordinate A)))} (hs : ∀ t ∈ ts, ∀ a ∈ t, ∀ u ∈ ts, ∀ b ∈ u, Swappable a b)
    {run : List (Call V (Axis.Coordinate A))} (hi : Interleaving ts run) :
    ((h.callAll run).2 = none ↔ (h.callAll ts.flatten).2 = none) ∧ ((h.callAll run).2 = none → h.callAll run = h.callAll ts.flatten) := by
  have hs' : ∀ a ∈ ts.flatten, ∀ b ∈ ts.flatten, Swappable a b := by
    intro a ha b hb
    obtain ⟨t, ht, ha⟩ := List.mem_flatten.1 ha
    obtain ⟨u, hu, hb⟩ := List.mem_flatten.1 hb
    exact hs t ht a ha u hu b hb
  obtain ⟨h1, h2⟩ := C92_order h hi.perm.symm hs'
  exact ⟨h1.symm, fun hn => h2 (h1.2 hn)⟩

/-- **C92 (schedules, sparse).** -/
theorem C92_schedules_sparse [RDefault V] (h : HashHistogram A V) {ts : List (List (Call V (Axis.Coordinate A)))} (hs : ∀ t ∈ ts, ∀ a ∈ t, ∀ u ∈ ts, ∀ b ∈ u, Swappable a b)
    {run : List (Call V (Axis.Coordinate A))} (hi : Interleaving ts run) :
    ((h.callAll run).2 = none ↔ (h.callAll ts.flatten).2 = none) ∧
    ((h.callAll run).2 = none → (h.callAll run).1.axes = (h.callAll ts.flatten).1.axes ∧ ∀ i, (h.callAll run).1.valueAtIndex i = (h.callAll ts.flatten).1.valueAtIndex i) := by
  have hs' : ∀ a ∈ ts.flatten, ∀ b ∈ ts.flatten, Swappable a b := by
    intro a ha b hb
    obtain ⟨t, ht, ha⟩ := List.mem_flatten.1 ha
    obtain ⟨u, hu, hb⟩ := List.mem_flatten.1 hb
    exact hs t ht a ha u hu b hb
  obtain ⟨h1, h2⟩ := C92_order_sparse h hi.perm.symm hs'
  exact ⟨h1.symm, fun hn => h2 (h1.2 hn)⟩
end
end NdHist
