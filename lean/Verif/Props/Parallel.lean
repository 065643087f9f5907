import Verif.Model.Parallel
import Verif.Props.Access
/-!
# Parallel iteration: C39
-/
namespace NdHist

/-- the steps one after another, stopping at a panic: what the closure does when it runs alone -/
def runSteps {V : Type} : List (Upd V) → Upd V
  | [], v => (v, none)
  | s :: ss, v =>
    match s v with
    | (v', none) => runSteps ss v'
    | (v', some p) => (v', some p)

namespace Task
variable {V : Type}

/-- `n` steps of one task -/
def steps : Nat → Task V → Task V
  | 0, t => t
  | n + 1, t => steps n t.step

theorem steps_done (n : Nat) (v : V) (p : Option Panic) : steps n ⟨v, [], p⟩ = ⟨v, [], p⟩ := by
  induction n with
  | zero => rfl
  | succ n ih => exact ih

/-- a task run to its end did what the closure does alone -/
theorem steps_all (n : Nat) (v : V) (ss : List (Upd V)) (h : (steps n ⟨v, ss, none⟩).todo = []) :
    (steps n ⟨v, ss, none⟩).place = (runSteps ss v).1 ∧ (steps n ⟨v, ss, none⟩).panic = (runSteps ss v).2 := by
  induction n generalizing v ss with
  | zero =>
    simp only [steps] at h
    subst h
    exact ⟨rfl, rfl⟩
  | succ n ih =>
    cases ss with
    | nil =>
      show (steps n ⟨v, [], none⟩).place = _ ∧ _
      rw [steps_done]
      constructor
      · rfl
      · show (steps n ⟨v, [], none⟩).panic = _
        rw [steps_done]; rfl
    | cons s ss =>
      rcases hs : s v with ⟨v', _ | q⟩
      · have e : steps (n + 1) (⟨v, s :: ss, none⟩ : Task V) = steps n ⟨v', ss, none⟩ := by
          simp only [steps, step, hs]
        rw [e] at h ⊢
        simp only [runSteps, hs]
        exact ih v' ss h
      · have e : steps (n + 1) (⟨v, s :: ss, none⟩ : Task V) = ⟨v', [], some q⟩ := by
          simp only [steps, step, hs, steps_done]
        rw [e]
        simp only [runSteps, hs, and_self]

/-- a task stopped anywhere has done a prefix of the closure's steps -/
theorem steps_prefix (n : Nat) (v : V) (ss : List (Upd V)) :
    ∃ k, (steps n ⟨v, ss, none⟩).place = (runSteps (ss.take k) v).1 := by
  induction n generalizing v ss with
  | zero => exact ⟨0, rfl⟩
  | succ n ih =>
    cases ss with
    | nil => exact ⟨0, by show (steps n ⟨v, [], none⟩).place = _; rw [steps_done]; rfl⟩
    | cons s ss =>
      rcases hs : s v with ⟨v', _ | q⟩
      · have e : steps (n + 1) (⟨v, s :: ss, none⟩ : Task V) = steps n ⟨v', ss, none⟩ := by
          simp only [steps, step, hs]
        obtain ⟨k, hk⟩ := ih v' ss
        exact ⟨k + 1, by rw [e, hk]; simp only [List.take_succ_cons, runSteps, hs]⟩
      · have e : steps (n + 1) (⟨v, s :: ss, none⟩ : Task V) = ⟨v', [], some q⟩ := by
          simp only [steps, step, hs, steps_done]
        exact ⟨1, by rw [e]; simp only [List.take_succ_cons, runSteps, hs]⟩
end Task

theorem runSchedule_length {V : Type} (sched : List Nat) (ts : List (Task V)) :
    (runSchedule sched ts).length = ts.length := by
  induction sched generalizing ts with
  | nil => rfl
  | cons i sched ih => rw [runSchedule, ih, List.length_modify]

/-- under any schedule each task has made some number of its own steps, and nothing else happened to it -/
theorem runSchedule_get {V : Type} (sched : List Nat) (ts : List (Task V)) (j : Nat) :
    ∃ n, (runSchedule sched ts)[j]? = (ts[j]?).map (Task.steps n) := by
  induction sched generalizing ts with
  | nil => exact ⟨0, by show ts[j]? = _; cases ts[j]? <;> rfl⟩
  | cons i sched ih =>
    obtain ⟨n, hn⟩ := ih (ts.modify i Task.step)
    by_cases h : i = j
    · refine ⟨n + 1, ?_⟩
      rw [runSchedule, hn, List.getElem?_modify]
      subst h
      cases ts[i]? with
      | none => rfl
      | some t => simp [Task.steps]
    · refine ⟨n, ?_⟩
      rw [runSchedule, hn, List.getElem?_modify]
      cases ts[j]? with
      | none => rfl
      | some t => simp [h]

section
variable {A V : Type} [Cfg] [Axis A]

theorem parTasks_get {ws : Nat → List (Upd V)} (values : List V) (sched : List Nat)
    (hd : AllDone (runSchedule sched (values.mapIdx fun i v => (⟨v, ws i, none⟩ : Task V)))) (i : Nat) :
    ((runSchedule sched (values.mapIdx fun i v => (⟨v, ws i, none⟩ : Task V))).map (·.place))[i]? =
      (values[i]?).map (fun v => (runSteps (ws i) v).1) ∧
    ((runSchedule sched (values.mapIdx fun i v => (⟨v, ws i, none⟩ : Task V))).map (·.panic))[i]? =
      (values[i]?).map (fun v => (runSteps (ws i) v).2) := by
  obtain ⟨n, hn⟩ := runSchedule_get sched (values.mapIdx fun i v => (⟨v, ws i, none⟩ : Task V)) i
  rw [List.getElem?_mapIdx] at hn
  cases hv : values[i]? with
  | none => rw [hv] at hn; simp [hn]
  | some v =>
    rw [hv] at hn
    simp only [Option.map_some] at hn
    have := Task.steps_all n v (ws i) (hd _ (List.mem_iff_getElem?.2 ⟨i, hn⟩))
    simp only [List.getElem?_map, hn, Option.map_some, this, and_self]

/-- C39, dense: whatever the schedule, once every item is done bin `i` holds what the closure, run alone on its old value with its bin number and bin, leaves,
and the panics are those the closure produces alone; the axes and the number of bins do not change. -/
theorem C39_par_iter_mut {h : VecHistogram A V} {n : Nat} (ok : h.Ok n) (body : Nat → Axis.Interval A → List (Upd V))
    (sched : List Nat) (hd : AllDone (runSchedule sched (h.parIterMutTasks body))) :
    (h.parIterMut body sched).1.axes = h.axes ∧ (h.parIterMut body sched).1.Ok n ∧
    ∀ i b v, Axis.bin h.axes i = .ok (some b) → h.valueAtIndex i = some v →
      (h.parIterMut body sched).1.valueAtIndex i = some (runSteps (body i b) v).1 ∧
      (h.parIterMut body sched).2[i]? = some (runSteps (body i b) v).2 := by
  refine ⟨rfl, ⟨ok.lawful, ?_⟩, ?_⟩
  · show ((runSchedule sched (h.parIterMutTasks body)).map (·.place)).length = n
    rw [List.length_map, runSchedule_length, VecHistogram.parIterMutTasks, List.length_mapIdx, ok.size]
  · intro i b v hb hv
    have hv' : h.values[i]? = some v := hv
    obtain ⟨h1, h2⟩ := parTasks_get h.values sched hd i
    rw [hv'] at h1 h2
    simp only [Option.map_some, VecHistogram.itemWork, hb] at h1 h2
    exact ⟨h1, h2⟩

/-- C39, dense: if the sequential loop with the same closure does not panic, every parallel run gives the same histogram and
does not panic either; and conversely. -/
theorem C39_par_iter_mut_sequential {h : VecHistogram A V} {n : Nat} (ok : h.Ok n) (body : Nat → Axis.Interval A → List (Upd V))
    (sched : List Nat) (hd : AllDone (runSchedule sched (h.parIterMutTasks body))) :
    ((h.iterMut fun i b => runSteps (body i b)).2 = none ↔ ∀ p ∈ (h.parIterMut body sched).2, p = none) ∧
    ((h.iterMut fun i b => runSteps (body i b)).2 = none →
      (h.parIterMut body sched).1 = (h.iterMut fun i b => runSteps (body i b)).1) := by
  obtain ⟨p1, p2, p3⟩ := C39_par_iter_mut ok body sched hd
  obtain ⟨s1, s2, s3, s4⟩ := C38_iter_mut ok fun i b => runSteps (body i b)
  constructor
  · constructor
    · intro hn p hp
      obtain ⟨i, hi⟩ := List.mem_iff_getElem?.1 hp
      have hin : i < n := by
        have := (List.getElem?_eq_some_iff.1 hi).1
        simpa [VecHistogram.parIterMut, runSchedule_length, VecHistogram.parIterMutTasks, ok.size] using this
      obtain ⟨b, hb⟩ := ok.lawful.bin_some i hin
      obtain ⟨v, hv⟩ := ok.get hin
      have h1 := (p3 i b v hb hv).2
      have h2 := (s3 hn i b v hb hv).1
      rw [hi, h2] at h1
      exact Option.some.inj h1
    · intro hall
      cases hp : (h.iterMut fun i b => runSteps (body i b)).2 with
      | none => rfl
      | some p =>
        obtain ⟨k, b, v, hb, hv, hk, -⟩ := s4 p hp
        have h1 := (p3 k b v hb hv).2
        rw [hk] at h1
        have := hall _ (List.mem_iff_getElem?.2 ⟨k, h1⟩)
        cases this
  · intro hn
    apply VecHistogram.ext_get (by rw [p1, s1])
    intro i
    by_cases hi : i < n
    · obtain ⟨b, hb⟩ := ok.lawful.bin_some i hi
      obtain ⟨v, hv⟩ := ok.get hi
      rw [(p3 i b v hb hv).1, (s3 hn i b v hb hv).2]
    · rw [(p2.get_none).2 (by omega), (s2.get_none).2 (by omega)]

/-- C39, dense: two complete schedules give the same histogram and the same panics. -/
theorem C39_schedule_independent {h : VecHistogram A V} {n : Nat} (ok : h.Ok n) (body : Nat → Axis.Interval A → List (Upd V))
    (sched sched' : List Nat) (hd : AllDone (runSchedule sched (h.parIterMutTasks body)))
    (hd' : AllDone (runSchedule sched' (h.parIterMutTasks body))) :
    h.parIterMut body sched = h.parIterMut body sched' := by
  refine Prod.ext (VecHistogram.ext_get rfl fun i => ?_) (List.ext_getElem? fun i => ?_)
  · exact (parTasks_get h.values sched hd i).1.trans (parTasks_get h.values sched' hd' i).1.symm
  · exact (parTasks_get h.values sched hd i).2.trans (parTasks_get h.values sched' hd' i).2.symm

/-- C39, dense: even if a panic stops the run early, every bin is in a state its own closure was in: it has done a prefix
of its own steps on its own bin. -/
theorem C39_interrupted {h : VecHistogram A V} {n : Nat} (ok : h.Ok n) (body : Nat → Axis.Interval A → List (Upd V))
    (sched : List Nat) {i : Nat} {b : Axis.Interval A} {v : V} (hb : Axis.bin h.axes i = .ok (some b))
    (hv : h.valueAtIndex i = some v) :
    (h.parIterMut body sched).1.Ok n ∧
    ∃ k, (h.parIterMut body sched).1.valueAtIndex i = some (runSteps ((body i b).take k) v).1 := by
  constructor
  · refine ⟨ok.lawful, ?_⟩
    show ((runSchedule sched (h.parIterMutTasks body)).map (·.place)).length = n
    rw [List.length_map, runSchedule_length, VecHistogram.parIterMutTasks, List.length_mapIdx, ok.size]
  · obtain ⟨m, hm⟩ := runSchedule_get sched (h.parIterMutTasks body) i
    have hv' : h.values[i]? = some v := hv
    rw [VecHistogram.parIterMutTasks, List.getElem?_mapIdx, hv'] at hm
    simp only [Option.map_some, VecHistogram.itemWork, hb] at hm
    obtain ⟨k, hk⟩ := Task.steps_prefix m v (body i b)
    refine ⟨k, ?_⟩
    show ((runSchedule sched (h.parIterMutTasks body)).map (·.place))[i]? = _
    rw [List.getElem?_map, VecHistogram.parIterMutTasks]
    simp only [VecHistogram.itemWork] at hm ⊢
    rw [hm, Option.map_some, hk]

/-- C39, dense: `par_values_mut`. -/
theorem C39_par_values_mut {h : VecHistogram A V} {n : Nat} (ok : h.Ok n) (body : Nat → List (Upd V)) (sched : List Nat)
    (hd : AllDone (runSchedule sched (h.parValuesMutTasks body))) :
    (h.parValuesMut body sched).1.axes = h.axes ∧ (h.parValuesMut body sched).1.Ok n ∧
    ∀ i, (h.parValuesMut body sched).1.valueAtIndex i = (h.valueAtIndex i).map (fun v => (runSteps (body i) v).1) ∧
      (h.parValuesMut body sched).2[i]? = (h.valueAtIndex i).map (fun v => (runSteps (body i) v).2) := by
  refine ⟨rfl, ⟨ok.lawful, ?_⟩, fun i => parTasks_get h.values sched hd i⟩
  show ((runSchedule sched (h.parValuesMutTasks body)).map (·.place)).length = n
  rw [List.length_map, runSchedule_length, VecHistogram.parValuesMutTasks, List.length_mapIdx, ok.size]

/-- C39, dense: `par_iter` yields exactly the items of `iter`, in the same order, without panicking; `par_values` the
values. -/
theorem C39_par_iter {h : VecHistogram A V} {n : Nat} (ok : h.Ok n) :
    ∃ items, h.iter = .ok items ∧ h.parIter = items.map .ok ∧ h.parValues = items.map (·.value) := by
  obtain ⟨items, h1, h2, h3, h4⟩ := C38_iter ok
  refine ⟨items, h1, ?_, h4⟩
  apply List.ext_getElem?
  intro i
  by_cases hi : i < n
  · obtain ⟨b, v, k1, k2, k3⟩ := h3 i hi
    have k3' : h.values[i]? = some v := k3
    rw [List.getElem?_map, k1, VecHistogram.parIter, List.getElem?_mapIdx, k3']
    simp [k2, expect, bind, Except.bind, pure, Except.pure]
  · rw [List.getElem?_eq_none, List.getElem?_eq_none]
    · rw [List.length_map, h2]; omega
    · rw [VecHistogram.parIter, List.length_mapIdx, ok.size]; omega

/-! ### sparse -/

theorem find_zip_keys {α β : Type} (l : List (Nat × α)) (ys : List β) (hlen : ys.length = l.length)
    (g : Nat → α → β) (hn : (l.map (·.1)).Nodup) (hg : ∀ (i : Nat) (k : Nat) (v : α), l[i]? = some (k, v) → ys[i]? = some (g k v)) (k : Nat) :
    HMap.find k ((l.map (·.1)).zip ys) = (HMap.find k l).map (g k) := by
  induction l generalizing ys with
  | nil => simp [HMap.find]
  | cons kv l ih =>
    obtain ⟨k', v⟩ := kv
    cases ys with
    | nil => simp at hlen
    | cons y ys =>
      have h0 := hg 0 k' v rfl
      simp at h0
      have := ih ys (by simpa using hlen) (List.nodup_cons.1 hn).2 (fun i k v h => by
        have := hg (i + 1) k v (by simpa using h)
        simpa using this)
      simp only [List.map_cons, List.zip_cons_cons, HMap.find]
      by_cases hk : k' = k
      · subst hk; simp [h0]
      · simp only [hk, if_false]; exact this

theorem parTasks_sparse {h : HashHistogram A V} {n : Nat} (ok : h.Ok n) (ws : Nat → List (Upd V)) (sched : List Nat)
    (hd : AllDone (runSchedule sched (h.values.entries.map fun kv => (⟨kv.2, ws kv.1, none⟩ : Task V)))) :
    let ts := runSchedule sched (h.values.entries.map fun kv => (⟨kv.2, ws kv.1, none⟩ : Task V))
    let h' : HashHistogram A V := { h with values := ⟨h.values.keys.zip (ts.map (·.place))⟩ }
    h'.Ok n ∧ (∀ k, h'.valueAtIndex k = (h.valueAtIndex k).map fun v => (runSteps (ws k) v).1) ∧
    ((∀ p ∈ ts.map (·.panic), p = none) ↔ ∀ k v, h.valueAtIndex k = some v → (runSteps (ws k) v).2 = none) := by
  intro ts h'
  have hlen : ts.length = h.values.entries.length := by
    show (runSchedule _ _).length = _
    rw [runSchedule_length, List.length_map]
  have hget : ∀ (i k : Nat) (v : V), h.values.entries[i]? = some (k, v) →
      ∃ t : Task V, ts[i]? = some t ∧ t.place = (runSteps (ws k) v).1 ∧ t.panic = (runSteps (ws k) v).2 := by
    intro i k v hkv
    obtain ⟨m, hm⟩ := runSchedule_get sched (h.values.entries.map fun kv => (⟨kv.2, ws kv.1, none⟩ : Task V)) i
    rw [List.getElem?_map, hkv] at hm
    simp only [Option.map_some] at hm
    exact ⟨_, hm, Task.steps_all m v (ws k) (hd _ (List.mem_iff_getElem?.2 ⟨i, hm⟩))⟩
  have hkeys : h'.values.keys = h.values.keys := by
    show (h.values.keys.zip (ts.map (·.place))).map Prod.fst = h.values.keys
    rw [List.map_fst_zip]
    simp [HMap.keys, hlen]
  refine ⟨⟨ok.lawful, ?_, ?_⟩, ?_, ?_⟩
  · unfold HMap.NodupKeys; rw [hkeys]; exact ok.nodup
  · rw [hkeys]; exact ok.valid
  · intro k
    exact find_zip_keys h.values.entries (ts.map (·.place)) (by simp [hlen]) (fun k v => (runSteps (ws k) v).1) ok.nodup
      (fun i k v hkv => by
        obtain ⟨t, ht, hp, -⟩ := hget i k v hkv
        rw [List.getElem?_map, ht, Option.map_some, hp]) k
  · constructor
    · intro hall k v hv
      obtain ⟨i, hi⟩ := List.mem_iff_getElem?.1 ((HMap.mem_entries_iff ok.nodup k v).2 hv)
      obtain ⟨t, ht, -, hp⟩ := hget i k v hi
      rw [← hp]
      exact hall _ (List.mem_map.2 ⟨t, List.mem_iff_getElem?.2 ⟨i, ht⟩, rfl⟩)
    · intro hall p hp
      obtain ⟨t, ht, rfl⟩ := List.mem_map.1 hp
      obtain ⟨i, hi⟩ := List.mem_iff_getElem?.1 ht
      have : i < h.values.entries.length := by rw [← hlen]; exact (List.getElem?_eq_some_iff.1 hi).1
      obtain ⟨t', ht', -, hp'⟩ := hget i h.values.entries[i].1 h.values.entries[i].2 (by simp [this])
      rw [hi] at ht'; cases ht'
      rw [hp']
      exact hall _ _ ((HMap.mem_entries_iff ok.nodup _ _).1 (List.getElem_mem this))

/-- C39, sparse: whatever the schedule, once every item is done each bin that had a value holds what the closure, run alone, leaves;
no bin is created; and there is a panic exactly if the closure panics on some bin. -/
theorem C39_par_iter_mut_sparse {h : HashHistogram A V} {n : Nat} (ok : h.Ok n) (body : Nat → Axis.Interval A → List (Upd V))
    (sched : List Nat) (hd : AllDone (runSchedule sched (h.parIterMutTasks body))) :
    (h.parIterMut body sched).1.axes = h.axes ∧ (h.parIterMut body sched).1.Ok n ∧
    (∀ i, h.valueAtIndex i = none → (h.parIterMut body sched).1.valueAtIndex i = none) ∧
    (∀ i b v, Axis.bin h.axes i = .ok (some b) → h.valueAtIndex i = some v →
      (h.parIterMut body sched).1.valueAtIndex i = some (runSteps (body i b) v).1) ∧
    ((∀ p ∈ (h.parIterMut body sched).2, p = none) ↔
      ∀ i b v, Axis.bin h.axes i = .ok (some b) → h.valueAtIndex i = some v → (runSteps (body i b) v).2 = none) := by
  obtain ⟨h1, h2, h3⟩ := parTasks_sparse ok (VecHistogram.itemWork h.axes body) sched hd
  refine ⟨rfl, h1, ?_, ?_, ?_⟩
  · intro i hi
    exact (h2 i).trans (by rw [hi]; rfl)
  · intro i b v hb hv
    refine (h2 i).trans ?_
    rw [hv]
    simp [VecHistogram.itemWork, hb]
  · refine h3.trans ?_
    constructor
    · intro hall i b v hb hv
      have := hall i v hv
      simpa only [VecHistogram.itemWork, hb] using this
    · intro hall i v hv
      obtain ⟨b, hb⟩ := ok.lawful.bin_some i (ok.valid i ((HMap.get_isSome _ _).1 ⟨v, hv⟩))
      have := hall i b v hb hv
      simpa only [VecHistogram.itemWork, hb] using this

/-- C39, sparse: `par_values_mut`. -/
theorem C39_par_values_mut_sparse {h : HashHistogram A V} {n : Nat} (ok : h.Ok n) (body : List (Upd V)) (sched : List Nat)
    (hd : AllDone (runSchedule sched (h.values.entries.map fun kv => (⟨kv.2, body, none⟩ : Task V)))) :
    (h.parValuesMut body sched).1.axes = h.axes ∧ (h.parValuesMut body sched).1.Ok n ∧
    (∀ i, (h.parValuesMut body sched).1.valueAtIndex i = (h.valueAtIndex i).map fun v => (runSteps body v).1) ∧
    ((∀ p ∈ (h.parValuesMut body sched).2, p = none) ↔ ∀ i v, h.valueAtIndex i = some v → (runSteps body v).2 = none) := by
  obtain ⟨h1, h2, h3⟩ := parTasks_sparse ok (fun _ => body) sched hd
  exact ⟨rfl, h1, h2, h3⟩

/-- C39, sparse: `par_iter` yields, without a panic, exactly the items of `iter` for the same order of the map. -/
theorem C39_par_iter_sparse {h : HashHistogram A V} {n : Nat} (ok : h.Ok n) (o : h.values.Order) :
    ∃ items, h.iter o = .ok items ∧ h.parIter o = items.map .ok := by
  have hall : ∀ l : List (Nat × V), (∀ kv ∈ l, ∃ b, Axis.bin h.axes kv.1 = .ok (some b)) →
      ∃ items, (l.mapM fun (index, value) => do
        let b ← Axis.bin h.axes index
        let bin ← expect b
        return ({ index, bin, value } : Item (Axis.Interval A) V)) = .ok items ∧
      (l.map fun kv => do
        let b ← Axis.bin h.axes kv.1
        let bin ← expect b
        return ({ index := kv.1, bin, value := kv.2 } : Item (Axis.Interval A) V)) = items.map Except.ok := by
    intro l
    induction l with
    | nil => exact fun _ => ⟨[], rfl, rfl⟩
    | cons kv rest ih =>
      intro hl
      obtain ⟨items, h1, h2⟩ := ih fun kv hm => hl kv (List.mem_cons_of_mem _ hm)
      obtain ⟨b, hb⟩ := hl kv (List.mem_cons_self ..)
      refine ⟨⟨kv.1, b, kv.2⟩ :: items, ?_, ?_⟩
      · rw [List.mapM_cons, h1]
        simp [hb, bind, Except.bind, expect, pure, Except.pure]
      · rw [List.map_cons, h2, List.map_cons]
        simp [hb, bind, Except.bind, expect, pure, Except.pure]
  obtain ⟨items, h1, h2⟩ := hall o.list fun kv hm => by
    have : kv.1 ∈ h.values.keys := List.mem_map.2 ⟨kv, o.perm.mem_iff.1 hm, rfl⟩
    exact ok.lawful.bin_some _ (ok.valid _ this)
  exact ⟨items, h1, h2⟩
end

/-- a complete schedule exists, whatever the tasks -/
theorem exists_complete {V : Type} (ts : List (Task V)) : ∃ sched, AllDone (runSchedule sched ts) := by
  have one : ∀ t : Task V, ∃ n, (Task.steps n t).todo = [] := by
    rintro ⟨v, ss, p⟩
    induction ss generalizing v p with
    | nil => exact ⟨0, rfl⟩
    | cons s ss ih =>
      rcases hs : s v with ⟨v', _ | q⟩
      · obtain ⟨n, hn⟩ := ih v' p
        exact ⟨n + 1, by simpa only [Task.steps, Task.step, hs] using hn⟩
      · exact ⟨1, by simp only [Task.steps, Task.step, hs]⟩
  have rep : ∀ n i (ts : List (Task V)), runSchedule (List.replicate n i) ts = ts.modify i (Task.steps n) := by
    intro n i
    induction n with
    | zero => intro ts
              have : (Task.steps 0 : Task V → Task V) = id := rfl
              rw [this, List.modify_id]; rfl
    | succ n ih =>
      intro ts
      rw [List.replicate_succ, runSchedule, ih, List.modify_modify_eq]
      rfl
  have app : ∀ (s s' : List Nat) (ts : List (Task V)), runSchedule (s ++ s') ts = runSchedule s' (runSchedule s ts) := by
    intro s s'
    induction s with
    | nil => intro ts; rfl
    | cons i s ih => intro ts; exact ih _
  have shift : ∀ (s : List Nat) (t : Task V) (ts : List (Task V)), runSchedule (s.map (· + 1)) (t :: ts) = t :: runSchedule s ts := by
    intro s
    induction s with
    | nil => intros; rfl
    | cons i s ih => intro t ts; simp only [List.map_cons, runSchedule, List.modify_succ_cons]; exact ih t _
  induction ts with
  | nil => exact ⟨[], by simp [AllDone, runSchedule]⟩
  | cons t ts ih =>
    obtain ⟨s, hs⟩ := ih
    obtain ⟨n, hn⟩ := one t
    refine ⟨List.replicate n 0 ++ s.map (· + 1), ?_⟩
    rw [app, rep, List.modify_zero_cons, shift]
    intro t' ht'
    rcases List.mem_cons.1 ht' with rfl | ht'
    · exact hn
    · exact hs t' ht'

section
attribute [local instance] dbg64
/-- two items with two steps each, interleaved; not the order of the sequential loop -/
example : ∃ h : VecHistogram (CategoryNoFlow String) (MInt .u8), h.Ok 2 ∧
    (h.parIterMut (fun _ _ => [Fill.fill, Fill.fill]) [1, 0, 1, 0]).1 = ⟨exAxis, [MInt.lit 6, MInt.lit 3]⟩ ∧
    AllDone (runSchedule [1, 0, 1, 0] (h.parIterMutTasks fun _ _ => [Fill.fill, Fill.fill])) :=
  ⟨⟨exAxis, [MInt.lit 4, MInt.lit 1]⟩, ⟨exAxis_lawful, rfl⟩, rfl, by
    intro t ht
    simp [VecHistogram.parIterMutTasks, VecHistogram.itemWork, runSchedule, List.mapIdx_cons] at ht
    rcases ht with rfl | rfl <;> rfl⟩
end
end NdHist
