import Verif.SpecReach
import Verif.Props.MergeFill
import Verif.Props.Parallel
import Verif.Props.EqualAxes
/-!
# C55, C56: panics half-way through an operation; every histogram the API can produce is well formed
-/
namespace NdHist

section
variable {A V : Type} [Cfg] [Axis A]

/-! ## C55: `op=` stopped by a panic -/

theorem zipUpd_panic [ROps V] [LawfulROps V] (o : Op) {l r : List V} {p : Panic} (h : (zipUpd (ROps.opAssign o) l r).2 = some p) :
    ∃ (k : Nat) (x y : V), l[k]? = some x ∧ r[k]? = some y ∧ ROps.op o x y = .error p ∧ (zipUpd (ROps.opAssign o) l r).1[k]? = some x ∧
      (∀ i : Nat, i < k → ∃ x y z, l[i]? = some x ∧ r[i]? = some y ∧ ROps.op o x y = .ok z ∧ (zipUpd (ROps.opAssign o) l r).1[i]? = some z) ∧
      ∀ i : Nat, k < i → (zipUpd (ROps.opAssign o) l r).1[i]? = l[i]? := by
  induction l generalizing r with
  | nil => simp [zipUpd] at h
  | cons v vs ih =>
    cases r with
    | nil => simp [zipUpd] at h
    | cons w ws =>
      rcases hf : ROps.op o v w with q | x
      · refine ⟨0, v, w, rfl, rfl, ?_, ?_, by simp, ?_⟩
        · simp [zipUpd, LawfulROps.assign, hf] at h; rw [hf, h]
        · simp [zipUpd, LawfulROps.assign, hf]
        · intro i hi
          obtain ⟨j, rfl⟩ : ∃ j, i = j + 1 := ⟨i - 1, by omega⟩
          simp [zipUpd, LawfulROps.assign, hf]
      · simp only [zipUpd, LawfulROps.assign, hf] at h
        obtain ⟨k, a, b, h1, h2, h3, h4, h5, h6⟩ := ih h
        refine ⟨k + 1, a, b, by simpa using h1, by simpa using h2, h3, ?_, ?_, ?_⟩
        · simpa [zipUpd, LawfulROps.assign, hf] using h4
        · intro i hi
          cases i with
          | zero => exact ⟨v, w, x, rfl, rfl, hf, by simp [zipUpd, LawfulROps.assign, hf]⟩
          | succ j =>
            obtain ⟨a, b, c, g1, g2, g3, g4⟩ := h5 j (by omega)
            exact ⟨a, b, c, by simpa using g1, by simpa using g2, g3, by simpa [zipUpd, LawfulROps.assign, hf] using g4⟩
        · intro i hi
          obtain ⟨j, rfl⟩ : ∃ j, i = j + 1 := ⟨i - 1, by omega⟩
          simpa [zipUpd, LawfulROps.assign, hf] using h6 j (by omega)

/-- C55, dense: if `l op= &r` panics in a value operation, the histogram is still well formed with the same axes, and there is a bin `k` whose
operation panicked: the bins before it hold the result, bin `k` and those after it their old value. -/
theorem C55_assign_dense [PEq A] [ROps V] [LawfulROps V] (o : Op) {l r m : VecHistogram A V} {n : Nat} {p : Panic} (hl : l.Ok n)
    (hax : PEq.peq l.axes r.axes = true) (h : l.opAssign o r = (m, some p)) :
    m.Ok n ∧ m.axes = l.axes ∧ ∃ k x y, l.valueAtIndex k = some x ∧ r.valueAtIndex k = some y ∧ ROps.op o x y = .error p ∧
      (∀ i, i < k → ∃ x y z, l.valueAtIndex i = some x ∧ r.valueAtIndex i = some y ∧ ROps.op o x y = .ok z ∧ m.valueAtIndex i = some z) ∧
      ∀ i, k ≤ i → m.valueAtIndex i = l.valueAtIndex i := by
  simp only [VecHistogram.opAssign, hax, Bool.true_eq_false, if_false, Prod.mk.injEq] at h
  obtain ⟨rfl, h⟩ := h
  obtain ⟨k, x, y, h1, h2, h3, h4, h5, h6⟩ := zipUpd_panic o h
  refine ⟨⟨hl.lawful, by simp only [zipUpd_length]; exact hl.size⟩, rfl, k, x, y, h1, h2, h3, h5, fun i hi => ?_⟩
  rcases Nat.lt_or_eq_of_le hi with hi | rfl
  · exact h6 i hi
  · exact h4.trans h1.symm

theorem mergeLoop_panic [ROps V] [LawfulROps V] [RDefault V] (o : Op) {rl : List (Nat × V)} (hn : (rl.map (·.1)).Nodup) {m : HMap Nat V} {p : Panic}
    (h : (HashHistogram.mergeLoop o rl m).2 = some p) :
    ∃ done k y rest, rl = done ++ (k, y) :: rest ∧ ROps.op o ((m.get k).getD RDefault.dflt) y = .error p ∧
      (HashHistogram.mergeLoop o rl m).1.get k = some ((m.get k).getD RDefault.dflt) ∧
      (∀ i y, (i, y) ∈ done → ∃ z, ROps.op o ((m.get i).getD RDefault.dflt) y = .ok z ∧ (HashHistogram.mergeLoop o rl m).1.get i = some z) ∧
      ∀ i, i ≠ k → i ∉ done.map (·.1) → (HashHistogram.mergeLoop o rl m).1.get i = m.get i := by
  induction rl generalizing m with
  | nil => simp [HashHistogram.mergeLoop] at h
  | cons kv rl ih =>
    obtain ⟨k, w⟩ := kv
    simp only [List.map_cons, List.nodup_cons] at hn
    rcases hf : ROps.op o ((m.get k).getD RDefault.dflt) w with q | x
    · have e : HashHistogram.mergeLoop o ((k, w) :: rl) m = (m.insert k ((m.get k).getD RDefault.dflt), some q) := by
        simp [HashHistogram.mergeLoop, HashHistogram.entryUpd, LawfulROps.assign, hf]
      rw [e] at h ⊢
      simp only [Option.some.injEq] at h
      subst h
      refine ⟨[], k, w, rl, rfl, hf, HMap.get_insert_self _ _ _, by simp, fun i hi _ => HMap.get_insert_ne _ _ (Ne.symm hi)⟩
    · have e : HashHistogram.mergeLoop o ((k, w) :: rl) m = HashHistogram.mergeLoop o rl (m.insert k x) := by
        simp [HashHistogram.mergeLoop, HashHistogram.entryUpd, LawfulROps.assign, hf]
      rw [e] at h ⊢
      obtain ⟨done, k', y, rest, h1, h2, h3, h4, h5⟩ := ih hn.2 h
      have hk : k ≠ k' ∧ k ∉ done.map (·.1) := by
        rw [h1] at hn
        constructor
        · rintro rfl; exact hn.1 (by simp)
        · intro hm; exact hn.1 (by rw [List.map_append]; exact List.mem_append_left _ hm)
      refine ⟨(k, w) :: done, k', y, rest, by rw [h1]; rfl, ?_, ?_, ?_, ?_⟩
      · rwa [HMap.get_insert_ne _ _ hk.1] at h2
      · rwa [HMap.get_insert_ne _ _ hk.1] at h3
      · intro i y hm
        rcases List.mem_cons.1 hm with hm | hm
        · simp only [Prod.mk.injEq] at hm
          obtain ⟨rfl, rfl⟩ := hm
          exact ⟨x, hf, by rw [h5 _ hk.1 hk.2, HMap.get_insert_self]⟩
        · obtain ⟨z, g1, g2⟩ := h4 i y hm
          have : k ≠ i := by rintro rfl; exact hk.2 (List.mem_map.2 ⟨_, hm, rfl⟩)
          rw [HMap.get_insert_ne _ _ this] at g1
          exact ⟨z, g1, g2⟩
      · intro i hi hm
        simp only [List.map_cons, List.mem_cons, not_or] at hm
        rw [h5 i hi hm.2, HMap.get_insert_ne _ _ (Ne.symm hm.1)]

theorem mergeLoop_keys [ROps V] [RDefault V] (o : Op) (rl : List (Nat × V)) : ∀ (m : HMap Nat V), m.NodupKeys →
    (HashHistogram.mergeLoop o rl m).1.NodupKeys ∧
    ∀ i, i ∈ (HashHistogram.mergeLoop o rl m).1.keys → i ∈ m.keys ∨ i ∈ rl.map (·.1) := by
  induction rl with
  | nil => intro m hm; exact ⟨hm, fun i hi => .inl hi⟩
  | cons kv rl ih =>
    intro m hm
    obtain ⟨k, y⟩ := kv
    rw [HashHistogram.mergeLoop]
    have hins : ∀ v, (m.insert k v).NodupKeys := fun v => HMap.nodup_insert hm k v
    have hk : ∀ v i, i ∈ (m.insert k v).keys → i ∈ m.keys ∨ i ∈ ((k, y) :: rl).map (·.1) := by
      intro v i hi
      rcases (HMap.mem_keys_insert m k i v).1 hi with rfl | hi
      · right; simp
      · left; exact hi
    rcases hf : HashHistogram.entryUpd m k (ROps.opAssign o y) with ⟨m', _ | q⟩
    · have e : m' = m.insert k (ROps.opAssign o y ((m.get k).getD RDefault.dflt)).1 := by
        have := congrArg Prod.fst hf; exact this.symm
      subst e
      obtain ⟨h1, h2⟩ := ih _ (hins _)
      refine ⟨h1, fun i hi => ?_⟩
      rcases h2 i hi with hi | hi
      · exact hk _ i hi
      · right; simp only [List.map_cons, List.mem_cons]; right; exact hi
    · have e : m' = m.insert k (ROps.opAssign o y ((m.get k).getD RDefault.dflt)).1 := by
        have := congrArg Prod.fst hf; exact this.symm
      subst e
      exact ⟨hins _, hk _⟩

/-- C55, sparse: if `l op= &r` panics in a value operation, the histogram is still well formed with the same axes, and the entries of `r`, in the
order in which they were visited, are `done`, one for bin `k` whose operation panicked, and `rest`: the bins in `done` hold the result and all others
their old value, except that bin `k` exists afterwards, holding the default if it did not exist before. -/
theorem C55_assign_sparse [PEq A] [ROps V] [LawfulROps V] [RDefault V] (o : Op) {l r m : HashHistogram A V} {n n' : Nat} {p : Panic} (hl : l.Ok n)
    (hr : r.Ok n') (hnn : n' ≤ n) (hax : PEq.peq l.axes r.axes = true) (ro : r.values.Order) (h : l.opAssign o r ro = (m, some p)) :
    m.Ok n ∧ m.axes = l.axes ∧ ∃ done k y rest, ro.list = done ++ (k, y) :: rest ∧
      ROps.op o ((l.valueAtIndex k).getD RDefault.dflt) y = .error p ∧
      m.valueAtIndex k = some ((l.valueAtIndex k).getD RDefault.dflt) ∧
      (∀ i y, (i, y) ∈ done → r.valueAtIndex i = some y ∧ ∃ z, ROps.op o ((l.valueAtIndex i).getD RDefault.dflt) y = .ok z ∧ m.valueAtIndex i = some z) ∧
      ∀ i, i ≠ k → i ∉ done.map (·.1) → m.valueAtIndex i = l.valueAtIndex i := by
  simp only [HashHistogram.opAssign, hax, Bool.true_eq_false, if_false, Prod.mk.injEq] at h
  obtain ⟨rfl, h⟩ := h
  have hnd : (ro.list.map (·.1)).Nodup := (ro.perm.map _).nodup_iff.2 hr.nodup
  obtain ⟨done, k, y, rest, h1, h2, h3, h4, h5⟩ := mergeLoop_panic o hnd h
  obtain ⟨k1, k2⟩ := mergeLoop_keys o ro.list l.values hl.nodup
  refine ⟨⟨hl.lawful, k1, fun i hi => ?_⟩, rfl, done, k, y, rest, h1, h2, h3, fun i y hm => ⟨?_, h4 i y hm⟩, h5⟩
  · rcases k2 i hi with hi | hi
    · exact hl.valid i hi
    · exact lt_of_lt_of_le (hr.valid i ((ro.perm.map _).mem_iff.1 hi)) hnn
  · exact (HMap.mem_entries_iff hr.nodup i y).1 (ro.perm.mem_iff.1 (by rw [h1]; exact List.mem_append_left _ hm))

/-! ### loops over mutable references to the entries of a sparse histogram -/

theorem updKeys_panic {f : Nat → Upd V} {ks : List Nat} (hn : ks.Nodup) {m : HMap Nat V} {p : Panic} (h : (HashHistogram.updKeys f ks m).2 = some p) :
    ∃ done k rest v, ks = done ++ k :: rest ∧ m.get k = some v ∧ (f k v).2 = some p ∧
      (∀ i, i = k ∨ i ∈ done → (HashHistogram.updKeys f ks m).1.get i = (m.get i).map fun v => (f i v).1) ∧
      ∀ i, i ≠ k → i ∉ done → (HashHistogram.updKeys f ks m).1.get i = m.get i := by
  induction ks generalizing m with
  | nil => simp [HashHistogram.updKeys] at h
  | cons k ks ih =>
    simp only [List.nodup_cons] at hn
    rcases hg : m.get k with _ | v
    · have e : HashHistogram.updKeys f (k :: ks) m = HashHistogram.updKeys f ks m := by simp [HashHistogram.updKeys, hg]
      rw [e] at h ⊢
      obtain ⟨done, k', rest, v, h1, h2, h3, h4, h5⟩ := ih hn.2 h
      have hk : k ≠ k' ∧ k ∉ done := by
        rw [h1] at hn
        simp only [List.mem_append, List.mem_cons, not_or] at hn
        exact ⟨hn.1.2.1, hn.1.1⟩
      refine ⟨k :: done, k', rest, v, by rw [h1]; rfl, h2, h3, ?_, ?_⟩
      · rintro i (rfl | hi)
        · exact h4 i (.inl rfl)
        · rcases List.mem_cons.1 hi with rfl | hi
          · rw [h5 i hk.1 hk.2, hg]; rfl
          · exact h4 i (.inr hi)
      · intro i hi hm
        exact h5 i hi fun hh => hm (List.mem_cons_of_mem _ hh)
    · rcases hf : f k v with ⟨v', _ | q⟩
      · have e : HashHistogram.updKeys f (k :: ks) m = HashHistogram.updKeys f ks (m.insert k v') := by simp [HashHistogram.updKeys, hg, hf]
        rw [e] at h ⊢
        obtain ⟨done, k', rest, v₁, h1, h2, h3, h4, h5⟩ := ih hn.2 h
        have hk : k ≠ k' ∧ k ∉ done := by
          rw [h1] at hn
          simp only [List.mem_append, List.mem_cons, not_or] at hn
          exact ⟨hn.1.2.1, hn.1.1⟩
        refine ⟨k :: done, k', rest, v₁, by rw [h1]; rfl, by rwa [HMap.get_insert_ne _ _ hk.1] at h2, h3, ?_, ?_⟩
        · rintro i (rfl | hi)
          · rw [h4 i (.inl rfl), HMap.get_insert_ne _ _ hk.1]
          · rcases List.mem_cons.1 hi with rfl | hi
            · rw [h5 i hk.1 hk.2, HMap.get_insert_self, hg]; simp [hf]
            · have : k ≠ i := by rintro rfl; exact hk.2 hi
              rw [h4 i (.inr hi), HMap.get_insert_ne _ _ this]
        · intro i hi hm
          simp only [List.mem_cons, not_or] at hm
          rw [h5 i hi hm.2, HMap.get_insert_ne _ _ (Ne.symm hm.1)]
      · have e : HashHistogram.updKeys f (k :: ks) m = (m.insert k v', some q) := by simp [HashHistogram.updKeys, hg, hf]
        rw [e] at h ⊢
        simp only [Option.some.injEq] at h
        subst h
        refine ⟨[], k, ks, v, rfl, hg, by rw [hf], ?_, ?_⟩
        · rintro i (rfl | hi)
          · rw [HMap.get_insert_self, hg]; simp [hf]
          · simp at hi
        · intro i hi _
          exact HMap.get_insert_ne _ _ (Ne.symm hi)

/-- C55, sparse `values_mut`: if the loop body panics, there is an entry at which it did; some of the other bins have been updated, the rest is as
before, and no bin appears or disappears. -/
theorem C55_values_mut_sparse {h : HashHistogram A V} {n : Nat} (ok : h.Ok n) (o : h.values.Order) (f : Upd V) {p : Panic}
    (hp : (h.valuesMut o f).2 = some p) :
    (h.valuesMut o f).1.Ok n ∧ (h.valuesMut o f).1.axes = h.axes ∧
    ∃ done k rest v, o.list = done ++ (k, v) :: rest ∧ h.valueAtIndex k = some v ∧ (f v).2 = some p ∧
      (∀ i, i = k ∨ i ∈ done.map (·.1) → (h.valuesMut o f).1.valueAtIndex i = (h.valueAtIndex i).map fun v => (f v).1) ∧
      ∀ i, i ≠ k → i ∉ done.map (·.1) → (h.valuesMut o f).1.valueAtIndex i = h.valueAtIndex i := by
  obtain ⟨a1, a2, -, -⟩ := C38_values_mut_sparse ok o f
  refine ⟨a2, a1, ?_⟩
  have hnd : (o.list.map (·.1)).Nodup := (o.perm.map _).nodup_iff.2 ok.nodup
  obtain ⟨done, k, rest, v, h1, h2, h3, h4, h5⟩ := updKeys_panic (f := fun _ => f) hnd hp
  obtain ⟨d, tl, e1, e2, e3⟩ := List.map_eq_append_iff.1 h1
  obtain ⟨kv, tl', rfl, e4, e5⟩ := List.map_eq_cons_iff.1 e3
  obtain ⟨k', v'⟩ := kv
  simp only at e4
  subst e4
  have hv' : h.values.get k' = some v' := (HMap.mem_entries_iff ok.nodup k' v').1 (o.perm.mem_iff.1 (by rw [e1]; simp))
  have : v' = v := by rw [hv'] at h2; exact Option.some.inj h2
  subst this
  refine ⟨d, k', tl', v', e1, hv', h3, ?_, ?_⟩
  · rw [e2]; exact h4
  · rw [e2]; exact h5

/-! ## C56 -/

theorem SameAxis.lawful {same : Axis.Interval A → Axis.Interval A → Prop} {a b : A} (h : SameAxis a b same) {n : Nat} (hl : LawfulAxis a n) :
    LawfulAxis b n := by
  refine ⟨h.numBins ▸ hl.numBins, hl.fits, fun c i hi => hl.index_lt c i (by rw [h.index c]; exact hi), fun i hi => ?_⟩
  obtain ⟨x, hx⟩ := hl.bin_some i hi
  have := h.bin i
  rw [hx] at this
  rcases hb : Axis.bin b i with q | y
  · rw [hb] at this; exact this.elim
  · rw [hb] at this
    rcases y with _ | y
    · exact this.elim
    · exact ⟨y, rfl⟩

theorem VecHistogram.Reach.made [PEq A] [ROps V] [RDefault V] {P : A → Prop} {axes : A} {h : VecHistogram A V} (hr : VecHistogram.Reach P axes h) : P axes := by
  induction hr <;> assumption

theorem HashHistogram.Reach.made [PEq A] [ROps V] [RDefault V] {P : A → Prop} {axes : A} {h : HashHistogram A V} (hr : HashHistogram.Reach P axes h) : P axes := by
  induction hr <;> assumption

theorem zipRes_length {f : V → V → Res V} {l r z : List V} (hlen : l.length = r.length) (h : zipRes f l r = .ok z) : z.length = l.length := by
  induction l generalizing r z with
  | nil => simp [zipRes, pure, Except.pure] at h; subst h; rfl
  | cons v vs ih =>
    cases r with
    | nil => simp at hlen
    | cons w ws =>
      rw [zipRes, Res.bind_eq_ok] at h
      obtain ⟨x, -, h⟩ := h
      rw [Res.bind_eq_ok] at h
      obtain ⟨xs, h1, h2⟩ := h
      simp only [pure, Except.pure, Except.ok.injEq] at h2
      subst h2
      simp only [List.length_cons, Nat.add_right_cancel_iff] at hlen ⊢
      exact ih hlen h1

/-- C56, dense: whatever the program does with the API, the histogram keeps the axes it was made with and one value for each of their bins;
iterating over it does not panic and visits every bin once, in order. -/
theorem C56_dense [PEq A] [ROps V] [RDefault V] {same : Axis.Interval A → Axis.Interval A → Prop}
    {P : A → Prop}
    (hA : ∀ x y : A, P x → P y → PEq.peq x y = true → SameAxis x y same) {axes : A} {h : VecHistogram A V} (hr : VecHistogram.Reach P axes h) {n : Nat}
    (hl : LawfulAxis axes n) :
    h.axes = axes ∧ h.Ok n ∧ (∀ i, (∃ v, h.valueAtIndex i = some v) ↔ i < n) ∧
    ∃ items, h.iter = .ok items ∧ items.map (·.index) = List.range n := by
  have key : h.axes = axes ∧ ∀ n, LawfulAxis axes n → h.Ok n := by
    clear hl
    induction hr with
    | @new axes h _ e =>
      have e1 : h.axes = axes := by
        rw [VecHistogram.new, Res.bind_eq_ok] at e
        obtain ⟨_, -, e⟩ := e
        simp only [pure, Except.pure, Except.ok.injEq] at e
        rw [← e]
      refine ⟨e1, fun n hl => ?_⟩
      obtain ⟨h', b1, b2, -⟩ := C26_new (V := V) hl
      rw [e] at b1
      cases b1
      exact b2
    | @fromVec axes vs h _ e =>
      rw [VecHistogram.fromVec, Res.bind_eq_ok] at e
      obtain ⟨n', hn', e⟩ := e
      split at e
      · rename_i hlen
        simp only [pure, Except.pure, Except.ok.injEq] at e
        subst e
        refine ⟨rfl, fun n hl => ⟨hl, ?_⟩⟩
        rw [hl.numBins] at hn'
        cases hn'
        exact hlen.symm
      · simp [pure, Except.pure] at e
    | @fill axes h call _ ih => exact ⟨(h.call_axes call).trans ih.1, fun n hl => (ih.2 n hl).call call⟩
    | @valueMut axes h c f r _ e ih =>
      rw [VecHistogram.valueMut, Res.bind_eq_ok] at e
      obtain ⟨o, -, e⟩ := e
      rcases o with _ | i
      · simp [pure, Except.pure] at e
      · simp only [pure, Except.pure, Except.ok.injEq] at e
        rw [VecHistogram.valueAtIndexMut] at e
        rcases hv : h.values[i]? with _ | v
        · simp [hv] at e
        · simp only [hv, Option.some.injEq] at e
          subst e
          exact ⟨ih.1, fun n hl => ⟨(ih.2 n hl).lawful, by simp only [updAt_length]; exact (ih.2 n hl).size⟩⟩
    | @valueAtIndexMut axes h i f r _ e ih =>
      rw [VecHistogram.valueAtIndexMut] at e
      rcases hv : h.values[i]? with _ | v
      · simp [hv] at e
      · simp only [hv, Option.some.injEq] at e
        subst e
        exact ⟨ih.1, fun n hl => ⟨(ih.2 n hl).lawful, by simp only [updAt_length]; exact (ih.2 n hl).size⟩⟩
    | @valuesMut axes h f _ ih => exact ⟨ih.1, fun n hl => (C38_values_mut (ih.2 n hl) f).2.1⟩
    | @iterMut axes h f _ ih =>
      refine ⟨?_, fun n hl => (C38_iter_mut (ih.2 n hl) f).2.1⟩
      rw [VecHistogram.iterMut]
      split
      · exact ih.1
      · exact ih.1
    | @parIterMut axes h body sched _ ih =>
      refine ⟨ih.1, fun n hl => ⟨(ih.2 n hl).lawful, ?_⟩⟩
      show ((runSchedule sched (h.parIterMutTasks body)).map (·.place)).length = n
      rw [List.length_map, runSchedule_length, VecHistogram.parIterMutTasks, List.length_mapIdx, (ih.2 n hl).size]
    | @parValuesMut axes h body sched _ ih =>
      refine ⟨ih.1, fun n hl => ⟨(ih.2 n hl).lawful, ?_⟩⟩
      show ((runSchedule sched (h.parValuesMutTasks body)).map (·.place)).length = n
      rw [List.length_map, runSchedule_length, VecHistogram.parValuesMutTasks, List.length_mapIdx, (ih.2 n hl).size]
    | @opBorrow axes axes' o l r m q q' e ih ih' =>
      rw [VecHistogram.opBorrow] at e
      cases hp : PEq.peq l.axes r.axes with
      | false => simp [hp, pure, Except.pure] at e
      | true =>
        simp only [hp, Bool.true_eq_false, if_false] at e
        rw [Res.bind_eq_ok] at e
        obtain ⟨z, hz, e⟩ := e
        simp only [pure, Except.pure, Except.ok.injEq] at e
        subst e
        refine ⟨ih.1, fun n hl => ⟨(ih.2 n hl).lawful, ?_⟩⟩
        have hr : LawfulAxis axes' n := by
          rw [← ih'.1]
          exact (hA _ _ (by rw [ih.1]; exact q.made) (by rw [ih'.1]; exact q'.made) hp).lawful (ih.1 ▸ hl)
        exact (zipRes_length (by rw [(ih.2 n hl).size, (ih'.2 n hr).size]) hz).trans (ih.2 n hl).size
    | @opOwned axes axes' o l r m q q' e ih ih' =>
      rw [VecHistogram.opOwned] at e
      split at e
      · simp at e
      · simp only at e
        split at e
        · simp at e
        · simp only [Except.ok.injEq] at e
          subst e
          exact ⟨ih.1, fun n hl => ⟨(ih.2 n hl).lawful, by simp only [zipUpd_length]; exact (ih.2 n hl).size⟩⟩
    | @opAssign axes axes' l r o q q' ih ih' =>
      rw [VecHistogram.opAssign]
      split
      · exact ih
      · exact ⟨ih.1, fun n hl => ⟨(ih.2 n hl).lawful, by simp only [zipUpd_length]; exact (ih.2 n hl).size⟩⟩
    | @opScalar axes o l x m _ e ih =>
      have e1 : m.axes = l.axes := by
        rw [VecHistogram.opScalar, Res.bind_eq_ok] at e
        obtain ⟨_, -, e⟩ := e
        simp only [pure, Except.pure, Except.ok.injEq] at e
        rw [← e]
      refine ⟨e1.trans ih.1, fun n hl => ?_⟩
      rcases C36_scalar o (ih.2 n hl) x with ⟨m', h1, h2, -⟩ | ⟨p, i, v, h1, -⟩
      · rw [e] at h1; cases h1; exact h2
      · rw [e] at h1; cases h1
  have ok := key.2 n hl
  refine ⟨key.1, ok, fun i => ?_, ?_⟩
  · constructor
    · rintro ⟨v, hv⟩
      by_contra hi
      rw [ok.get_none.2 (Nat.le_of_not_lt hi)] at hv
      cases hv
    · exact fun hi => ok.get hi
  · obtain ⟨items, h1, h2, h3, -⟩ := C38_iter ok
    refine ⟨items, h1, List.ext_getElem? fun i => ?_⟩
    by_cases hi : i < n
    · obtain ⟨b, v, g, -⟩ := h3 i hi
      simp [g, hi]
    · rw [List.getElem?_eq_none (by simp; omega), List.getElem?_eq_none (by simp; omega)]

theorem parKeys_zip {m : HMap Nat V} (ts : List (Task V)) (hlen : ts.length = m.entries.length) :
    (⟨m.keys.zip (ts.map (·.place))⟩ : HMap Nat V).keys = m.keys := by
  show (m.keys.zip (ts.map (·.place))).map (·.1) = m.keys
  rw [← List.unzip_fst, List.unzip_zip_left]
  simp [HMap.keys, hlen]

/-- C56, sparse: whatever the program does with the API, the histogram keeps the axes it was made with, its bin numbers are below `num_bins`, and
iterating over it, in whatever order, does not panic and visits each stored bin once. -/
theorem C56_sparse [PEq A] [ROps V] [RDefault V] {same : Axis.Interval A → Axis.Interval A → Prop}
    {P : A → Prop}
    (hA : ∀ x y : A, P x → P y → PEq.peq x y = true → SameAxis x y same) {axes : A} {h : HashHistogram A V} (hr : HashHistogram.Reach P axes h) {n : Nat}
    (hl : LawfulAxis axes n) :
    h.axes = axes ∧ h.Ok n ∧ (∀ i v, h.valueAtIndex i = some v → i < n) ∧
    ∀ o, ∃ items, h.iter o = .ok items ∧ (items.map (·.index)).Nodup ∧ ∀ i, i ∈ items.map (·.index) ↔ ∃ v, h.valueAtIndex i = some v := by
  have key : h.axes = axes ∧ ∀ n, LawfulAxis axes n → h.Ok n := by
    clear hl
    induction hr with
    | new _ => exact ⟨rfl, fun n hl => ⟨hl, HMap.nodup_empty, by intro i hi; simp [HashHistogram.new, HMap.empty, HMap.keys] at hi⟩⟩
    | @fromMap axes m h _ hm e =>
      have e1 : h.axes = axes := by
        have fin : ∀ b : Bool, (if b = true then (pure (.ok ⟨axes, m⟩) : Res (Except Error (HashHistogram A V)))
            else pure (.error (.AxisError .InvalidNumberOfBins))) = .ok (.ok h) → h.axes = axes := by
          intro b e
          cases b
          · simp [pure, Except.pure] at e
          · simp only [if_true, pure, Except.pure, Except.ok.injEq] at e; rw [← e]
        rw [HashHistogram.fromMap] at e
        split at e
        · exact fin true e
        · rw [Res.bind_eq_ok] at e
          obtain ⟨n', -, e⟩ := e
          exact fin _ e
      refine ⟨e1, fun n hl => ?_⟩
      by_cases hv : ∀ i v, m.get i = some v → i < n
      · obtain ⟨h', b1, b2, -⟩ := (C37_from_map hl m hm).1 hv
        rw [e] at b1; cases b1; exact b2
      · push Not at hv
        have := (C37_from_map hl m hm).2 hv
        rw [e] at this; cases this
    | @fill axes h call _ ih => exact ⟨(h.call_axes call).trans ih.1, fun n hl => (ih.2 n hl).call call⟩
    | @valueMut axes h c f r _ e ih =>
      rw [HashHistogram.valueMut, Res.bind_eq_ok] at e
      obtain ⟨o, -, e⟩ := e
      rcases o with _ | i
      · simp [pure, Except.pure] at e
      · simp only [pure, Except.pure, Except.ok.injEq] at e
        rcases hv : h.valueAtIndex i with _ | v
        · have hv' : h.values.get i = none := hv
          simp [HashHistogram.valueAtIndexMut, hv'] at e
        · refine ⟨?_, fun n hl => ?_⟩
          · have hv' : h.values.get i = some v := hv
            simp only [HashHistogram.valueAtIndexMut, hv', Option.some.injEq] at e
            subst e; exact ih.1
          · obtain ⟨h', b1, -, b3, -⟩ := (C38_value_at_index_mut_sparse (ih.2 n hl) i f).2 v hv
            rw [e] at b1; cases b1; exact b3
    | @valueAtIndexMut axes h i f r _ e ih =>
      rcases hv : h.valueAtIndex i with _ | v
      · have hv' : h.values.get i = none := hv
        simp [HashHistogram.valueAtIndexMut, hv'] at e
      · refine ⟨?_, fun n hl => ?_⟩
        · have hv' : h.values.get i = some v := hv
          simp only [HashHistogram.valueAtIndexMut, hv', Option.some.injEq] at e
          subst e; exact ih.1
        · obtain ⟨h', b1, -, b3, -⟩ := (C38_value_at_index_mut_sparse (ih.2 n hl) i f).2 v hv
          rw [e] at b1; cases b1; exact b3
    | @valuesMut axes h o f _ ih => exact ⟨ih.1, fun n hl => (C38_values_mut_sparse (ih.2 n hl) o f).2.1⟩
    | @iterMut axes h o f _ ih => exact ⟨ih.1, fun n hl => (C38_iter_mut_sparse (ih.2 n hl) o f).2.1⟩
    | @parIterMut axes h body sched _ ih =>
      have hk := parKeys_zip (m := h.values) (runSchedule sched (h.parIterMutTasks body)) (by simp [runSchedule_length, HashHistogram.parIterMutTasks])
      refine ⟨ih.1, fun n hl => ⟨(ih.2 n hl).lawful, ?_, ?_⟩⟩
      · show (HMap.keys _).Nodup
        exact hk ▸ (ih.2 n hl).nodup
      · intro i hi; exact (ih.2 n hl).valid i (hk ▸ hi)
    | @parValuesMut axes h body sched _ ih =>
      have hk := parKeys_zip (m := h.values) (runSchedule sched (h.values.entries.map fun kv => ⟨kv.2, body, none⟩)) (by simp [runSchedule_length])
      refine ⟨ih.1, fun n hl => ⟨(ih.2 n hl).lawful, ?_, ?_⟩⟩
      · show (HMap.keys _).Nodup
        exact hk ▸ (ih.2 n hl).nodup
      · intro i hi; exact (ih.2 n hl).valid i (hk ▸ hi)
    | @opBorrow axes axes' o l r m ko q q' e ih ih' =>
      have hp : PEq.peq l.axes r.axes = true := by
        cases hp : PEq.peq l.axes r.axes with
        | true => rfl
        | false => simp [HashHistogram.opBorrow, hp, pure, Except.pure] at e
      have e1 : m.axes = l.axes := by
        simp only [HashHistogram.opBorrow, hp, Bool.true_eq_false, if_false] at e
        rw [Res.bind_eq_ok] at e
        obtain ⟨z, hz, e⟩ := e
        simp only [pure, Except.pure, Except.ok.injEq] at e
        rw [← e]
      refine ⟨e1.trans ih.1, fun n hl => ?_⟩
      have hr : LawfulAxis axes' n := by
        rw [← ih'.1]
        exact (hA _ _ (by rw [ih.1]; exact q.made) (by rw [ih'.1]; exact q'.made) hp).lawful (ih.1 ▸ hl)
      exact (C33_binwise_sparse o (ih.2 n hl) (ih'.2 n hr) ko e).1
    | @opOwned axes axes' o l r m ro q q' e ih ih' =>
      cases hp : PEq.peq l.axes r.axes with
      | false => simp [HashHistogram.opOwned, hp] at e
      | true =>
        simp only [HashHistogram.opOwned, hp, Bool.true_eq_false, if_false] at e
        split at e
        · simp at e
        · simp only [Except.ok.injEq] at e
          subst e
          refine ⟨ih.1, fun n hl => ?_⟩
          have hr : LawfulAxis axes' n := by
            rw [← ih'.1]
            exact (hA _ _ (by rw [ih.1]; exact q.made) (by rw [ih'.1]; exact q'.made) hp).lawful (ih.1 ▸ hl)
          obtain ⟨k1, k2⟩ := mergeLoop_keys o ro.list l.values (ih.2 n hl).nodup
          refine ⟨(ih.2 n hl).lawful, k1, fun i hi => ?_⟩
          rcases k2 i hi with hi | hi
          · exact (ih.2 n hl).valid i hi
          · exact (ih'.2 n hr).valid i ((ro.perm.map _).mem_iff.1 hi)
    | @opAssign axes axes' l r o ro q q' ih ih' =>
      cases hp : PEq.peq l.axes r.axes with
      | false => simp only [HashHistogram.opAssign, hp, if_true]; exact ih
      | true =>
        simp only [HashHistogram.opAssign, hp, Bool.true_eq_false, if_false]
        refine ⟨ih.1, fun n hl => ?_⟩
        have hr : LawfulAxis axes' n := by
          rw [← ih'.1]
          exact (hA _ _ (by rw [ih.1]; exact q.made) (by rw [ih'.1]; exact q'.made) hp).lawful (ih.1 ▸ hl)
        obtain ⟨k1, k2⟩ := mergeLoop_keys o ro.list l.values (ih.2 n hl).nodup
        refine ⟨(ih.2 n hl).lawful, k1, fun i hi => ?_⟩
        rcases k2 i hi with hi | hi
        · exact (ih.2 n hl).valid i hi
        · exact (ih'.2 n hr).valid i ((ro.perm.map _).mem_iff.1 hi)
  have ok := key.2 n hl
  refine ⟨key.1, ok, fun i v hv => ok.valid i ((HMap.get_isSome _ _).1 ⟨v, hv⟩), fun o => ?_⟩
  rcases mapM_res (fun (kv : Nat × V) => do
      let b ← Axis.bin h.axes kv.1
      let bin ← expect b
      return ({ index := kv.1, bin, value := kv.2 } : Item (Axis.Interval A) V)) o.list with ⟨z, h1, h2, h3⟩ | ⟨p, x, h1, h2, h3⟩
  · have hz : z.map (·.index) = o.list.map (·.1) := by
      refine List.ext_getElem? fun i => ?_
      rcases hx : o.list[i]? with _ | kv
      · rw [List.getElem?_map, List.getElem?_map, hx]
        have : z[i]? = none := by
          rw [List.getElem?_eq_none_iff] at hx ⊢; omega
        rw [this]; rfl
      · obtain ⟨it, g1, g2⟩ := h3 i kv hx
        rw [List.getElem?_map, List.getElem?_map, hx, g2]
        simp only [Option.map_some, Option.some.injEq]
        rw [Res.bind_eq_ok] at g1
        obtain ⟨_, -, g1⟩ := g1
        rw [Res.bind_eq_ok] at g1
        obtain ⟨_, -, g1⟩ := g1
        simp only [pure, Except.pure, Except.ok.injEq] at g1
        rw [← g1]
    refine ⟨z, h1, ?_, fun i => ?_⟩
    · rw [hz]; exact (o.perm.map _).nodup_iff.2 ok.nodup
    · rw [hz, (o.perm.map (·.1)).mem_iff]
      exact (HMap.get_isSome h.values i).symm
  · exfalso
    have hm : x.1 ∈ h.values.keys := (o.perm.map (·.1)).mem_iff.1 (List.mem_map.2 ⟨x, h2, rfl⟩)
    obtain ⟨b, hb⟩ := ok.lawful.bin_some x.1 (ok.valid _ hm)
    rw [key.1] at hb
    simp [key.1, hb, expect, bind, Except.bind, pure, Except.pure] at h3
end

/-! ## Concrete cases -/

section
attribute [local instance] dbg64

/-- C55, dense: adding two histograms of `u8` of which bin 1 overflows: bin 0 has been added, bin 1 has not. -/
example : ∃ l r m : VecHistogram (CategoryNoFlow String) (MInt .u8), l.Ok 2 ∧ PEq.peq l.axes r.axes = true ∧
    l.opAssign .add r = (m, some .overflow) ∧ m.values = [MInt.lit 3, MInt.lit 250] :=
  ⟨⟨exAxis, [MInt.lit 1, MInt.lit 250]⟩, ⟨exAxis, [MInt.lit 2, MInt.lit 10]⟩, ⟨exAxis, [MInt.lit 3, MInt.lit 250]⟩, ⟨exAxis_lawful, rfl⟩, by decide, rfl, rfl⟩

/-- C55, sparse: subtracting from an empty bin of `u8` panics and leaves behind a bin holding the default. -/
example : ∃ (l r m : HashHistogram (CategoryNoFlow String) (MInt .u8)) (ro : r.values.Order), l.Ok 2 ∧ r.Ok 2 ∧ PEq.peq l.axes r.axes = true ∧
    l.opAssign .sub r ro = (m, some .overflow) ∧ l.valueAtIndex 0 = none ∧ m.valueAtIndex 0 = some (MInt.lit 0) := by
  refine ⟨⟨exAxis, ⟨[]⟩⟩, ⟨exAxis, ⟨[(0, MInt.lit 1)]⟩⟩, ⟨exAxis, ⟨[(0, MInt.lit 0)]⟩⟩, ⟨_, List.Perm.refl _⟩, ⟨exAxis_lawful, ?_, ?_⟩, ⟨exAxis_lawful, ?_, ?_⟩, by decide, rfl, rfl, rfl⟩
  all_goals first | (unfold HMap.NodupKeys; decide) | decide

/-- C55, `values_mut` -/
example : ∃ (h : HashHistogram (CategoryNoFlow String) (MInt .u8)) (o : h.values.Order), h.Ok 2 ∧
    (h.valuesMut o (addAssign (MInt.lit 10))).2 = some .overflow ∧
    (h.valuesMut o (addAssign (MInt.lit 10))).1.valueAtIndex 1 = some (MInt.lit 11) ∧
    (h.valuesMut o (addAssign (MInt.lit 10))).1.valueAtIndex 0 = some (MInt.lit 250) := by
  refine ⟨⟨exAxis, ⟨[(0, MInt.lit 250), (1, MInt.lit 1)]⟩⟩, ⟨[(1, MInt.lit 1), (0, MInt.lit 250)], by decide⟩, ⟨exAxis_lawful, ?_, by decide⟩, by decide, by decide, by decide⟩
  unfold HMap.NodupKeys; decide

/-- the axes returned by `CategoryNoFlow::new` -/
def exMade (a : CategoryNoFlow String) : Prop := ∃ vs, a = CategoryNoFlow.new vs

theorem exMade_same : ∀ x y : CategoryNoFlow String, exMade x → exMade y → PEq.peq x y = true → SameAxis x y (fun b b' => b = b') := by
  rintro _ _ ⟨vs, rfl⟩ ⟨vs', rfl⟩ h
  exact C53_category.2 h

/-- C56: a program that fills, panics in the middle of `+=`, goes on with a parallel loop that is interrupted, and scales -/
example : ∃ h m : VecHistogram (CategoryNoFlow String) (MInt .u8), VecHistogram.Reach exMade exAxis h ∧ VecHistogram.Reach exMade exAxis m ∧
    h.values = [MInt.lit 3, MInt.lit 250] ∧ m.values = [MInt.lit 5, MInt.lit 250] := by
  have h1 : VecHistogram.Reach exMade exAxis (⟨exAxis, [MInt.lit 1, MInt.lit 250]⟩ : VecHistogram _ (MInt .u8)) :=
    .fromVec (vs := [MInt.lit 1, MInt.lit 250]) ⟨["a", "b"], rfl⟩ rfl
  have h2 : VecHistogram.Reach exMade exAxis (⟨exAxis, [MInt.lit 2, MInt.lit 10]⟩ : VecHistogram _ (MInt .u8)) :=
    .fromVec (vs := [MInt.lit 2, MInt.lit 10]) ⟨["a", "b"], rfl⟩ rfl
  refine ⟨_, _, .opAssign .add h1 h2, .parIterMut (fun _ _ => [addAssign (MInt.lit 2)]) [0, 0] (.opAssign .add h1 h2), by decide, by decide⟩

example : ∃ h : HashHistogram (CategoryNoFlow String) (MInt .u8), HashHistogram.Reach exMade exAxis h ∧ h.valueAtIndex 1 = some (MInt.lit 7) :=
  ⟨_, .fill (.fillWith "b" (MInt.lit 7 : MInt .u8)) (.fill (.fill "a") (.new ⟨["a", "b"], rfl⟩)), rfl⟩

example : LawfulAxis exAxis 2 := exAxis_lawful
end
end NdHist
