import Verif.Props.MergeFill
/-!
# Containers, iteration, mutation, overflow of bin values, equality: C37, C38, C43, C45
-/
namespace NdHist
section
variable {A V : Type} [Cfg] [Axis A]

/-! ## C37 -/

/-- C37, dense: `from_vec` accepts exactly vectors with one value per bin, otherwise it reports `InvalidNumberOfBins`; the
vector comes back unchanged, and value number `i` is the value of bin `i`. -/
theorem C37_from_vec {axes : A} {n : Nat} (hl : LawfulAxis axes n) (values : List V) :
    (values.length = n → ∃ h, VecHistogram.fromVec axes values = .ok (.ok h) ∧ h.Ok n ∧ h.axes = axes ∧
      h.intoVec = values ∧ h.asVec = values ∧ h.asSlice = values ∧ h.valuesIter = values ∧
      ∀ i, h.valueAtIndex i = values[i]?) ∧
    (values.length ≠ n → VecHistogram.fromVec axes values = .ok (.error (.AxisError .InvalidNumberOfBins))) := by
  constructor
  · intro h
    refine ⟨⟨axes, values⟩, ?_, ⟨hl, h⟩, rfl, rfl, rfl, rfl, rfl, fun i => rfl⟩
    simp [VecHistogram.fromVec, hl.numBins, h, bind, Except.bind, pure, Except.pure]
  · intro h
    have : ¬ n = values.length := fun e => h e.symm
    simp [VecHistogram.fromVec, hl.numBins, this, bind, Except.bind, pure, Except.pure]

/-- C37, dense: any histogram survives the trip through its vector. -/
theorem C37_vec_round_trip {h : VecHistogram A V} {n : Nat} (ok : h.Ok n) :
    VecHistogram.fromVec h.axes h.intoVec = .ok (.ok h) := by
  obtain ⟨h', h1, -, h3, h4, -⟩ := (C37_from_vec ok.lawful h.values).1 ok.size
  rw [show h.intoVec = h.values from rfl, h1]
  obtain ⟨a, v⟩ := h
  obtain ⟨a', v'⟩ := h'
  simp only at h3
  simp only [VecHistogram.intoVec] at h4
  rw [h3, h4]

/-- C37, sparse: `from_map` accepts exactly maps whose keys are all valid bin numbers, otherwise it reports
`InvalidNumberOfBins`; the map comes back unchanged and bin `i` has the value stored under `i`. -/
theorem C37_from_map {axes : A} {n : Nat} (hl : LawfulAxis axes n) (m : HMap Nat V) (hm : m.NodupKeys) :
    ((∀ i v, m.get i = some v → i < n) → ∃ h, HashHistogram.fromMap axes m = .ok (.ok h) ∧ h.Ok n ∧ h.axes = axes ∧
      h.intoMap = m ∧ h.asMap = m ∧ ∀ i, h.valueAtIndex i = m.get i) ∧
    ((∃ i v, m.get i = some v ∧ n ≤ i) →
      HashHistogram.fromMap axes m = .ok (.error (.AxisError .InvalidNumberOfBins))) := by
  have hk : ∀ i, i ∈ m.keys ↔ ∃ v, m.get i = some v := fun i => (HMap.get_isSome m i).symm
  constructor
  · intro h
    have hall : ∀ i ∈ m.keys, i < n := fun i hi => by obtain ⟨v, hv⟩ := (hk i).1 hi; exact h i v hv
    refine ⟨⟨axes, m⟩, ?_, ⟨hl, hm, hall⟩, rfl, rfl, rfl, fun i => rfl⟩
    by_cases he : m.entries.isEmpty = true
    · simp [HashHistogram.fromMap, he, bind, Except.bind, pure, Except.pure]
    · simp only [Bool.not_eq_true] at he
      simp [HashHistogram.fromMap, he, hl.numBins, bind, Except.bind, pure, Except.pure]
      exact hall
  · rintro ⟨i, v, hv, hn⟩
    have hi : i ∈ m.keys := (hk i).2 ⟨v, hv⟩
    have he : m.entries.isEmpty = false := by
      cases hm' : m.entries with
      | nil => simp [HMap.keys, hm'] at hi
      | cons a b => rfl
    simp [HashHistogram.fromMap, he, hl.numBins, bind, Except.bind, pure, Except.pure]
    exact ⟨i, hi, hn⟩

/-- C37, sparse: any histogram survives the trip through its map. -/
theorem C37_map_round_trip {h : HashHistogram A V} {n : Nat} (ok : h.Ok n) :
    HashHistogram.fromMap h.axes h.intoMap = .ok (.ok h) := by
  obtain ⟨h', h1, -, h3, h4, -⟩ := (C37_from_map ok.lawful h.values ok.nodup).1
    (fun i v hv => ok.valid i ((HMap.get_isSome _ _).1 ⟨v, hv⟩))
  rw [show h.intoMap = h.values from rfl, h1]
  obtain ⟨a, v⟩ := h
  obtain ⟨a', v'⟩ := h'
  simp only at h3
  simp only [HashHistogram.intoMap] at h4
  rw [h3, h4]

/-! ## C38 -/

theorem mapM_range {β : Type} (f : Nat → Res β) (n : Nat) (h : ∀ i, i < n → ∃ b, f i = .ok b) :
    ∃ z, (List.range n).mapM f = .ok z ∧ z.length = n ∧ ∀ i, i < n → ∃ b, z[i]? = some b ∧ f i = .ok b := by
  rcases mapM_res f (List.range n) with ⟨z, h1, h2, h3⟩ | ⟨p, x, h1, h2, h3⟩
  · refine ⟨z, h1, by simpa using h2, fun i hi => ?_⟩
    obtain ⟨b, hb, hz⟩ := h3 i i (by simp [hi])
    exact ⟨b, hz, hb⟩
  · exfalso
    obtain ⟨b, hb⟩ := h x (List.mem_range.1 h2)
    rw [hb] at h3; cases h3

/-- C38: iterating over a dense histogram does not panic and yields, in increasing order of bin numbers and once each, every bin
number below `num_bins` with its bin and its current value; `values()` yields the same values in the same order. -/
theorem C38_iter {h : VecHistogram A V} {n : Nat} (ok : h.Ok n) :
    ∃ items, h.iter = .ok items ∧ items.length = n ∧
      (∀ i, i < n → ∃ b v, items[i]? = some ⟨i, b, v⟩ ∧ Axis.bin h.axes i = .ok (some b) ∧ h.valueAtIndex i = some v) ∧
      h.valuesIter = items.map (·.value) := by
  obtain ⟨ax, hx1, hx2, hx3⟩ := mapM_range (fun it => do
      let b ← Axis.bin h.axes it
      let b ← expect b
      return (it, b)) n (fun i hi => by
    obtain ⟨b, hb⟩ := ok.lawful.bin_some i hi
    exact ⟨(i, b), by simp [hb, expect, bind, Except.bind, pure, Except.pure]⟩)
  have hax : ∀ i, i < n → ∃ b, ax[i]? = some (i, b) ∧ Axis.bin h.axes i = .ok (some b) := by
    intro i hi
    obtain ⟨y, hy, hf⟩ := hx3 i hi
    obtain ⟨b, hb⟩ := ok.lawful.bin_some i hi
    simp [hb, expect, bind, Except.bind, pure, Except.pure] at hf
    exact ⟨b, by rw [hy, ← hf], hb⟩
  have hiter : Axis.iter h.axes = .ok ax := by
    simp only [Axis.iter, Axis.indices, ok.lawful.numBins, bind, Except.bind, pure, Except.pure] at hx1 ⊢
    exact hx1
  rcases mapM_res (fun ib : Nat × Axis.Interval A => do
      let value ← expect (h.valueAtIndex ib.1)
      return ({ index := ib.1, bin := ib.2, value } : Item (Axis.Interval A) V)) ax with ⟨z, h1, h2, h3⟩ | ⟨p, x, h1, h2, h3⟩
  · have key : ∀ i, i < n → ∃ b v, z[i]? = some ⟨i, b, v⟩ ∧ Axis.bin h.axes i = .ok (some b) ∧ h.valueAtIndex i = some v := by
      intro i hi
      obtain ⟨b, hb1, hb2⟩ := hax i hi
      obtain ⟨v, hv⟩ := ok.get hi
      obtain ⟨y, hy1, hy2⟩ := h3 i (i, b) hb1
      simp [hv, expect, bind, Except.bind, pure, Except.pure] at hy1
      exact ⟨b, v, by rw [hy2, ← hy1], hb2, hv⟩
    refine ⟨z, by simp only [VecHistogram.iter, hiter]; exact h1, by rw [h2, hx2], key, ?_⟩
    apply List.ext_getElem?
    intro i
    by_cases hi : i < n
    · obtain ⟨b, v, k1, -, k3⟩ := key i hi
      rw [List.getElem?_map, k1]
      exact k3
    · rw [List.getElem?_eq_none (by rw [VecHistogram.valuesIter, ok.size]; omega),
        List.getElem?_eq_none (by rw [List.length_map, h2, hx2]; omega)]
  · exfalso
    obtain ⟨i, hi⟩ := List.mem_iff_getElem?.1 h2
    have hin : i < n := by
      rw [← hx2]; exact (List.getElem?_eq_some_iff.1 hi).1
    obtain ⟨b, hb, -⟩ := hax i hin
    rw [hi] at hb
    obtain ⟨v, hv⟩ := ok.get hin
    cases hb
    simp [hv, expect, bind, Except.bind, pure, Except.pure] at h3

/-- C38: a loop over `iter_mut` whose body does not panic applies the body to every bin, with its bin number and bin; a loop
whose body panics at bin `k` leaves the bins before `k` updated and those after `k` untouched. -/
theorem C38_iter_mut {h : VecHistogram A V} {n : Nat} (ok : h.Ok n) (f : Nat → Axis.Interval A → Upd V) :
    (h.iterMut f).1.axes = h.axes ∧ (h.iterMut f).1.Ok n ∧
    ((h.iterMut f).2 = none → ∀ i b v, Axis.bin h.axes i = .ok (some b) → h.valueAtIndex i = some v →
      (f i b v).2 = none ∧ (h.iterMut f).1.valueAtIndex i = some (f i b v).1) ∧
    (∀ p, (h.iterMut f).2 = some p → ∃ k b v, Axis.bin h.axes k = .ok (some b) ∧ h.valueAtIndex k = some v ∧
      (f k b v).2 = some p ∧
      ∀ j b v, Axis.bin h.axes j = .ok (some b) → h.valueAtIndex j = some v →
        (h.iterMut f).1.valueAtIndex j = some (if j ≤ k then (f j b v).1 else v)) := by
  have htake : h.values.take n = h.values := by rw [List.take_of_length_le (by rw [ok.size])]
  have hdrop : h.values.drop n = [] := by rw [List.drop_of_length_le (by rw [ok.size])]
  set body : Nat → Upd V := fun i v =>
      match Axis.bin h.axes i with
      | .error p => (v, some p)
      | .ok none => (v, some .expectNone)
      | .ok (some b) => f i b v with hbody
  have he : h.iterMut f = ({ h with values := (updEach body 0 h.values).1 }, (updEach body 0 h.values).2) := by
    have htail : h.iterMutTail n = none := by rw [VecHistogram.iterMutTail, ok.size, if_neg (Nat.lt_irrefl n)]
    rw [VecHistogram.iterMut, ok.lawful.numBins]
    simp only [htake, hdrop, List.append_nil, htail, Option.or_none]
    rfl
  have hb : ∀ i b v, Axis.bin h.axes i = .ok (some b) → body i v = f i b v := by
    intro i b v hb; simp only [hbody, hb]
  rw [he]
  refine ⟨rfl, ⟨ok.lawful, by rw [updEach_length]; exact ok.size⟩, ?_, ?_⟩
  · intro hn i b v h1 h2
    obtain ⟨k1, k2⟩ := updEach_ok hn i
    have h2' : h.values[i]? = some v := h2
    have := k2 v h2'
    rw [Nat.zero_add, hb i b v h1] at this
    refine ⟨this, ?_⟩
    show (updEach body 0 h.values).1[i]? = _
    rw [k1, h2', Nat.zero_add]
    simp [hb i b v h1]
  · intro p hp
    obtain ⟨k, v, h1, h2, h3⟩ := updEach_panic hp
    have hk : k < n := by rw [← ok.size]; exact (List.getElem?_eq_some_iff.1 h1).1
    obtain ⟨b, hbin⟩ := ok.lawful.bin_some k hk
    rw [Nat.zero_add, hb k b v hbin] at h2
    refine ⟨k, b, v, hbin, h1, h2, ?_⟩
    intro j b v hj1 hj2
    have hj2' : h.values[j]? = some v := hj2
    show (updEach body 0 h.values).1[j]? = _
    rw [h3, hj2', Nat.zero_add]
    split
    · simp [hb j b v hj1]
    · rfl

/-- C38: a loop over `values_mut` applies its body to every bin value; if it panics, to a prefix. -/
theorem C38_values_mut {h : VecHistogram A V} {n : Nat} (ok : h.Ok n) (f : Upd V) :
    (h.valuesMut f).1.axes = h.axes ∧ (h.valuesMut f).1.Ok n ∧
    ((h.valuesMut f).2 = none → ∀ i v, h.valueAtIndex i = some v →
      (f v).2 = none ∧ (h.valuesMut f).1.valueAtIndex i = some (f v).1) ∧
    (∀ p, (h.valuesMut f).2 = some p → ∃ k v, h.valueAtIndex k = some v ∧ (f v).2 = some p ∧
      ∀ j v, h.valueAtIndex j = some v →
        (h.valuesMut f).1.valueAtIndex j = some (if j ≤ k then (f v).1 else v)) := by
  refine ⟨rfl, ⟨ok.lawful, by simp only [VecHistogram.valuesMut, updEach_length]; exact ok.size⟩, ?_, ?_⟩
  · intro hn i v hv
    obtain ⟨k1, k2⟩ := updEach_ok (f := fun _ => f) hn i
    have hv' : h.values[i]? = some v := hv
    refine ⟨k2 v hv', ?_⟩
    show (updEach (fun _ => f) 0 h.values).1[i]? = _
    rw [k1, hv']; rfl
  · intro p hp
    obtain ⟨k, v, h1, h2, h3⟩ := updEach_panic (f := fun _ => f) hp
    refine ⟨k, v, h1, h2, ?_⟩
    intro j v hv
    have hv' : h.values[j]? = some v := hv
    show (updEach (fun _ => f) 0 h.values).1[j]? = _
    rw [h3, hv']
    split <;> rfl

/-- C38: writing through `value_at_index_mut(i)` is possible exactly for bin numbers below `num_bins` and changes that bin
only. -/
theorem C38_value_at_index_mut {h : VecHistogram A V} {n : Nat} (ok : h.Ok n) (i : Nat) (f : Upd V) :
    (h.valueAtIndexMut i f = none ↔ n ≤ i) ∧
    (∀ v, h.valueAtIndex i = some v → ∃ h', h.valueAtIndexMut i f = some (h', (f v).2) ∧ h'.axes = h.axes ∧ h'.Ok n ∧
      h'.valueAtIndex i = some (f v).1 ∧ ∀ j, j ≠ i → h'.valueAtIndex j = h.valueAtIndex j) := by
  constructor
  · rw [← ok.get_none, VecHistogram.valueAtIndexMut, VecHistogram.valueAtIndex]
    cases h.values[i]? <;> simp
  · intro v hv
    have hv' : h.values[i]? = some v := hv
    refine ⟨{ h with values := h.values.modify i fun v => (f v).1 }, ?_, rfl, ⟨ok.lawful, by simp [ok.size]⟩, ?_, ?_⟩
    · simp only [VecHistogram.valueAtIndexMut, hv', updAt_fst, updAt_snd]
    · simp [VecHistogram.valueAtIndex, List.getElem?_modify, hv']
    · intro j hj
      have : i ≠ j := fun e => hj e.symm
      simp [VecHistogram.valueAtIndex, List.getElem?_modify, this]

/-- C38: writing through `value_mut(c)` is possible exactly if `c` has a bin, and is writing to that bin. -/
theorem C38_value_mut {h : VecHistogram A V} (c : Axis.Coordinate A) (f : Upd V) :
    (∀ i, Axis.index h.axes c = .ok (some i) → h.valueMut c f = .ok (h.valueAtIndexMut i f)) ∧
    (Axis.index h.axes c = .ok none → h.valueMut c f = .ok none) ∧
    (∀ p, Axis.index h.axes c = .error p → h.valueMut c f = .error p) := by
  refine ⟨fun i hi => ?_, fun hi => ?_, fun p hi => ?_⟩ <;> simp [VecHistogram.valueMut, hi, bind, Except.bind, pure, Except.pure]

/-! ### sparse -/

/-- C38, sparse: writing through `value_at_index_mut(i)` is possible exactly for bins that have a value, changes that bin
only, and creates no bin. -/
theorem C38_value_at_index_mut_sparse {h : HashHistogram A V} {n : Nat} (ok : h.Ok n) (i : Nat) (f : Upd V) :
    (h.valueAtIndexMut i f = none ↔ h.valueAtIndex i = none) ∧
    (∀ v, h.valueAtIndex i = some v → ∃ h', h.valueAtIndexMut i f = some (h', (f v).2) ∧ h'.axes = h.axes ∧ h'.Ok n ∧
      h'.valueAtIndex i = some (f v).1 ∧ ∀ j, j ≠ i → h'.valueAtIndex j = h.valueAtIndex j) := by
  constructor
  · rw [HashHistogram.valueAtIndexMut, HashHistogram.valueAtIndex]
    cases h.values.get i <;> simp
  · intro v hv
    have hv' : h.values.get i = some v := hv
    have hk : i ∈ h.values.keys := (HMap.get_isSome _ _).1 ⟨v, hv'⟩
    refine ⟨{ h with values := h.values.insert i (f v).1 }, ?_, rfl, ⟨ok.lawful, HMap.nodup_insert ok.nodup _ _, ?_⟩, ?_, ?_⟩
    · simp only [HashHistogram.valueAtIndexMut, hv']
    · intro j hj
      rcases (HMap.mem_keys_insert _ _ _ _).1 hj with rfl | hj
      · exact ok.valid _ hk
      · exact ok.valid _ hj
    · exact HMap.get_insert_self _ _ _
    · intro j hj
      exact HMap.get_insert_ne _ _ (fun e => hj e.symm)

theorem updKeys_spec (f : Nat → Upd V) : ∀ (ks : List Nat) (m : HMap Nat V), ks.Nodup → m.NodupKeys → (∀ k ∈ ks, k ∈ m.keys) →
    (HashHistogram.updKeys f ks m).1.keys = m.keys ∧
    ((HashHistogram.updKeys f ks m).2 = none → ∀ k,
      (HashHistogram.updKeys f ks m).1.get k = if k ∈ ks then (m.get k).map (fun v => (f k v).1) else m.get k) ∧
    ((HashHistogram.updKeys f ks m).2 = none ↔ ∀ k v, k ∈ ks → m.get k = some v → (f k v).2 = none) := by
  intro ks
  induction ks with
  | nil => intro m _ _ _; simp [HashHistogram.updKeys]
  | cons k ks ih =>
    intro m hnd hm hks
    obtain ⟨v, hv⟩ := (HMap.get_isSome m k).2 (hks k (List.mem_cons_self ..))
    have hkm : k ∈ m.keys := hks k (List.mem_cons_self ..)
    have hkeys : ∀ x, (m.insert k x).keys = m.keys := fun x => by rw [HMap.keys_insert, if_pos hkm]
    have hk : k ∉ ks := (List.nodup_cons.1 hnd).1
    rcases hf : f k v with ⟨v', _ | p⟩
    · have e : HashHistogram.updKeys f (k :: ks) m = HashHistogram.updKeys f ks (m.insert k v') := by
        simp [HashHistogram.updKeys, hv, hf]
      rw [e]
      obtain ⟨h1, h2, h3⟩ := ih (m.insert k v') (List.nodup_cons.1 hnd).2 (HMap.nodup_insert hm _ _)
        (fun k' hk' => by rw [hkeys]; exact hks k' (List.mem_cons_of_mem _ hk'))
      refine ⟨by rw [h1, hkeys], ?_, ?_⟩
      · intro hn k'
        rw [h2 hn k']
        by_cases hkk : k = k'
        · subst hkk
          simp [hk, HMap.get_insert_self, hv, hf]
        · have : k' ≠ k := fun e => hkk e.symm
          simp only [HMap.get_insert_ne _ _ hkk, List.mem_cons, this, false_or]
      · rw [h3]
        constructor
        · intro hall k' w hk' hw
          rcases List.mem_cons.1 hk' with rfl | hk'
          · rw [hv] at hw; cases hw; rw [hf]
          · exact hall k' w hk' (by rw [HMap.get_insert_ne _ _ (show k ≠ k' from fun e => hk (e.symm ▸ hk'))]; exact hw)
        · intro hall k' w hk' hw
          rw [HMap.get_insert_ne _ _ (show k ≠ k' from fun e => hk (e.symm ▸ hk'))] at hw
          exact hall k' w (List.mem_cons_of_mem _ hk') hw
    · have e : HashHistogram.updKeys f (k :: ks) m = (m.insert k v', some p) := by
        simp [HashHistogram.updKeys, hv, hf]
      rw [e]
      refine ⟨hkeys _, by simp, ?_⟩
      simp only [reduceCtorEq, false_iff, not_forall]
      exact ⟨k, v, List.mem_cons_self .., hv, by rw [hf]; simp⟩

/-- C38, sparse: a loop over `iter_mut`, in whatever order the map yields its entries, whose body does not panic applies the body to
every bin that has a value, and creates no bin. -/
theorem C38_iter_mut_sparse {h : HashHistogram A V} {n : Nat} (ok : h.Ok n) (o : h.values.Order)
    (f : Nat → Axis.Interval A → Upd V) :
    (h.iterMut o f).1.axes = h.axes ∧ (h.iterMut o f).1.Ok n ∧
    ((h.iterMut o f).2 = none ↔ ∀ i b v, Axis.bin h.axes i = .ok (some b) → h.valueAtIndex i = some v → (f i b v).2 = none) ∧
    ((h.iterMut o f).2 = none →
      (∀ i b v, Axis.bin h.axes i = .ok (some b) → h.valueAtIndex i = some v →
        (h.iterMut o f).1.valueAtIndex i = some (f i b v).1) ∧
      ∀ i, h.valueAtIndex i = none → (h.iterMut o f).1.valueAtIndex i = none) := by
  set body : Nat → Upd V := fun i v =>
      match Axis.bin h.axes i with
      | .error p => (v, some p)
      | .ok none => (v, some .expectNone)
      | .ok (some b) => f i b v with hbody
  have hperm : (o.list.map (·.1)).Perm h.values.keys := o.perm.map _
  obtain ⟨h1, h2, h3⟩ := updKeys_spec body (o.list.map (·.1)) h.values (hperm.nodup_iff.2 ok.nodup) ok.nodup
    (fun k hk => hperm.mem_iff.1 hk)
  have he : h.iterMut o f = ({ h with values := (HashHistogram.updKeys body (o.list.map (·.1)) h.values).1 },
      (HashHistogram.updKeys body (o.list.map (·.1)) h.values).2) := rfl
  have hb : ∀ i b v, Axis.bin h.axes i = .ok (some b) → body i v = f i b v := by
    intro i b v hb; simp only [hbody, hb]
  have hmem : ∀ i, i ∈ o.list.map (·.1) ↔ ∃ v, h.valueAtIndex i = some v := fun i => by
    rw [hperm.mem_iff]; exact (HMap.get_isSome _ _).symm
  rw [he]
  refine ⟨rfl, ⟨ok.lawful, ?_, ?_⟩, ?_, ?_⟩
  · unfold HMap.NodupKeys; rw [h1]; exact ok.nodup
  · rw [h1]; exact ok.valid
  · rw [h3]
    constructor
    · intro hall i b v hbin hv
      rw [← hb i b v hbin]
      exact hall i v ((hmem i).2 ⟨v, hv⟩) hv
    · intro hall i v hi hv
      obtain ⟨b, hbin⟩ := ok.lawful.bin_some i (ok.valid i ((HMap.get_isSome _ _).1 ⟨v, hv⟩))
      rw [hb i b v hbin]
      exact hall i b v hbin hv
  · intro hn
    have h2 := h2 hn
    constructor
    · intro i b v hbin hv
      show (HashHistogram.updKeys body (o.list.map (·.1)) h.values).1.get i = _
      rw [h2, if_pos ((hmem i).2 ⟨v, hv⟩), show h.values.get i = some v from hv]
      simp [hb i b v hbin]
    · intro i hi
      show (HashHistogram.updKeys body (o.list.map (·.1)) h.values).1.get i = _
      rw [h2, show h.values.get i = none from hi]
      simp

/-- C38, sparse: the same for `values_mut`. -/
theorem C38_values_mut_sparse {h : HashHistogram A V} {n : Nat} (ok : h.Ok n) (o : h.values.Order) (f : Upd V) :
    (h.valuesMut o f).1.axes = h.axes ∧ (h.valuesMut o f).1.Ok n ∧
    ((h.valuesMut o f).2 = none ↔ ∀ i v, h.valueAtIndex i = some v → (f v).2 = none) ∧
    ((h.valuesMut o f).2 = none → ∀ i, (h.valuesMut o f).1.valueAtIndex i = (h.valueAtIndex i).map fun v => (f v).1) := by
  have hperm : (o.list.map (·.1)).Perm h.values.keys := o.perm.map _
  obtain ⟨h1, h2, h3⟩ := updKeys_spec (fun _ => f) (o.list.map (·.1)) h.values (hperm.nodup_iff.2 ok.nodup) ok.nodup
    (fun k hk => hperm.mem_iff.1 hk)
  have he : h.valuesMut o f = ({ h with values := (HashHistogram.updKeys (fun _ => f) (o.list.map (·.1)) h.values).1 },
      (HashHistogram.updKeys (fun _ => f) (o.list.map (·.1)) h.values).2) := rfl
  have hmem : ∀ i, i ∈ o.list.map (·.1) ↔ ∃ v, h.valueAtIndex i = some v := fun i => by
    rw [hperm.mem_iff]; exact (HMap.get_isSome _ _).symm
  rw [he]
  refine ⟨rfl, ⟨ok.lawful, ?_, ?_⟩, ?_, ?_⟩
  · unfold HMap.NodupKeys; rw [h1]; exact ok.nodup
  · rw [h1]; exact ok.valid
  · rw [h3]
    exact ⟨fun hall i v hv => hall i v ((hmem i).2 ⟨v, hv⟩) hv, fun hall i v _ hv => hall i v hv⟩
  · intro hn i
    show (HashHistogram.updKeys (fun _ => f) (o.list.map (·.1)) h.values).1.get i = (h.values.get i).map _
    rw [h2 hn]
    cases hv : h.values.get i with
    | none => simp
    | some v => rw [if_pos ((hmem i).2 ⟨v, hv⟩)]

/-! ## C43 -/

/-- C43: filling an integer bin: the exact sum if it fits; otherwise a build with overflow checks panics and leaves the whole
histogram as it was, and a build without stores the sum modulo `2^bits` and touches no other bin. -/
theorem C43_int_fill {τ : IntTy} {h : VecHistogram A (MInt τ)} {n : Nat} (ok : h.Ok n) (c : Axis.Coordinate A) (w v : MInt τ)
    {i : Nat} (hi : Axis.index h.axes c = .ok (some i)) (hv : h.valueAtIndex i = some v) :
    (∀ j, j ≠ i → (h.fillWith c w).1.valueAtIndex j = h.valueAtIndex j) ∧
    (τ.min ≤ v.val + w.val ∧ v.val + w.val ≤ τ.max → (h.fillWith c w).2 = none ∧
      ∃ v', (h.fillWith c w).1.valueAtIndex i = some v' ∧ v'.val = v.val + w.val) ∧
    (¬ (τ.min ≤ v.val + w.val ∧ v.val + w.val ≤ τ.max) →
      (Cfg.checked = true → h.fillWith c w = (h, some .overflow)) ∧
      (Cfg.checked = false → (h.fillWith c w).2 = none ∧
        ∃ v', (h.fillWith c w).1.valueAtIndex i = some v' ∧ (2 ^ τ.bits : Int) ∣ v'.val - (v.val + w.val))) := by
  obtain ⟨-, -, h3, -, -⟩ := C27_dense ok (.fillWith c w : Call (MInt τ) (Axis.Coordinate A))
  obtain ⟨⟨v₀, hv₀, h4, h5⟩, h6⟩ := h3 i hi
  rw [hv] at hv₀; cases hv₀
  have hon : (Call.fillWith c w : Call (MInt τ) (Axis.Coordinate A)).on v = match MInt.arith (v.val + w.val) with
      | .ok s => (s, none) | .error p => (v, some p) := by
    show Upd.store (fun s : MInt τ => MInt.arith (s.val + w.val)) v = _
    simp only [Upd.store]
    cases MInt.arith (τ := τ) (v.val + w.val) <;> rfl
  refine ⟨h6, ?_, ?_⟩
  · rintro hfit
    rw [hon, MInt.arith, dif_pos hfit] at h4 h5
    exact ⟨h5, _, h4, rfl⟩
  · intro hfit
    constructor
    · intro hc
      rw [hon, MInt.arith, dif_neg hfit, if_pos hc] at h4 h5
      refine Prod.ext (VecHistogram.ext_get ?_ fun j => ?_) h5
      · exact VecHistogram.call_axes h (.fillWith c w)
      · by_cases hj : j = i
        · subst hj; rw [hv]; exact h4
        · exact h6 j hj
    · intro hc
      rw [hon, MInt.arith, dif_neg hfit, if_neg (by simp [hc])] at h4 h5
      refine ⟨h5, _, h4, ?_⟩
      simp only [MInt.wrapping, MInt.wrapVal]
      have := Int.mul_ediv_add_emod (v.val + w.val - τ.min) (2 ^ τ.bits)
      exact ⟨-((v.val + w.val - τ.min) / 2 ^ τ.bits), by rw [Int.mul_neg]; omega⟩

/-- C43: the same for unit fills (`fill`). -/
theorem C43_int_unit_fill {τ : IntTy} {h : VecHistogram A (MInt τ)} (c : Axis.Coordinate A) :
    ∃ one : MInt τ, one.val = 1 ∧ h.fill c = h.fillWith c one :=
  ⟨_, MInt.one_val, rfl⟩

/-! ## C45 -/

/-- C45, dense: equal exactly when the axes are equal and the values are, bin by bin. -/
theorem C45_dense [PEq A] [PEq V] {h h' : VecHistogram A V} {n : Nat} (ok : h.Ok n) (ok' : h'.Ok n) :
    h.beq h' = true ↔ PEq.peq h.axes h'.axes = true ∧
      ∀ i, i < n → ∃ v w, h.valueAtIndex i = some v ∧ h'.valueAtIndex i = some w ∧ PEq.peq v w = true := by
  have hlen : (h.values.length == h'.values.length) = true := by simp [ok.size, ok'.size]
  simp only [VecHistogram.beq, hlen, Bool.true_and, Bool.and_eq_true, List.all_eq_true]
  constructor
  · rintro ⟨h1, h2⟩
    refine ⟨h1, fun i hi => ?_⟩
    obtain ⟨v, hv⟩ := ok.get hi
    obtain ⟨w, hw⟩ := ok'.get hi
    refine ⟨v, w, hv, hw, h2 (v, w) ?_⟩
    exact List.mem_iff_getElem?.2 ⟨i, by
      rw [List.getElem?_zip_eq_some]; exact ⟨hv, hw⟩⟩
  · rintro ⟨h1, h2⟩
    refine ⟨h1, ?_⟩
    rintro ⟨v, w⟩ hm
    obtain ⟨i, hi⟩ := List.mem_iff_getElem?.1 hm
    rw [List.getElem?_zip_eq_some] at hi
    obtain ⟨hv, hw⟩ := hi
    obtain ⟨v', w', a, b, e⟩ := h2 i (by rw [← ok.size]; exact (List.getElem?_eq_some_iff.1 hv).1)
    have a' : h.values[i]? = some v' := a
    have b' : h'.values[i]? = some w' := b
    simp only at hv hw
    rw [hv] at a'; rw [hw] at b'; cases a'; cases b'; exact e

/-- C45, dense: histograms with different numbers of values are never equal. -/
theorem C45_dense_length [PEq A] [PEq V] {h h' : VecHistogram A V} (hne : h.asVec.length ≠ h'.asVec.length) :
    h.beq h' = false := by
  have : (h.values.length == h'.values.length) = false := by simpa [VecHistogram.asVec] using hne
  simp [VecHistogram.beq, this]

/-- same or both missing -/
def OptEq [PEq V] : Option V → Option V → Prop
  | none, none => True
  | some v, some w => PEq.peq v w = true
  | _, _ => False

/-- C45, sparse: equal exactly when the axes are equal and the same bins have values, which are equal: a statement about
lookups only, so neither fill order nor iteration order can matter. -/
theorem C45_sparse [PEq A] [PEq V] {h h' : HashHistogram A V} {n n' : Nat} (ok : h.Ok n) (ok' : h'.Ok n') :
    h.beq h' = true ↔ PEq.peq h.axes h'.axes = true ∧ ∀ i, OptEq (h.valueAtIndex i) (h'.valueAtIndex i) := by
  simp only [HashHistogram.beq, HMap.beq, Bool.and_eq_true, List.all_eq_true, beq_iff_eq]
  constructor
  · rintro ⟨h1, h2, h3⟩
    refine ⟨h1, fun i => ?_⟩
    have hsub : h.values.keys ⊆ h'.values.keys := by
      intro k hk
      obtain ⟨⟨k', v⟩, hm, rfl⟩ := List.mem_map.1 hk
      have := h3 _ hm
      simp only at this
      rw [← HMap.get_isSome]
      split at this
      · rename_i w hw; exact ⟨w, hw⟩
      · cases this
    have hperm : h.values.keys.Perm h'.values.keys := by
      refine (List.subperm_of_subset ok.nodup hsub).perm_of_length_le ?_
      rw [← HMap.len_eq_keys, ← HMap.len_eq_keys, h2]
    show OptEq (h.values.get i) (h'.values.get i)
    cases hv : h.values.get i with
    | none =>
      have : h'.values.get i = none := by
        rw [HMap.get_eq_none] at hv ⊢
        exact fun hk => hv (hperm.mem_iff.2 hk)
      rw [this]; trivial
    | some v =>
      have := h3 _ ((HMap.mem_entries_iff ok.nodup i v).2 hv)
      simp only at this
      split at this
      · rename_i w hw; rw [hw]; exact this
      · cases this
  · rintro ⟨h1, h2⟩
    have h2' : ∀ i, OptEq (h.values.get i) (h'.values.get i) := h2
    refine ⟨h1, ?_, ?_⟩
    · rw [HMap.len_eq_keys, HMap.len_eq_keys]
      refine List.Perm.length_eq ((List.perm_ext_iff_of_nodup ok.nodup ok'.nodup).2 fun k => ?_)
      rw [← HMap.get_isSome, ← HMap.get_isSome]
      have := h2' k
      cases hx : h.values.get k <;> cases hy : h'.values.get k <;> rw [hx, hy] at this <;> simp [OptEq] at this ⊢
    · rintro ⟨k, v⟩ hm
      have hv := (HMap.mem_entries_iff ok.nodup k v).1 hm
      have := h2' k
      rw [hv] at this
      simp only
      cases hy : h'.values.get k <;> rw [hy] at this <;> simp [OptEq] at this ⊢
      exact this

end
end NdHist
