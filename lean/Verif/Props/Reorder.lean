import Verif.SpecReorder
import Verif.Props.Project
import Verif.Props.Merge
import Verif.Props.Access
/-!
# C97: the order of the axes only renumbers the bins
-/
set_option linter.unusedSectionVars false
namespace NdHist

section
variable [cfg : Cfg]

theorem TupTotal.nth {ts : List AxTy} {t : Tup ts} {c : Coords ts} (h : TupTotal t c) (k : Fin ts.length) : IndexTotal (t.nth k) (c.nth k) := by
  induction ts with
  | nil => exact k.elim0
  | cons t' ts ih =>
    obtain ⟨a, as⟩ := t
    obtain ⟨c, cs⟩ := c
    obtain ⟨h1, h2⟩ := h
    obtain ⟨k, hk⟩ := k
    cases k with
    | zero => exact h1
    | succ k => exact ih h2 ⟨k, Nat.lt_of_succ_lt_succ hk⟩

theorem TupTotal.select {ts : List AxTy} {t : Tup ts} {c : Coords ts} (h : TupTotal t c) (σ : List (Fin ts.length)) : TupTotal (t.select σ) (c.select σ) := by
  induction σ with
  | nil => exact trivial
  | cons k σ ih => exact ⟨h.nth k, ih⟩

theorem someUncovered_nth {ts : List AxTy} {t : Tup ts} {c : Coords ts} (h : SomeUncovered t c) : ∃ k : Fin ts.length, Axis.index (t.nth k) (c.nth k) = .ok none := by
  induction ts with
  | nil => exact h.elim
  | cons t' ts ih =>
    obtain ⟨a, as⟩ := t
    obtain ⟨c, cs⟩ := c
    rcases h with h | h
    · exact ⟨⟨0, by simp⟩, h⟩
    · obtain ⟨⟨k, hk⟩, h⟩ := ih h
      exact ⟨⟨k + 1, by simpa using hk⟩, h⟩

theorem someUncovered_select {ts : List AxTy} {t : Tup ts} {c : Coords ts} {k : Fin ts.length} (h : Axis.index (t.nth k) (c.nth k) = .ok none) {σ : List (Fin ts.length)} (hk : k ∈ σ) :
    SomeUncovered (t.select σ) (c.select σ) := by
  induction σ with
  | nil => cases hk
  | cons j σ ih =>
    rcases List.mem_cons.1 hk with rfl | hk
    · exact .inl h
    · exact .inr (ih hk)

omit cfg in
theorem IsOrder.perm {m : Nat} {σ : List (Fin m)} (h : IsOrder σ) : σ.Perm (List.finRange m) :=
  (List.perm_ext_iff_of_nodup h.1 (List.nodup_finRange m)).2 fun k => ⟨fun _ => List.mem_finRange k, fun _ => h.2 k⟩

omit cfg in
theorem IsOrder.prod {ns : List Nat} {m : Nat} (hm : ns.length = m) {σ : List (Fin m)} (h : IsOrder σ) : (σ.map fun k : Fin _ => ns.getD k.1 1).prod = ns.prod := by
  rw [(h.perm.map _).prod_eq]
  subst hm
  congr 1
  apply List.ext_getElem
  · simp
  · intro i h1 h2
    simp [List.getD_eq_getElem?_getD, h2]

/-- **C97 (tuples of axes).** Put the axes of a tuple into another order. The tuple can be built, has as many bins, and has the same bins under other numbers: every coordinate, with its components in the new
order, is in the bin with the components in the new order (or in none) as far as no axis panics on its component. -/
theorem C97_tuple {t₀ t₁ : AxTy} {ts : List AxTy} {item : Tup (t₀ :: t₁ :: ts)} {ns : List Nat} (hl : TupLawful item ns) (hpos : ∀ n ∈ ns, 0 < n) (hfit : ns.prod < usizeSize)
    {a : AxesTuple t₀ t₁ ts} (ha : AxesTuple.fromTuple item = .ok a) {k₀ k₁ : Fin (t₀ :: t₁ :: ts).length} {σ : List (Fin (t₀ :: t₁ :: ts).length)} (hσ : IsOrder (k₀ :: k₁ :: σ)) :
    ∃ a' : AxesTuple ((t₀ :: t₁ :: ts).get k₀) ((t₀ :: t₁ :: ts).get k₁) (σ.map (t₀ :: t₁ :: ts).get), AxesTuple.fromTuple (item.select (k₀ :: k₁ :: σ)) = .ok a' ∧
      LawfulAxis a ns.prod ∧ LawfulAxis a' ns.prod ∧
      Renumbered a a' ns.prod (fun c => Coords.select c (k₀ :: k₁ :: σ)) (fun b => Intervals.select b (k₀ :: k₁ :: σ)) (TupTotal item) (selectBin ns (k₀ :: k₁ :: σ)) := by
  have hprod := hσ.prod hl.length
  have hfit' : ((k₀ :: k₁ :: σ).map fun k : Fin _ => ns.getD k.1 1).prod < usizeSize := by rw [hprod]; exact hfit
  have hpos' := select_pos hpos (k₀ :: k₁ :: σ)
  have hl' := hl.select (k₀ :: k₁ :: σ)
  obtain ⟨a', ha', -, -⟩ := C20_construct (item := item.select (k₀ :: k₁ :: σ)) hl' hpos' hfit'
  have l1 := C25_lawful_tuple hl hpos hfit ha
  have l2 := C25_lawful_tuple hl' hpos' hfit' ha'
  rw [hprod] at l2
  refine ⟨a', ha', l1, l2, ⟨l1.numBins, l2.numBins, ?_, ?_, ?_, ?_⟩⟩
  · intro i hi
    obtain ⟨b, hb⟩ := l1.bin_some i hi
    have := (C61_select_bins hl hpos hfit ha hfit' ha' hi hb).1
    rwa [hprod] at this
  · intro i j hi hj hij
    have grid : ∀ N, InGrid ((k₀ :: k₁ :: σ).map fun k : Fin _ => ns.getD k.1 1) ((k₀ :: k₁ :: σ).map fun k : Fin _ => alongAxis ns k.1 N) := by
      intro N
      unfold InGrid
      rw [List.forall₂_map_left_iff, List.forall₂_map_right_iff, List.forall₂_same]
      intro k _
      have hk : (k : Nat) < ns.length := by rw [hl.length]; exact k.2
      unfold alongAxis
      apply Nat.mod_lt
      rw [List.getD_eq_getElem?_getD, List.getElem?_eq_getElem hk]
      exact hpos _ (List.getElem_mem hk)
    have e : ((k₀ :: k₁ :: σ).map fun k : Fin _ => alongAxis ns k.1 i) = (k₀ :: k₁ :: σ).map fun k : Fin _ => alongAxis ns k.1 j := by
      rw [← cellOf_cellNumber (grid i), ← cellOf_cellNumber (grid j)]
      congr 1
    have e' : cellOf i ns = cellOf j ns := by
      have li := (cellOf_inGrid hpos i).length_eq
      have lj := (cellOf_inGrid hpos j).length_eq
      apply List.ext_getElem (by rw [li, lj])
      intro k h1 h2
      have hk : k < ns.length := by omega
      have hk' : k < (t₀ :: t₁ :: ts).length := by rw [← hl.length]; exact hk
      have := List.map_inj_left.1 e ⟨k, hk'⟩ (hσ.2 _)
      have g1 := getD_cellOf hk i
      have g2 := getD_cellOf hk j
      rw [List.getD_eq_getElem?_getD, List.getElem?_eq_getElem h1] at g1
      rw [List.getD_eq_getElem?_getD, List.getElem?_eq_getElem h2] at g2
      simp only [Option.getD_some] at g1 g2
      rw [g1, g2]
      exact this
    rw [← cellNumber_cellOf hi, ← cellNumber_cellOf hj, e']
  · intro c hc
    obtain ⟨o, ho⟩ := (C22_tuple_none hl hpos hfit ha c hc).2
    show Axis.index a' (Coords.select c (k₀ :: k₁ :: σ)) = _
    have ho' : Axis.index a c = .ok o := ho
    rw [ho']
    cases o with
    | some N => exact select_index_eq hl hpos hfit ha hfit' ha' c N ho
    | none =>
      obtain ⟨k, hk⟩ := someUncovered_nth ((C22_tuple_none hl hpos hfit ha c hc).1.1 ho)
      exact (C22_tuple_none hl' hpos' hfit' ha' (c.select (k₀ :: k₁ :: σ)) (hc.select _)).1.2 (someUncovered_select hk (hσ.2 k))
  · intro i hi
    obtain ⟨b, hb⟩ := l1.bin_some i hi
    show a'.bin _ = _
    rw [hb]
    exact (C61_select_bins hl hpos hfit ha hfit' ha' hi hb).2

/-- **C97 (two axes).** With two axes the bin number `i + nx * j` becomes `j + ny * i`. -/
theorem C97_two (nx ny i j : Nat) (hi : i < nx) (hj : j < ny) : selectBin [nx, ny] [(1 : Fin 2), 0] (i + nx * j) = j + ny * i := by
  simp [selectBin, cellNumber, alongAxis]
  rw [Nat.add_mul_div_left _ _ (by omega), Nat.div_eq_of_lt hi, Nat.zero_add, Nat.mod_eq_of_lt hj, Nat.mod_eq_of_lt hi]
end

section
variable [cfg : Cfg] {A A' V : Type} [Axis A] [Axis A'] {n : Nat} {f : Axis.Coordinate A → Axis.Coordinate A'} {g : Axis.Interval A → Axis.Interval A'}
  {dom : Axis.Coordinate A → Prop} {renumber : Nat → Nat}

theorem Renumbered.surj {a : A} {a' : A'} (hs : Renumbered a a' n f g dom renumber) {j : Nat} (hj : j < n) : ∃ i, i < n ∧ renumber i = j := by
  have := Finset.surj_on_of_inj_on_of_card_le (s := Finset.range n) (t := Finset.range n) (fun i _ => renumber i) (fun i hi => by simpa using hs.lt i (by simpa using hi))
    (fun i j hi hj h => hs.inj i j (by simpa using hi) (by simpa using hj) h) (le_refl _) j (by simpa using hj)
  obtain ⟨i, hi, h⟩ := this
  exact ⟨i, by simpa using hi, h.symm⟩

theorem Renumbered.range_perm {a : A} {a' : A'} (hs : Renumbered a a' n f g dom renumber) : ((List.range n).map renumber).Perm (List.range n) := by
  refine (List.perm_ext_iff_of_nodup ?_ List.nodup_range).2 fun j => ?_
  · refine List.Nodup.map_on ?_ List.nodup_range
    intro i hi j hj h
    exact hs.inj i j (List.mem_range.1 hi) (List.mem_range.1 hj) h
  · simp only [List.mem_map, List.mem_range]
    exact ⟨fun ⟨i, hi, h⟩ => h ▸ hs.lt i hi, fun hj => hs.surj hj⟩

theorem renumbered_call {h : VecHistogram A V} {h' : VecHistogram A' V} (hs : Renumbered h.axes h'.axes n f g dom renumber) (ok : h.Ok n) (ok' : h'.Ok n)
    (hv : ∀ i, i < n → h'.valueAtIndex (renumber i) = h.valueAtIndex i) (call : Call V (Axis.Coordinate A)) (hd : dom call.coord) :
    (h'.call (call.mapCoord f)).2 = (h.call call).2 ∧ ∀ i, i < n → (h'.call (call.mapCoord f)).1.valueAtIndex (renumber i) = (h.call call).1.valueAtIndex i := by
  obtain ⟨-, -, a1, a2, a3⟩ := C27_dense ok call
  obtain ⟨-, -, b1, b2, b3⟩ := C27_dense ok' (call.mapCoord f)
  have ec : (call.mapCoord f).coord = f call.coord := by cases call <;> rfl
  have eo : ∀ v, (call.mapCoord f).on v = call.on v := by intro v; cases call <;> rfl
  rw [ec, hs.index _ hd] at b1 b2 b3
  rcases hi : Axis.index h.axes call.coord with p | (_ | i)
  · rw [hi] at b3
    rw [a3 p hi, b3 p rfl]
    exact ⟨rfl, hv⟩
  · rw [hi] at b2
    rw [a2 hi, b2 rfl]
    exact ⟨rfl, hv⟩
  · rw [hi] at b1
    obtain ⟨⟨v, v1, v2, v3⟩, v4⟩ := a1 i hi
    obtain ⟨⟨w, w1, w2, w3⟩, w4⟩ := b1 (renumber i) rfl
    have hin : i < n := ok.lawful.index_lt _ _ hi
    rw [hv i hin, v1] at w1
    obtain rfl := Option.some.inj w1
    rw [eo] at w2 w3
    refine ⟨by rw [w3, v3], fun j hj => ?_⟩
    by_cases hji : j = i
    · subst hji; rw [w2, v2]
    · rw [w4 _ fun h => hji (hs.inj j i hj hin h), v4 j hji, hv j hj]

/-- **C97 (dense histograms).** Fill two histograms, whose axes have the same bins under other numbers and whose contents agree, with the same data (coordinates rewritten): the program panics at the same call
with the same panic or not at all, and the contents agree again. -/
theorem C97_dense {h : VecHistogram A V} {h' : VecHistogram A' V} (hs : Renumbered h.axes h'.axes n f g dom renumber) (ok : h.Ok n) (ok' : h'.Ok n)
    (hv : ∀ i, i < n → h'.valueAtIndex (renumber i) = h.valueAtIndex i) (calls : List (Call V (Axis.Coordinate A))) (hd : ∀ call ∈ calls, dom call.coord) :
    (h'.callAll (calls.map (Call.mapCoord f))).2 = (h.callAll calls).2 ∧
    (∀ i, i < n → (h'.callAll (calls.map (Call.mapCoord f))).1.valueAtIndex (renumber i) = (h.callAll calls).1.valueAtIndex i) ∧
    ∀ i, i < n → (h'.callAllCaught (calls.map (Call.mapCoord f))).valueAtIndex (renumber i) = (h.callAllCaught calls).valueAtIndex i := by
  induction calls generalizing h h' with
  | nil => exact ⟨rfl, hv, hv⟩
  | cons c calls ih =>
    obtain ⟨h2, h1⟩ := renumbered_call hs ok ok' hv c (hd c (List.mem_cons_self ..))
    obtain ⟨x1, o1, -⟩ := C27_dense ok c
    obtain ⟨x2, o2, -⟩ := C27_dense ok' (c.mapCoord f)
    obtain ⟨i1, i2, i3⟩ := ih (by rw [x1, x2]; exact hs) o1 o2 h1 fun call hc => hd call (List.mem_cons_of_mem _ hc)
    refine ⟨?_, ?_, i3⟩
    all_goals
      simp only [List.map_cons, VecHistogram.callAll]
      rcases e1 : h'.call (c.mapCoord f) with ⟨k1, p1⟩
      rcases e2 : h.call c with ⟨k2, p2⟩
      rw [e1, e2] at h1 h2
      rw [e1, e2] at i1 i2
      simp only at h1 h2 i1 i2
      subst h2
      cases p1
      · first | exact i1 | exact i2
      · first | rfl | exact h1

/-- **C97 (new histograms).** New histograms agree. -/
theorem C97_new [RDefault V] {a : A} {a' : A'} (hs : Renumbered a a' n f g dom renumber) (hl : LawfulAxis a n) (hl' : LawfulAxis a' n) :
    ∃ (h : VecHistogram A V) (h' : VecHistogram A' V), VecHistogram.new a = .ok h ∧ VecHistogram.new a' = .ok h' ∧ h.axes = a ∧ h'.axes = a' ∧ h.Ok n ∧ h'.Ok n ∧
      ∀ i, i < n → h'.valueAtIndex (renumber i) = h.valueAtIndex i := by
  refine ⟨⟨a, List.replicate n RDefault.dflt⟩, ⟨a', List.replicate n RDefault.dflt⟩, ?_, ?_, rfl, rfl, ⟨hl, by simp⟩, ⟨hl', by simp⟩, fun i hi => ?_⟩
  · unfold VecHistogram.new; rw [hl.numBins]; rfl
  · unfold VecHistogram.new; rw [hl'.numBins]; rfl
  · have := hs.lt i hi
    simp [VecHistogram.valueAtIndex, List.getElem?_replicate, hi, this]

theorem items_perm {a : A} {a' : A'} (hs : Renumbered a a' n f g dom renumber) {H : Nat → V → Prop} {items : List (Item (Axis.Interval A) V)} {items' : List (Item (Axis.Interval A') V)}
    (nd : (items.map (·.index)).Nodup) (nd' : (items'.map (·.index)).Nodup)
    (hm : ∀ i b v, (⟨i, b, v⟩ : Item (Axis.Interval A) V) ∈ items ↔ i < n ∧ Axis.bin a i = .ok (some b) ∧ H i v)
    (hm' : ∀ j b v, (⟨j, b, v⟩ : Item (Axis.Interval A') V) ∈ items' ↔ ∃ i, i < n ∧ renumber i = j ∧ Axis.bin a' j = .ok (some b) ∧ H i v) :
    items'.Perm (items.map fun it => ⟨renumber it.index, g it.bin, it.value⟩) := by
  refine (List.perm_ext_iff_of_nodup nd'.of_map ?_).2 ?_
  · refine List.Nodup.map_on ?_ nd.of_map
    rintro ⟨i, b, v⟩ hx ⟨j, c, w⟩ hy h
    simp only [Item.mk.injEq] at h
    have h1 := (hm i b v).1 hx
    have h2 := (hm j c w).1 hy
    obtain rfl := hs.inj i j h1.1 h2.1 h.1
    have := h1.2.1
    rw [h2.2.1] at this
    cases this
    rw [h.2.2]
  · rintro ⟨j, b, v⟩
    rw [hm', List.mem_map]
    constructor
    · rintro ⟨i, hi, rfl, hb, hv⟩
      rw [hs.bin i hi] at hb
      rcases hb' : Axis.bin a i with p | (_ | b')
      · rw [hb'] at hb; cases hb
      · rw [hb'] at hb; cases hb
      · rw [hb'] at hb
        cases hb
        exact ⟨⟨i, b', v⟩, (hm i b' v).2 ⟨hi, hb', hv⟩, rfl⟩
    · rintro ⟨⟨i, b', v'⟩, hx, h⟩
      cases h
      obtain ⟨hi, hb, hv⟩ := (hm i b' v').1 hx
      exact ⟨i, hi, rfl, by rw [hs.bin i hi, hb]; rfl, hv⟩

/-- **C97 (reading).** `value` at the rewritten coordinate is the same; `iter` yields the same items in another order, with their new numbers and rewritten bins. -/
theorem C97_dense_read {h : VecHistogram A V} {h' : VecHistogram A' V} (hs : Renumbered h.axes h'.axes n f g dom renumber) (ok : h.Ok n) (ok' : h'.Ok n)
    (hv : ∀ i, i < n → h'.valueAtIndex (renumber i) = h.valueAtIndex i) :
    (∀ c, dom c → h'.value (f c) = h.value c) ∧
    ∃ items items', h.iter = .ok items ∧ h'.iter = .ok items' ∧ items'.Perm (items.map fun it => ⟨renumber it.index, g it.bin, it.value⟩) := by
  refine ⟨fun c hc => ?_, ?_⟩
  · unfold VecHistogram.value
    rw [hs.index c hc]
    rcases hi : Axis.index h.axes c with p | (_ | i)
    · rfl
    · rfl
    · have := hv i (ok.lawful.index_lt _ _ hi)
      exact congrArg Except.ok this
  · obtain ⟨items, e1, l1, a1, -⟩ := C38_iter ok
    obtain ⟨items', e2, l2, a2, -⟩ := C38_iter ok'
    refine ⟨items, items', e1, e2, items_perm hs (H := fun i v => h.valueAtIndex i = some v) ?_ ?_ ?_ ?_⟩
    · have : items.map (·.index) = List.range n := by
        apply List.ext_getElem (by simp [l1])
        intro k h1 h2
        obtain ⟨b, v, hk, -⟩ := a1 k (by simpa using h2)
        obtain ⟨hk', hk⟩ := List.getElem?_eq_some_iff.1 hk
        simp [hk]
      rw [this]; exact List.nodup_range
    · have : items'.map (·.index) = List.range n := by
        apply List.ext_getElem (by simp [l2])
        intro k h1 h2
        obtain ⟨b, v, hk, -⟩ := a2 k (by simpa using h2)
        obtain ⟨hk', hk⟩ := List.getElem?_eq_some_iff.1 hk
        simp [hk]
      rw [this]; exact List.nodup_range
    · intro i b v
      constructor
      · intro hm
        obtain ⟨k, hk⟩ := List.getElem?_of_mem hm
        have hkn : k < n := by rw [← l1]; exact (List.getElem?_eq_some_iff.1 hk).1
        obtain ⟨b', v', h1, h2, h3⟩ := a1 k hkn
        rw [hk] at h1
        cases h1
        exact ⟨hkn, h2, h3⟩
      · rintro ⟨hi, h2, h3⟩
        obtain ⟨b', v', h1, h2', h3'⟩ := a1 i hi
        rw [h2] at h2'; rw [h3] at h3'
        cases h2'; cases h3'
        exact List.mem_of_getElem? h1
    · intro i b v
      constructor
      · intro hm
        obtain ⟨k, hk⟩ := List.getElem?_of_mem hm
        have hkn : k < n := by rw [← l2]; exact (List.getElem?_eq_some_iff.1 hk).1
        obtain ⟨b', v', h1, h2, h3⟩ := a2 k hkn
        rw [hk] at h1
        cases h1
        obtain ⟨i, hi, rfl⟩ := hs.surj hkn
        rw [hv i hi] at h3
        exact ⟨i, hi, rfl, h2, h3⟩
      · rintro ⟨i, hi, rfl, h2, h3⟩
        obtain ⟨b', v', h1, h2', h3'⟩ := a2 _ (hs.lt i hi)
        rw [hv i hi, h3] at h3'; rw [h2] at h2'
        cases h2'; cases h3'
        exact List.mem_of_getElem? h1

section
variable [RDefault V]

theorem renumbered_call_sparse {h : HashHistogram A V} {h' : HashHistogram A' V} (hs : Renumbered h.axes h'.axes n f g dom renumber) (ok : h.Ok n) (ok' : h'.Ok n)
    (hv : ∀ i, i < n → h'.valueAtIndex (renumber i) = h.valueAtIndex i) (call : Call V (Axis.Coordinate A)) (hd : dom call.coord) :
    (h'.call (call.mapCoord f)).2 = (h.call call).2 ∧ ∀ i, i < n → (h'.call (call.mapCoord f)).1.valueAtIndex (renumber i) = (h.call call).1.valueAtIndex i := by
  obtain ⟨-, -, a1, a2, a3⟩ := C27_sparse ok call
  obtain ⟨-, -, b1, b2, b3⟩ := C27_sparse ok' (call.mapCoord f)
  have ec : (call.mapCoord f).coord = f call.coord := by cases call <;> rfl
  have eo : ∀ v, (call.mapCoord f).on v = call.on v := by intro v; cases call <;> rfl
  rw [ec, hs.index _ hd] at b1 b2 b3
  rcases hi : Axis.index h.axes call.coord with p | (_ | i)
  · rw [hi] at b3
    rw [a3 p hi, b3 p rfl]
    exact ⟨rfl, hv⟩
  · rw [hi] at b2
    rw [a2 hi, b2 rfl]
    exact ⟨rfl, hv⟩
  · rw [hi] at b1
    obtain ⟨v2, v3, v4⟩ := a1 i hi
    obtain ⟨w2, w3, w4⟩ := b1 (renumber i) rfl
    have hin : i < n := ok.lawful.index_lt _ _ hi
    rw [eo, hv i hin] at w2 w3
    refine ⟨by rw [w3, v3], fun j hj => ?_⟩
    by_cases hji : j = i
    · subst hji; rw [w2, v2]
    · rw [w4 _ fun h => hji (hs.inj j i hj hin h), v4 j hji, hv j hj]

/-- **C97 (sparse histograms).** The same for sparse histograms: also the bins that exist are the same. -/
theorem C97_sparse {h : HashHistogram A V} {h' : HashHistogram A' V} (hs : Renumbered h.axes h'.axes n f g dom renumber) (ok : h.Ok n) (ok' : h'.Ok n)
    (hv : ∀ i, i < n → h'.valueAtIndex (renumber i) = h.valueAtIndex i) (calls : List (Call V (Axis.Coordinate A))) (hd : ∀ call ∈ calls, dom call.coord) :
    (h'.callAll (calls.map (Call.mapCoord f))).2 = (h.callAll calls).2 ∧
    (∀ i, i < n → (h'.callAll (calls.map (Call.mapCoord f))).1.valueAtIndex (renumber i) = (h.callAll calls).1.valueAtIndex i) ∧
    ∀ i, i < n → (h'.callAllCaught (calls.map (Call.mapCoord f))).valueAtIndex (renumber i) = (h.callAllCaught calls).valueAtIndex i := by
  induction calls generalizing h h' with
  | nil => exact ⟨rfl, hv, hv⟩
  | cons c calls ih =>
    obtain ⟨h2, h1⟩ := renumbered_call_sparse hs ok ok' hv c (hd c (List.mem_cons_self ..))
    obtain ⟨x1, o1, -⟩ := C27_sparse ok c
    obtain ⟨x2, o2, -⟩ := C27_sparse ok' (c.mapCoord f)
    obtain ⟨i1, i2, i3⟩ := ih (by rw [x1, x2]; exact hs) o1 o2 h1 fun call hc => hd call (List.mem_cons_of_mem _ hc)
    refine ⟨?_, ?_, i3⟩
    all_goals
      simp only [List.map_cons, HashHistogram.callAll]
      rcases e1 : h'.call (c.mapCoord f) with ⟨k1, p1⟩
      rcases e2 : h.call c with ⟨k2, p2⟩
      rw [e1, e2] at h1 h2
      rw [e1, e2] at i1 i2
      simp only at h1 h2 i1 i2
      subst h2
      cases p1
      · first | exact i1 | exact i2
      · first | rfl | exact h1
end

/-- **C97 (reading sparse histograms).** Whatever orders the two maps are visited in. -/
theorem C97_sparse_read {h : HashHistogram A V} {h' : HashHistogram A' V} (hs : Renumbered h.axes h'.axes n f g dom renumber) (ok : h.Ok n) (ok' : h'.Ok n)
    (hv : ∀ i, i < n → h'.valueAtIndex (renumber i) = h.valueAtIndex i) :
    (∀ c, dom c → h'.value (f c) = h.value c) ∧
    ∀ (o : h.values.Order) (o' : h'.values.Order), ∃ items items', h.iter o = .ok items ∧ h'.iter o' = .ok items' ∧
      items'.Perm (items.map fun it => ⟨renumber it.index, g it.bin, it.value⟩) := by
  have lt : ∀ {i v}, h.valueAtIndex i = some v → i < n := fun {i v} e => ok.valid _ ((HMap.get_isSome _ _).1 ⟨_, e⟩)
  have lt' : ∀ {i v}, h'.valueAtIndex i = some v → i < n := fun {i v} e => ok'.valid _ ((HMap.get_isSome _ _).1 ⟨_, e⟩)
  have perm : ∀ (o : h.values.Order) (o' : h'.values.Order), ∃ items items', h.iter o = .ok items ∧ h'.iter o' = .ok items' ∧
      items'.Perm (items.map fun it => ⟨renumber it.index, g it.bin, it.value⟩) := by
    intro o o'
    obtain ⟨items, e1, n1, a1, b1, -⟩ := C32_iter ok o
    obtain ⟨items', e2, n2, a2, b2, -⟩ := C32_iter ok' o'
    refine ⟨items, items', e1, e2, items_perm hs (H := fun i v => h.valueAtIndex i = some v) n1 n2 ?_ ?_⟩
    · intro i b v
      constructor
      · intro hm
        obtain ⟨h1, h2⟩ := a1 _ hm
        exact ⟨lt h1, h2, h1⟩
      · rintro ⟨hi, h2, h3⟩
        obtain ⟨it, hm, rfl, rfl⟩ := b1 i v h3
        have := (a1 _ hm).2
        rw [h2] at this
        cases this
        exact hm
    · intro j b v
      constructor
      · intro hm
        obtain ⟨h1, h2⟩ := a2 _ hm
        obtain ⟨i, hi, rfl⟩ := hs.surj (lt' h1)
        exact ⟨i, hi, rfl, h2, by rw [← hv i hi]; exact h1⟩
      · rintro ⟨i, hi, rfl, h2, h3⟩
        obtain ⟨it, hm, h4, rfl⟩ := b2 (renumber i) v (by rw [hv i hi]; exact h3)
        have := (a2 _ hm).2
        rw [h4, h2] at this
        cases this
        rw [← h4]
        exact hm
  refine ⟨fun c hc => ?_, perm⟩
  · unfold HashHistogram.value
    rw [hs.index c hc]
    rcases hi : Axis.index h.axes c with p | (_ | i)
    · rfl
    · rfl
    · have := hv i (ok.lawful.index_lt _ _ hi)
      exact congrArg Except.ok this

/-- **C97 (operators).** `&l + &r` and the other operators: one returns exactly if the other does, and the results agree. -/
theorem C97_binary [PEq A] [PEq A'] [ROps V] (op : Op) {l r : VecHistogram A V} {l' r' : VecHistogram A' V} (hs : Renumbered l.axes l'.axes n f g dom renumber)
    (okl : l.Ok n) (okr : r.Ok n) (okl' : l'.Ok n) (okr' : r'.Ok n) (hax : PEq.peq l.axes r.axes = true) (hax' : PEq.peq l'.axes r'.axes = true)
    (hl : ∀ i, i < n → l'.valueAtIndex (renumber i) = l.valueAtIndex i) (hr : ∀ i, i < n → r'.valueAtIndex (renumber i) = r.valueAtIndex i) :
    ((∃ m, l.opBorrow op r = .ok m) ↔ ∃ m', l'.opBorrow op r' = .ok m') ∧
    ∀ m m', l.opBorrow op r = .ok (.ok m) → l'.opBorrow op r' = .ok (.ok m') → ∀ i, i < n → m'.valueAtIndex (renumber i) = m.valueAtIndex i := by
  have get : ∀ {A : Type} [Axis A] {h : VecHistogram A V} {i x}, h.Ok n → h.valueAtIndex i = some x → i < n := by
    intro A _ h i x ok e
    rw [← ok.size]
    exact (List.getElem?_eq_some_iff.1 e).1
  rcases C33_binwise_dense op okl okr hax with ⟨m, m1, m2, m3, m4⟩ | ⟨p, i, u, v, e1, e2, e3, e4⟩ <;>
    rcases C33_binwise_dense op okl' okr' hax' with ⟨m', m1', m2', m3', m4'⟩ | ⟨p', j, u', v', e1', e2', e3', e4'⟩
  · refine ⟨⟨fun _ => ⟨_, m1'⟩, fun _ => ⟨_, m1⟩⟩, fun k k' hk hk' i hi => ?_⟩
    rw [m1] at hk; rw [m1'] at hk'
    cases hk; cases hk'
    obtain ⟨x, y, z, h1, h2, h3, h4⟩ := m4 i hi
    obtain ⟨x', y', z', h1', h2', h3', h4'⟩ := m4' _ (hs.lt i hi)
    rw [hl i hi, h1] at h1'; rw [hr i hi, h2] at h2'
    cases h1'; cases h2'
    rw [h3] at h3'; cases h3'
    rw [h4, h4']
  · exfalso
    obtain ⟨i, hi, rfl⟩ := hs.surj (get okl' e2')
    obtain ⟨x, y, z, h1, h2, h3, -⟩ := m4 i hi
    rw [hl i hi, h1] at e2'; rw [hr i hi, h2] at e3'
    cases e2'; cases e3'
    rw [h3] at e4'; cases e4'
  · exfalso
    have hi := get okl e2
    obtain ⟨x, y, z, h1, h2, h3, -⟩ := m4' _ (hs.lt i hi)
    rw [hl i hi, e2] at h1; rw [hr i hi, e3] at h2
    cases h1; cases h2
    rw [h3] at e4; cases e4
  · refine ⟨⟨?_, ?_⟩, ?_⟩
    · rintro ⟨m, hm⟩; rw [e1] at hm; cases hm
    · rintro ⟨m, hm⟩; rw [e1'] at hm; cases hm
    · intro m m' hm; rw [e1] at hm; cases hm
end
section
attribute [local instance] dbg64 stdNew
/-- a category axis without an overflow bin -/
def exCat : CategoryNoFlow Nat := CategoryNoFlow.new [10, 20]
/-- a cyclic axis with two equal edges -/
def exPoint : VariableCyclic (MInt .u8) := ⟨⟨⟨[MInt.lit 7, MInt.lit 7]⟩⟩⟩
/-- Where an axis panics on its component the order matters: `(99, 9)` has no bin on the first axis, so it is ignored; in the other order the second axis, a cyclic axis over an empty range, panics before the
first one is asked. -/
theorem C97_counterexample_panic : VariableCyclic.new [(MInt.lit 7 : MInt .u8), MInt.lit 7] = .ok (.ok exPoint) ∧
    ∃ (a : AxesTuple ⟨CategoryNoFlow Nat, inferInstance⟩ ⟨VariableCyclic (MInt .u8), inferInstance⟩ []) (a' : AxesTuple ⟨VariableCyclic (MInt .u8), inferInstance⟩ ⟨CategoryNoFlow Nat, inferInstance⟩ []),
      AxesTuple.fromTuple ((exCat, exPoint, ()) : Tup [⟨CategoryNoFlow Nat, inferInstance⟩, ⟨VariableCyclic (MInt .u8), inferInstance⟩]) = .ok a ∧
      AxesTuple.fromTuple ((exPoint, exCat, ()) : Tup [⟨VariableCyclic (MInt .u8), inferInstance⟩, ⟨CategoryNoFlow Nat, inferInstance⟩]) = .ok a' ∧
      a.index (((99 : Nat), (MInt.lit 9 : MInt .u8), ()) : Coords [⟨CategoryNoFlow Nat, inferInstance⟩, ⟨VariableCyclic (MInt .u8), inferInstance⟩]) = .ok none ∧ a'.index (((MInt.lit 9 : MInt .u8), (99 : Nat), ()) : Coords [⟨VariableCyclic (MInt .u8), inferInstance⟩, ⟨CategoryNoFlow Nat, inferInstance⟩]) = .error .divZero := by
  refine ⟨by decide +kernel, ⟨(exCat, exPoint, ()), [2, 2]⟩, ⟨(exPoint, exCat, ()), [1, 2]⟩, by rfl, by rfl, by decide +kernel, by decide +kernel⟩
end
end NdHist
