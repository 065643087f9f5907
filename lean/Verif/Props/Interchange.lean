import Verif.Props.RebinAxes
/-!
# C83: axes with the same bins are interchangeable
-/
set_option linter.unusedSectionVars false
namespace NdHist
open Classical

section
variable [cfg : Cfg] {A A' V : Type} [Axis A] [Axis A']
variable {a : A} {n : Nat} {covers : Axis.Interval A → Axis.Coordinate A → Prop} {a' : A'} {n' : Nat} {covers' : Axis.Interval A' → Axis.Coordinate A' → Prop}
    {same : Axis.Coordinate A → Axis.Coordinate A'} {dom : Axis.Coordinate A → Prop} {m : Nat → Nat}

theorem Coarser.callsIn_eq (hc : Coarser a n covers a' n' covers' same dom m) (hinj : ∀ i j, i < n → j < n → m i = m j → i = j) {i : Nat} (hi : i < n)
    (calls : List (Call V (Axis.Coordinate A))) (hd : ∀ call ∈ calls, dom call.coord) :
    callsIn a' (m i) (calls.map (Call.mapCoord same)) = (callsIn a i calls).map (Call.mapCoord same) := by
  rw [callsIn_map_same]
  congr 1
  apply List.filter_congr
  intro c hcm
  have hdc := hd c hcm
  obtain ⟨o, ho⟩ := hc.fine.total c.coord hdc
  rw [ho]
  cases o with
  | none => rw [hc.index_none hdc ho]; simp
  | some k =>
    rw [hc.index_some hdc ho]
    have hk := hc.fine.lawful.index_lt _ _ ho
    have : m k = m i ↔ k = i := ⟨hinj k i hk hi, fun h => by rw [h]⟩
    simp [this]

/-- **C83 (dense).** If the bins of two axes correspond one to one, with the numbers `i` and `m i`, the histograms filled with the same calls have the same values in corresponding bins, whatever the type of the values. -/
theorem C83_dense [RDefault V] (hc : Coarser a n covers a' n' covers' same dom m) (hinj : ∀ i j, i < n → j < n → m i = m j → i = j) {h : VecHistogram A V} {h' : VecHistogram A' V}
    (hnew : VecHistogram.new a = .ok h) (hnew' : VecHistogram.new a' = .ok h') (calls : List (Call V (Axis.Coordinate A))) (hd : ∀ call ∈ calls, dom call.coord) {i : Nat} (hi : i < n) :
    (h'.callAllCaught (calls.map (Call.mapCoord same))).valueAtIndex (m i) = (h.callAllCaught calls).valueAtIndex i := by
  rw [(C28_dense hc.fine.lawful hnew calls).2.2, (C28_dense hc.coarse.lawful hnew' _).2.2, if_pos hi, if_pos (hc.into i hi), hc.callsIn_eq hinj hi calls hd, filledWith_mapCoord]

/-- **C83 (sparse).** The same for sparse histograms: the same bins are stored, with the same values. -/
theorem C83_sparse [RDefault V] (hc : Coarser a n covers a' n' covers' same dom m) (hinj : ∀ i j, i < n → j < n → m i = m j → i = j)
    (calls : List (Call V (Axis.Coordinate A))) (hd : ∀ call ∈ calls, dom call.coord) {i : Nat} (hi : i < n) :
    ((HashHistogram.new a' : HashHistogram A' V).callAllCaught (calls.map (Call.mapCoord same))).valueAtIndex (m i) = ((HashHistogram.new a : HashHistogram A V).callAllCaught calls).valueAtIndex i := by
  rw [C28_sparse, C28_sparse, hc.callsIn_eq hinj hi calls hd, filledWith_mapCoord]
  simp only [List.map_eq_nil_iff]

/-- **C83 (reading).** Reading at a coordinate gives the same on both. -/
theorem C83_value [RDefault V] (hc : Coarser a n covers a' n' covers' same dom m) (hinj : ∀ i j, i < n → j < n → m i = m j → i = j) {h : VecHistogram A V} {h' : VecHistogram A' V}
    (hnew : VecHistogram.new a = .ok h) (hnew' : VecHistogram.new a' = .ok h') (calls : List (Call V (Axis.Coordinate A))) (hd : ∀ call ∈ calls, dom call.coord) (c : Axis.Coordinate A) (hcd : dom c) :
    (h'.callAllCaught (calls.map (Call.mapCoord same))).value (same c) = (h.callAllCaught calls).value c := by
  have ha := (C28_dense hc.fine.lawful hnew calls).2.1
  have ha' := (C28_dense hc.coarse.lawful hnew' (calls.map (Call.mapCoord same))).2.1
  unfold VecHistogram.value
  rw [ha, ha']
  obtain ⟨o, ho⟩ := hc.fine.total c hcd
  rw [ho]
  cases o with
  | none => rw [hc.index_none hcd ho]; rfl
  | some i =>
    rw [hc.index_some hcd ho]
    have := C83_dense hc hinj hnew hnew' calls hd (hc.fine.lawful.index_lt _ _ ho)
    unfold VecHistogram.valueAtIndex at this
    simp only [Res.ok_bind, this]

/-- axes whose bins contain the same coordinates, number by number -/
theorem Coarser.of_bins (fine : FaithfulAxis a n covers dom) (coarse : FaithfulAxis a' n covers' (fun c' => ∃ c, dom c ∧ same c = c'))
    (hb : ∀ i b b', i < n → Axis.bin a i = .ok (some b) → Axis.bin a' i = .ok (some b') → ∀ c, dom c → (covers' b' (same c) ↔ covers b c)) :
    Coarser a n covers a' n covers' same dom id := by
  refine ⟨fine, coarse, fun _ h => h, fun j b' hj hb' c hd => ?_⟩
  obtain ⟨b, hbj⟩ := fine.lawful.bin_some j hj
  rw [hb j b b' hj hbj hb' c hd]
  constructor
  · intro h
    exact ⟨j, b, hj, rfl, hbj, h⟩
  · rintro ⟨i, b₂, -, rfl, hb₂, h⟩
    have hb₂ : Axis.bin a i = .ok (some b₂) := hb₂
    have hbj : Axis.bin a i = .ok (some b) := hbj
    rw [hbj] at hb₂
    obtain rfl : b = b₂ := by simpa using hb₂
    exact h
end

/-! ## Several axes -/

theorem mergeCells_inj {ns ns' : List Nat} {ms : List (Nat → Nat)} (hpos : ∀ n ∈ ns, 0 < n) (hgrid : ∀ is, InGrid ns is → InGrid ns' (List.zipWith (· ·) ms is))
    (hinj : List.Forall₂ (fun m n => ∀ i j, i < n → j < n → m i = m j → i = j) ms ns) {N N' : Nat} (hN : N < ns.prod) (hN' : N' < ns.prod)
    (h : mergeCells ns ns' ms N = mergeCells ns ns' ms N') : N = N' := by
  have g := cellOf_inGrid hpos N
  have g' := cellOf_inGrid hpos N'
  have h2 : List.zipWith (· ·) ms (cellOf N ns) = List.zipWith (· ·) ms (cellOf N' ns) := by
    rw [← cellOf_cellNumber (hgrid _ g), ← cellOf_cellNumber (hgrid _ g')]
    exact congrArg (cellOf · ns') h
  have h3 : ∀ is is', InGrid ns is → InGrid ns is' → List.zipWith (fun (f : Nat → Nat) x => f x) ms is = List.zipWith (fun (f : Nat → Nat) x => f x) ms is' → is = is' := by
    clear h2 g g' h hN hN' hgrid hpos
    induction hinj with
    | nil => intro is is' g g' _; cases g; cases g'; rfl
    | cons hm _ ih =>
      intro is is' g g' e
      cases g with
      | cons g1 g2 =>
        cases g' with
        | cons g1' g2' =>
          simp only [List.zipWith_cons_cons, List.cons.injEq] at e
          rw [hm _ _ g1 g1' e.1, ih _ _ g2 g2' e.2]
  rw [← cellNumber_cellOf hN, ← cellNumber_cellOf hN', h3 _ _ g g' h2]

/-- **C83 (several axes).** Replacing each axis by one whose bins correspond one to one gives cells that correspond one to one. -/
theorem C83_tuple [cfg : Cfg] {t₀ t₁ t₀' t₁' : AxTy} {ts ts' : List AxTy} {t : Tup (t₀ :: t₁ :: ts)} {ns : List Nat} {cov : TupCovers (t₀ :: t₁ :: ts)} {t' : Tup (t₀' :: t₁' :: ts')} {ns' : List Nat}
    {cov' : TupCovers (t₀' :: t₁' :: ts')} {same : Coords (t₀ :: t₁ :: ts) → Coords (t₀' :: t₁' :: ts')} {dom : TupDom (t₀ :: t₁ :: ts)} {ms : List (Nat → Nat)}
    (hc : TupCoarser t ns cov t' ns' cov' same dom ms) (hpos : ∀ n ∈ ns, 0 < n) (hfit : ns.prod < usizeSize) (hpos' : ∀ n ∈ ns', 0 < n) (hfit' : ns'.prod < usizeSize)
    (hinj : List.Forall₂ (fun m n => ∀ i j, i < n → j < n → m i = m j → i = j) ms ns)
    {a : AxesTuple t₀ t₁ ts} (ha : AxesTuple.fromTuple t = .ok a) {a' : AxesTuple t₀' t₁' ts'} (ha' : AxesTuple.fromTuple t' = .ok a') :
    Coarser a ns.prod (CoversAll cov) a' ns'.prod (CoversAll cov') same (InDom dom) (mergeCells ns ns' ms) ∧
    ∀ i j, i < ns.prod → j < ns.prod → mergeCells ns ns' ms i = mergeCells ns ns' ms j → i = j :=
  ⟨C82_tuple hc hpos hfit hpos' hfit' ha ha', fun _ _ h1 h2 h => mergeCells_inj hpos hc.inGrid hinj h1 h2 h⟩

/-! ## Uniform and variable-width axes with the same edges -/

/-- sorted edges with the values `f 0 < f 1 < ...` are stored in this order -/
theorem sorted_edges {T K : Type} [LinearOrder K] {es edges : List T} {val : T → K} {num : Nat} {f : Nat → K} (hperm : es.Perm edges) (hsort : es.Pairwise (fun x y => val x ≤ val y))
    (hf : ∀ k, f k < f (k + 1)) (hedges : (edges.map val).Perm ((List.range (num + 1)).map f)) :
    edges.length = num + 1 ∧ ∀ k e, es[k]? = some e → val e = f k := by
  have hlen : edges.length = num + 1 := by simpa using hedges.length_eq
  refine ⟨hlen, ?_⟩
  have hmono : StrictMono f := strictMono_nat_of_lt_succ hf
  have he : es.map val = (List.range (num + 1)).map f := by
    refine List.Perm.eq_of_pairwise (le := (· ≤ ·)) (fun _ _ _ _ h1 h2 => le_antisymm h1 h2) (List.pairwise_map.2 hsort) ?_ ((hperm.map val).trans hedges)
    exact List.pairwise_map.2 (List.pairwise_lt_range.imp fun h => hmono.monotone h.le)
  intro k e hk
  have : (es.map val)[k]? = some (val e) := by rw [List.getElem?_map, hk]; rfl
  rw [he, List.getElem?_map] at this
  rcases hr : (List.range (num + 1))[k]? with _ | x
  · rw [hr] at this; cases this
  · rw [hr] at this
    obtain ⟨hlt, hx⟩ := List.getElem?_eq_some_iff.1 hr
    rw [List.getElem_range] at hx
    subst hx
    simpa using this.symm

theorem distinct_edges {T K : Type} [LinearOrder K] {edges : List T} {val : T → K} {num : Nat} {f : Nat → K} (hf : ∀ k, f k < f (k + 1)) (hedges : (edges.map val).Perm ((List.range (num + 1)).map f)) :
    edges.Pairwise fun x y => val x ≠ val y := by
  have : ((List.range (num + 1)).map f).Nodup := (List.nodup_map_iff (strictMono_nat_of_lt_succ hf).injective).2 List.nodup_range
  have := hedges.nodup_iff.2 this
  exact List.pairwise_map.1 this

section
variable [cfg : Cfg] [StdLib] {τ : IntTy}

/-- **C83 (`Uniform` and `Variable`, integers).** A uniform axis and the variable-width axis with the same edges, given in any order, are interchangeable; even the bins are the same. -/
theorem C83_uniform_variable_int {num : Nat} {low step : MInt τ} {a : Uniform (MInt τ)} {edges : List (MInt τ)} {a' : Variable (MInt τ)}
    (hnew : Uniform.withStepSize num low step = .ok (.ok a)) (hfit : Cfg.checked = false → (num : ℤ) * step.val ≤ τ.max ∧ low.val + num * step.val ≤ τ.max)
    (hnum : num + 2 < usizeSize) (hbin : (num : ℤ) * (num * step.val) ≤ τ.max) (hnew' : Variable.new edges = .ok (.ok a'))
    (hedges : (edges.map MInt.val).Perm ((List.range (num + 1)).map fun k : Nat => low.val + k * step.val)) :
    Coarser a (num + 2) (BinInterval.Covers (T := MInt τ)) a' (num + 2) (BinInterval.Covers (T := MInt τ)) id (fun _ => True) id ∧ ∀ i, i < num + 2 → a.bin i = a'.bin i := by
  obtain ⟨-, -, hs, -⟩ := Uniform.withStepSize_ok hnew hfit
  have hf : ∀ k : Nat, low.val + k * step.val < low.val + (k + 1 : Nat) * step.val := fun k => by push_cast; linarith
  obtain ⟨hp, hsort⟩ := (C10_variable_new_sorts edges).2 a' hnew'
  obtain ⟨hlen, hval⟩ := sorted_edges (val := MInt.val) hp (hsort.imp fun h => by rw [MInt.le_iff] at h; simpa using h) hf hedges
  have hd : edges.Pairwise (fun x y => POrd.eq x y = false) := (distinct_edges hf hedges).imp fun h => by rw [MInt.eq_iff]; simpa using h
  have hF := C51_uniform_int hnew hfit hnum hbin
  have hF' := C51_variable hnew' (by omega) hd
  obtain ⟨-, b0, ⟨high, hhigh, blast⟩, bmid, -⟩ := C02_uniform_int_bins_partial hnew hfit hnum
  obtain ⟨-, ⟨e0, he0, -, b0'⟩, ⟨el, hel, -, blast'⟩, bmid', -⟩ := C13_variable_bins hnew' (by omega)
  have hbins : ∀ i, i < num + 2 → a.bin i = a'.bin i := by
    intro i hi
    rcases Nat.eq_zero_or_pos i with rfl | hpos
    · rw [b0, b0']
      have : e0 = low := MInt.ext (by rw [hval 0 e0 he0]; simp)
      rw [this]
    · obtain ⟨k, rfl⟩ : ∃ k, i = k + 1 := ⟨i - 1, by omega⟩
      by_cases hk : k = num
      · subst hk
        rw [hlen] at blast' hel
        rw [blast, blast']
        have : el = high := MInt.ext (by rw [hval _ el hel, hhigh]; simp)
        rw [this]
      · have hk : k < num := by omega
        have hle : ((k : ℤ) + 1) * (num * step.val) ≤ τ.max := by
          refine le_trans (mul_le_mul_of_nonneg_right ?_ (by positivity)) hbin
          exact_mod_cast hk
        obtain ⟨s, e, h1, h2, h3⟩ := bmid k hk hle
        obtain ⟨s', e', h1', h2', h3'⟩ := bmid' k (by omega)
        rw [h3, h3']
        have q1 : s' = s := MInt.ext (by rw [hval _ s' h1', h1])
        have q2 : e' = e := MInt.ext (by rw [hval _ e' h2', h2]; push_cast; rfl)
        rw [q1, q2]
  refine ⟨?_, hbins⟩
  rw [hlen] at hF'
  refine Coarser.of_bins hF (hF'.mono fun (c : MInt τ) _ => by show @POrd.eq (MInt τ) _ c c = true; rw [MInt.eq_iff]; simp) ?_
  intro i b b' hi hb hb' c _
  have hb : a.bin i = .ok (some b) := hb
  have hb' : a'.bin i = .ok (some b') := hb'
  rw [hbins i hi, hb'] at hb
  obtain rfl : b' = b := by simpa using hb
  rfl

/-- **C83 (`UniformNoFlow` and `VariableNoFlow`, integers).** -/
theorem C83_uniform_variable_noflow_int {num : Nat} {low step : MInt τ} {a : UniformNoFlow (MInt τ)} {edges : List (MInt τ)} {a' : VariableNoFlow (MInt τ)}
    (hnew : UniformNoFlow.withStepSize num low step = .ok (.ok a)) (hfit : Cfg.checked = false → (num : ℤ) * step.val ≤ τ.max ∧ low.val + num * step.val ≤ τ.max)
    (hnum : num + 2 < usizeSize) (hbin : (num : ℤ) * (num * step.val) ≤ τ.max) (hnew' : VariableNoFlow.new edges = .ok (.ok a'))
    (hedges : (edges.map MInt.val).Perm ((List.range (num + 1)).map fun k : Nat => low.val + k * step.val)) :
    Coarser a num (BinInterval.Covers (T := MInt τ)) a' num (BinInterval.Covers (T := MInt τ)) id (fun _ => True) id ∧ ∀ i, i < num → a.bin i = a'.bin i := by
  have hu := UniformNoFlow.withStepSize_inv hnew
  have hv := VariableNoFlow.new_ok hnew'
  obtain ⟨hc, hbins⟩ := C83_uniform_variable_int hu hfit hnum hbin hv hedges
  obtain ⟨-, -, hs, -, en, -⟩ := Uniform.withStepSize_ok hu hfit
  have hf : ∀ k : Nat, low.val + k * step.val < low.val + (k + 1 : Nat) * step.val := fun k => by push_cast; linarith
  have hlen : edges.length = num + 1 := by simpa using hedges.length_eq
  have hd : edges.Pairwise (fun x y => POrd.eq x y = false) := (distinct_edges hf hedges).imp fun h => by rw [MInt.eq_iff]; simpa using h
  have hF' := C51_variable_noflow hnew' (by omega) hd
  obtain ⟨u⟩ := a
  change u.num = num at en
  have hF : FaithfulAxis (UniformNoFlow.mk u) u.num (BinInterval.Covers (T := MInt τ)) (fun _ => True) := C51_uniform_noflow (by rw [en]; exact hc.fine)
  rw [en] at hF
  rw [hlen, Nat.add_sub_cancel] at hF'
  have hb : ∀ i, i < num → UniformNoFlow.bin ⟨u⟩ i = a'.bin i := by
    intro i hi
    rw [(C07_noflow_bin u i (by omega) (by omega)).1 (by omega), show u.bin (i + 1) = a'.axis.bin (i + 1) from hbins (i + 1) (by omega)]
    obtain ⟨s, e, h1, h2, h3⟩ := (C13_variable_bins hv (by omega)).2.2.2.1 i (by omega)
    obtain ⟨s', e', h1', h2', h3'⟩ := (C14_variable_noflow_bins hnew' (by omega)).2.1 i (by omega)
    rw [h1] at h1'; rw [h2] at h2'
    cases h1'; cases h2'
    rw [h3, h3']
  refine ⟨Coarser.of_bins hF (hF'.mono fun _ _ => trivial) ?_, hb⟩
  intro i b b' hi hb₁ hb₂ c _
  have hb₁ : UniformNoFlow.bin ⟨u⟩ i = .ok (some b) := hb₁
  have hb₂ : a'.bin i = .ok (some b') := hb₂
  rw [hb i hi, hb₂] at hb₁
  obtain rfl : b' = b := by simpa using hb₁
  rfl

/-- **C83 (`UniformCyclic` and `VariableCyclic`, integers).** -/
theorem C83_uniform_variable_cyclic_int {num : Nat} {low step : MInt τ} {a : UniformCyclic (MInt τ)} {edges : List (MInt τ)} {a' : VariableCyclic (MInt τ)}
    (hnew : UniformCyclic.withStepSize num low step = .ok (.ok a)) (hfit : Cfg.checked = false → (num : ℤ) * step.val ≤ τ.max ∧ low.val + num * step.val ≤ τ.max)
    (hnum : num + 2 < usizeSize) (hbin : (num : ℤ) * (num * step.val) ≤ τ.max) (hnew' : VariableCyclic.new edges = .ok (.ok a'))
    (hedges : (edges.map MInt.val).Perm ((List.range (num + 1)).map fun k : Nat => low.val + k * step.val)) :
    Coarser a num (BinInterval.CoversTurns (τ := τ) (num * step.val)) a' num (BinInterval.CoversTurns (τ := τ) (num * step.val)) id
      (fun c : MInt τ => τ.min ≤ c.val - low.val ∧ c.val - low.val ≤ τ.max) id ∧ ∀ i, i < num → a.bin i = a'.bin i := by
  have hu := UniformCyclic.withStepSize_inv hnew
  have hn' := VariableCyclic.new_ok hnew'
  have hv := VariableNoFlow.new_ok hn'
  obtain ⟨-, -, hs, ⟨hfit1, -⟩, en, -⟩ := Uniform.withStepSize_ok hu hfit
  have hf : ∀ k : Nat, low.val + k * step.val < low.val + (k + 1 : Nat) * step.val := fun k => by push_cast; linarith
  obtain ⟨hp, hsort⟩ := (C10_variable_new_sorts edges).2 _ hv
  obtain ⟨hlen, hval⟩ := sorted_edges (val := MInt.val) hp (hsort.imp fun h => by rw [MInt.le_iff] at h; simpa using h) hf hedges
  have hd := distinct_edges hf hedges
  obtain ⟨lo, hi, hlo, hhi, hlt, hF'⟩ := C51_variable_cyclic_int hnew' (by omega) (hd.imp fun h e => h (by rw [e]))
  obtain ⟨-, ⟨e0, he0, l0, -⟩, ⟨el, hel, ll, -⟩, -, -⟩ := C13_variable_bins hv (by omega)
  have q0 : lo = e0 := by
    have : a'.axis.axis.low = .ok lo := hlo
    rw [l0] at this; exact (Except.ok.inj this).symm
  have q1 : hi = el := by
    have : a'.axis.axis.high = .ok hi := hhi
    rw [ll] at this; exact (Except.ok.inj this).symm
  have v0 : lo.val = low.val := by rw [q0, hval 0 e0 he0]; simp
  have v1 : hi.val = low.val + num * step.val := by
    rw [hlen, Nat.add_sub_cancel] at hel
    rw [q1, hval _ el hel]
  have hR : hi.val - lo.val = num * step.val := by rw [v0, v1]; ring
  rw [hR, v0, hlen, Nat.add_sub_cancel] at hF'
  have hF' := hF' hfit1
  have hF := C51_uniform_cyclic_int hnew hfit hnum hbin
  obtain ⟨⟨u⟩⟩ := a
  obtain ⟨v⟩ := a'
  obtain ⟨-, hb⟩ := C83_uniform_variable_noflow_int (a := ⟨u⟩) (a' := v) (by unfold UniformNoFlow.withStepSize; rw [hu]; rfl) hfit hnum hbin hn' hedges
  have hb : ∀ i, i < num → UniformCyclic.bin ⟨⟨u⟩⟩ i = VariableCyclic.bin ⟨v⟩ i := hb
  refine ⟨Coarser.of_bins hF (hF'.mono (by rintro _ ⟨c, hc, rfl⟩; exact hc)) ?_, hb⟩
  intro i b b' hi hb₁ hb₂ c _
  have hb₁ : UniformCyclic.bin ⟨⟨u⟩⟩ i = .ok (some b) := hb₁
  have hb₂ : VariableCyclic.bin ⟨v⟩ i = .ok (some b') := hb₂
  rw [hb i hi, hb₂] at hb₁
  obtain rfl : b' = b := by simpa using hb₁
  rfl
end

/-! ## Floats -/
section
variable [cfg : Cfg] [StdLib] {F : FFmt} {e z : ℤ} {w : ℕ}

theorem Flt.edge_congr {x y c : Flt F} (hx : x.isFin) (hy : y.isFin) (h : x.val = y.val) : POrd.lt c x = POrd.lt c y ∧ POrd.le x c = POrd.le y c := by
  constructor
  · rw [Bool.eq_iff_iff, LawfulPOrd.lt_iff, LawfulPOrd.lt_iff]
    show (∃ p q, c.key = some p ∧ x.key = some q ∧ p < q) ↔ (∃ p q, c.key = some p ∧ y.key = some q ∧ p < q)
    rw [Flt.key_fin hx, Flt.key_fin hy, h]
  · rw [Bool.eq_iff_iff, LawfulPOrd.le_iff, LawfulPOrd.le_iff]
    show (∃ p q, x.key = some p ∧ c.key = some q ∧ p ≤ q) ↔ (∃ p q, y.key = some p ∧ c.key = some q ∧ p ≤ q)
    rw [Flt.key_fin hx, Flt.key_fin hy, h]

theorem Flt.eq_self {c : Flt F} (h : c ≠ .nan) : POrd.eq c c = true := by
  rw [LawfulPOrd.eq_iff]
  cases c with
  | nan => exact absurd rfl h
  | inf s => cases s <;> exact ⟨_, rfl, rfl⟩
  | fin s m hm => exact ⟨_, rfl, rfl⟩

/-- **C83 (`Uniform` and `Variable`, floats).** A uniform float axis on a grid (as for C76) and the variable-width axis with the same edges are interchangeable for coordinates on the grid. -/
theorem C83_uniform_variable_float {num : ℕ} {low high : Flt F} {a : Uniform (Flt F)} {edges : List (Flt F)} {a' : Variable (Flt F)} (hg : GridFits F e z w num) (hl : low.isFin) (hl0 : low.val = z * pow2 e)
    (hh : high.isFin) (hh0 : high.val = (z + num * w) * pow2 e) (hn : num + 2 < usizeSize) (hnew : Uniform.new num low high = .ok (.ok a)) (hnew' : Variable.new edges = .ok (.ok a'))
    (hfin : ∀ x ∈ edges, x.isFin) (hedges : (edges.map Flt.val).Perm ((List.range (num + 1)).map fun k : Nat => ((z : ℚ) + k * w) * pow2 e)) :
    Coarser a (num + 2) BinInterval.Covers a' (num + 2) BinInterval.Covers id (GridCoord e low high) id := by
  have hpe := pow2_pos e
  have hwQ : (0 : ℚ) < w := by exact_mod_cast hg.w_pos
  have hf : ∀ k : Nat, ((z : ℚ) + k * w) * pow2 e < ((z : ℚ) + (k + 1 : Nat) * w) * pow2 e := fun k => by
    refine mul_lt_mul_of_pos_right ?_ hpe
    push_cast; linarith
  obtain ⟨hp, hsort⟩ := (C10_variable_new_sorts edges).2 a' hnew'
  have hfin' : ∀ x ∈ a'.binEdges, x.isFin := fun x hx => hfin x (hp.mem_iff.1 hx)
  have hsort' : a'.binEdges.Pairwise (fun x y => x.val ≤ y.val) := by
    have h1 : a'.binEdges.Pairwise (fun x y => x ∈ a'.binEdges ∧ y ∈ a'.binEdges) := List.pairwise_of_forall_mem_list fun x hx y hy => ⟨hx, hy⟩
    refine (hsort.and h1).imp ?_
    rintro x y ⟨hxy, hx, hy⟩
    rw [Flt.le_fin (hfin' x hx) (hfin' y hy)] at hxy
    exact of_decide_eq_true hxy
  obtain ⟨hlen, hval⟩ := sorted_edges (val := Flt.val) hp hsort' hf hedges
  have hd : edges.Pairwise (fun x y => POrd.eq x y = false) := by
    have h1 : edges.Pairwise (fun x y => x ∈ edges ∧ y ∈ edges) := List.pairwise_of_forall_mem_list fun x hx y hy => ⟨hx, hy⟩
    refine ((distinct_edges hf hedges).and h1).imp ?_
    rintro x y ⟨hxy, hx, hy⟩
    rw [Flt.eq_fin (hfin x hx) (hfin y hy)]
    exact decide_eq_false hxy
  have hF := (C76_uniform_new hg hl hl0 hh hh0 hn hnew).1
  have hF' := C51_variable hnew' (by omega) hd
  rw [hlen] at hF'
  obtain ⟨h, hnum, hlow, hhigh⟩ := Uniform.grid_new hg hl hl0 hh hh0 hnew
  obtain ⟨-, ⟨e0, he0, -, b0'⟩, ⟨el, hel, -, blast'⟩, bmid', -⟩ := C13_variable_bins hnew' (by omega)
  have hbin := Uniform.bin_flt a (by omega)
  refine Coarser.of_bins hF (hF'.mono (by rintro _ ⟨c, hc, rfl⟩; exact Flt.eq_self hc.1)) ?_
  intro i b b' hi hb hb' (c : Flt F) _
  have hb : a.bin i = .ok (some b) := hb
  have hb' : a'.bin i = .ok (some b') := hb'
  have mem : ∀ k (x : Flt F), a'.binEdges[k]? = some x → x.isFin := fun k x hx => hfin' x (List.mem_of_getElem? hx)
  rcases Nat.eq_zero_or_pos i with rfl | hpos
  · rw [hbin, if_pos rfl] at hb
    rw [b0'] at hb'
    cases hb; cases hb'
    show POrd.lt c e0 = true ↔ POrd.lt c a.low = true
    rw [hlow, (Flt.edge_congr (c := c) (mem 0 e0 he0) hl (by rw [hval 0 e0 he0, hl0]; simp)).1]
  · obtain ⟨k, rfl⟩ : ∃ k, i = k + 1 := ⟨i - 1, by omega⟩
    by_cases hk : k = num
    · subst hk
      rw [hlen] at blast' hel
      rw [hbin, if_neg (by omega), if_pos (by omega)] at hb
      rw [blast'] at hb'
      cases hb; cases hb'
      show POrd.le el c = true ↔ POrd.le a.high c = true
      rw [hhigh, (Flt.edge_congr (c := c) (mem _ el hel) hh (by rw [hval _ el hel, hh0]; simp)).2]
    · have hk : k < num := by omega
      rw [hbin, if_neg (by omega), if_neg (by omega), if_neg (by omega)] at hb
      obtain ⟨s, t, hs, ht, hst⟩ := bmid' k (by omega)
      rw [hst] at hb'
      cases hb; cases hb'
      obtain ⟨f1, g1⟩ := h.edge (k := k) (by omega)
      obtain ⟨f2, g2⟩ := h.edge (k := k + 1) (by omega)
      show POrd.le s c = true ∧ POrd.lt c t = true ↔ POrd.le (a.fedge (k + 1 - 1)) c = true ∧ POrd.lt c (a.fedge (k + 1)) = true
      rw [Nat.add_sub_cancel, (Flt.edge_congr (c := c) (mem _ s hs) f1 (by rw [hval _ s hs, g1])).2, (Flt.edge_congr (c := c) (mem _ t ht) f2 (by rw [hval _ t ht, g2])).1]
end

/-! ## Categories in another order -/
section
variable [cfg : Cfg] {T : Type} [DecidableEq T]

theorem mergeCategories_inj {values values' : List T} (hd : values.Nodup) (hp : values'.Perm values) (i j : Nat) (hi : i < values.length + 1) (hj : j < values.length + 1)
    (h : mergeCategories values values' id i = mergeCategories values values' id j) : i = j := by
  have hlen := hp.length_eq
  have key : ∀ i, i < values.length + 1 → (mergeCategories values values' id i = values.length ↔ i = values.length) ∧ ∀ (h : i < values.length), mergeCategories values values' id i = values'.idxOf values[i] := by
    intro i hi
    unfold mergeCategories
    by_cases h : i < values.length
    · rw [List.getElem?_eq_getElem h]
      refine ⟨?_, fun _ => rfl⟩
      have := List.idxOf_lt_length_of_mem (hp.mem_iff.2 (List.getElem_mem h))
      show values'.idxOf values[i] = _ ↔ _
      omega
    · rw [List.getElem?_eq_none (by omega)]
      refine ⟨?_, fun h' => absurd h' h⟩
      show values'.length = _ ↔ _
      omega
  by_cases h1 : i = values.length
  · have := (key i hi).1.2 h1
    rw [h] at this
    rw [h1, (key j hj).1.1 this]
  · by_cases h2 : j = values.length
    · have := (key j hj).1.2 h2
      rw [← h] at this
      exact absurd ((key i hi).1.1 this) h1
    · have li : i < values.length := by omega
      have lj : j < values.length := by omega
      rw [(key i hi).2 li, (key j hj).2 lj] at h
      have := (List.idxOf_inj (hp.mem_iff.2 (List.getElem_mem li))).1 h
      exact (hd.getElem_inj_iff).1 this

/-- **C83 (categories).** The order in which distinct categories are given to the constructor determines only the numbering of the bins. -/
theorem C83_category {values values' : List T} (hd : values.Nodup) (hp : values'.Perm values) (hmem : values.length + 1 < usizeSize) :
    Coarser (Category.new values) (values.length + 1) (SingleValueBinInterval.Covers values) (Category.new values') (values'.length + 1) (SingleValueBinInterval.Covers values') id
      (fun _ => True) (mergeCategories values values' id) ∧
    ∀ i j, i < values.length + 1 → j < values.length + 1 → mergeCategories values values' id i = mergeCategories values values' id j → i = j :=
  ⟨C82_category hd (hp.nodup_iff.2 hd) hmem (by rw [hp.length_eq]; exact hmem) id fun c => hp.mem_iff, mergeCategories_inj hd hp⟩

/-- **C83 (categories without overflow bin).** -/
theorem C83_category_noflow {values values' : List T} (hd : values.Nodup) (hp : values'.Perm values) (hmem : values.length + 1 < usizeSize) :
    Coarser (CategoryNoFlow.new values) values.length (SingleValueBinInterval.Covers values) (CategoryNoFlow.new values') values'.length (SingleValueBinInterval.Covers values') id
      (fun _ => True) (mergeCategories values values' id) ∧
    ∀ i j, i < values.length → j < values.length → mergeCategories values values' id i = mergeCategories values values' id j → i = j :=
  ⟨C82_category_noflow hd (hp.nodup_iff.2 hd) hmem (by rw [hp.length_eq]; exact hmem) id fun c => hp.mem_iff, fun i j hi hj => mergeCategories_inj hd hp i j (by omega) (by omega)⟩
end
end NdHist
