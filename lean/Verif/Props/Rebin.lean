import Verif.SpecRebin
import Verif.Props.Project
/-!
# C82: rebinning
-/
namespace NdHist
section
variable [cfg : Cfg] {A A' V : Type} [Axis A] [Axis A'] {M : Type} [AddCommMonoid M]
variable {a : A} {n : Nat} {covers : Axis.Interval A → Axis.Coordinate A → Prop} {a' : A'} {n' : Nat} {covers' : Axis.Interval A' → Axis.Coordinate A' → Prop}
    {same : Axis.Coordinate A → Axis.Coordinate A'} {dom : Axis.Coordinate A → Prop} {m : Nat → Nat}

theorem Coarser.index_some (hc : Coarser a n covers a' n' covers' same dom m) {c : Axis.Coordinate A} (hd : dom c) {i : Nat} (hi : Axis.index a c = .ok (some i)) :
    Axis.index a' (same c) = .ok (some (m i)) := by
  have hin := hc.fine.lawful.index_lt _ _ hi
  obtain ⟨b, hb⟩ := hc.fine.lawful.bin_some i hin
  obtain ⟨b', hb'⟩ := hc.coarse.lawful.bin_some _ (hc.into i hin)
  exact (hc.coarse.index_iff _ ⟨c, hd, rfl⟩ _ _ (hc.into i hin) hb').2
    ((hc.union _ _ (hc.into i hin) hb' c hd).2 ⟨i, b, hin, rfl, hb, (hc.fine.index_iff c hd i b hin hb).1 hi⟩)

theorem Coarser.index_none (hc : Coarser a n covers a' n' covers' same dom m) {c : Axis.Coordinate A} (hd : dom c) (hi : Axis.index a c = .ok none) :
    Axis.index a' (same c) = .ok none := by
  obtain ⟨o, ho⟩ := hc.coarse.total _ ⟨c, hd, rfl⟩
  cases o with
  | none => exact ho
  | some j =>
    have hjn := hc.coarse.lawful.index_lt _ _ ho
    obtain ⟨b', hb'⟩ := hc.coarse.lawful.bin_some _ hjn
    obtain ⟨i, b, hin, -, hb, hcov⟩ := (hc.union _ _ hjn hb' c hd).1 ((hc.coarse.index_iff _ ⟨c, hd, rfl⟩ _ _ hjn hb').1 ho)
    rw [(hc.fine.index_iff c hd i b hin hb).2 hcov] at hi
    cases hi

/-- if the bin numbers correspond, the axis is coarser -/
theorem Coarser.of_index (fine : FaithfulAxis a n covers dom) (coarse : FaithfulAxis a' n' covers' (fun c' => ∃ c, dom c ∧ same c = c')) (into : ∀ i, i < n → m i < n')
    (hs : ∀ c i, dom c → Axis.index a c = .ok (some i) → Axis.index a' (same c) = .ok (some (m i)))
    (hn : ∀ c, dom c → Axis.index a c = .ok none → Axis.index a' (same c) = .ok none) : Coarser a n covers a' n' covers' same dom m := by
  refine ⟨fine, coarse, into, fun j b' hj hb' c hd => ?_⟩
  rw [← coarse.index_iff _ ⟨c, hd, rfl⟩ _ _ hj hb']
  constructor
  · intro h
    obtain ⟨o, ho⟩ := fine.total c hd
    cases o with
    | none => rw [hn c hd ho] at h; cases h
    | some i =>
      have hin := fine.lawful.index_lt _ _ ho
      obtain ⟨b, hb⟩ := fine.lawful.bin_some i hin
      rw [hs c i hd ho] at h
      refine ⟨i, b, hin, by injection h with h; injection h, hb, (fine.index_iff c hd i b hin hb).1 ho⟩
  · rintro ⟨i, b, hin, rfl, hb, hcov⟩
    exact hs c i hd ((fine.index_iff c hd i b hin hb).2 hcov)

theorem callsIn_map_same (j : Nat) (calls : List (Call V (Axis.Coordinate A))) :
    callsIn a' j (calls.map (Call.mapCoord same)) = (calls.filter fun c => decide (Axis.index a' (same c.coord) = .ok (some j))).map (Call.mapCoord same) := by
  unfold callsIn
  rw [List.filter_map]
  congr 1
  apply List.filter_congr
  intro c _
  simp

theorem rebin_sum (hc : Coarser a n covers a' n' covers' same dom m) (w : Call V (Axis.Coordinate A) → M) (j : Nat)
    (calls : List (Call V (Axis.Coordinate A))) (hd : ∀ call ∈ calls, dom call.coord) :
    ∑ i ∈ (Finset.range n).filter (fun i => m i = j), ((callsIn a i calls).map w).sum =
      ((calls.filter fun c => decide (Axis.index a' (same c.coord) = .ok (some j))).map w).sum := by
  induction calls with
  | nil => simp [callsIn]
  | cons c l ih =>
    have ih := ih fun call h => hd call (List.mem_cons_of_mem _ h)
    have hdc := hd c List.mem_cons_self
    obtain ⟨o, h⟩ := hc.fine.total c.coord hdc
    cases o with
    | none =>
      have e1 : ∀ N, callsIn a N (c :: l) = callsIn a N l := fun N => by rw [callsIn_cons, h]; simp
      simp only [e1, ih, List.filter_cons, hc.index_none hdc h]
      simp
    | some N₀ =>
      have e1 : ∀ N, ((callsIn a N (c :: l)).map w).sum = (if N₀ = N then w c else 0) + ((callsIn a N l).map w).sum := fun N => by
        rw [callsIn_cons, h]
        by_cases hN : N₀ = N <;> simp [hN]
      have hN₀ := hc.fine.lawful.index_lt _ _ h
      simp only [e1, Finset.sum_add_distrib, ih, List.filter_cons, hc.index_some hdc h]
      rw [Finset.sum_ite_eq]
      by_cases hj : m N₀ = j
      · simp [hj, hN₀]
      · simp [hj]

/-- **C82 (dense).** Merging the bins of a histogram gives the histogram with coarser bins: every quantity `q` of bin values that adds up (a count, a sum of weights, ...) is, in each coarse bin, the sum over the
fine bins it consists of, for the same filling calls. -/
theorem C82_dense [RDefault V] (hc : Coarser a n covers a' n' covers' same dom m) {h : VecHistogram A V} {h' : VecHistogram A' V} (hnew : VecHistogram.new a = .ok h)
    (hnew' : VecHistogram.new a' = .ok h') (calls : List (Call V (Axis.Coordinate A))) (hd : ∀ call ∈ calls, dom call.coord) (q : V → M) (w : Call V (Axis.Coordinate A) → M)
    (hq : ∀ l : List (Call V (Axis.Coordinate A)), l.Sublist calls → q (filledWith l RDefault.dflt) = (l.map w).sum) {j : Nat} (hj : j < n') :
    ∃ v', (h'.callAllCaught (calls.map (Call.mapCoord same))).valueAtIndex j = some v' ∧
      q v' = ∑ i ∈ (Finset.range n).filter (fun i => m i = j), ((h.callAllCaught calls).valueAtIndex i).elim 0 q := by
  obtain ⟨-, -, hv⟩ := C28_dense hc.fine.lawful hnew calls
  obtain ⟨-, -, hv'⟩ := C28_dense hc.coarse.lawful hnew' (calls.map (Call.mapCoord same))
  refine ⟨_, by rw [hv', if_pos hj], ?_⟩
  rw [callsIn_map_same, filledWith_mapCoord, hq _ List.filter_sublist, ← rebin_sum hc w j calls hd]
  apply Finset.sum_congr rfl
  intro N hN
  have : N < n := by simpa using (Finset.mem_filter.1 hN).1
  rw [hv, if_pos this]
  exact (hq _ List.filter_sublist).symm

/-- **C82 (sparse).** The same for sparse histograms; a bin that is not stored counts as zero. -/
theorem C82_sparse [RDefault V] (hc : Coarser a n covers a' n' covers' same dom m) (calls : List (Call V (Axis.Coordinate A))) (hd : ∀ call ∈ calls, dom call.coord)
    (q : V → M) (w : Call V (Axis.Coordinate A) → M)
    (hq : ∀ l : List (Call V (Axis.Coordinate A)), l.Sublist calls → q (filledWith l RDefault.dflt) = (l.map w).sum) (j : Nat) :
    (((HashHistogram.new a' : HashHistogram A' V).callAllCaught (calls.map (Call.mapCoord same))).valueAtIndex j).elim 0 q =
      ∑ i ∈ (Finset.range n).filter (fun i => m i = j), (((HashHistogram.new a : HashHistogram A V).callAllCaught calls).valueAtIndex i).elim 0 q := by
  have h0 := hq [] (List.nil_sublist _)
  rw [C28_sparse, callsIn_map_same]
  have e : ((if ((calls.filter fun c => decide (Axis.index a' (same c.coord) = .ok (some j))).map (Call.mapCoord same)) = [] then none
      else some (filledWith ((calls.filter fun c => decide (Axis.index a' (same c.coord) = .ok (some j))).map (Call.mapCoord same)) (RDefault.dflt : V))) : Option V).elim 0 q
      = ((calls.filter fun c => decide (Axis.index a' (same c.coord) = .ok (some j))).map w).sum := by
    rw [← hq _ List.filter_sublist]
    split
    next he => rw [List.map_eq_nil_iff.1 he]; simp [h0]
    next => rw [filledWith_mapCoord]; rfl
  rw [e, ← rebin_sum hc w j calls hd]
  apply Finset.sum_congr rfl
  intro N _
  rw [C28_sparse, ← hq _ (callsIn_sublist a N calls)]
  split
  next he => rw [he]; simp [h0]
  next => rfl

/-- **C82 (counts).** For histograms of counts that do not overflow: each coarse bin holds the sum of the counts of its fine bins. -/
theorem C82_count {τ : IntTy} (hc : Coarser a n covers a' n' covers' same dom m) {h : VecHistogram A (MInt τ)} {h' : VecHistogram A' (MInt τ)} (hnew : VecHistogram.new a = .ok h)
    (hnew' : VecHistogram.new a' = .ok h') (cs : List (Axis.Coordinate A)) (hd : ∀ c ∈ cs, dom c) (hcount : (cs.length : ℤ) ≤ τ.max) {j : Nat} (hj : j < n') :
    ∃ v', (h'.callAllCaught (cs.map fun c => .fill (same c))).valueAtIndex j = some v' ∧
      v'.val = ∑ i ∈ (Finset.range n).filter (fun i => m i = j), ((h.callAllCaught (cs.map .fill)).valueAtIndex i).elim 0 MInt.val := by
  obtain ⟨v', h1, h2⟩ := C82_dense hc hnew hnew' (cs.map .fill) (by intro call hc'; obtain ⟨c, hcm, rfl⟩ := List.mem_map.1 hc'; exact hd c hcm) MInt.val _ (additive_count cs hcount) hj
  rw [List.map_map] at h1
  exact ⟨v', h1, h2⟩
end

/-! ## Several axes -/
section
variable [cfg : Cfg]

theorem FaithfulAxis.mono {A : Type} [Axis A] {a : A} {n : Nat} {cov : Axis.Interval A → Axis.Coordinate A → Prop} {dom dom' : Axis.Coordinate A → Prop} (hf : FaithfulAxis a n cov dom)
    (h : ∀ c, dom' c → dom c) : FaithfulAxis a n cov dom' := ⟨hf.lawful, fun c hc => hf.total c (h c hc), fun c hc => hf.index_iff c (h c hc)⟩

theorem TupCoarser.fine : {ts ts' : List AxTy} → {t : Tup ts} → {ns : List Nat} → {cov : TupCovers ts} → {t' : Tup ts'} → {ns' : List Nat} → {cov' : TupCovers ts'} → {same : Coords ts → Coords ts'} →
    {dom : TupDom ts} → {ms : List (Nat → Nat)} → TupCoarser t ns cov t' ns' cov' same dom ms → TupFaithful t ns cov dom
  | [], [], _, _, _, _, _, _, _, _, _, h => h.1
  | _ :: _, _ :: _, (_, _), _, (_, _), (_, _), _, (_, _), _, (_, _), _, ⟨n, ns₁, _, _, _, _, _, _, h1, _, _, _, hc, ht⟩ => ⟨n, ns₁, h1, hc.fine, ht.fine⟩

theorem TupCoarser.coarse : {ts ts' : List AxTy} → {t : Tup ts} → {ns : List Nat} → {cov : TupCovers ts} → {t' : Tup ts'} → {ns' : List Nat} → {cov' : TupCovers ts'} → {same : Coords ts → Coords ts'} →
    {dom : TupDom ts} → {ms : List (Nat → Nat)} → TupCoarser t ns cov t' ns' cov' same dom ms → ∃ dom', TupFaithful t' ns' cov' dom' ∧ ∀ c, InDom dom c → InDom dom' (same c)
  | [], [], _, _, _, _, _, _, _, _, _, h => ⟨(), h.2.1, fun _ _ => trivial⟩
  | _ :: _, _ :: _, (_, _), _, (_, _), (_, _), _, (_, _), _, (dom, _), _, ⟨_, _, n', ns₁', _, _, same₀, _, _, h1, _, hs, hc, ht⟩ => by
    obtain ⟨dom', hf, hd⟩ := ht.coarse
    refine ⟨(fun c' => ∃ c, dom c ∧ same₀ c = c', dom'), ⟨n', ns₁', h1, hc.coarse, hf⟩, fun (c, cs) hcd => ?_⟩
    rw [hs]
    exact ⟨⟨c, hcd.1, rfl⟩, hd cs hcd.2⟩

theorem TupCoarser.index : {ts ts' : List AxTy} → {t : Tup ts} → {ns : List Nat} → {cov : TupCovers ts} → {t' : Tup ts'} → {ns' : List Nat} → {cov' : TupCovers ts'} → {same : Coords ts → Coords ts'} →
    {dom : TupDom ts} → {ms : List (Nat → Nat)} → TupCoarser t ns cov t' ns' cov' same dom ms → ∀ c is, InDom dom c → IndexOf t c is → IndexOf t' (same c) (List.zipWith (· ·) ms is)
  | [], [], _, _, _, _, _, _, _, _, _, h => fun _ _ _ hi => by
    have hi : _ = [] := hi
    show List.zipWith _ _ _ = []
    rw [h.2.2, List.zipWith_nil_left]
  | _ :: _, _ :: _, (_, _), _, (_, _), (_, _), _, (_, _), _, (_, _), _, ⟨_, _, _, _, m, ms₁, same₀, same₁, _, _, rfl, hs, hc, ht⟩ => by
    rintro ⟨c, cs⟩ is hd ⟨i, is', rfl, hi, his⟩
    rw [hs]
    exact ⟨m i, _, rfl, hc.index_some hd.1 hi, ht.index cs is' hd.2 his⟩

theorem TupCoarser.uncovered : {ts ts' : List AxTy} → {t : Tup ts} → {ns : List Nat} → {cov : TupCovers ts} → {t' : Tup ts'} → {ns' : List Nat} → {cov' : TupCovers ts'} → {same : Coords ts → Coords ts'} →
    {dom : TupDom ts} → {ms : List (Nat → Nat)} → TupCoarser t ns cov t' ns' cov' same dom ms → ∀ c, InDom dom c → SomeUncovered t c → SomeUncovered t' (same c)
  | [], [], _, _, _, _, _, _, _, _, _, _ => fun _ _ h => h.elim
  | _ :: _, _ :: _, (_, _), _, (_, _), (_, _), _, (_, _), _, (_, _), _, ⟨_, _, _, _, m, ms₁, same₀, same₁, _, _, rfl, hs, hc, ht⟩ => by
    rintro ⟨c, cs⟩ hd h
    rw [hs]
    rcases h with h | h
    · exact Or.inl (hc.index_none hd.1 h)
    · exact Or.inr (ht.uncovered cs hd.2 h)

theorem TupCoarser.inGrid : {ts ts' : List AxTy} → {t : Tup ts} → {ns : List Nat} → {cov : TupCovers ts} → {t' : Tup ts'} → {ns' : List Nat} → {cov' : TupCovers ts'} → {same : Coords ts → Coords ts'} →
    {dom : TupDom ts} → {ms : List (Nat → Nat)} → TupCoarser t ns cov t' ns' cov' same dom ms → ∀ is, InGrid ns is → InGrid ns' (List.zipWith (· ·) ms is)
  | [], [], _, _, _, _, _, _, _, _, _, ⟨h1, h2, h3⟩ => fun _ _ => by subst h2; subst h3; exact List.Forall₂.nil
  | _ :: _, _ :: _, (_, _), _, (_, _), (_, _), _, (_, _), _, (_, _), _, ⟨_, _, _, _, m, ms₁, same₀, same₁, rfl, rfl, rfl, hs, hc, ht⟩ => by
    intro is h
    cases h with
    | cons h1 h2 => exact List.Forall₂.cons (hc.into _ h1) (ht.inGrid _ h2)

/-- **C82 (several axes).** Axis by axis coarser axes give a coarser grid: cell number `N` lies in the cell whose numbers along the axes are the merged ones. -/
theorem C82_tuple {t₀ t₁ t₀' t₁' : AxTy} {ts ts' : List AxTy} {t : Tup (t₀ :: t₁ :: ts)} {ns : List Nat} {cov : TupCovers (t₀ :: t₁ :: ts)} {t' : Tup (t₀' :: t₁' :: ts')} {ns' : List Nat}
    {cov' : TupCovers (t₀' :: t₁' :: ts')} {same : Coords (t₀ :: t₁ :: ts) → Coords (t₀' :: t₁' :: ts')} {dom : TupDom (t₀ :: t₁ :: ts)} {ms : List (Nat → Nat)}
    (hc : TupCoarser t ns cov t' ns' cov' same dom ms) (hpos : ∀ n ∈ ns, 0 < n) (hfit : ns.prod < usizeSize) (hpos' : ∀ n ∈ ns', 0 < n) (hfit' : ns'.prod < usizeSize)
    {a : AxesTuple t₀ t₁ ts} (ha : AxesTuple.fromTuple t = .ok a) {a' : AxesTuple t₀' t₁' ts'} (ha' : AxesTuple.fromTuple t' = .ok a') :
    Coarser a ns.prod (CoversAll cov) a' ns'.prod (CoversAll cov') same (InDom dom) (mergeCells ns ns' ms) := by
  obtain ⟨dom', hf', hd'⟩ := hc.coarse
  have hl := hc.fine.lawful
  have hl' := hf'.lawful
  refine Coarser.of_index (C51_tuple hc.fine hpos hfit ha) ((C51_tuple hf' hpos' hfit' ha').mono ?_) ?_ ?_ ?_
  · rintro _ ⟨c, hcd, rfl⟩
    exact hd' c hcd
  · intro N hN
    exact cellNumber_lt (hc.inGrid _ (cellOf_inGrid hpos N))
  · intro c N hcd hN
    obtain ⟨is, his, rfl, -⟩ := ((C20_index_formula hl hpos hfit ha).2 c N).1 hN
    refine ((C20_index_formula hl' hpos' hfit' ha').2 _ _).2 ⟨_, hc.index c is hcd his, ?_, ?_⟩
    · unfold mergeCells
      rw [cellOf_cellNumber (his.inGrid hl)]
    · exact cellNumber_lt (hc.inGrid _ (cellOf_inGrid hpos _))
  · intro c hcd hN
    have h1 := ((C22_tuple_none hl hpos hfit ha c (hc.fine.total c hcd)).1).1 hN
    exact ((C22_tuple_none hl' hpos' hfit' ha' (same c) (hf'.total _ (hd' c hcd))).1).2 (hc.uncovered c hcd h1)

/-- axes of any kind, not rebinned -/
theorem C82_refl {A : Type} [Axis A] {a : A} {n : Nat} {cov : Axis.Interval A → Axis.Coordinate A → Prop} {dom : Axis.Coordinate A → Prop} (hf : FaithfulAxis a n cov dom) :
    Coarser a n cov a n cov id dom id :=
  Coarser.of_index hf (hf.mono (by rintro _ ⟨c, hc, rfl⟩; exact hc)) (fun _ h => h) (fun _ _ _ h => h) (fun _ _ h => h)
end
end NdHist
