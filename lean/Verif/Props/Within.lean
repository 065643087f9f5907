import Verif.SpecWithin
import Verif.Props.Rebin
import Verif.Props.Merge
import Verif.Props.Access
/-!
# C98: flow bins take nothing from the other bins
-/
set_option linter.unusedSectionVars false
namespace NdHist

section
variable [cfg : Cfg]

theorem cellNumber_mono {ns ms : List Nat} {is js : List Nat} {ps : List (Nat → Nat)} (hi : InGrid ns is) (hj : InGrid ns js) (hlen : ps.length = ns.length)
    (hgi : InGrid ms (List.zipWith (· ·) ps is)) (hgj : InGrid ms (List.zipWith (· ·) ps js))
    (hmono : ∀ k (h : k < ps.length) (h' : k < ns.length), ∀ x y, x < y → y < ns[k] → ps[k] x < ps[k] y)
    (h : cellNumber 1 ns is < cellNumber 1 ns js) : cellNumber 1 ms (List.zipWith (· ·) ps is) < cellNumber 1 ms (List.zipWith (· ·) ps js) := by
  induction ns generalizing ms is js ps with
  | nil => cases hi; cases hj; simp at h
  | cons n ns ih =>
    cases hi with | cons hi1 hi2 =>
    cases hj with | cons hj1 hj2 =>
    rename_i i is j js
    cases ps with
    | nil => simp at hlen
    | cons p ps =>
      simp only [List.zipWith_cons_cons] at hgi hgj ⊢
      cases hgi with | cons hgi1 hgi2 =>
      cases hgj with | cons hgj1 hgj2 =>
      rename_i m ms
      rw [cellNumber_cons, cellNumber_cons] at h ⊢
      have key : ∀ {n i j r s : Nat}, i < n → j < n → (i + n * r < j + n * s ↔ r < s ∨ r = s ∧ i < j) := by
        intro n i j r s h1 h2
        constructor
        · intro h
          rcases Nat.lt_trichotomy r s with h3 | h3 | h3
          · exact .inl h3
          · subst h3; exact .inr ⟨rfl, by omega⟩
          · have := Nat.mul_le_mul_left n h3
            rw [Nat.mul_succ] at this
            omega
        · rintro (h | ⟨rfl, h⟩)
          · have := Nat.mul_le_mul_left n h
            rw [Nat.mul_succ] at this
            omega
          · omega
      rcases (key hi1 hj1).1 h with h | ⟨h, h'⟩
      · exact (key hgi1 hgj1).2 (.inl (ih hi2 hj2 (by simpa using hlen) hgi2 hgj2 (fun k h h' => hmono (k + 1) (by simpa using h) (by simpa using h')) h))
      · have e : is = js := by rw [← cellOf_cellNumber hi2, ← cellOf_cellNumber hj2, h]
        subst e
        exact (key hgi1 hgj1).2 (.inr ⟨rfl, hmono 0 (by simp) (by simp) i j h' hj1⟩)

theorem TupWithin.lawful : {ts ts' : List AxTy} → {t : Tup ts} → {ns : List Nat} → {t' : Tup ts'} → {ns' : List Nat} → {f : Coords ts → Coords ts'} → {g : Intervals ts → Intervals ts'} →
    {dom : TupDom ts} → {ps : List (Nat → Nat)} → TupWithin t ns t' ns' f g dom ps → TupLawful t ns ∧ TupLawful t' ns'
  | [], [], _, _, _, _, _, _, _, _, h => ⟨h.1, h.2.1⟩
  | _ :: _, _ :: _, (_, _), _, (_, _), _, _, _, (_, _), _, ⟨n, ns₁, n', ns₁', _, _, _, _, _, _, h1, h2, _, _, _, hw, ht⟩ =>
    ⟨⟨n, ns₁, h1, hw.lawful, ht.lawful.1⟩, ⟨n', ns₁', h2, hw.lawful', ht.lawful.2⟩⟩

theorem TupWithin.total : {ts ts' : List AxTy} → {t : Tup ts} → {ns : List Nat} → {t' : Tup ts'} → {ns' : List Nat} → {f : Coords ts → Coords ts'} → {g : Intervals ts → Intervals ts'} →
    {dom : TupDom ts} → {ps : List (Nat → Nat)} → TupWithin t ns t' ns' f g dom ps → ∀ c, InDom dom c → TupTotal t c ∧ TupTotal t' (f c)
  | [], [], _, _, _, _, _, _, _, _, _ => fun _ _ => ⟨trivial, trivial⟩
  | _ :: _, _ :: _, (_, _), _, (_, _), _, _, _, (_, _), _, ⟨n, ns₁, n', ns₁', _, _, f₀, f₁, _, _, h1, h2, _, hf, _, hw, ht⟩ => by
    rintro ⟨c, cs⟩ ⟨h1, h2⟩
    rw [hf]
    exact ⟨⟨(hw.total c h1).1, (ht.total cs h2).1⟩, (hw.total c h1).2, (ht.total cs h2).2⟩

theorem TupWithin.index : {ts ts' : List AxTy} → {t : Tup ts} → {ns : List Nat} → {t' : Tup ts'} → {ns' : List Nat} → {f : Coords ts → Coords ts'} → {g : Intervals ts → Intervals ts'} →
    {dom : TupDom ts} → {ps : List (Nat → Nat)} → TupWithin t ns t' ns' f g dom ps → ∀ c, InDom dom c → ∀ is, IndexOf t' (f c) is ↔ InGrid ns' is ∧ IndexOf t c (List.zipWith (· ·) ps is)
  | [], [], _, _, _, _, _, _, _, _, ⟨_, h2, h3⟩ => fun _ _ is => by
    subst h2; subst h3
    show is = [] ↔ _ ∧ List.zipWith _ _ _ = []
    constructor
    · rintro rfl; exact ⟨.nil, rfl⟩
    · rintro ⟨h, -⟩; cases h; rfl
  | _ :: _, _ :: _, (_, _), _, (_, _), _, _, _, (_, _), _, ⟨n, ns₁, n', ns₁', p, ps₁, f₀, f₁, _, _, _, h2, h3, hf, _, hw, ht⟩ => by
    rintro ⟨c, cs⟩ ⟨hd1, hd2⟩ is
    subst h2; subst h3
    rw [hf]
    constructor
    · rintro ⟨i, is', rfl, hi, his⟩
      obtain ⟨a1, a2⟩ := (hw.index c hd1 i).1 hi
      obtain ⟨b1, b2⟩ := (ht.index cs hd2 is').1 his
      exact ⟨.cons a1 b1, p i, _, rfl, a2, b2⟩
    · rintro ⟨hg, h⟩
      cases hg with | cons hg1 hg2 =>
      rename_i i is'
      obtain ⟨k, ks, e, hk, hks⟩ := h
      rw [List.zipWith_cons_cons, List.cons.injEq] at e
      obtain ⟨rfl, rfl⟩ := e
      exact ⟨i, is', rfl, (hw.index c hd1 i).2 ⟨hg1, hk⟩, (ht.index cs hd2 is').2 ⟨hg2, hks⟩⟩

theorem TupWithin.inGrid : {ts ts' : List AxTy} → {t : Tup ts} → {ns : List Nat} → {t' : Tup ts'} → {ns' : List Nat} → {f : Coords ts → Coords ts'} → {g : Intervals ts → Intervals ts'} →
    {dom : TupDom ts} → {ps : List (Nat → Nat)} → TupWithin t ns t' ns' f g dom ps → ∀ is, InGrid ns' is → InGrid ns (List.zipWith (· ·) ps is)
  | [], [], _, _, _, _, _, _, _, _, ⟨h1, _, h3⟩ => fun _ _ => by subst h1; subst h3; exact .nil
  | _ :: _, _ :: _, (_, _), _, (_, _), _, _, _, (_, _), _, ⟨n, ns₁, n', ns₁', p, ps₁, f₀, f₁, _, _, h1, h2, h3, hf, _, hw, ht⟩ => by
    subst h1; subst h2; subst h3
    intro is h
    cases h with
    | cons h1 h2 => exact .cons (hw.place_lt _ h1) (ht.inGrid _ h2)

theorem TupWithin.mono : {ts ts' : List AxTy} → {t : Tup ts} → {ns : List Nat} → {t' : Tup ts'} → {ns' : List Nat} → {f : Coords ts → Coords ts'} → {g : Intervals ts → Intervals ts'} →
    {dom : TupDom ts} → {ps : List (Nat → Nat)} → TupWithin t ns t' ns' f g dom ps → ps.length = ns'.length ∧ ∀ k (_ : k < ps.length) (_ : k < ns'.length), ∀ x y, x < y → y < ns'[k] → ps[k] x < ps[k] y
  | [], [], _, _, _, _, _, _, _, _, ⟨_, h2, h3⟩ => by subst h2; subst h3; exact ⟨rfl, fun k h => absurd h (by simp)⟩
  | _ :: _, _ :: _, (_, _), _, (_, _), _, _, _, (_, _), _, ⟨n, ns₁, n', ns₁', p, ps₁, f₀, f₁, _, _, h1, h2, h3, hf, _, hw, ht⟩ => by
    subst h2; subst h3
    refine ⟨by simp [ht.mono.1], fun k h h' => ?_⟩
    cases k with
    | zero => exact hw.mono
    | succ k => exact ht.mono.2 k (by simpa using h) (by simpa using h')

theorem TupWithin.bins : {ts ts' : List AxTy} → {t : Tup ts} → {ns : List Nat} → {t' : Tup ts'} → {ns' : List Nat} → {f : Coords ts → Coords ts'} → {g : Intervals ts → Intervals ts'} →
    {dom : TupDom ts} → {ps : List (Nat → Nat)} → TupWithin t ns t' ns' f g dom ps → ∀ is, InGrid ns' is → ∀ bs bs', BinsOf t (List.zipWith (· ·) ps is) bs → BinsOf t' is bs' → bs' = g bs
  | [], [], _, _, _, _, _, _, _, _, _ => fun _ _ _ _ _ _ => rfl
  | _ :: _, _ :: _, (_, _), _, (_, _), _, _, _, (_, _), _, ⟨n, ns₁, n', ns₁', p, ps₁, f₀, f₁, g₀, g₁, h1, h2, h3, _, hg, hw, ht⟩ => by
    subst h2; subst h3
    rintro is hgr ⟨b, bs⟩ ⟨b', bs'⟩ h ⟨i', is', rfl, hb', hbs'⟩
    cases hgr with | cons hg1 hg2 =>
    obtain ⟨k, ks, e, hk, hks⟩ := h
    rw [List.zipWith_cons_cons, List.cons.injEq] at e
    obtain ⟨rfl, rfl⟩ := e
    have := hw.bin _ hg1
    rw [hb', hk] at this
    cases this
    rw [hg, ht.bins _ hg2 _ _ hks hbs']

/-- **C98 (several axes).** Leave out bins along some of the axes: the cells that remain keep their order. -/
theorem C98_tuple {t₀ t₁ t₀' t₁' : AxTy} {ts ts' : List AxTy} {t : Tup (t₀ :: t₁ :: ts)} {ns : List Nat} {t' : Tup (t₀' :: t₁' :: ts')} {ns' : List Nat}
    {f : Coords (t₀ :: t₁ :: ts) → Coords (t₀' :: t₁' :: ts')} {g : Intervals (t₀ :: t₁ :: ts) → Intervals (t₀' :: t₁' :: ts')} {dom : TupDom (t₀ :: t₁ :: ts)} {ps : List (Nat → Nat)}
    (hw : TupWithin t ns t' ns' f g dom ps) (hpos : ∀ n ∈ ns, 0 < n) (hfit : ns.prod < usizeSize) (hpos' : ∀ n ∈ ns', 0 < n) {a : AxesTuple t₀ t₁ ts} (ha : AxesTuple.fromTuple t = .ok a) :
    ns'.prod ≤ ns.prod ∧ ∃ a' : AxesTuple t₀' t₁' ts', AxesTuple.fromTuple t' = .ok a' ∧ Within a ns.prod a' ns'.prod f g (InDom dom) (mergeCells ns' ns ps) := by
  obtain ⟨hl, hl'⟩ := hw.lawful
  have plt : ∀ j, mergeCells ns' ns ps j < ns.prod := fun j => cellNumber_lt (hw.inGrid _ (cellOf_inGrid hpos' j))
  have mono : ∀ i j, i < j → j < ns'.prod → mergeCells ns' ns ps i < mergeCells ns' ns ps j := by
    intro i j hij hj
    have gi := cellOf_inGrid hpos' i
    have gj := cellOf_inGrid hpos' j
    refine cellNumber_mono gi gj hw.mono.1 (hw.inGrid _ gi) (hw.inGrid _ gj) hw.mono.2 ?_
    rw [cellNumber_cellOf hj, cellNumber_cellOf (by omega)]
    exact hij
  have hle : ns'.prod ≤ ns.prod := by
    have : ∀ k, k < ns'.prod → k ≤ mergeCells ns' ns ps k := by
      intro k hk
      induction k with
      | zero => omega
      | succ k ih => have := mono k (k + 1) (by omega) hk; have := ih (by omega); omega
    rcases Nat.eq_zero_or_pos ns'.prod with h | h
    · omega
    · have h1 := this (ns'.prod - 1) (by omega)
      have h2 := plt (ns'.prod - 1)
      omega
  have hfit' : ns'.prod < usizeSize := by omega
  obtain ⟨a', ha', -, -⟩ := C20_construct hl' hpos' hfit'
  refine ⟨hle, a', ha', C25_lawful_tuple hl hpos hfit ha, C25_lawful_tuple hl' hpos' hfit' ha', fun j _ => plt j, mono, ?_, ?_, ?_⟩
  · intro c hc
    exact ⟨(C22_tuple_none hl hpos hfit ha c (hw.total c hc).1).2, (C22_tuple_none hl' hpos' hfit' ha' (f c) (hw.total c hc).2).2⟩
  · intro c hc j
    show a'.index (f c) = .ok (some j) ↔ _ ∧ a.index c = .ok (some _)
    rw [(C20_index_formula hl' hpos' hfit' ha').2, (C20_index_formula hl hpos hfit ha).2]
    constructor
    · rintro ⟨is, his, rfl, hlt⟩
      obtain ⟨hg, hi⟩ := (hw.index c hc is).1 his
      refine ⟨hlt, _, hi, ?_, plt _⟩
      unfold mergeCells
      rw [cellOf_cellNumber hg]
    · rintro ⟨hj, is, his, e, -⟩
      have hg := cellOf_inGrid hpos' j
      have e' : is = List.zipWith (· ·) ps (cellOf j ns') := by
        rw [← cellOf_cellNumber (his.inGrid hl), ← cellOf_cellNumber (hw.inGrid _ hg)]
        exact congrArg (cellOf · ns) e.symm
      subst e'
      exact ⟨cellOf j ns', (hw.index c hc _).2 ⟨hg, his⟩, (cellNumber_cellOf hj).symm, hj⟩
  · intro j hj
    obtain ⟨is, bs, h1, h2, h3, h4, h5⟩ := C21_bin_numbering hl hpos hfit ha (plt j)
    obtain ⟨is', bs', h1', h2', h3', h4', h5'⟩ := C21_bin_numbering hl' hpos' hfit' ha' hj
    have e' : cellOf j ns' = is' := h5' _ (cellOf_inGrid hpos' j) (cellNumber_cellOf hj)
    subst e'
    have e : List.zipWith (· ·) ps (cellOf j ns') = is := h5 _ (hw.inGrid _ h1') rfl
    subst e
    show a'.bin j = (a.bin _).map _
    rw [h3, h3', hw.bins _ h1' _ _ h4 h4']
    rfl

/-- axes of any kind that keep all their bins -/
theorem C98_refl {A : Type} [Axis A] {a : A} {n : Nat} (hl : LawfulAxis a n) : Within a n a n id id (IndexTotal a) id where
  lawful := hl
  lawful' := hl
  place_lt _ h := h
  mono _ _ h _ := h
  total _ h := ⟨h, h⟩
  index c _ j := ⟨fun h => ⟨hl.index_lt c j h, h⟩, fun h => h.2⟩
  bin j hj := by obtain ⟨b, hb⟩ := hl.bin_some j hj; rw [id, hb]; rfl

/-- **C98 (bins with the same interval).** Whenever both axes count a coordinate in the bin whose interval contains it, it is enough that the bins of one are reported among the bins of the other, in order. -/
theorem C98_of_bins {A A' : Type} [Axis A] [Axis A'] {a : A} {a' : A'} {n n' : Nat} {cov : Axis.Interval A → Axis.Coordinate A → Prop} {cov' : Axis.Interval A' → Axis.Coordinate A' → Prop}
    {dom : Axis.Coordinate A → Prop} {dom' : Axis.Coordinate A' → Prop} (hf : FaithfulAxis a n cov dom) (hf' : FaithfulAxis a' n' cov' dom') {f : Axis.Coordinate A → Axis.Coordinate A'}
    {g : Axis.Interval A → Axis.Interval A'} {place : Nat → Nat} (hdom : ∀ c, dom c → dom' (f c)) (hcov : ∀ b c, dom c → (cov' (g b) (f c) ↔ cov b c)) (hlt : ∀ j, j < n' → place j < n)
    (hmono : ∀ i j, i < j → j < n' → place i < place j) (hbin : ∀ j, j < n' → ∃ b, Axis.bin a (place j) = .ok (some b) ∧ Axis.bin a' j = .ok (some (g b))) :
    Within a n a' n' f g dom place where
  lawful := hf.lawful
  lawful' := hf'.lawful
  place_lt := hlt
  mono := hmono
  total c hc := ⟨hf.total c hc, hf'.total _ (hdom c hc)⟩
  index c hc j := by
    constructor
    · intro h
      have hj := hf'.lawful.index_lt _ _ h
      obtain ⟨b, h1, h2⟩ := hbin j hj
      exact ⟨hj, (hf.index_iff c hc _ b (hlt j hj) h1).2 ((hcov b c hc).1 ((hf'.index_iff _ (hdom c hc) j _ hj h2).1 h))⟩
    · rintro ⟨hj, h⟩
      obtain ⟨b, h1, h2⟩ := hbin j hj
      exact (hf'.index_iff _ (hdom c hc) j _ hj h2).2 ((hcov b c hc).2 ((hf.index_iff c hc _ b (hlt j hj) h1).1 h))
  bin j hj := by
    obtain ⟨b, h1, h2⟩ := hbin j hj
    rw [h1, h2]; rfl

theorem uniform_new_num {T : Type} [RNum T] {num : Nat} {low high : T} {a : Uniform T} (hnew : Uniform.new num low high = .ok (.ok a)) : a.num = num := by
  unfold Uniform.new at hnew
  split at hnew
  · cases hnew
  split at hnew
  · cases hnew
  simp only [Res.bind_eq_ok] at hnew
  obtain ⟨range, -, hnew⟩ := hnew
  split at hnew
  · cases hnew
  simp only [Res.bind_eq_ok] at hnew
  obtain ⟨step, -, hnew⟩ := hnew
  cases hnew
  rfl

theorem uniform_step_num {T : Type} [RNum T] {num : Nat} {low step : T} {a : Uniform T} (hnew : Uniform.withStepSize num low step = .ok (.ok a)) : a.num = num := by
  unfold Uniform.withStepSize at hnew
  split at hnew
  · cases hnew
  simp only [Res.bind_eq_ok] at hnew
  obtain ⟨prod, -, high, -, hnew⟩ := hnew
  split at hnew
  · cases hnew
  split at hnew
  · cases hnew
  cases hnew
  rfl

theorem within_uniform {T : Type} [RNum T] {u : Uniform T} (hl : LawfulAxis u (u.num + 2)) : Within u (u.num + 2) (UniformNoFlow.mk u) u.num id id (IndexTotal u) (· + 1) where
  lawful := hl
  lawful' := C25_lawful_uniform_noflow hl
  place_lt j hj := by omega
  mono i j h _ := by omega
  total c hc := by
    refine ⟨hc, ?_⟩
    obtain ⟨o, ho⟩ := hc
    cases o with
    | none => exact ⟨none, by show UniformNoFlow.index ⟨u⟩ c = _; unfold UniformNoFlow.index; rw [show u.index c = .ok none from ho]; rfl⟩
    | some k => exact (C07_noflow_index u hl.fits c k ho (by have := hl.index_lt _ _ ho; omega)).1
  index c hc j := by
    obtain ⟨o, ho⟩ := hc
    show UniformNoFlow.index ⟨u⟩ c = _ ↔ _
    cases o with
    | none =>
      rw [ho]
      unfold UniformNoFlow.index
      rw [show u.index c = .ok none from ho]
      simp
    | some k =>
      rw [(C07_noflow_index u hl.fits c k ho (by have := hl.index_lt _ _ ho; omega)).2.1 j, ho]
      simp only [Except.ok.injEq, Option.some.injEq]
      exact ⟨fun h => ⟨h.2, h.1⟩, fun h => ⟨h.2, h.1⟩⟩
  bin j hj := by
    have hf := hl.fits
    have := (C07_noflow_bin u j (by omega) (by omega)).1 hj
    show UniformNoFlow.bin ⟨u⟩ j = _
    rw [this]
    obtain ⟨b, hb⟩ := hl.bin_some (j + 1) (by omega)
    rw [hb, show u.bin (j + 1) = _ from hb]; rfl

/-- **C98 (Uniform).** Whatever `Uniform::new` returns for these arguments, of any number type: `UniformNoFlow::new` returns the axis with its bins `1 … num`. -/
theorem C98_uniform {T : Type} [RNum T] {num : Nat} {low high : T} {a : Uniform T} (hnew : Uniform.new num low high = .ok (.ok a)) (hl : LawfulAxis a (num + 2)) :
    ∃ a', UniformNoFlow.new num low high = .ok (.ok a') ∧ Within a (num + 2) a' num id id (IndexTotal a) (· + 1) := by
  refine ⟨⟨a⟩, by unfold UniformNoFlow.new; rw [hnew]; rfl, ?_⟩
  obtain rfl := uniform_new_num hnew
  exact within_uniform hl

/-- the same with the other constructor -/
theorem C98_uniform_step {T : Type} [RNum T] {num : Nat} {low step : T} {a : Uniform T} (hnew : Uniform.withStepSize num low step = .ok (.ok a)) (hl : LawfulAxis a (num + 2)) :
    ∃ a', UniformNoFlow.withStepSize num low step = .ok (.ok a') ∧ Within a (num + 2) a' num id id (IndexTotal a) (· + 1) := by
  refine ⟨⟨a⟩, by unfold UniformNoFlow.withStepSize; rw [hnew]; rfl, ?_⟩
  obtain rfl := uniform_step_num hnew
  exact within_uniform hl

/-- **C98 (Variable).** Likewise `Variable::new` and `VariableNoFlow::new`. -/
theorem C98_variable {T : Type} [POrd T] [LawfulPOrd T] [StdLib] {edges : List T} {a : Variable T} (hnew : Variable.new edges = .ok (.ok a)) (hmem : edges.length + 1 < usizeSize) :
    ∃ a', VariableNoFlow.new edges = .ok (.ok a') ∧ Within a (edges.length + 1) a' (edges.length - 1) id id (fun _ => True) (· + 1) := by
  have hnew' : VariableNoFlow.new edges = .ok (.ok ⟨a⟩) := by unfold VariableNoFlow.new; rw [hnew]; rfl
  refine ⟨⟨a⟩, hnew', C25_lawful_variable hnew hmem, C25_lawful_variable_noflow hnew' hmem, fun j hj => by omega, fun i j h _ => by omega, fun c _ => ?_, fun c _ j => ?_, fun j hj => ?_⟩
  · obtain ⟨k, h1, h2, h3, h4⟩ := C14_variable_noflow_index hnew' hmem c
    refine ⟨⟨_, h1⟩, ?_⟩
    by_cases h : k = 0 ∨ k = edges.length
    · exact ⟨_, h4.2 h⟩
    · exact ⟨_, (h3 (k - 1)).2 ⟨by omega, by omega⟩⟩
  · obtain ⟨k, h1, h2, h3, h4⟩ := C14_variable_noflow_index hnew' hmem c
    show VariableNoFlow.index ⟨a⟩ c = _ ↔ _ ∧ a.index c = _
    rw [h3 j, show a.index c = _ from h1]
    simp only [Except.ok.injEq, Option.some.injEq]
    exact ⟨fun h => ⟨h.2, h.1⟩, fun h => ⟨h.2, h.1⟩⟩
  · obtain ⟨s, e, h1, h2, h3⟩ := (C14_variable_noflow_bins hnew' hmem).2.1 j (by omega)
    obtain ⟨s', e', h1', h2', h3'⟩ := (C13_variable_bins hnew hmem).2.2.2.1 j (by omega)
    show VariableNoFlow.bin ⟨a⟩ j = (a.bin (j + 1)).map _
    rw [h3, h3']
    rw [h1'] at h1; rw [h2'] at h2
    cases h1; cases h2
    rfl

/-- **C98 (Category).** `CategoryNoFlow` has all bins of `Category` but the last; values that are listed twice behave alike. -/
theorem C98_category {T : Type} [DecidableEq T] (values : List T) (hmem : values.length + 1 < usizeSize) :
    Within (Category.new values) (values.length + 1) (CategoryNoFlow.new values) values.length id id (fun _ => True) id := by
  refine ⟨C25_lawful_category values hmem, C25_lawful_category_noflow values hmem, fun j hj => by simp; omega, fun i j h _ => h, fun c _ => ?_, fun c _ j => ?_, fun j hj => ?_⟩
  · obtain ⟨k, h1, -⟩ := C17_category_repeated values hmem c
    refine ⟨⟨_, h1⟩, ?_⟩
    by_cases h : c ∈ values
    · obtain ⟨i, hi, -⟩ := ((C18_category_noflow_index values hmem c).1 h).2
      exact ⟨_, hi⟩
    · exact ⟨_, (C18_category_noflow_index values hmem c).2 h⟩
  · show (CategoryNoFlow.new values).index c = _ ↔ _ ∧ (Category.new values).index c = _
    by_cases h : c ∈ values
    · obtain ⟨h1, i, h2, h3⟩ := (C18_category_noflow_index values hmem c).1 h
      rw [← h1, h2]
      simp only [id, Except.ok.injEq, Option.some.injEq]
      constructor
      · rintro rfl; exact ⟨h3, rfl⟩
      · exact fun h => h.2
    · obtain ⟨k, h1, -, h2, h3⟩ := C17_category_repeated values hmem c
      rw [(C18_category_noflow_index values hmem c).2 h, h1, (h3 h).1]
      simp; omega
  · show (CategoryNoFlow.new values).bin j = ((Category.new values).bin j).map _
    rw [(C18_category_noflow_bins values hmem).2.1 j _ (List.getElem?_eq_getElem hj), (C16_category_bins values hmem).2.1 j _ (List.getElem?_eq_getElem hj)]
    rfl

theorem variable_new_sorted {T : Type} [POrd T] [LawfulPOrd T] [StdLib] {edges : List T} {a : Variable T} (hnew : Variable.new edges = .ok (.ok a)) (hs : edges.Pairwise (fun x y => POrd.lt x y = true)) :
    a.binEdges = edges := by
  obtain ⟨hp, hle⟩ := (C10_variable_new_sorts edges).2 a hnew
  refine hp.eq_of_pairwise (le := fun x y => POrd.le x y = true) ?_ hle (hs.imp fun {x y} h => ?_)
  · intro x y hx hy h1 h2
    by_contra hne
    have key : POrd.lt x y = true ∨ POrd.lt y x = true := by
      obtain ⟨i, hi, rfl⟩ := List.getElem_of_mem (hp.subset hx)
      obtain ⟨j, hj, rfl⟩ := List.getElem_of_mem hy
      rcases Nat.lt_trichotomy i j with h | h | h
      · exact .inl (List.pairwise_iff_getElem.1 hs i j hi hj h)
      · subst h; exact absurd rfl hne
      · exact .inr (List.pairwise_iff_getElem.1 hs j i hj hi h)
    obtain ⟨u, v, e1, e2, h3⟩ := LawfulPOrd.le_iff.1 h1
    obtain ⟨v', u', e1', e2', h4⟩ := LawfulPOrd.le_iff.1 h2
    rw [e1] at e2'; rw [e2] at e1'
    cases e1'; cases e2'
    have huv : u = v := le_antisymm h3 h4
    rcases key with h | h
    · obtain ⟨p, q, f1, f2, h5⟩ := LawfulPOrd.lt_iff.1 h
      rw [e1] at f1; rw [e2] at f2
      cases f1; cases f2
      exact absurd huv h5.ne
    · obtain ⟨p, q, f1, f2, h5⟩ := LawfulPOrd.lt_iff.1 h
      rw [e2] at f1; rw [e1] at f2
      cases f1; cases f2
      exact absurd huv h5.ne'
  · obtain ⟨p, q, f1, f2, h5⟩ := LawfulPOrd.lt_iff.1 h
    exact LawfulPOrd.le_iff.2 ⟨p, q, f1, f2, h5.le⟩

/-- **C98 (part of a Variable axis).** An axis without flow bins over some of the edges, one after the other, has the bins between these edges. -/
theorem C98_zoom_variable {T : Type} [POrd T] [LawfulPOrd T] [StdLib] {pre es post : List T} {a : Variable T} {a' : VariableNoFlow T} (hs : (pre ++ es ++ post).Pairwise (fun x y => POrd.lt x y = true))
    (hnew : Variable.new (pre ++ es ++ post) = .ok (.ok a)) (hnew' : VariableNoFlow.new es = .ok (.ok a')) (hmem : (pre ++ es ++ post).length + 1 < usizeSize) :
    Within a ((pre ++ es ++ post).length + 1) a' (es.length - 1) id id (fun c => POrd.eq c c = true) (fun j => pre.length + j + 1) := by
  have hs' : es.Pairwise (fun x y => POrd.lt x y = true) := (List.pairwise_append.1 (List.pairwise_append.1 hs).1).2.1
  have hd : ∀ {l : List T}, l.Pairwise (fun x y => POrd.lt x y = true) → l.Pairwise (fun x y => POrd.eq x y = false) := fun h => h.imp fun {x y} h => by
    rw [Bool.eq_false_iff]
    intro he
    obtain ⟨p, q, f1, f2, h5⟩ := LawfulPOrd.lt_iff.1 h
    obtain ⟨r, g1, g2⟩ := LawfulPOrd.eq_iff.1 he
    rw [f1] at g1; rw [f2] at g2
    cases g1; cases g2
    exact lt_irrefl _ h5
  have hlen : (pre ++ es ++ post).length = pre.length + es.length + post.length := by simp; omega
  have hmem' : es.length + 1 < usizeSize := by omega
  refine C98_of_bins (C51_variable hnew hmem (hd hs)) (C51_variable_noflow hnew' hmem' (hd hs')) (fun _ _ => trivial) (fun _ _ _ => Iff.rfl) (fun j hj => by omega) (fun i j h _ => by omega) fun j hj => ?_
  obtain ⟨s, e, h1, h2, h3⟩ := (C14_variable_noflow_bins hnew' hmem').2.1 j (by omega)
  obtain ⟨s', e', h1', h2', h3'⟩ := (C13_variable_bins hnew hmem).2.2.2.1 (pre.length + j) (by omega)
  rw [variable_new_sorted (VariableNoFlow.new_ok hnew') hs'] at h1 h2
  rw [variable_new_sorted hnew hs, List.append_assoc, List.getElem?_append_right (by omega)] at h1'
  rw [variable_new_sorted hnew hs, List.append_assoc, List.getElem?_append_right (by omega)] at h2'
  rw [List.getElem?_append_left (by omega), show pre.length + j - pre.length = j by omega, h1] at h1'
  rw [List.getElem?_append_left (by omega), show pre.length + j + 1 - pre.length = j + 1 by omega, h2] at h2'
  cases h1'; cases h2'
  exact ⟨_, h3', h3⟩

/-- **C98 (part of a Uniform axis).** An axis of the same step that begins at one of the edges and ends not later has the bins between. -/
theorem C98_zoom_uniform {τ : IntTy} {num k m : Nat} {low low' step : MInt τ} {a : Uniform (MInt τ)} {a' : UniformNoFlow (MInt τ)} (hnew : Uniform.withStepSize num low step = .ok (.ok a))
    (hnew' : UniformNoFlow.withStepSize m low' step = .ok (.ok a')) (hlow : low'.val = low.val + k * step.val) (hk : k + m ≤ num)
    (hfit : Cfg.checked = false → (num : ℤ) * step.val ≤ τ.max ∧ low.val + num * step.val ≤ τ.max) (hnum : num + 2 < usizeSize) (hbin : (num : ℤ) * (num * step.val) ≤ τ.max) :
    Within a (num + 2) a' m id id (fun _ => True) (fun j => k + j + 1) := by
  have hs0 : 0 < step.val := (Uniform.withStepSize_ok hnew hfit).2.2.1
  have hm : ((k : ℤ) + m) * step.val ≤ num * step.val := Int.mul_le_mul_of_nonneg_right (by exact_mod_cast hk) hs0.le
  have hm1 : (m : ℤ) * step.val ≤ num * step.val := Int.mul_le_mul_of_nonneg_right (by omega) hs0.le
  have hm2 : (m : ℤ) * (m * step.val) ≤ num * (num * step.val) := mul_le_mul (by omega) hm1 (by positivity) (by omega)
  rw [add_mul] at hm
  obtain ⟨u, hu, rfl⟩ : ∃ u, Uniform.withStepSize m low' step = .ok (.ok u) ∧ a' = ⟨u⟩ := by
    unfold UniformNoFlow.withStepSize at hnew'
    rcases h : Uniform.withStepSize m low' step with p | (e | u)
    · rw [h] at hnew'; cases hnew'
    · rw [h] at hnew'; cases hnew'
    · rw [h] at hnew'; cases hnew'; exact ⟨u, rfl, rfl⟩
  have hfit' : Cfg.checked = false → (m : ℤ) * step.val ≤ τ.max ∧ low'.val + m * step.val ≤ τ.max := fun h => ⟨by have := (hfit h).1; omega, by have := (hfit h).2; omega⟩
  have hf' := C51_uniform_int hu hfit' (by omega) (by omega)
  have hu0 := uniform_step_num hu
  subst hu0
  refine C98_of_bins (C51_uniform_int hnew hfit hnum hbin) (C51_uniform_noflow hf') (fun _ _ => trivial) (fun _ _ _ => Iff.rfl) (fun j hj => by omega) (fun i j h _ => by omega) fun j hj => ?_
  have hb : ∀ {x n : ℕ}, x < n → (n : ℤ) * (n * step.val) ≤ τ.max → ((x : ℤ) + 1) * (n * step.val) ≤ τ.max := fun {x n} h h' =>
    (Int.mul_le_mul_of_nonneg_right (by omega) (by positivity)).trans h'
  obtain ⟨s, e, h1, h2, h3⟩ := (C02_uniform_int_bins_partial hnew hfit hnum).2.2.2.1 (k + j) (by omega) (hb (by omega) hbin)
  obtain ⟨s', e', h1', h2', h3'⟩ := (C02_uniform_int_bins_partial hu hfit' (by omega)).2.2.2.1 j hj (hb hj (by omega))
  refine ⟨_, h3, ?_⟩
  show UniformNoFlow.bin ⟨u⟩ j = _
  rw [(C07_noflow_bin u j (by omega) (by omega)).1 hj, h3']
  have e1 : s' = s := MInt.ext (by rw [h1, h1', hlow]; push_cast; ring)
  have e2 : e' = e := MInt.ext (by rw [h2, h2', hlow]; push_cast; ring)
  rw [e1, e2]
  rfl
end

section
variable [cfg : Cfg] {A A' V : Type} [Axis A] [Axis A'] {n n' : Nat} {f : Axis.Coordinate A → Axis.Coordinate A'} {g : Axis.Interval A → Axis.Interval A'}
  {dom : Axis.Coordinate A → Prop} {place : Nat → Nat}

theorem Within.inj {a : A} {a' : A'} (hs : Within a n a' n' f g dom place) {i j : Nat} (hi : i < n') (hj : j < n') (h : place i = place j) : i = j := by
  rcases Nat.lt_trichotomy i j with h1 | h1 | h1
  · have := hs.mono i j h1 hj; omega
  · exact h1
  · have := hs.mono j i h1 hi; omega

theorem within_call {h : VecHistogram A V} {h' : VecHistogram A' V} (hs : Within h.axes n h'.axes n' f g dom place) (ok : h.Ok n) (ok' : h'.Ok n')
    (hv : ∀ j, j < n' → h'.valueAtIndex j = h.valueAtIndex (place j)) (call : Call V (Axis.Coordinate A)) (hd : dom call.coord) :
    ((h.call call).2 = none → (h'.call (call.mapCoord f)).2 = none) ∧ ∀ j, j < n' → (h'.call (call.mapCoord f)).1.valueAtIndex j = (h.call call).1.valueAtIndex (place j) := by
  obtain ⟨-, -, a1, a2, -⟩ := C27_dense ok call
  obtain ⟨-, -, b1, b2, -⟩ := C27_dense ok' (call.mapCoord f)
  have ec : (call.mapCoord f).coord = f call.coord := by cases call <;> rfl
  have eo : ∀ v, (call.mapCoord f).on v = call.on v := by intro v; cases call <;> rfl
  rw [ec] at b1 b2
  obtain ⟨⟨o, ho⟩, ⟨o', ho'⟩⟩ := hs.total _ hd
  cases o' with
  | none =>
    rw [b2 ho']
    refine ⟨fun _ => rfl, fun j hj => ?_⟩
    show h'.valueAtIndex j = _
    rw [hv j hj]
    cases o with
    | none => rw [a2 ho]
    | some i =>
      refine (((a1 i ho).2 _ fun e => ?_)).symm
      have := (hs.index _ hd j).2 ⟨hj, by rw [ho, e]⟩
      rw [ho'] at this; cases this
  | some k =>
    obtain ⟨hk, hi⟩ := (hs.index _ hd k).1 ho'
    obtain ⟨⟨v, v1, v2, v3⟩, v4⟩ := a1 _ hi
    obtain ⟨⟨w, w1, w2, w3⟩, w4⟩ := b1 _ ho'
    rw [hv k hk, v1] at w1
    obtain rfl := Option.some.inj w1
    rw [eo] at w2 w3
    refine ⟨fun h => by rw [w3, ← v3]; exact h, fun j hj => ?_⟩
    by_cases hjk : j = k
    · subst hjk; rw [w2, v2]
    · rw [w4 _ hjk, v4 _ fun h => hjk (hs.inj hj hk h), hv j hj]

/-- **C98 (dense histograms).** Fill two histograms, one of whose axes has some of the bins of the other's, with the same data. Where bins agree they agree ever after, whatever happens in the bins that only one
has; and if no fill of the larger one panics, none of the smaller one does. -/
theorem C98_dense {h : VecHistogram A V} {h' : VecHistogram A' V} (hs : Within h.axes n h'.axes n' f g dom place) (ok : h.Ok n) (ok' : h'.Ok n')
    (hv : ∀ j, j < n' → h'.valueAtIndex j = h.valueAtIndex (place j)) (calls : List (Call V (Axis.Coordinate A))) (hd : ∀ call ∈ calls, dom call.coord) :
    (∀ j, j < n' → (h'.callAllCaught (calls.map (Call.mapCoord f))).valueAtIndex j = (h.callAllCaught calls).valueAtIndex (place j)) ∧
    ((h.callAll calls).2 = none → (h'.callAll (calls.map (Call.mapCoord f))).2 = none ∧
      ∀ j, j < n' → (h'.callAll (calls.map (Call.mapCoord f))).1.valueAtIndex j = (h.callAll calls).1.valueAtIndex (place j)) := by
  induction calls generalizing h h' with
  | nil => exact ⟨hv, fun _ => ⟨rfl, hv⟩⟩
  | cons c calls ih =>
    obtain ⟨h2, h1⟩ := within_call hs ok ok' hv c (hd c (List.mem_cons_self ..))
    obtain ⟨x1, o1, -⟩ := C27_dense ok c
    obtain ⟨x2, o2, -⟩ := C27_dense ok' (c.mapCoord f)
    obtain ⟨i1, i2⟩ := ih (by rw [x1, x2]; exact hs) o1 o2 h1 fun call hc => hd call (List.mem_cons_of_mem _ hc)
    refine ⟨i1, ?_⟩
    simp only [List.map_cons, VecHistogram.callAll]
    rcases e1 : h'.call (c.mapCoord f) with ⟨k1, p1⟩
    rcases e2 : h.call c with ⟨k2, p2⟩
    rw [e1, e2] at h1 h2 i2
    cases p2 with
    | some p => intro h; cases h
    | none =>
      have : p1 = none := h2 rfl
      subst this
      exact i2

/-- **C98 (new histograms).** -/
theorem C98_new [RDefault V] {a : A} {a' : A'} (hs : Within a n a' n' f g dom place) :
    ∃ (h : VecHistogram A V) (h' : VecHistogram A' V), VecHistogram.new a = .ok h ∧ VecHistogram.new a' = .ok h' ∧ h.axes = a ∧ h'.axes = a' ∧ h.Ok n ∧ h'.Ok n' ∧
      ∀ j, j < n' → h'.valueAtIndex j = h.valueAtIndex (place j) := by
  refine ⟨⟨a, List.replicate n RDefault.dflt⟩, ⟨a', List.replicate n' RDefault.dflt⟩, ?_, ?_, rfl, rfl, ⟨hs.lawful, by simp⟩, ⟨hs.lawful', by simp⟩, fun i hi => ?_⟩
  · unfold VecHistogram.new; rw [hs.lawful.numBins]; rfl
  · unfold VecHistogram.new; rw [hs.lawful'.numBins]; rfl
  · have := hs.place_lt i hi
    simp [VecHistogram.valueAtIndex, hi, this]

/-- **C98 (reading).** `value` at a coordinate gives the same where the smaller axis has a bin, and `None` elsewhere; item `j` of the smaller histogram is item `place j` of the larger one. -/
theorem C98_dense_read {h : VecHistogram A V} {h' : VecHistogram A' V} (hs : Within h.axes n h'.axes n' f g dom place) (ok : h.Ok n) (ok' : h'.Ok n')
    (hv : ∀ j, j < n' → h'.valueAtIndex j = h.valueAtIndex (place j)) :
    (∀ c, dom c → h'.value (f c) = h.value c ∨ Axis.index h'.axes (f c) = .ok none ∧ h'.value (f c) = .ok none) ∧
    ∃ items items', h.iter = .ok items ∧ h'.iter = .ok items' ∧ items'.length = n' ∧
      ∀ j, j < n' → ∃ it, items[place j]? = some it ∧ items'[j]? = some ⟨j, g it.bin, it.value⟩ := by
  refine ⟨fun c hc => ?_, ?_⟩
  · unfold VecHistogram.value
    obtain ⟨-, ⟨o', ho'⟩⟩ := hs.total c hc
    cases o' with
    | none => right; rw [ho']; exact ⟨rfl, rfl⟩
    | some k =>
      obtain ⟨hk, hi⟩ := (hs.index _ hc k).1 ho'
      left
      rw [ho', hi]
      exact congrArg Except.ok (hv k hk)
  · obtain ⟨items, e1, l1, a1, -⟩ := C38_iter ok
    obtain ⟨items', e2, l2, a2, -⟩ := C38_iter ok'
    refine ⟨items, items', e1, e2, l2, fun j hj => ?_⟩
    obtain ⟨b, v, h1, h2, h3⟩ := a1 _ (hs.place_lt j hj)
    obtain ⟨b', v', h1', h2', h3'⟩ := a2 j hj
    rw [hs.bin j hj, h2] at h2'
    rw [hv j hj, h3] at h3'
    cases h2'; cases h3'
    exact ⟨_, h1, h1'⟩

section
variable [RDefault V]

theorem within_call_sparse {h : HashHistogram A V} {h' : HashHistogram A' V} (hs : Within h.axes n h'.axes n' f g dom place) (ok : h.Ok n) (ok' : h'.Ok n')
    (hv : ∀ j, j < n' → h'.valueAtIndex j = h.valueAtIndex (place j)) (call : Call V (Axis.Coordinate A)) (hd : dom call.coord) :
    ((h.call call).2 = none → (h'.call (call.mapCoord f)).2 = none) ∧ ∀ j, j < n' → (h'.call (call.mapCoord f)).1.valueAtIndex j = (h.call call).1.valueAtIndex (place j) := by
  obtain ⟨-, -, a1, a2, -⟩ := C27_sparse ok call
  obtain ⟨-, -, b1, b2, -⟩ := C27_sparse ok' (call.mapCoord f)
  have ec : (call.mapCoord f).coord = f call.coord := by cases call <;> rfl
  have eo : ∀ v, (call.mapCoord f).on v = call.on v := by intro v; cases call <;> rfl
  rw [ec] at b1 b2
  obtain ⟨⟨o, ho⟩, ⟨o', ho'⟩⟩ := hs.total _ hd
  cases o' with
  | none =>
    rw [b2 ho']
    refine ⟨fun _ => rfl, fun j hj => ?_⟩
    show h'.valueAtIndex j = _
    rw [hv j hj]
    cases o with
    | none => rw [a2 ho]
    | some i =>
      refine (((a1 i ho).2.2 _ fun e => ?_)).symm
      have := (hs.index _ hd j).2 ⟨hj, by rw [ho, e]⟩
      rw [ho'] at this; cases this
  | some k =>
    obtain ⟨hk, hi⟩ := (hs.index _ hd k).1 ho'
    obtain ⟨v2, v3, v4⟩ := a1 _ hi
    obtain ⟨w2, w3, w4⟩ := b1 _ ho'
    rw [eo, hv k hk] at w2 w3
    refine ⟨fun h => by rw [w3, ← v3]; exact h, fun j hj => ?_⟩
    by_cases hjk : j = k
    · subst hjk; rw [w2, v2]
    · rw [w4 _ hjk, v4 _ fun h => hjk (hs.inj hj hk h), hv j hj]

/-- **C98 (sparse histograms).** The same; also the bins that exist are the same. -/
theorem C98_sparse {h : HashHistogram A V} {h' : HashHistogram A' V} (hs : Within h.axes n h'.axes n' f g dom place) (ok : h.Ok n) (ok' : h'.Ok n')
    (hv : ∀ j, j < n' → h'.valueAtIndex j = h.valueAtIndex (place j)) (calls : List (Call V (Axis.Coordinate A))) (hd : ∀ call ∈ calls, dom call.coord) :
    (∀ j, j < n' → (h'.callAllCaught (calls.map (Call.mapCoord f))).valueAtIndex j = (h.callAllCaught calls).valueAtIndex (place j)) ∧
    ((h.callAll calls).2 = none → (h'.callAll (calls.map (Call.mapCoord f))).2 = none ∧
      ∀ j, j < n' → (h'.callAll (calls.map (Call.mapCoord f))).1.valueAtIndex j = (h.callAll calls).1.valueAtIndex (place j)) := by
  induction calls generalizing h h' with
  | nil => exact ⟨hv, fun _ => ⟨rfl, hv⟩⟩
  | cons c calls ih =>
    obtain ⟨h2, h1⟩ := within_call_sparse hs ok ok' hv c (hd c (List.mem_cons_self ..))
    obtain ⟨x1, o1, -⟩ := C27_sparse ok c
    obtain ⟨x2, o2, -⟩ := C27_sparse ok' (c.mapCoord f)
    obtain ⟨i1, i2⟩ := ih (by rw [x1, x2]; exact hs) o1 o2 h1 fun call hc => hd call (List.mem_cons_of_mem _ hc)
    refine ⟨i1, ?_⟩
    simp only [List.map_cons, HashHistogram.callAll]
    rcases e1 : h'.call (c.mapCoord f) with ⟨k1, p1⟩
    rcases e2 : h.call c with ⟨k2, p2⟩
    rw [e1, e2] at h1 h2 i2
    cases p2 with
    | some p => intro h; cases h
    | none =>
      have : p1 = none := h2 rfl
      subst this
      exact i2
end

/-- **C98 (reading sparse histograms).** Whatever orders the two maps are visited in, the items of the smaller histogram are those items of the larger one that are in its bins. -/
theorem C98_sparse_read {h : HashHistogram A V} {h' : HashHistogram A' V} (hs : Within h.axes n h'.axes n' f g dom place) (ok : h.Ok n) (ok' : h'.Ok n')
    (hv : ∀ j, j < n' → h'.valueAtIndex j = h.valueAtIndex (place j)) :
    (∀ c, dom c → h'.value (f c) = h.value c ∨ Axis.index h'.axes (f c) = .ok none ∧ h'.value (f c) = .ok none) ∧
    ∀ (o : h.values.Order) (o' : h'.values.Order), ∃ items items', h.iter o = .ok items ∧ h'.iter o' = .ok items' ∧ (items.map (·.index)).Nodup ∧ (items'.map (·.index)).Nodup ∧
      ∀ j b v, (⟨j, b, v⟩ : Item (Axis.Interval A') V) ∈ items' ↔ j < n' ∧ ∃ b₀, g b₀ = b ∧ (⟨place j, b₀, v⟩ : Item (Axis.Interval A) V) ∈ items := by
  refine ⟨fun c hc => ?_, fun o o' => ?_⟩
  · unfold HashHistogram.value
    obtain ⟨-, ⟨o', ho'⟩⟩ := hs.total c hc
    cases o' with
    | none => right; rw [ho']; exact ⟨rfl, rfl⟩
    | some k =>
      obtain ⟨hk, hi⟩ := (hs.index _ hc k).1 ho'
      left
      rw [ho', hi]
      exact congrArg Except.ok (hv k hk)
  · have lt' : ∀ {i v}, h'.valueAtIndex i = some v → i < n' := fun {i v} e => ok'.valid _ ((HMap.get_isSome _ _).1 ⟨_, e⟩)
    obtain ⟨items, e1, n1, a1, b1, -⟩ := C32_iter ok o
    obtain ⟨items', e2, n2, a2, b2, -⟩ := C32_iter ok' o'
    refine ⟨items, items', e1, e2, n1, n2, fun j b v => ?_⟩
    constructor
    · intro hm
      obtain ⟨h1, h2⟩ := a2 _ hm
      have hj := lt' h1
      obtain ⟨it, hm', h4, rfl⟩ := b1 (place j) v (by rw [← hv j hj]; exact h1)
      have h5 := (a1 _ hm').2
      rw [h4] at h5
      simp only at h2
      rw [hs.bin j hj, h5] at h2
      cases h2
      exact ⟨hj, it.bin, rfl, by rw [← h4]; exact hm'⟩
    · rintro ⟨hj, b₀, rfl, hm⟩
      obtain ⟨h1, h2⟩ := a1 _ hm
      obtain ⟨it, hm', h4, rfl⟩ := b2 j v (by rw [hv j hj]; exact h1)
      have h5 := (a2 _ hm').2
      simp only at h2
      rw [h4, hs.bin j hj, h2] at h5
      have h6 : g b₀ = it.bin := Option.some.inj (Except.ok.inj h5)
      rw [← h4, h6]
      exact hm'

/-- **C98 (operators).** If `&l + &r` (or another operator) returns for the larger histograms it returns for the smaller ones, and the bins agree. -/
theorem C98_binary [PEq A] [PEq A'] [ROps V] (op : Op) {l r : VecHistogram A V} {l' r' : VecHistogram A' V} (hs : Within l.axes n l'.axes n' f g dom place)
    (okl : l.Ok n) (okr : r.Ok n) (okl' : l'.Ok n') (okr' : r'.Ok n') (hax : PEq.peq l.axes r.axes = true) (hax' : PEq.peq l'.axes r'.axes = true)
    (hl : ∀ j, j < n' → l'.valueAtIndex j = l.valueAtIndex (place j)) (hr : ∀ j, j < n' → r'.valueAtIndex j = r.valueAtIndex (place j)) {m : VecHistogram A V} (hm : l.opBorrow op r = .ok (.ok m)) :
    ∃ m', l'.opBorrow op r' = .ok (.ok m') ∧ ∀ j, j < n' → m'.valueAtIndex j = m.valueAtIndex (place j) := by
  rcases C33_binwise_dense op okl okr hax with ⟨m0, m1, m2, m3, m4⟩ | ⟨p, i, u, v, e1, e2, e3, e4⟩
  · rw [hm] at m1; cases m1
    rcases C33_binwise_dense op okl' okr' hax' with ⟨m', m1', m2', m3', m4'⟩ | ⟨p', j, u', v', e1', e2', e3', e4'⟩
    · refine ⟨m', m1', fun j hj => ?_⟩
      obtain ⟨x, y, z, h1, h2, h3, h4⟩ := m4 _ (hs.place_lt j hj)
      obtain ⟨x', y', z', h1', h2', h3', h4'⟩ := m4' j hj
      rw [hl j hj, h1] at h1'; rw [hr j hj, h2] at h2'
      cases h1'; cases h2'
      rw [h3] at h3'; cases h3'
      rw [h4, h4']
    · exfalso
      have hj : j < n' := by rw [← okl'.size]; exact (List.getElem?_eq_some_iff.1 e2').1
      obtain ⟨x, y, z, h1, h2, h3, -⟩ := m4 _ (hs.place_lt j hj)
      rw [hl j hj, h1] at e2'; rw [hr j hj, h2] at e3'
      cases e2'; cases e3'
      rw [h3] at e4'; cases e4'
  · rw [hm] at e1; cases e1
end

section
attribute [local instance] dbg64
/-- The flow bins can panic where the axis without them ignores the coordinate: 255 and one more in an overflow bin of `u8`. -/
theorem C98_counterexample_panic : ∃ (h : VecHistogram (Category String) (MInt .u8)) (h' : VecHistogram (CategoryNoFlow String) (MInt .u8)),
    VecHistogram.new (Category.new ["a", "b"]) = .ok h ∧ VecHistogram.new (CategoryNoFlow.new ["a", "b"]) = .ok h' ∧
    (h.callAll [.fillWith "z" (MInt.lit 255 : MInt .u8), .fill "z", .fill "a"]).2 = some .overflow ∧ (h'.callAll [.fillWith "z" (MInt.lit 255 : MInt .u8), .fill "z", .fill "a"]).2 = none :=
  ⟨⟨Category.new ["a", "b"], List.replicate 3 (MInt.lit 0)⟩, ⟨CategoryNoFlow.new ["a", "b"], List.replicate 2 (MInt.lit 0)⟩, by rfl, by rfl, by decide +kernel, by decide +kernel⟩
end
end NdHist
