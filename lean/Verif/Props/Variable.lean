import Verif.Lemmas.Variable
import Verif.Lemmas.UniformInt
import Verif.Spec
/-!
# Properties of variable-width axes (C10-C15)

Everything holds for every coordinate type whose `PartialOrd` is a linear order apart from NaN-like values
(`LawfulPOrd`; instances: all integer types, `f32`, `f64`), and for every standard library meeting the documented
contracts of `sort_by` and `binary_search_by` (`StdLib`).

`e.eq e = false` is how Rust code recognises NaN (`e != e`).
The hypothesis `edges.length + 1 < usizeSize` holds for every vector of a type that is not zero-sized: Rust vectors have
at most `isize::MAX` bytes.
-/
set_option linter.unusedSectionVars false
namespace NdHist
open POrd
section
variable {T : Type} [cfg : Cfg] [POrd T] [LawfulPOrd T] [StdLib]

/-! ## C10 -/

/-- **C10 (a).** `InvalidNumberOfBinEdges` exactly for fewer than two edges. -/
theorem C10_too_few_edges (edges : List T) :
    Variable.new edges = .ok (.error .InvalidNumberOfBinEdges) ↔ edges.length < 2 := by
  constructor
  · intro h
    by_contra hn
    by_cases hc : ∀ e ∈ edges, POrd.eq e e = true
    · obtain ⟨a, h1, _⟩ := Variable.new_comparable (by omega) hc
      rw [h1] at h; simp at h
    · push Not at hc
      obtain ⟨e, he, hne⟩ := hc
      rcases Variable.new_nan (by omega) ⟨e, he, by simpa using hne⟩ with h' | h' <;> rw [h'] at h <;> simp at h
  · exact Variable.new_lt_two

/-- **C10 (b, partial).** With at least two edges of which one is NaN, no axis is ever constructed: the result is
`FailedToSortBinEdges`, unless the standard library's sort panics on the inconsistent comparator. The
panic is missing from the documented behaviour; std permits it (Rust ≥ 1.81) because the comparator passed by
`Variable::new` is then not a total order, see `C10_nan_may_panic`. -/
theorem C10_nan_rejected_partial (edges : List T) (hn : 2 ≤ edges.length)
    (hnan : ∃ e ∈ edges, POrd.eq e e = false) :
    Variable.new edges = .ok (.error .FailedToSortBinEdges) ∨ Variable.new edges = .error .sortOrder :=
  Variable.new_nan hn hnan

/-- **C10 (c).** `Variable::new` succeeds exactly for at least two comparable edges, and the axis then holds
the given edges in non-decreasing order. -/
theorem C10_variable_new_sorts (edges : List T) :
    ((∃ a, Variable.new edges = .ok (.ok a)) ↔ 2 ≤ edges.length ∧ ∀ e ∈ edges, POrd.eq e e = true) ∧
    (∀ a, Variable.new edges = .ok (.ok a) →
      a.binEdges.Perm edges ∧ a.binEdges.Pairwise (fun x y => POrd.le x y = true)) := by
  refine ⟨⟨?_, ?_⟩, ?_⟩
  · rintro ⟨a, h⟩
    have := Variable.new_ok h
    exact ⟨this.1, this.2.1⟩
  · rintro ⟨h1, h2⟩
    obtain ⟨a, h, _⟩ := Variable.new_comparable h1 h2
    exact ⟨a, h⟩
  · intro a h
    have := Variable.new_ok h
    exact ⟨this.2.2.1, this.2.2.2.sorted⟩

/-- **C10 (d).** The order in which the edges are passed is irrelevant: both axes have, position by
position, equal edges (for floats: equal up to the sign of zero). -/
theorem C10_edge_order_irrelevant (edges edges' : List T) (hp : edges.Perm edges') (a a' : Variable T)
    (h : Variable.new edges = .ok (.ok a)) (h' : Variable.new edges' = .ok (.ok a')) :
    List.Forall₂ (fun x y => POrd.eq x y = true) a.binEdges a'.binEdges := by
  obtain ⟨_, _, p1, ok1⟩ := Variable.new_ok h
  obtain ⟨_, _, p2, ok2⟩ := Variable.new_ok h'
  have hperm : a.binEdges.Perm a'.binEdges := p1.trans (hp.trans p2.symm)
  have keys : ∀ l : List T, (∀ e ∈ l, POrd.eq e e = true) →
      ∃ ks : List (LawfulPOrd.K T), l.map LawfulPOrd.key = ks.map some := by
    intro l
    induction l with
    | nil => intro _; exact ⟨[], rfl⟩
    | cons e es ih =>
      intro hc
      obtain ⟨ks, hks⟩ := ih (fun e he => hc e (by simp [he]))
      obtain ⟨x, hx⟩ := LawfulPOrd.eq_self_iff.mp (hc e (by simp))
      exact ⟨x :: ks, by simp [hx, hks]⟩
  obtain ⟨ks, hks⟩ := keys _ ok1.comparable
  obtain ⟨ks', hks'⟩ := keys _ ok2.comparable
  have sorted : ∀ (l : List T) (ks : List (LawfulPOrd.K T)), l.map LawfulPOrd.key = ks.map some →
      l.Pairwise (fun x y => POrd.le x y = true) → ks.Pairwise (· ≤ ·) := by
    intro l ks hl hs
    have h1 : (l.map LawfulPOrd.key).Pairwise (fun u v => ∃ x y, u = some x ∧ v = some y ∧ x ≤ y) := by
      rw [List.pairwise_map]
      exact hs.imp (fun h => LawfulPOrd.le_iff.mp h)
    rw [hl, List.pairwise_map] at h1
    apply h1.imp
    rintro u v ⟨x, y, hx, hy, hxy⟩
    simp at hx hy; subst hx; subst hy; exact hxy
  have hkp : ks.Perm ks' := by
    have := hperm.map LawfulPOrd.key
    rw [hks, hks'] at this
    exact (List.map_perm_map_iff (Option.some_injective _)).mp this
  have heq : ks = ks' := hkp.eq_of_pairwise (fun a b _ _ h1 h2 => le_antisymm h1 h2)
    (sorted _ _ hks ok1.sorted) (sorted _ _ hks' ok2.sorted)
  subst heq
  have hmap : a.binEdges.map LawfulPOrd.key = a'.binEdges.map LawfulPOrd.key := by rw [hks, hks']
  rw [List.forall₂_iff_get]
  have hlen : a.binEdges.length = a'.binEdges.length := by simpa using congrArg List.length hmap
  refine ⟨hlen, ?_⟩
  intro i h1 h2
  have hget : (a.binEdges.map LawfulPOrd.key)[i]'(by simpa using h1) =
      (a'.binEdges.map LawfulPOrd.key)[i]'(by simpa using h2) := by simp only [hmap]
  simp only [List.getElem_map] at hget
  obtain ⟨x, hx⟩ := ok1.pk h1
  simp only [List.get_eq_getElem]
  rw [LawfulPOrd.eq_iff]
  exact ⟨x, hx, by rw [← hget]; exact hx⟩

/-- For integers the two axes of `C10_edge_order_irrelevant` are the same. -/
theorem C10_edge_order_irrelevant_int {τ : IntTy} (edges edges' : List (MInt τ)) (hp : edges.Perm edges')
    (a a' : Variable (MInt τ))
    (h : Variable.new edges = .ok (.ok a)) (h' : Variable.new edges' = .ok (.ok a')) : a = a' := by
  have := C10_edge_order_irrelevant edges edges' hp a a' h h'
  have h2 : a.binEdges = a'.binEdges := by
    rw [← List.forall₂_eq_eq_eq]
    apply this.imp
    intro x y hxy
    rw [MInt.eq_iff] at hxy
    exact MInt.ext (by simpa using hxy)
  cases a; cases a'; simpa using h2

/-- A sort that asks `(0,1)` and `(1,0)` of a two-element slice and panics if both answers are `Less`: a correct
sort for every total order. -/
def suspiciousSort : SortAlg where
  tree n := if n = 2 then .ask 0 1 fun o => .ask 1 0 fun o' =>
      if o = .lt ∧ o' = .lt then .panic else insertionSort.tree 2
    else insertionSort.tree n
  wf n := by
    by_cases h : n = 2
    · subst h
      simp only [if_true]
      refine ⟨by omega, by omega, fun o => ⟨by omega, by omega, fun o' => ?_⟩⟩
      show SortTree.Wf 2 (if o = .lt ∧ o' = .lt then .panic else insertionSort.tree 2)
      split
      · trivial
      · exact insertionSort.wf 2
    · simp only [h, if_false]; exact insertionSort.wf n
  sorted n rank := by
    by_cases h : n = 2
    · subst h
      simp only [if_true, SortTree.run]
      have : ¬ (compare (rank 0) (rank 1) = .lt ∧ compare (rank 1) (rank 0) = .lt) := by
        rw [Nat.compare_eq_lt, Nat.compare_eq_lt]; omega
      rw [if_neg this]
      exact insertionSort.sorted 2 rank
    · simp only [h, if_false]; exact insertionSort.sorted n rank

end
section
attribute [local instance] dbg64

/-- The panic of `C10_nan_rejected_partial` is allowed by the contract of `sort_by`: `Variable::new([NaN, 1.0])`. -/
theorem C10_nan_may_panic :
    ∃ _std : StdLib, Variable.new (T := Flt .f64) [.nan, @RNum.one _ dbg64 _] = .error .sortOrder :=
  ⟨⟨suspiciousSort, searchAlgNew⟩, by decide +kernel⟩

end
section
variable {T : Type} [cfg : Cfg] [POrd T] [LawfulPOrd T] [StdLib]

end
section
attribute [local instance] dbg64 stdOld

/-- non-vacuity of C10: unsorted integer edges, and float edges with a NaN -/
example : Variable.new (T := MInt .i32) [.lit 5, .lit 1, .lit 3] = .ok (.ok ⟨[.lit 1, .lit 3, .lit 5]⟩) := by decide
example : Variable.new (T := Flt .f64) [@RNum.one _ dbg64 _, .nan] =
    .ok (.error .FailedToSortBinEdges) := by decide +kernel

end
section
variable {T : Type} [cfg : Cfg] [POrd T] [LawfulPOrd T] [StdLib]

/-! ## C11, C12 -/

/-- distinct edges are stored in strictly increasing order -/
theorem strict_of_distinct {edges : List T} {a : Variable T} (h : Variable.new edges = .ok (.ok a))
    (hd : edges.Pairwise (fun x y => POrd.eq x y = false)) {i j : Nat} (hij : i < j) (hj : j < a.binEdges.length) :
    POrd.lt a.binEdges[i] a.binEdges[j] = true := by
  obtain ⟨_, _, p1, ok1⟩ := Variable.new_ok h
  have hd' : a.binEdges.Pairwise (fun x y => POrd.eq x y = false) :=
    (p1.pairwise_iff (fun {x y} hxy => by
      rw [Bool.eq_false_iff] at hxy ⊢
      exact fun hh => hxy (Variable.eq_symm' hh))).mpr hd
  have h1 := List.pairwise_iff_getElem.mp hd' i j (by omega) hj hij
  have h2 := ok1.mono hij.le hj
  rw [LawfulPOrd.le_iff] at h2
  obtain ⟨x, y, hx, hy, hxy⟩ := h2
  rw [LawfulPOrd.lt_iff]
  refine ⟨x, y, hx, hy, lt_of_le_of_ne hxy ?_⟩
  rintro rfl
  have := LawfulPOrd.eq_iff.mpr ⟨x, hx, hy⟩
  simp [this] at h1

/-- **C11.** On an axis built from distinct edges, stored as `e 0 < e 1 < ... < e (n-1)`: `index` never panics;
it is `0` exactly below `e 0`, the last bin `n` exactly from `e (n-1)` on or for NaN, and `k+1` exactly on
`[e k, e (k+1))`. -/
theorem C11_variable_index {edges : List T} {a : Variable T} (hnew : Variable.new edges = .ok (.ok a))
    (hd : edges.Pairwise (fun x y => POrd.eq x y = false)) (hmem : edges.length + 1 < usizeSize)
    (c : T) :
    ∃ i, a.index c = .ok (some i) ∧ i ≤ edges.length ∧
      (i = 0 ↔ ∃ e, a.binEdges[0]? = some e ∧ POrd.lt c e = true) ∧
      (i = edges.length ↔
        POrd.eq c c = false ∨ ∃ e, a.binEdges[edges.length - 1]? = some e ∧ POrd.le e c = true) ∧
      (∀ k, k + 1 < edges.length →
        (i = k + 1 ↔ ∃ s e, a.binEdges[k]? = some s ∧ a.binEdges[k + 1]? = some e ∧
          POrd.le s c = true ∧ POrd.lt c e = true)) := by
  obtain ⟨h2, _, p1, ok1⟩ := Variable.new_ok hnew
  have hlen := p1.length_eq
  by_cases hc : POrd.eq c c = true
  · obtain ⟨i, h1, hle, hcase⟩ := Variable.index_cmp ok1 (by omega) hc
    refine ⟨i, h1, by omega, ?_⟩
    -- every edge below `i` is ≤ c, every edge from `i` on is > c
    have below : ∀ j (h : j < a.binEdges.length), j < i → POrd.le a.binEdges[j] c = true := by
      intro j hj hji
      rcases hcase with ⟨m, hm, rfl, hme⟩ | ⟨hb, _⟩
      · exact Variable.le_trans' (ok1.mono (by omega) hm) (Variable.le_of_eq' hme)
      · exact Variable.le_of_lt' (hb j hj hji)
    have above : ∀ j (h : j < a.binEdges.length), i ≤ j → POrd.lt c a.binEdges[j] = true := by
      intro j hj hji
      rcases hcase with ⟨m, hm, rfl, hme⟩ | ⟨_, ha⟩
      · exact Variable.lt_of_le_of_lt' (Variable.le_of_eq' (Variable.eq_symm' hme))
          (strict_of_distinct hnew hd (by omega) hj)
      · exact ha j hj hji
    refine ⟨?_, ?_, ?_⟩
    · rw [List.getElem?_eq_getElem (by omega)]
      constructor
      · rintro rfl
        exact ⟨_, rfl, above 0 (by omega) (by omega)⟩
      · rintro ⟨e, he, hlt⟩
        simp at he; subst he
        by_contra hi
        have := Variable.not_lt_of_le' (below 0 (by omega) (by omega))
        simp [this] at hlt
    · rw [List.getElem?_eq_getElem (by omega)]
      constructor
      · rintro rfl
        exact Or.inr ⟨_, rfl, below _ (by omega) (by omega)⟩
      · rintro (h | ⟨e, he, hge⟩)
        · simp [hc] at h
        · simp at he; subst he
          by_contra hi
          have := above (edges.length - 1) (by omega) (by omega)
          simp [Variable.not_lt_of_le' hge] at this
    · intro k hk
      rw [List.getElem?_eq_getElem (by omega), List.getElem?_eq_getElem (by omega)]
      constructor
      · rintro rfl
        exact ⟨_, _, rfl, rfl, below k (by omega) (by omega), above (k + 1) (by omega) (by omega)⟩
      · rintro ⟨s, e, hs, he, h3, h4⟩
        simp at hs he; subst hs; subst he
        have n1 : ¬ i ≤ k := fun h => by
          have := above k (by omega) h
          simp [Variable.not_lt_of_le' h3] at this
        have n2 : ¬ k + 1 < i := fun h => by
          have := Variable.not_lt_of_le' (below (k + 1) (by omega) h)
          simp [this] at h4
        omega
  · have hc' : POrd.eq c c = false := by simpa using hc
    refine ⟨_, Variable.index_nan ok1 hc', by omega, ?_, ?_, ?_⟩
    · constructor
      · intro h; omega
      · rintro ⟨e, _, hlt⟩
        rw [LawfulPOrd.lt_iff] at hlt
        obtain ⟨x, _, hx, _⟩ := hlt
        exact absurd (LawfulPOrd.eq_self_iff.mpr ⟨x, hx⟩) hc
    · exact ⟨fun _ => Or.inl hc', fun _ => hlen⟩
    · intro k hk
      constructor
      · intro h; omega
      · rintro ⟨s, e, _, _, _, hlt⟩
        rw [LawfulPOrd.lt_iff] at hlt
        obtain ⟨x, _, hx, _⟩ := hlt
        exact absurd (LawfulPOrd.eq_self_iff.mpr ⟨x, hx⟩) hc

end
section
attribute [local instance] dbg64 stdOld

/-- non-vacuity of C11 -/
example : ∃ a, Variable.new (T := MInt .i32) [.lit 5, .lit 1, .lit 3] = .ok (.ok a) ∧
    Variable.index a (.lit 3) = .ok (some 2) ∧
    Variable.index a (.lit 0) = .ok (some 0) ∧
    Variable.index a (.lit 5) = .ok (some 3) :=
  ⟨⟨[.lit 1, .lit 3, .lit 5]⟩, by decide, by decide, by decide, by decide⟩

end
section
variable {T : Type} [cfg : Cfg] [POrd T] [LawfulPOrd T] [StdLib]

/-- **C12 (partial).** With repeated edges allowed, `index` still finds a bin whose closed interval contains
the coordinate, and the half-open one does unless the coordinate equals an edge that is repeated. Missing for
the full property: which of several equal edges the search reports is unspecified, so an entry may end up in
a zero-width bin; see `C12_counterexample` (Rust ≤ 1.81) and `C12_last_match` (Rust ≥ 1.82). -/
theorem C12_repeated_edges_partial {edges : List T} {a : Variable T} (hnew : Variable.new edges = .ok (.ok a))
    (hmem : edges.length + 1 < usizeSize) (c : T) (hc : POrd.eq c c = true) :
    ∃ i, a.index c = .ok (some i) ∧ i ≤ edges.length ∧
      (∀ k s, a.binEdges[k]? = some s → k < i → POrd.le s c = true) ∧
      (∀ k e, a.binEdges[k]? = some e → i ≤ k → POrd.le c e = true ∧
        (POrd.lt c e = true ∨ ∃ s, 0 < i ∧ a.binEdges[i - 1]? = some s ∧ POrd.eq s c = true ∧ POrd.eq e c = true)) := by
  obtain ⟨h2, _, p1, ok1⟩ := Variable.new_ok hnew
  have hlen := p1.length_eq
  obtain ⟨i, h1, hle, hcase⟩ := Variable.index_cmp ok1 (by omega) hc
  refine ⟨i, h1, by omega, ?_, ?_⟩
  · intro k s hk hki
    rw [List.getElem?_eq_some_iff] at hk
    obtain ⟨hk1, rfl⟩ := hk
    rcases hcase with ⟨m, hm, rfl, hme⟩ | ⟨hb, _⟩
    · exact Variable.le_trans' (ok1.mono (by omega) hm) (Variable.le_of_eq' hme)
    · exact Variable.le_of_lt' (hb k hk1 hki)
  · intro k e hk hki
    rw [List.getElem?_eq_some_iff] at hk
    obtain ⟨hk1, rfl⟩ := hk
    rcases hcase with ⟨m, hm, rfl, hme⟩ | ⟨_, ha⟩
    · have hle : POrd.le c a.binEdges[k] = true :=
        Variable.le_trans' (Variable.le_of_eq' (Variable.eq_symm' hme)) (ok1.mono (by omega) hk1)
      refine ⟨hle, ?_⟩
      rw [LawfulPOrd.le_iff] at hle
      obtain ⟨x, y, hx, hy, hxy⟩ := hle
      rcases hxy.lt_or_eq with hlt | rfl
      · left
        rw [LawfulPOrd.lt_iff]; exact ⟨x, y, hx, hy, hlt⟩
      · right
        refine ⟨a.binEdges[m], by omega, ?_, hme, LawfulPOrd.eq_iff.mpr ⟨x, hy, hx⟩⟩
        simp [hm]
    · have := ha k hk1 hki
      exact ⟨Variable.le_of_lt' this, Or.inl this⟩

/-- **C12 for a standard library whose binary search reports the last match** (the implementation since
Rust 1.82, `stdNew`): the reported bin always covers the coordinate, repeated edges or not. -/
theorem C12_last_match {edges : List T} {a : Variable T} (hnew : Variable.new edges = .ok (.ok a))
    (hmem : edges.length + 1 < usizeSize)
    (hlast : ∀ n cmp i, SearchSorted n cmp → (StdLib.search).run n cmp = .ok i →
      ∀ j, i < j → j < n → cmp j = .gt)
    (c : T) (hc : POrd.eq c c = true) :
    ∃ i, a.index c = .ok (some i) ∧ i ≤ edges.length ∧
      (∀ k s, a.binEdges[k]? = some s → k < i → POrd.le s c = true) ∧
      (∀ k e, a.binEdges[k]? = some e → i ≤ k → POrd.lt c e = true) := by
  obtain ⟨h2, _, p1, ok1⟩ := Variable.new_ok hnew
  have hlen := p1.length_eq
  obtain ⟨i, h1, hle, hb, ha⟩ := C12_repeated_edges_partial hnew hmem c hc
  refine ⟨i, h1, hle, hb, ?_⟩
  intro k e hk hki
  have hss := Variable.searchSorted ok1 c
  have hk' := hk
  rw [List.getElem?_eq_some_iff] at hk'
  obtain ⟨hk1, rfl⟩ := hk'
  rw [← Variable.probeCmp_gt ok1 hc hk1]
  unfold Variable.index at h1
  cases h : (StdLib.search).run a.binEdges.length (Variable.probeCmp a c) with
  | ok j =>
    obtain ⟨hj, _⟩ := (StdLib.search).ok_spec _ _ _ hss h
    rw [h] at h1
    simp [uadd_ok (show j + 1 < usizeSize by omega)] at h1
    exact hlast _ _ j hss h k (by omega) hk1
  | err j =>
    rw [h] at h1
    simp at h1
    subst h1
    exact ((StdLib.search).err_spec _ _ _ hss h).2.2 k hki hk1

end
section
attribute [local instance] dbg64 stdNew

/-- the hypothesis `hlast` of `C12_last_match` holds for the binary search of Rust ≥ 1.82 -/
example : ∀ n cmp i, SearchSorted n cmp → (stdNew.search).run n cmp = .ok i →
      ∀ j, i < j → j < n → cmp j = .gt :=
  fun n cmp i hs h => ((searchNew_spec n cmp hs).1 i h).2.2

end
section
variable {T : Type} [cfg : Cfg] [POrd T] [LawfulPOrd T] [StdLib]

end
section
attribute [local instance] dbg64 stdNew

/-- and there the zero-width bin of `C12_counterexample` stays empty -/
example : ∃ a, Variable.new (T := MInt .i32) [.lit 0, .lit 1, .lit 1, .lit 1, .lit 2] = .ok (.ok a) ∧
      Variable.index a (.lit 1) = .ok (some 4) ∧
      Variable.bin a 4 = .ok (some (.Bin (.lit 1) (.lit 2))) :=
  ⟨⟨[.lit 0, .lit 1, .lit 1, .lit 1, .lit 2]⟩, by decide, by decide, by decide⟩

end
section
variable {T : Type} [cfg : Cfg] [POrd T] [LawfulPOrd T] [StdLib]

end
section
attribute [local instance] dbg64 stdOld

/-- Witness that C12 is false with the binary search of Rust ≤ 1.81: with edges 0,1,1,1,2 the coordinate 1 is
counted in bin 3, which is the empty interval [1, 1), instead of [1, 2). -/
theorem C12_counterexample :
    ∃ a, Variable.new (T := MInt .i32) [.lit 0, .lit 1, .lit 1, .lit 1, .lit 2] = .ok (.ok a) ∧
      Variable.index a (.lit 1) = .ok (some 3) ∧
      Variable.bin a 3 = .ok (some (.Bin (.lit 1) (.lit 1))) :=
  ⟨⟨[.lit 0, .lit 1, .lit 1, .lit 1, .lit 2]⟩, by decide, by decide, by decide⟩

end
section
variable {T : Type} [cfg : Cfg] [POrd T] [LawfulPOrd T] [StdLib]

/-! ## C13, C14 -/

/-- **C13.** `bin(0)` is the underflow below the smallest edge, `bin(k+1)` is `[e k, e (k+1))`, `bin(n)` (n the
number of edges) is the overflow from the largest edge; beyond there is none; `num_bins` is `n+1`. -/
theorem C13_variable_bins {edges : List T} {a : Variable T} (hnew : Variable.new edges = .ok (.ok a))
    (hmem : edges.length + 1 < usizeSize) :
    a.numBins = .ok (edges.length + 1) ∧
    (∃ e, a.binEdges[0]? = some e ∧ a.low = .ok e ∧ a.bin 0 = .ok (some (.Underflow e))) ∧
    (∃ e, a.binEdges[edges.length - 1]? = some e ∧ a.high = .ok e ∧
      a.bin edges.length = .ok (some (.Overflow e))) ∧
    (∀ k, k + 1 < edges.length → ∃ s e, a.binEdges[k]? = some s ∧ a.binEdges[k + 1]? = some e ∧
      a.bin (k + 1) = .ok (some (.Bin s e))) ∧
    (∀ i, edges.length < i → a.bin i = .ok none) := by
  obtain ⟨h2, _, p1, ok1⟩ := Variable.new_ok hnew
  have hlen := p1.length_eq
  have hlow := Variable.low_eq ok1
  have hhigh := Variable.high_eq ok1
  refine ⟨?_, ⟨_, List.getElem?_eq_getElem (by omega), hlow, ?_⟩,
    ⟨a.binEdges[a.binEdges.length - 1]'(by omega), ?_, hhigh, ?_⟩, ?_, ?_⟩
  · rw [Variable.numBins, hlen, uadd_ok hmem]
  · simp [Variable.bin, hlow, BinInterval.underflow]
  · rw [List.getElem?_eq_getElem (by omega)]; simp [hlen]
  · have h0 : edges.length ≠ 0 := by omega
    unfold Variable.bin
    simp only [hlen, h0, if_false, if_true]
    rw [hhigh]; simp [hlen, BinInterval.overflow]
  · intro k hk
    refine ⟨_, _, List.getElem?_eq_getElem (by omega), List.getElem?_eq_getElem (by omega), ?_⟩
    have h1 : ¬ (k + 1 = a.binEdges.length) := by omega
    have h2 : k + 1 < a.binEdges.length := by omega
    unfold Variable.bin
    simp [h1, h2, indexSlice, show k < a.binEdges.length by omega, BinInterval.new]
  · intro i hi
    have h1 : ¬ (i = a.binEdges.length) := by omega
    have h2 : ¬ (i < a.binEdges.length) := by omega
    have h3 : ¬ (i = 0) := by omega
    unfold Variable.bin
    simp [h1, h2, h3]

end
section
attribute [local instance] dbg64 stdOld

/-- non-vacuity of C13 -/
example : ∃ a, Variable.new (T := MInt .i32) [.lit 5, .lit 1, .lit 3] = .ok (.ok a) ∧
    Variable.bin a 2 = .ok (some (.Bin (.lit 3) (.lit 5))) ∧
    Variable.bin a 3 = .ok (some (.Overflow (.lit 5))) ∧
    Variable.bin a 4 = .ok none :=
  ⟨⟨[.lit 1, .lit 3, .lit 5]⟩, by decide, by decide, by decide, by decide⟩

end
section
variable {T : Type} [cfg : Cfg] [POrd T] [LawfulPOrd T] [StdLib]

/-- **C11, in terms of the reported bins.** A comparable coordinate is counted in bin `i` exactly when the interval
`bin(i)` contains it: each coordinate lies in one and only one of the reported bins, and `index` finds it. -/
theorem C11_index_iff_bin_covers {edges : List T} {a : Variable T} (hnew : Variable.new edges = .ok (.ok a))
    (hd : edges.Pairwise (fun x y => POrd.eq x y = false)) (hmem : edges.length + 1 < usizeSize)
    (c : T) (hc : POrd.eq c c = true) (i : Nat) :
    a.index c = .ok (some i) ↔ ∃ b, a.bin i = .ok (some b) ∧ b.Covers c := by
  obtain ⟨h2, _⟩ := Variable.new_ok hnew
  obtain ⟨i', hi', hle, k0, kn, kk⟩ := C11_variable_index hnew hd hmem c
  obtain ⟨_, ⟨e0, he0, _, b0⟩, ⟨en, hen, _, bn⟩, bk, bout⟩ := C13_variable_bins hnew hmem
  rw [hi']
  simp only [Except.ok.injEq, Option.some.injEq]
  rcases Nat.eq_zero_or_pos i with rfl | hpos
  · rw [k0, b0]
    simp [he0, BinInterval.Covers]
  · rcases Nat.lt_trichotomy i edges.length with h | rfl | h
    · obtain ⟨k, rfl⟩ : ∃ k, i = k + 1 := ⟨i - 1, by omega⟩
      obtain ⟨s, e, hs, he, hb⟩ := bk k h
      rw [kk k h, hb]
      simp [hs, he, BinInterval.Covers]
    · rw [kn, bn]
      simp [hen, BinInterval.Covers, hc]
    · rw [bout i h]
      simp
      omega

/-- `VariableNoFlow::new` wraps `Variable::new` -/
theorem VariableNoFlow.new_ok {edges : List T} {a : VariableNoFlow T}
    (hnew : VariableNoFlow.new edges = .ok (.ok a)) : Variable.new edges = .ok (.ok a.axis) := by
  unfold VariableNoFlow.new at hnew
  cases h : Variable.new edges with
  | error p => rw [h] at hnew; simp at hnew
  | ok r =>
    cases r with
    | error e => rw [h] at hnew; simp at hnew
    | ok v => rw [h] at hnew; simp at hnew; subst hnew; rfl

/-- what `VariableNoFlow::index` does with the answer of `Variable::index` -/
theorem VariableNoFlow.index_of {a : VariableNoFlow T} {c : T} {j : Nat}
    (hmem : a.axis.binEdges.length + 1 < usizeSize)
    (hj : a.axis.index c = .ok (some j)) (hle : j ≤ a.axis.binEdges.length) :
    a.index c = .ok (if j = 0 ∨ j = a.axis.binEdges.length then none else some (j - 1)) := by
  unfold VariableNoFlow.index
  rw [hj]
  simp only [Res.ok_bind, Variable.numBins]
  by_cases h0 : j = 0
  · simp [h0]
  · rw [uadd_ok (show j + 1 < usizeSize by omega), uadd_ok hmem]
    simp only [h0, if_false, Res.ok_bind, false_or, Nat.add_right_cancel_iff]
    by_cases h1 : j = a.axis.binEdges.length
    · simp [h1]
    · simp only [h1, if_false]
      rw [usub_ok (by omega)]
      simp

/-- **C14 (index).** `VariableNoFlow` numbers the inner bins of `Variable` from zero; exactly the
coordinates in a flow bin (below the first edge, from the last edge on, NaN) have no bin. `edges` may contain
duplicates. -/
theorem C14_variable_noflow_index {edges : List T} {a : VariableNoFlow T}
    (hnew : VariableNoFlow.new edges = .ok (.ok a)) (hmem : edges.length + 1 < usizeSize) (c : T) :
    ∃ j, a.axis.index c = .ok (some j) ∧ j ≤ edges.length ∧
      (∀ i, a.index c = .ok (some i) ↔ j = i + 1 ∧ i < edges.length - 1) ∧
      (a.index c = .ok none ↔ j = 0 ∨ j = edges.length) := by
  have hv := VariableNoFlow.new_ok hnew
  obtain ⟨h2, _, p1, ok1⟩ := Variable.new_ok hv
  have hlen := p1.length_eq
  obtain ⟨j, hj, hle⟩ : ∃ j, a.axis.index c = .ok (some j) ∧ j ≤ a.axis.binEdges.length := by
    by_cases hc : POrd.eq c c = true
    · obtain ⟨i, h1, hle, _⟩ := Variable.index_cmp ok1 (by omega) hc
      exact ⟨i, h1, hle⟩
    · exact ⟨_, Variable.index_nan ok1 (by simpa using hc), le_rfl⟩
  refine ⟨j, hj, by omega, ?_⟩
  rw [VariableNoFlow.index_of (by omega) hj hle, hlen]
  constructor
  · intro i
    by_cases h : j = 0 ∨ j = edges.length
    · simp [h]; omega
    · simp [h]; omega
  · by_cases h : j = 0 ∨ j = edges.length <;> simp [h]

/-- **C14 (coordinates).** For distinct edges, directly in terms of the edges: `Some(i)` exactly on
`[e i, e (i+1))`; `None` exactly below the first edge, from the last edge on, and for NaN. -/
theorem C14_variable_noflow_covers {edges : List T} {a : VariableNoFlow T}
    (hnew : VariableNoFlow.new edges = .ok (.ok a)) (hmem : edges.length + 1 < usizeSize)
    (hd : edges.Pairwise (fun x y => POrd.eq x y = false)) (c : T) :
    (∃ o, a.index c = .ok o) ∧
    (∀ i, a.index c = .ok (some i) ↔ i + 1 < edges.length ∧
      ∃ s e, a.axis.binEdges[i]? = some s ∧ a.axis.binEdges[i + 1]? = some e ∧
        POrd.le s c = true ∧ POrd.lt c e = true) ∧
    (a.index c = .ok none ↔ POrd.eq c c = false ∨
      (∃ e, a.axis.binEdges[0]? = some e ∧ POrd.lt c e = true) ∨
      (∃ e, a.axis.binEdges[edges.length - 1]? = some e ∧ POrd.le e c = true)) := by
  have hv := VariableNoFlow.new_ok hnew
  obtain ⟨j, hj, hle, hi, hn⟩ := C14_variable_noflow_index hnew hmem c
  obtain ⟨j', hj', _, k0, kn, kk⟩ := C11_variable_index hv hd hmem c
  rw [hj'] at hj
  simp at hj
  subst hj
  refine ⟨?_, ?_, ?_⟩
  · by_cases h : j' = 0 ∨ j' = edges.length
    · exact ⟨none, hn.mpr h⟩
    · exact ⟨some (j' - 1), (hi _).mpr (by omega)⟩
  · intro i
    rw [hi]
    constructor
    · rintro ⟨rfl, h⟩
      exact ⟨by omega, (kk i (by omega)).mp rfl⟩
    · rintro ⟨h1, h2⟩
      exact ⟨(kk i h1).mpr h2, by omega⟩
  · rw [hn, k0, kn]
    exact or_left_comm

/-- **C14 (bins).** `num_bins` is the number of edges minus one, `bin(i)` is `[e i, e (i+1))` and `None` from there
on. -/
theorem C14_variable_noflow_bins {edges : List T} {a : VariableNoFlow T}
    (hnew : VariableNoFlow.new edges = .ok (.ok a)) (hmem : edges.length + 1 < usizeSize) :
    a.numBins = .ok (edges.length - 1) ∧
    (∀ i, i + 1 < edges.length → ∃ s e, a.axis.binEdges[i]? = some s ∧ a.axis.binEdges[i + 1]? = some e ∧
      a.bin i = .ok (some (.Bin s e))) ∧
    (∀ i, edges.length ≤ i + 1 → i + 1 < usizeSize → a.bin i = .ok none) := by
  have hv := VariableNoFlow.new_ok hnew
  obtain ⟨b1, b2, ⟨eh, _, _, b3⟩, b4, b5⟩ := C13_variable_bins hv hmem
  obtain ⟨h2, _⟩ := Variable.new_ok hv
  refine ⟨?_, ?_, ?_⟩
  · unfold VariableNoFlow.numBins
    rw [b1]
    simp only [Res.ok_bind]
    rw [usub_ok (by omega)]
    rfl
  · intro i hi
    obtain ⟨s, e, hs, he, hb⟩ := b4 i hi
    refine ⟨s, e, hs, he, ?_⟩
    unfold VariableNoFlow.bin
    rw [uadd_ok (by omega)]
    simp [hb]
  · intro i hi hsz
    unfold VariableNoFlow.bin
    rw [uadd_ok hsz]
    rcases Nat.lt_or_ge edges.length (i + 1) with h | h
    · simp [b5 (i + 1) h]
    · have : i + 1 = edges.length := by omega
      simp [this, b3]

/-- **C14, in terms of the reported bins.** -/
theorem C14_index_iff_bin_covers {edges : List T} {a : VariableNoFlow T}
    (hnew : VariableNoFlow.new edges = .ok (.ok a)) (hmem : edges.length + 1 < usizeSize)
    (hd : edges.Pairwise (fun x y => POrd.eq x y = false)) (c : T) (i : Nat) (hi : i + 1 < usizeSize) :
    a.index c = .ok (some i) ↔ ∃ b, a.bin i = .ok (some b) ∧ b.Covers c := by
  obtain ⟨_, hs, _⟩ := C14_variable_noflow_covers hnew hmem hd c
  obtain ⟨_, hb, hout⟩ := C14_variable_noflow_bins hnew hmem
  rw [hs]
  by_cases h : i + 1 < edges.length
  · obtain ⟨s, e, h1, h2, h3⟩ := hb i h
    rw [h3]
    simp [h1, h2, h, BinInterval.Covers]
  · rw [hout i (by omega) hi]
    simp [h]

end
section
attribute [local instance] dbg64 stdOld

/-- non-vacuity of C14 -/
example : ∃ a, VariableNoFlow.new (T := MInt .i32) [.lit 5, .lit 1, .lit 3] = .ok (.ok a) ∧
    VariableNoFlow.index a (.lit 4) = .ok (some 1) ∧
    VariableNoFlow.index a (.lit 5) = .ok none ∧
    VariableNoFlow.bin a 1 = .ok (some (.Bin (.lit 3) (.lit 5))) :=
  ⟨⟨⟨[.lit 1, .lit 3, .lit 5]⟩⟩, by decide, by decide, by decide, by decide⟩

end
section
variable {T : Type} [cfg : Cfg] [POrd T] [LawfulPOrd T] [StdLib]

/-! ## C15 -/

theorem VariableCyclic.new_ok {edges : List T} {a : VariableCyclic T}
    (hnew : VariableCyclic.new edges = .ok (.ok a)) : VariableNoFlow.new edges = .ok (.ok a.axis) := by
  unfold VariableCyclic.new at hnew
  cases h : VariableNoFlow.new edges with
  | error p => rw [h] at hnew; simp at hnew
  | ok r =>
    cases r with
    | error e => rw [h] at hnew; simp at hnew
    | ok v => rw [h] at hnew; simp at hnew; subst hnew; rfl

variable {τ : IntTy}

/-- **C15 (integers, partial).** On a cyclic axis with distinct integer edges, a coordinate lands in the bin that
contains one of its representatives `c + t*(high-low)`. Missing: coordinates with `c - low`, or axes with
`high - low`, not representable in the coordinate type (see C08). -/
theorem C15_variable_cyclic_int_partial {edges : List (MInt τ)} {a : VariableCyclic (MInt τ)}
    (hnew : VariableCyclic.new edges = .ok (.ok a)) (hmem : edges.length + 1 < usizeSize)
    (hd : edges.Nodup) (c : MInt τ) :
    ∃ lo hi : MInt τ, a.low = .ok lo ∧ a.high = .ok hi ∧ lo.val < hi.val ∧
      (hi.val - lo.val ≤ τ.max → τ.min ≤ c.val - lo.val → c.val - lo.val ≤ τ.max →
        ∃ k, ∃ s e : MInt τ, k + 1 < edges.length ∧ a.index c = .ok (some k) ∧
          a.bin k = .ok (some (.Bin s e)) ∧
          ∃ t : ℤ, s.val ≤ c.val + t * (hi.val - lo.val) ∧ c.val + t * (hi.val - lo.val) < e.val) := by
  have hnf := VariableCyclic.new_ok hnew
  have hv := VariableNoFlow.new_ok hnf
  obtain ⟨h2, _, p1, ok1⟩ := Variable.new_ok hv
  have hlen := p1.length_eq
  have hd' : edges.Pairwise (fun x y => POrd.eq x y = false) := by
    rw [List.nodup_iff_pairwise_ne] at hd
    apply hd.imp
    intro x y hxy
    rw [MInt.eq_iff]
    simp only [decide_eq_false_iff_not]
    exact fun h => hxy (MInt.ext h)
  obtain ⟨b1, ⟨lo, l1, l2, _⟩, ⟨hi, g1, g2, _⟩, _, _⟩ := C13_variable_bins hv hmem
  have hlt : lo.val < hi.val := by
    have := strict_of_distinct hv hd' (i := 0) (j := edges.length - 1) (by omega) (by omega)
    rw [List.getElem?_eq_getElem (by omega)] at l1 g1
    simp at l1 g1
    rw [l1, g1, MInt.lt_iff] at this
    simpa using this
  refine ⟨lo, hi, l2, g2, hlt, ?_⟩
  intro hr h1 h3
  obtain ⟨y, hy1, hy2⟩ := wrapAround_int hlt hr h1 h3
  have hm1 := Int.emod_nonneg (c.val - lo.val) (b := hi.val - lo.val) (by omega)
  have hm2 := Int.emod_lt_of_pos (c.val - lo.val) (b := hi.val - lo.val) (by omega)
  obtain ⟨⟨o, ho⟩, cs, cn⟩ := C14_variable_noflow_covers hnf hmem hd' y
  have hsome : ∃ k, o = some k := by
    cases o with
    | some k => exact ⟨k, rfl⟩
    | none =>
      rcases cn.mp ho with h | ⟨e, he, hlt'⟩ | ⟨e, he, hge⟩
      · rw [MInt.eq_iff] at h; simp at h
      · rw [l1] at he; simp at he; subst he
        rw [MInt.lt_iff] at hlt'; simp at hlt'; omega
      · rw [g1] at he; simp at he; subst he
        rw [MInt.le_iff] at hge; simp at hge; omega
  obtain ⟨k, rfl⟩ := hsome
  obtain ⟨hk, s, e, hs, he, hse1, hse2⟩ := (cs k).mp ho
  obtain ⟨_, bb, _⟩ := C14_variable_noflow_bins hnf hmem
  obtain ⟨s', e', hs', he', hbin⟩ := bb k hk
  rw [hs] at hs'; rw [he] at he'
  simp at hs' he'; subst hs'; subst he'
  rw [MInt.le_iff] at hse1
  rw [MInt.lt_iff] at hse2
  simp only [decide_eq_true_eq] at hse1 hse2
  refine ⟨k, s, e, hk, ?_, hbin, -((c.val - lo.val) / (hi.val - lo.val)), ?_⟩
  · unfold VariableCyclic.index
    simp only [VariableNoFlow.low, VariableNoFlow.high, l2, g2, Res.ok_bind, hy1]
    exact ho
  · have hdm := Int.emod_add_mul_ediv (c.val - lo.val) (hi.val - lo.val)
    have hcom : (-((c.val - lo.val) / (hi.val - lo.val))) * (hi.val - lo.val)
        = - ((hi.val - lo.val) * ((c.val - lo.val) / (hi.val - lo.val))) := by ring
    rw [hcom]
    constructor <;> linarith

/-- **C15 (whole turns, partial).** Coordinates that differ by whole turns share their bin (same
representability conditions). -/
theorem C15_variable_cyclic_int_turns_partial {edges : List (MInt τ)} {a : VariableCyclic (MInt τ)}
    (hnew : VariableCyclic.new edges = .ok (.ok a)) (hd : edges.Nodup)
    (lo hi : MInt τ) (hlo : a.low = .ok lo) (hhi : a.high = .ok hi) (hr : hi.val - lo.val ≤ τ.max)
    (c c' : MInt τ) (t : ℤ) (hturn : c'.val = c.val + t * (hi.val - lo.val))
    (h1 : τ.min ≤ c.val - lo.val) (h2 : c.val - lo.val ≤ τ.max)
    (h1' : τ.min ≤ c'.val - lo.val) (h2' : c'.val - lo.val ≤ τ.max) :
    a.index c = a.index c' := by
  have hnf := VariableCyclic.new_ok hnew
  have hv := VariableNoFlow.new_ok hnf
  obtain ⟨hn2, _, p1, ok1⟩ := Variable.new_ok hv
  have hlen := p1.length_eq
  have hd' : edges.Pairwise (fun x y => POrd.eq x y = false) := by
    rw [List.nodup_iff_pairwise_ne] at hd
    apply hd.imp
    intro x y hxy
    rw [MInt.eq_iff]
    simp only [decide_eq_false_iff_not]
    exact fun h => hxy (MInt.ext h)
  have l1 := Variable.low_eq ok1
  have g1 := Variable.high_eq ok1
  have hlo' : a.axis.axis.low = .ok lo := hlo
  have hhi' : a.axis.axis.high = .ok hi := hhi
  rw [hlo'] at l1; rw [hhi'] at g1
  simp only [Except.ok.injEq] at l1 g1
  have hlt : lo.val < hi.val := by
    have := strict_of_distinct hv hd' (i := 0) (j := a.axis.axis.binEdges.length - 1) (by omega) (by omega)
    rw [← l1, ← g1, MInt.lt_iff] at this
    simpa using this
  obtain ⟨y, hy1, hy2⟩ := wrapAround_int hlt hr h1 h2
  obtain ⟨y', hy1', hy2'⟩ := wrapAround_int hlt hr h1' h2'
  have : y = y' := by
    apply MInt.ext
    rw [hy2, hy2', hturn]
    have : c.val + t * (hi.val - lo.val) - lo.val = c.val - lo.val + t * (hi.val - lo.val) := by ring
    rw [this, Int.add_mul_emod_self_right]
  unfold VariableCyclic.index
  simp only [VariableNoFlow.low, VariableNoFlow.high, hlo', hhi', Res.ok_bind, hy1, hy1', this]

end
section
attribute [local instance] dbg64 stdOld

/-- non-vacuity of C15 -/
example : ∃ a, VariableCyclic.new (T := MInt .i32) [.lit 0, .lit 10, .lit 30] = .ok (.ok a) ∧
    VariableCyclic.index a (.lit (-25)) = .ok (some 0) ∧
    VariableCyclic.index a (.lit 5) = .ok (some 0) ∧
    VariableCyclic.index a (.lit 75) = .ok (some 1) :=
  ⟨⟨⟨⟨[.lit 0, .lit 10, .lit 30]⟩⟩⟩, by decide, by decide, by decide, by decide⟩

end
section
variable {T : Type} [cfg : Cfg] [POrd T] [LawfulPOrd T] [StdLib]

/-- A cyclic axis whose edges all coincide is accepted but every lookup on it panics (remainder by zero). -/
theorem C15_equal_edges_panic {τ : IntTy} (e : MInt τ) (n : Nat) (hn : 2 ≤ n) :
    ∃ a, VariableCyclic.new (List.replicate n e) = .ok (.ok a) ∧ ∀ c, a.index c = .error .divZero ∨
      a.index c = .error .overflow := by
  have hc : ∀ x ∈ List.replicate n e, POrd.eq x x = true := by
    intro x _; rw [MInt.eq_iff]; simp
  obtain ⟨v, hv, hp, ok⟩ := Variable.new_comparable (by simpa using hn) hc
  have hrep : ∀ x ∈ v.binEdges, x = e := fun x hx => List.eq_of_mem_replicate (hp.subset hx)
  refine ⟨⟨⟨v⟩⟩, by simp [VariableCyclic.new, VariableNoFlow.new, hv], ?_⟩
  intro c
  unfold VariableCyclic.index
  simp only [VariableNoFlow.low, VariableNoFlow.high, Variable.low_eq ok, Variable.high_eq ok, Res.ok_bind]
  rw [hrep _ (List.getElem_mem _), hrep _ (List.getElem_mem _)]
  unfold wrapAround
  have h0 := τ.min_le_zero
  have h1 := τ.max_ge
  simp only [MInt.sub_def, sub_self]
  rw [MInt.arith_ok h0 (by omega)]
  simp only [Res.ok_bind]
  cases h : (MInt.arith (c.val - e.val) : Res (MInt τ)) with
  | ok d => simp [MInt.rem_def]
  | error p =>
    right
    unfold MInt.arith at h
    split at h
    · simp at h
    · split at h
      · simp at h; subst h; rfl
      · simp at h
end
end NdHist
