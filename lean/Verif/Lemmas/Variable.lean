import Verif.Model.Variable
import Verif.Lemmas.Ord
import Verif.Lemmas.Std
import Mathlib.Data.Finset.Card
import Mathlib.Data.Finset.Range
import Mathlib.Data.List.Perm.Subperm
/-! Helper lemmas about variable axes. -/
set_option linter.unusedSectionVars false
namespace NdHist
open POrd

variable {T : Type} [cfg : Cfg] [POrd T] [LawfulPOrd T] [StdLib]

/-- key of the edge at a position; `none` for NaN -/
def pkey (edges : List T) (i : Nat) : Option (LawfulPOrd.K T) := (edges[i]?).bind LawfulPOrd.key

/-- number of edges strictly below the one at position `i` -/
noncomputable def cnt (edges : List T) (i : Nat) : Nat := by
  classical
  exact ((Finset.range edges.length).filter
    (fun j => ∃ x y, pkey edges j = some x ∧ pkey edges i = some y ∧ x < y)).card

theorem cnt_le (edges : List T) (i : Nat) : cnt edges i ≤ edges.length := by
  classical
  unfold cnt
  exact (Finset.card_filter_le _ _).trans (by simp)

theorem cnt_lt {edges : List T} {i j : Nat} {x y : LawfulPOrd.K T} (hi : i < edges.length)
    (hx : pkey edges i = some x) (hy : pkey edges j = some y) (h : x < y) : cnt edges i < cnt edges j := by
  classical
  unfold cnt
  apply Finset.card_lt_card
  rw [Finset.ssubset_iff_of_subset]
  · refine ⟨i, ?_, ?_⟩
    · simp [hi, hx, hy, h]
    · simp [hx]
  · intro k hk
    simp only [Finset.mem_filter, hx, hy, Option.some.injEq] at hk ⊢
    obtain ⟨h1, a, b, h2, rfl, h3⟩ := hk
    exact ⟨h1, a, y, h2, rfl, h3.trans h⟩

theorem cnt_eq {edges : List T} {i j : Nat} {x : LawfulPOrd.K T}
    (hx : pkey edges i = some x) (hy : pkey edges j = some x) : cnt edges i = cnt edges j := by
  classical
  unfold cnt
  congr 1
  ext k
  simp [hx, hy]

/-- comparing edges is comparing their ranks -/
theorem cmp_cnt {edges : List T} {i j : Nat} {x y : LawfulPOrd.K T} (hi : i < edges.length)
    (hj : j < edges.length) (hx : pkey edges i = some x) (hy : pkey edges j = some y) :
    cmp x y = compare (cnt edges i) (cnt edges j) := by
  rcases lt_trichotomy x y with h | h | h
  · rw [(cmp_eq_lt_iff _ _).mpr h, Nat.compare_eq_lt.mpr (cnt_lt hi hx hy h)]
  · subst h
    rw [cnt_eq hx hy]; simp
  · rw [(cmp_eq_gt_iff _ _).mpr h, Nat.compare_eq_gt.mpr (cnt_lt hj hy hx h)]

theorem sortCmp_some {edges : List T} {i j : Nat} {x y : LawfulPOrd.K T}
    (hx : pkey edges i = some x) (hy : pkey edges j = some y) :
    Variable.sortCmp edges i j = (cmp x y, false) := by
  unfold pkey at hx hy
  cases h1 : edges[i]? with
  | none => simp [h1] at hx
  | some a =>
    cases h2 : edges[j]? with
    | none => simp [h2] at hy
    | some b =>
      simp only [h1, h2, Option.bind_some] at hx hy
      unfold Variable.sortCmp
      simp only [h1, h2]
      rw [LawfulPOrd.pcmp_eq, hx, hy]

theorem sortCmp_flag {edges : List T} {i j : Nat} (hi : i < edges.length) (hj : j < edges.length) :
    (Variable.sortCmp edges i j).2 = true ↔ pkey edges i = none ∨ pkey edges j = none := by
  unfold Variable.sortCmp pkey
  rw [List.getElem?_eq_getElem hi, List.getElem?_eq_getElem hj]
  simp only [Option.bind_some]
  rw [LawfulPOrd.pcmp_eq]
  cases LawfulPOrd.key edges[i] <;> cases LawfulPOrd.key edges[j] <;> simp

/-- positions sorted by rank give edges in order -/
theorem filterMap_pairwise {edges : List T} (l : List Nat) (R : T → T → Prop)
    (h : l.Pairwise (fun i j => ∀ a b, edges[i]? = some a → edges[j]? = some b → R a b)) :
    (l.filterMap (edges[·]?)).Pairwise R := by
  rw [List.pairwise_filterMap]
  apply h.imp
  intro a b hab x hx y hy
  exact hab x y hx hy

theorem filterMap_range (edges : List T) : (List.range edges.length).filterMap (edges[·]?) = edges := by
  induction edges with
  | nil => rfl
  | cons e es ih =>
    rw [List.length_cons, List.range_succ_eq_map, List.filterMap_cons, List.filterMap_map]
    simp only [List.getElem?_cons_zero]
    congr 1

/-- all edges comparable -/
theorem pkey_some {edges : List T} (hc : ∀ e ∈ edges, POrd.eq e e = true) {i : Nat} (hi : i < edges.length) :
    ∃ x, pkey edges i = some x := by
  have := hc edges[i] (List.getElem_mem hi)
  rw [LawfulPOrd.eq_self_iff] at this
  obtain ⟨x, hx⟩ := this
  exact ⟨x, by simp [pkey, hi, hx]⟩

/-- sorting comparable edges succeeds without setting the failure flag -/
theorem sortBy_comparable {edges : List T} (hc : ∀ e ∈ edges, POrd.eq e e = true) :
    ∃ l, Variable.sortBy edges = some (l, false) ∧ l.Perm edges ∧
      l.Pairwise (fun a b => POrd.le a b = true) := by
  set tree := (StdLib.sort).tree edges.length with htree
  have hwf : tree.Wf edges.length := (StdLib.sort).wf _
  set cmpf := fun i j => (Variable.sortCmp edges i j).1 with hcmpf
  have hcong : ∀ i j, i < edges.length → j < edges.length →
      Variable.sortCmp edges i j = (compare (cnt edges i) (cnt edges j), false) := by
    intro i j hi hj
    obtain ⟨x, hx⟩ := pkey_some hc hi
    obtain ⟨y, hy⟩ := pkey_some hc hj
    rw [sortCmp_some hx hy, cmp_cnt hi hj hx hy]
  have hrun : tree.run cmpf = tree.run (fun i j => compare (cnt edges i) (cnt edges j)) := by
    apply SortTree.run_congr
    intro ij hij
    obtain ⟨h1, h2⟩ := SortTree.asked_lt tree hwf ij hij
    simp [hcmpf, hcong _ _ h1 h2]
  obtain ⟨l, hl, hsorted⟩ := (StdLib.sort).sorted edges.length (cnt edges)
  have hl' : tree.run cmpf = some l := by rw [hrun]; exact hl
  have hperm : l.Perm (List.range edges.length) := SortTree.run_perm tree hwf hl'
  refine ⟨l.filterMap (edges[·]?), ?_, ?_, ?_⟩
  · unfold Variable.sortBy
    simp only [← htree, ← hcmpf, hl']
    congr 2
    rw [List.any_eq_false]
    intro ij hij
    obtain ⟨h1, h2⟩ := SortTree.asked_lt tree hwf ij hij
    simp [hcong _ _ h1 h2]
  · have := hperm.filterMap (edges[·]?)
    rwa [filterMap_range] at this
  · apply filterMap_pairwise
    have hmem : ∀ i ∈ l, i < edges.length := fun i hi => by simpa using hperm.subset hi
    apply List.Pairwise.imp_of_mem _ hsorted
    intro i j hi hj hij a b ha hb
    obtain ⟨x, hx⟩ := pkey_some hc (hmem i hi)
    obtain ⟨y, hy⟩ := pkey_some hc (hmem j hj)
    rw [LawfulPOrd.le_iff]
    refine ⟨x, y, by simpa [pkey, ha] using hx, by simpa [pkey, hb] using hy, ?_⟩
    by_contra hlt
    have := cnt_lt (hmem j hj) hy hx (not_le.mp hlt)
    omega

/-- the rank used against a sort that never compares NaN positions -/
noncomputable def nanRank (edges : List T) (p v : Nat) (i : Nat) : Nat :=
  if i = p then v else
  match pkey edges i with
  | none => 1
  | some _ => 2 + cnt edges i

/-- a NaN edge makes sorting set the failure flag, or panic -/
theorem sortBy_nan {edges : List T} (hn : 2 ≤ edges.length) {p : Nat} (hp : p < edges.length)
    (hnan : pkey edges p = none) {l : List T} (h : Variable.sortBy edges = some (l, false)) : False := by
  unfold Variable.sortBy at h
  set tree := (StdLib.sort).tree edges.length with htree
  have hwf : tree.Wf edges.length := (StdLib.sort).wf _
  set cmpf := fun i j => (Variable.sortCmp edges i j).1 with hcmpf
  simp only at h
  cases hrun : tree.run cmpf with
  | none => rw [hrun] at h; simp at h
  | some order =>
    rw [hrun] at h
    simp only [Option.some.injEq, Prod.mk.injEq] at h
    obtain ⟨_, hflag⟩ := h
    rw [List.any_eq_false] at hflag
    have hask : ∀ ij ∈ tree.asked cmpf, ij.1 < edges.length ∧ ij.2 < edges.length ∧
        (∃ x, pkey edges ij.1 = some x) ∧ (∃ y, pkey edges ij.2 = some y) := by
      intro ij hij
      obtain ⟨h1, h2⟩ := SortTree.asked_lt tree hwf ij hij
      have h3 := hflag ij hij
      rw [sortCmp_flag h1 h2, not_or] at h3
      exact ⟨h1, h2, Option.ne_none_iff_exists'.mp h3.1, Option.ne_none_iff_exists'.mp h3.2⟩
    have hsame : ∀ v, tree.run cmpf = tree.run
        (fun i j => compare (nanRank edges p v i) (nanRank edges p v j)) := by
      intro v
      apply SortTree.run_congr
      intro ij hij
      obtain ⟨h1, h2, ⟨x, hx⟩, ⟨y, hy⟩⟩ := hask ij hij
      have n1 : ij.1 ≠ p := fun h => by rw [h, hnan] at hx; simp at hx
      have n2 : ij.2 ≠ p := fun h => by rw [h, hnan] at hy; simp at hy
      simp only [hcmpf, sortCmp_some hx hy, nanRank, n1, n2, if_false, hx, hy, cmp_cnt h1 h2 hx hy]
      rw [Nat.compare_eq_ite_lt, Nat.compare_eq_ite_lt]
      simp
    have hperm := SortTree.run_perm tree hwf hrun
    have hp1 : p ∈ order := hperm.symm.subset (by simpa using hp)
    obtain ⟨q, hq, hqp⟩ : ∃ q, q < edges.length ∧ q ≠ p := by
      by_cases h0 : p = 0
      · exact ⟨1, by omega, by omega⟩
      · exact ⟨0, by omega, by omega⟩
    have hq1 : q ∈ order := hperm.symm.subset (by simpa using hq)
    obtain ⟨ip, hip, hip2⟩ := List.getElem_of_mem hp1
    obtain ⟨iq, hiq, hiq2⟩ := List.getElem_of_mem hq1
    have hrq : ∀ v, 1 ≤ nanRank edges p v q ∧ nanRank edges p v q ≤ 2 + edges.length := by
      intro v
      unfold nanRank
      simp only [hqp, if_false]
      have := cnt_le edges q
      cases pkey edges q <;> simp <;> omega
    have hrp : ∀ v, nanRank edges p v p = v := by simp [nanRank]
    have hs : ∀ v, order.Pairwise (fun i j => nanRank edges p v i < nanRank edges p v j ∨
        nanRank edges p v i = nanRank edges p v j ∧ i < j) := by
      intro v
      obtain ⟨l', h1, h2⟩ := (StdLib.sort).sorted edges.length (nanRank edges p v)
      have : tree.run cmpf = some l' := by rw [hsame v]; exact h1
      rw [hrun] at this
      simp only [Option.some.injEq] at this
      rw [this]; exact h2
    have hne : ip ≠ iq := by
      intro h; subst h; rw [hip2] at hiq2; exact hqp hiq2.symm
    rcases lt_or_gt_of_ne hne with hlt | hgt
    · have := (List.pairwise_iff_getElem.mp (hs (3 + edges.length))) ip iq hip hiq hlt
      rw [hip2, hiq2, hrp] at this
      have := hrq (3 + edges.length)
      omega
    · have := (List.pairwise_iff_getElem.mp (hs 0)) iq ip hiq hip hgt
      rw [hip2, hiq2, hrp] at this
      have := hrq 0
      omega

namespace Variable

/-- what `Variable::new` guarantees about the stored edges -/
structure Ok (a : Variable T) : Prop where
  two : 2 ≤ a.binEdges.length
  comparable : ∀ e ∈ a.binEdges, POrd.eq e e = true
  sorted : a.binEdges.Pairwise (fun x y => POrd.le x y = true)

theorem new_lt_two {edges : List T} (h : edges.length < 2) :
    new edges = .ok (.error .InvalidNumberOfBinEdges) := by simp [new, h]

theorem new_comparable {edges : List T} (hn : 2 ≤ edges.length) (hc : ∀ e ∈ edges, POrd.eq e e = true) :
    ∃ a, new edges = .ok (.ok a) ∧ a.binEdges.Perm edges ∧ a.Ok := by
  obtain ⟨l, h1, h2, h3⟩ := sortBy_comparable hc
  refine ⟨⟨l⟩, ?_, h2, ?_⟩
  · simp [new, Nat.not_lt.mpr hn, h1]
  · exact ⟨by simpa [h2.length_eq] using hn, fun e he => hc e (h2.subset he), h3⟩

theorem new_nan {edges : List T} (hn : 2 ≤ edges.length) (hc : ∃ e ∈ edges, POrd.eq e e = false) :
    new edges = .ok (.error .FailedToSortBinEdges) ∨ new edges = .error .sortOrder := by
  obtain ⟨e, he, hnan⟩ := hc
  obtain ⟨p, hp, hpe⟩ := List.getElem_of_mem he
  have hkey : pkey edges p = none := by
    simp only [pkey, List.getElem?_eq_getElem hp, Option.bind_some, hpe]
    by_contra h
    have := LawfulPOrd.eq_self_iff.mpr (Option.ne_none_iff_exists'.mp h)
    simp [this] at hnan
  have hlt : ¬ edges.length < 2 := by omega
  unfold new
  simp only [hlt, if_false]
  cases hs : sortBy edges with
  | none => right; rfl
  | some r =>
    obtain ⟨l, f⟩ := r
    cases f with
    | true => left; rfl
    | false => exact (sortBy_nan hn hp hkey hs).elim

theorem new_ok {edges : List T} {a : Variable T} (h : new edges = .ok (.ok a)) :
    2 ≤ edges.length ∧ (∀ e ∈ edges, POrd.eq e e = true) ∧ a.binEdges.Perm edges ∧ a.Ok := by
  by_cases hn : edges.length < 2
  · rw [new_lt_two hn] at h; simp at h
  · by_cases hc : ∀ e ∈ edges, POrd.eq e e = true
    · obtain ⟨a', h1, h2, h3⟩ := new_comparable (by omega) hc
      rw [h1] at h
      simp only [Except.ok.injEq] at h
      subst h
      exact ⟨by omega, hc, h2, h3⟩
    · push Not at hc
      obtain ⟨e, he, hne⟩ := hc
      rcases new_nan (by omega) ⟨e, he, by simpa using hne⟩ with h' | h' <;> rw [h'] at h <;> simp at h

theorem Ok.pk {a : Variable T} (ha : a.Ok) {i : Nat} (hi : i < a.binEdges.length) :
    ∃ x, LawfulPOrd.key a.binEdges[i] = some x :=
  LawfulPOrd.eq_self_iff.mp (ha.comparable _ (List.getElem_mem hi))

theorem Ok.mono {a : Variable T} (ha : a.Ok) {i j : Nat} (hij : i ≤ j) (hj : j < a.binEdges.length) :
    POrd.le a.binEdges[i] a.binEdges[j] = true := by
  rcases Nat.lt_or_ge i j with h | h
  · exact List.pairwise_iff_getElem.mp ha.sorted i j (by omega) hj h
  · have : i = j := by omega
    subst this
    have := ha.comparable _ (List.getElem_mem hj)
    rw [LawfulPOrd.eq_self_iff] at this
    obtain ⟨x, hx⟩ := this
    rw [LawfulPOrd.le_iff]
    exact ⟨x, x, hx, hx, le_rfl⟩

theorem probeCmp_key {a : Variable T} {c : T} {i : Nat} (hi : i < a.binEdges.length) :
    probeCmp a c i = match LawfulPOrd.key a.binEdges[i], LawfulPOrd.key c with
      | some x, some y => cmp x y
      | _, _ => .lt := by
  unfold probeCmp
  rw [List.getElem?_eq_getElem hi]
  simp only
  rw [LawfulPOrd.pcmp_eq]
  cases LawfulPOrd.key a.binEdges[i] <;> cases LawfulPOrd.key c <;> rfl

theorem probeCmp_nan {a : Variable T} {c : T} (hc : POrd.eq c c = false) {i : Nat} (hi : i < a.binEdges.length) :
    probeCmp a c i = .lt := by
  have : LawfulPOrd.key c = none := by
    by_contra h
    have := LawfulPOrd.eq_self_iff.mpr (Option.ne_none_iff_exists'.mp h)
    simp [this] at hc
  rw [probeCmp_key hi, this]
  cases LawfulPOrd.key a.binEdges[i] <;> rfl

theorem probeCmp_lt {a : Variable T} (ha : a.Ok) {c : T} (hc : POrd.eq c c = true) {i : Nat}
    (hi : i < a.binEdges.length) : probeCmp a c i = .lt ↔ POrd.lt a.binEdges[i] c = true := by
  obtain ⟨x, hx⟩ := ha.pk hi
  obtain ⟨z, hz⟩ := LawfulPOrd.eq_self_iff.mp hc
  rw [probeCmp_key hi, LawfulPOrd.lt_iff, hx, hz]; simp [cmp_eq_lt_iff]

theorem probeCmp_gt {a : Variable T} (ha : a.Ok) {c : T} (hc : POrd.eq c c = true) {i : Nat}
    (hi : i < a.binEdges.length) : probeCmp a c i = .gt ↔ POrd.lt c a.binEdges[i] = true := by
  obtain ⟨x, hx⟩ := ha.pk hi
  obtain ⟨z, hz⟩ := LawfulPOrd.eq_self_iff.mp hc
  rw [probeCmp_key hi, LawfulPOrd.lt_iff, hx, hz]; simp [cmp_eq_gt_iff]

theorem probeCmp_eq {a : Variable T} (ha : a.Ok) {c : T} (hc : POrd.eq c c = true) {i : Nat}
    (hi : i < a.binEdges.length) : probeCmp a c i = .eq ↔ POrd.eq a.binEdges[i] c = true := by
  obtain ⟨x, hx⟩ := ha.pk hi
  obtain ⟨z, hz⟩ := LawfulPOrd.eq_self_iff.mp hc
  rw [probeCmp_key hi, LawfulPOrd.eq_iff, hx, hz]; simp only [Option.some.injEq]
  constructor
  · intro h; exact ⟨x, rfl, ((cmp_eq_eq_iff _ _).mp h).symm⟩
  · rintro ⟨w, rfl, rfl⟩; simp

theorem le_of_lt' {a b : T} (h : POrd.lt a b = true) : POrd.le a b = true := by
  rw [LawfulPOrd.lt_iff] at h
  rw [LawfulPOrd.le_iff]
  obtain ⟨x, y, h1, h2, h3⟩ := h
  exact ⟨x, y, h1, h2, h3.le⟩

theorem le_of_eq' {a b : T} (h : POrd.eq a b = true) : POrd.le a b = true := by
  rw [LawfulPOrd.eq_iff] at h
  rw [LawfulPOrd.le_iff]
  obtain ⟨x, h1, h2⟩ := h
  exact ⟨x, x, h1, h2, le_rfl⟩

theorem eq_symm' {a b : T} (h : POrd.eq a b = true) : POrd.eq b a = true := by
  rw [LawfulPOrd.eq_iff] at *
  obtain ⟨x, h1, h2⟩ := h
  exact ⟨x, h2, h1⟩

theorem lt_of_le_of_lt' {a b c : T} (h : POrd.le a b = true) (h' : POrd.lt b c = true) : POrd.lt a c = true := by
  rw [LawfulPOrd.lt_iff, LawfulPOrd.le_iff] at *
  obtain ⟨x, y, h1, h2, h3⟩ := h
  obtain ⟨x', y', h1', h2', h3'⟩ := h'
  rw [h2] at h1'; simp at h1'; subst h1'
  exact ⟨x, y', h1, h2', h3.trans_lt h3'⟩

theorem lt_of_lt_of_le' {a b c : T} (h : POrd.lt a b = true) (h' : POrd.le b c = true) : POrd.lt a c = true := by
  rw [LawfulPOrd.lt_iff, LawfulPOrd.le_iff] at *
  obtain ⟨x, y, h1, h2, h3⟩ := h
  obtain ⟨x', y', h1', h2', h3'⟩ := h'
  rw [h2] at h1'; simp at h1'; subst h1'
  exact ⟨x, y', h1, h2', h3.trans_le h3'⟩

theorem le_trans' {a b c : T} (h : POrd.le a b = true) (h' : POrd.le b c = true) : POrd.le a c = true := by
  rw [LawfulPOrd.le_iff] at *
  obtain ⟨x, y, h1, h2, h3⟩ := h
  obtain ⟨x', y', h1', h2', h3'⟩ := h'
  rw [h2] at h1'; simp at h1'; subst h1'
  exact ⟨x, y', h1, h2', h3.trans h3'⟩

theorem not_lt_of_le' {a b : T} (h : POrd.le a b = true) : POrd.lt b a = false := by
  rw [Bool.eq_false_iff]; intro h'
  rw [LawfulPOrd.lt_iff] at h'
  rw [LawfulPOrd.le_iff] at h
  obtain ⟨x, y, h1, h2, h3⟩ := h
  obtain ⟨x', y', h1', h2', h3'⟩ := h'
  rw [h1'] at h2; rw [h2'] at h1; simp at h1 h2; subst h1; subst h2
  exact absurd h3 (not_le.mpr h3')

theorem searchSorted {a : Variable T} (ha : a.Ok) (c : T) :
    SearchSorted a.binEdges.length (probeCmp a c) := by
  intro i j hij hj
  have hi : i < a.binEdges.length := by omega
  by_cases hc : POrd.eq c c = true
  · rw [probeCmp_lt ha hc hi, probeCmp_lt ha hc hj, probeCmp_gt ha hc hi, probeCmp_gt ha hc hj]
    exact ⟨fun h => lt_of_le_of_lt' (ha.mono hij hj) h, fun h => lt_of_lt_of_le' h (ha.mono hij hj)⟩
  · rw [probeCmp_nan (by simpa using hc) hi, probeCmp_nan (by simpa using hc) hj]
    simp

/-- the result of `index` on a NaN -/
theorem index_nan {a : Variable T} (ha : a.Ok) {c : T} (hc : POrd.eq c c = false) :
    a.index c = .ok (some a.binEdges.length) := by
  unfold index
  cases h : (StdLib.search).run a.binEdges.length (probeCmp a c) with
  | ok i =>
    obtain ⟨h1, h2⟩ := (StdLib.search).ok_spec _ _ _ (searchSorted ha c) h
    rw [probeCmp_nan hc h1] at h2
    simp at h2
  | err i =>
    obtain ⟨h1, h2, h3⟩ := (StdLib.search).err_spec _ _ _ (searchSorted ha c) h
    have : i = a.binEdges.length := by
      by_contra hne
      have := h3 i le_rfl (by omega)
      rw [probeCmp_nan hc (by omega)] at this
      simp at this
    simp [this]

/-- the result of `index` on a comparable coordinate -/
theorem index_cmp {a : Variable T} (ha : a.Ok) (hmem : a.binEdges.length < usizeSize) {c : T}
    (hc : POrd.eq c c = true) :
    ∃ i, a.index c = .ok (some i) ∧ i ≤ a.binEdges.length ∧
      ((∃ j, ∃ h : j < a.binEdges.length, i = j + 1 ∧ POrd.eq a.binEdges[j] c = true) ∨
        (∀ j (h : j < a.binEdges.length), j < i → POrd.lt a.binEdges[j] c = true) ∧
        (∀ j (h : j < a.binEdges.length), i ≤ j → POrd.lt c a.binEdges[j] = true)) := by
  unfold index
  cases h : (StdLib.search).run a.binEdges.length (probeCmp a c) with
  | ok i =>
    obtain ⟨h1, h2⟩ := (StdLib.search).ok_spec _ _ _ (searchSorted ha c) h
    rw [probeCmp_eq ha hc h1] at h2
    refine ⟨i + 1, ?_, h1, Or.inl ⟨i, h1, rfl, h2⟩⟩
    simp [uadd_ok (show i + 1 < usizeSize by omega)]
  | err i =>
    obtain ⟨h1, h2, h3⟩ := (StdLib.search).err_spec _ _ _ (searchSorted ha c) h
    refine ⟨i, rfl, h1, Or.inr ⟨?_, ?_⟩⟩
    · intro j hj hji
      exact (probeCmp_lt ha hc hj).mp (h2 j hji)
    · intro j hj hji
      exact (probeCmp_gt ha hc hj).mp (h3 j hji hj)

theorem low_eq {a : Variable T} (ha : a.Ok) :
    a.low = .ok (a.binEdges[0]'(by have := ha.two; omega)) := by
  have := ha.two
  unfold low
  rw [List.head?_eq_getElem?, List.getElem?_eq_getElem (by omega)]
  rfl

theorem high_eq {a : Variable T} (ha : a.Ok) :
    a.high = .ok (a.binEdges[a.binEdges.length - 1]'(by have := ha.two; omega)) := by
  have := ha.two
  unfold high
  rw [List.getLast?_eq_getElem?, List.getElem?_eq_getElem (by omega)]
  rfl

end Variable
end NdHist
