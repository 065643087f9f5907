import Verif.Model.Std
import Mathlib.Data.List.Basic
import Mathlib.Data.List.Perm.Basic
import Mathlib.Data.List.Sort
import Mathlib.Data.List.Nodup
import Mathlib.Data.List.Range
import Mathlib.Order.Compare
/-!
# Facts about the std contracts, and implementations that satisfy them
-/
namespace NdHist

namespace SortTree
theorem run_congr {c c' : Nat → Nat → Ordering} (t : SortTree)
    (h : ∀ ij ∈ t.asked c, c ij.1 ij.2 = c' ij.1 ij.2) : t.run c = t.run c' := by
  induction t with
  | done l => rfl
  | panic => rfl
  | ask i j k ih =>
    simp only [run]
    have h0 : c i j = c' i j := h (i, j) (by simp [asked])
    rw [← h0]
    apply ih
    intro ij hij
    exact h ij (by simp [asked, hij])

theorem asked_lt {n : Nat} {c : Nat → Nat → Ordering} (t : SortTree) (hw : t.Wf n) :
    ∀ ij ∈ t.asked c, ij.1 < n ∧ ij.2 < n := by
  induction t with
  | done l => simp [asked]
  | panic => simp [asked]
  | ask i j k ih =>
    obtain ⟨h1, h2, h3⟩ := hw
    intro ij hij
    simp only [asked, List.mem_cons] at hij
    rcases hij with rfl | hij
    · exact ⟨h1, h2⟩
    · exact ih _ (h3 _) ij hij

theorem run_perm {n : Nat} {c : Nat → Nat → Ordering} (t : SortTree) (hw : t.Wf n) {l : List Nat}
    (h : t.run c = some l) : l.Perm (List.range n) := by
  induction t with
  | done l' => simp [run] at h; subst h; exact hw
  | panic => simp [run] at h
  | ask i j k ih => exact ih _ (hw.2.2 _) h
end SortTree

/-! ## Binary search -/

/-- The loop of `binary_search_by` up to Rust 1.81 (library/core/src/slice/mod.rs): stops at the first match it
meets. `fuel` bounds the number of iterations. -/
def searchOldLoop (cmp : Nat → Ordering) : Nat → Nat → Nat → Found
  | 0, left, _ => .err left
  | fuel + 1, left, right =>
    if left < right then
      let mid := left + (right - left) / 2
      match cmp mid with
      | .lt => searchOldLoop cmp fuel (mid + 1) right
      | .gt => searchOldLoop cmp fuel left mid
      | .eq => .ok mid
    else .err left

def searchOld (n : Nat) (cmp : Nat → Ordering) : Found := searchOldLoop cmp n 0 n

theorem searchOldLoop_spec (cmp : Nat → Ordering) (n : Nat) (hs : SearchSorted n cmp) :
    ∀ fuel left right, right - left ≤ fuel → left ≤ right → right ≤ n → (∀ j, j < left → cmp j = .lt) →
      (∀ j, right ≤ j → j < n → cmp j = .gt) →
      (∀ i, searchOldLoop cmp fuel left right = .ok i → i < n ∧ cmp i = .eq) ∧
      (∀ i, searchOldLoop cmp fuel left right = .err i →
        i ≤ n ∧ (∀ j, j < i → cmp j = .lt) ∧ (∀ j, i ≤ j → j < n → cmp j = .gt)) := by
  intro fuel
  induction fuel with
  | zero =>
    intro left right h1 h2 h3 h4 h5
    have : left = right := by omega
    subst this
    refine ⟨by simp [searchOldLoop], ?_⟩
    intro i hi
    simp [searchOldLoop] at hi
    subst hi
    exact ⟨h3, h4, h5⟩
  | succ fuel ih =>
    intro left right h1 h2 h3 h4 h5
    unfold searchOldLoop
    by_cases hlr : left < right
    · simp only [hlr, if_true]
      have hm1 : left + (right - left) / 2 < right := by omega
      cases hc : cmp (left + (right - left) / 2) with
      | lt =>
        apply ih _ _ (by omega) (by omega) h3 _ h5
        intro j hj
        by_cases hj2 : j < left
        · exact h4 j hj2
        · exact (hs j (left + (right - left) / 2) (by omega) (by omega)).1 hc
      | gt =>
        apply ih _ _ (by omega) (by omega) (by omega) h4
        intro j hj hjn
        exact (hs (left + (right - left) / 2) j hj hjn).2 hc
      | eq =>
        refine ⟨?_, by simp⟩
        intro i hi
        simp only [Found.ok.injEq] at hi
        subst hi
        exact ⟨by omega, hc⟩
    · simp only [hlr, if_false]
      have : left = right := by omega
      subst this
      refine ⟨by simp, ?_⟩
      intro i hi
      simp at hi
      subst hi
      exact ⟨h3, h4, h5⟩

/-- `binary_search_by` of Rust 1.80 and 1.81 meets the contract. -/
def searchAlgOld : SearchAlg where
  run := searchOld
  ok_spec n cmp i hs h :=
    (searchOldLoop_spec cmp n hs n 0 n (by omega) (by omega) le_rfl (by omega) (by omega)).1 i h
  err_spec n cmp i hs h :=
    (searchOldLoop_spec cmp n hs n 0 n (by omega) (by omega) le_rfl (by omega) (by omega)).2 i h

/-- The loop of `binary_search_by` since Rust 1.82: keeps halving without early exit. -/
def searchNewLoop (cmp : Nat → Ordering) : Nat → Nat → Nat → Nat
  | 0, base, _ => base
  | fuel + 1, base, size =>
    if size > 1 then
      let half := size / 2
      let mid := base + half
      searchNewLoop cmp fuel (if cmp mid = .gt then base else mid) (size - half)
    else base

def searchNew (n : Nat) (cmp : Nat → Ordering) : Found :=
  if n = 0 then .err 0
  else
    let base := searchNewLoop cmp n 0 n
    match cmp base with
    | .eq => .ok base
    | .lt => .err (base + 1)
    | .gt => .err base

theorem searchNewLoop_spec (cmp : Nat → Ordering) (n : Nat) (hs : SearchSorted n cmp) :
    ∀ fuel base size, size ≤ fuel + 1 → 0 < size → base + size ≤ n → (∀ j, j < base → cmp j ≠ .gt) →
      (base ≠ 0 → cmp base ≠ .gt) →
      (∀ j, base + size ≤ j → j < n → cmp j = .gt) →
      searchNewLoop cmp fuel base size < n ∧
      (searchNewLoop cmp fuel base size ≠ 0 → cmp (searchNewLoop cmp fuel base size) ≠ .gt) ∧
      (∀ j, searchNewLoop cmp fuel base size < j → j < n → cmp j = .gt) := by
  intro fuel
  induction fuel with
  | zero =>
    intro base size h1 h2 h3 h4 h5 h6
    simp only [searchNewLoop]
    exact ⟨by omega, h5, fun j hj => h6 j (by omega)⟩
  | succ fuel ih =>
    intro base size h1 h2 h3 h4 h5 h6
    unfold searchNewLoop
    by_cases hsz : size > 1
    · simp only [hsz, if_true]
      by_cases hc : cmp (base + size / 2) = .gt
      · simp only [hc, if_true]
        apply ih _ _ (by omega) (by omega) (by omega) h4 h5
        intro j hj hjn
        exact (hs (base + size / 2) j (by omega) hjn).2 hc
      · simp only [hc, if_false]
        apply ih _ _ (by omega) (by omega) (by omega)
        · intro j hj hg
          exact hc ((hs j (base + size / 2) (by omega) (by omega)).2 hg)
        · intro _; exact hc
        · intro j hj hjn; exact h6 j (by omega) hjn
    · simp only [hsz, if_false]
      exact ⟨by omega, h5, fun j hj => h6 j (by omega)⟩

/-- `binary_search_by` since Rust 1.82 returns the *last* match. -/
theorem searchNew_spec (n : Nat) (cmp : Nat → Ordering) (hs : SearchSorted n cmp) :
    (∀ i, searchNew n cmp = .ok i → i < n ∧ cmp i = .eq ∧ ∀ j, i < j → j < n → cmp j = .gt) ∧
    (∀ i, searchNew n cmp = .err i →
        i ≤ n ∧ (∀ j, j < i → cmp j = .lt) ∧ (∀ j, i ≤ j → j < n → cmp j = .gt)) := by
  unfold searchNew
  by_cases hn : n = 0
  · subst hn; simp
  · simp only [hn, if_false]
    obtain ⟨a, b, c⟩ := searchNewLoop_spec cmp n hs n 0 n (by omega) (by omega) (by omega) (by omega)
      (by simp) (by omega)
    generalize searchNewLoop cmp n 0 n = base at *
    cases hc : cmp base with
    | lt =>
      refine ⟨by simp, ?_⟩
      intro i hi
      simp at hi; subst hi
      refine ⟨by omega, ?_, fun j hj hjn => c j (by omega) hjn⟩
      intro j hj
      exact (hs j base (by omega) a).1 hc
    | eq =>
      refine ⟨?_, by simp⟩
      intro i hi
      simp at hi; subst hi
      exact ⟨a, hc, c⟩
    | gt =>
      refine ⟨by simp, ?_⟩
      intro i hi
      simp at hi; subst hi
      have h0 : base = 0 := by
        by_contra h; exact b h hc
      subst h0
      refine ⟨by omega, by omega, ?_⟩
      intro j hj hjn
      rcases Nat.eq_zero_or_pos j with rfl | hp
      · exact hc
      · exact c j hp hjn

/-- `binary_search_by` since Rust 1.82 meets the contract. -/
def searchAlgNew : SearchAlg where
  run := searchNew
  ok_spec n cmp i hs h := ⟨((searchNew_spec n cmp hs).1 i h).1, ((searchNew_spec n cmp hs).1 i h).2.1⟩
  err_spec n cmp i hs h := (searchNew_spec n cmp hs).2 i h

/-! ## Sorting: insertion sort as a comparison tree -/

/-- Insert position `x` into `done` (in order), then continue with `k`. Compares from the front: `x` goes
before the first element strictly greater than it. -/
def insTree (x : Nat) (pre : List Nat) : List Nat → (List Nat → SortTree) → SortTree
  | [], k => k (pre ++ [x])
  | y :: ys, k => .ask x y fun
      | .lt => k (pre ++ x :: y :: ys)
      | _ => insTree x (pre ++ [y]) ys k

/-- insertion sort of positions `i, i+1, ..., i+m-1` into the sorted list `acc` -/
def isortTree : Nat → Nat → List Nat → SortTree
  | 0, _, acc => .done acc
  | m + 1, i, acc => insTree i [] acc fun acc' => isortTree m (i + 1) acc'

theorem insTree_wf (n x : Nat) (hx : x < n) :
    ∀ (ys pre : List Nat) (k : List Nat → SortTree), (∀ y ∈ ys, y < n) →
      (∀ l, l.Perm (x :: (pre ++ ys)) → (k l).Wf n) → (insTree x pre ys k).Wf n := by
  intro ys
  induction ys with
  | nil =>
    intro pre k _ hk
    simp only [insTree]
    exact hk _ (by simpa using List.perm_append_comm (l₁ := pre) (l₂ := [x]))
  | cons y ys ih =>
    intro pre k hy hk
    have hins : (k (pre ++ x :: y :: ys)).Wf n := hk _ List.perm_middle
    have hrec : (insTree x (pre ++ [y]) ys k).Wf n := by
      apply ih _ _ (fun z hz => hy z (by simp [hz]))
      intro l hl
      apply hk
      simpa using hl
    refine ⟨hx, hy y (by simp), ?_⟩
    intro o
    cases o
    · exact hins
    · exact hrec
    · exact hrec

theorem isortTree_wf (n : Nat) :
    ∀ m i acc, i + m = n → acc.Perm (List.range i) → (isortTree m i acc).Wf n := by
  intro m
  induction m with
  | zero =>
    intro i acc h hp
    simp only [isortTree, SortTree.Wf]
    have : i = n := by omega
    subst this; exact hp
  | succ m ih =>
    intro i acc h hp
    simp only [isortTree]
    apply insTree_wf n i (by omega)
    · intro y hy
      have := hp.subset hy
      simp at this; omega
    · intro l hl
      apply ih _ _ (by omega)
      rw [List.range_succ]
      exact (hl.trans (by simpa using hp)).trans (List.perm_append_comm (l₁ := [i]) (l₂ := List.range i))

/-- the ordering the result must have -/
def RankLT (rank : Nat → Nat) (i j : Nat) : Prop := rank i < rank j ∨ rank i = rank j ∧ i < j

theorem RankLT.trans {rank : Nat → Nat} {i j k : Nat} (h : RankLT rank i j) (h' : RankLT rank j k) :
    RankLT rank i k := by unfold RankLT at *; omega

theorem insTree_run (rank : Nat → Nat) (x : Nat) :
    ∀ (ys pre : List Nat) (k : List Nat → SortTree), (pre ++ ys).Pairwise (RankLT rank) →
      (∀ y ∈ pre ++ ys, y < x) → (∀ y ∈ pre, RankLT rank y x) →
      ∃ l, l.Pairwise (RankLT rank) ∧ l.Perm (x :: (pre ++ ys)) ∧
        (insTree x pre ys k).run (fun i j => compare (rank i) (rank j)) =
          (k l).run (fun i j => compare (rank i) (rank j)) := by
  intro ys
  induction ys with
  | nil =>
    intro pre k hp hlt hpre
    refine ⟨pre ++ [x], ?_, by simpa using List.perm_append_comm (l₁ := pre) (l₂ := [x]), rfl⟩
    simp only [List.append_nil] at hp
    rw [List.pairwise_append]
    exact ⟨hp, List.pairwise_singleton _ _, fun a ha b hb => by simp at hb; subst hb; exact hpre a ha⟩
  | cons y ys ih =>
    intro pre k hp hlt hpre
    simp only [insTree, SortTree.run]
    by_cases hc : rank x < rank y
    · have : compare (rank x) (rank y) = .lt := Nat.compare_eq_lt.mpr hc
      simp only [this]
      refine ⟨_, ?_, List.perm_middle, rfl⟩
      rw [List.pairwise_append] at hp ⊢
      obtain ⟨p1, p2, p3⟩ := hp
      refine ⟨p1, ?_, ?_⟩
      · rw [List.pairwise_cons]
        refine ⟨?_, p2⟩
        intro z hz
        have hxy : RankLT rank x y := Or.inl hc
        simp only [List.mem_cons] at hz
        rcases hz with rfl | hz
        · exact hxy
        · exact hxy.trans ((List.pairwise_cons.mp p2).1 z hz)
      · intro a ha b hb
        simp only [List.mem_cons] at hb
        rcases hb with rfl | hb
        · exact hpre a ha
        · exact p3 a ha b (by simpa using hb)
    · have hyx : RankLT rank y x := by
        have := hlt y (by simp)
        unfold RankLT; omega
      have hrec := ih (pre ++ [y]) k (by simpa using hp) (by simpa using hlt) (by
        intro z hz
        simp only [List.mem_append, List.mem_singleton] at hz
        rcases hz with hz | rfl
        · exact hpre z hz
        · exact hyx)
      obtain ⟨l, l1, l2, l3⟩ := hrec
      refine ⟨l, l1, by simpa using l2, ?_⟩
      have hne : compare (rank x) (rank y) ≠ .lt := by
        intro h; exact hc (Nat.compare_eq_lt.mp h)
      cases hcmp : compare (rank x) (rank y)
      · exact absurd hcmp hne
      · simpa using l3
      · simpa using l3

theorem isortTree_run (rank : Nat → Nat) :
    ∀ m i acc, acc.Pairwise (RankLT rank) → (∀ y ∈ acc, y < i) →
      ∃ l, (isortTree m i acc).run (fun i j => compare (rank i) (rank j)) = some l ∧
        l.Pairwise (RankLT rank) := by
  intro m
  induction m with
  | zero => intro i acc hp _; exact ⟨acc, rfl, hp⟩
  | succ m ih =>
    intro i acc hp hlt
    simp only [isortTree]
    obtain ⟨l, l1, l2, l3⟩ := insTree_run rank i acc [] (fun acc' => isortTree m (i + 1) acc')
      (by simpa using hp) (by simpa using hlt) (by simp)
    rw [l3]
    apply ih _ _ l1
    intro y hy
    have := l2.subset hy
    simp only [List.nil_append, List.mem_cons] at this
    rcases this with rfl | h
    · omega
    · have := hlt y h; omega

/-- insertion sort meets the contract of `sort_by` -/
def insertionSort : SortAlg where
  tree n := isortTree n 0 []
  wf n := isortTree_wf n n 0 [] (by omega) (by simp)
  sorted n rank := isortTree_run rank n 0 [] List.Pairwise.nil (by simp)

/-- A standard library with the binary search of Rust ≤ 1.81. -/
@[reducible] def stdOld : StdLib := ⟨insertionSort, searchAlgOld⟩
/-- A standard library with the binary search of Rust ≥ 1.82. -/
@[reducible] def stdNew : StdLib := ⟨insertionSort, searchAlgNew⟩

end NdHist
