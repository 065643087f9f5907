import Verif.SpecStability
import Verif.Props.Stats
import Mathlib.Algebra.Order.BigOperators.Group.Finset
import Mathlib.Algebra.Order.Group.Abs
/-!
# C108: how much the contents change with the data
-/
namespace NdHist
open scoped Classical
set_option linter.unusedSectionVars false

section
variable {α : Type*} {M : Type} [AddCommGroup M] [LinearOrder M] [IsOrderedAddMonoid M]

/-- total of the elements counted in bin `i` -/
private def part (f : α → Option Nat) (w : α → M) (l : List α) (i : Nat) : M := ((l.filter fun x => f x = some i).map w).sum

private theorem part_cons (f : α → Option Nat) (w : α → M) (x : α) (l : List α) (i : Nat) : part f w (x :: l) i = (if f x = some i then w x else 0) + part f w l i := by
  unfold part
  by_cases h : f x = some i <;> simp [h]

private theorem part_append (f : α → Option Nat) (w : α → M) (l l' : List α) (i : Nat) : part f w (l ++ l') i = part f w l i + part f w l' i := by
  simp [part]

private theorem part_perm (f : α → Option Nat) (w : α → M) {l l' : List α} (h : l.Perm l') (i : Nat) : part f w l i = part f w l' i :=
  ((h.filter _).map w).sum_eq

private theorem sum_part_le (f : α → Option Nat) (w : α → M) (l : List α) (I : Finset Nat) : ∑ i ∈ I, |part f w l i| ≤ (l.map fun x => |w x|).sum := by
  induction l with
  | nil => simp [part]
  | cons x l ih =>
    have h1 : ∑ i ∈ I, |part f w (x :: l) i| ≤ ∑ i ∈ I, (|if f x = some i then w x else 0| + |part f w l i|) :=
      Finset.sum_le_sum fun i _ => by rw [part_cons]; exact abs_add_le _ _
    refine h1.trans ?_
    rw [Finset.sum_add_distrib, List.map_cons, List.sum_cons]
    refine add_le_add ?_ ih
    rcases hx : f x with _ | j
    · simp
    · have : ∀ i, |if some j = some i then w x else 0| = if i = j then |w x| else 0 := by
        intro i
        by_cases h : i = j
        · subst h; simp
        · simp [h, Ne.symm h]
      simp only [this, Finset.sum_ite_eq']
      split
      · exact le_rfl
      · exact abs_nonneg _

private theorem part_zero (f : α → Option Nat) (w : α → M) {l : List α} {i : Nat} (h : ∀ x ∈ l, f x ≠ some i) : part f w l i = 0 := by
  unfold part
  rw [List.filter_eq_nil_iff.2 (fun x hx => by simpa using h x hx)]
  rfl

private theorem part_differ (f : α → Option Nat) (w : α → M) {l l' common xs ys : List α} (h : Differ l l' common xs ys) :
    (∀ I : Finset Nat, ∑ i ∈ I, |part f w l i - part f w l' i| ≤ (xs.map fun x => |w x|).sum + (ys.map fun x => |w x|).sum) ∧
    ∀ i, (∀ x ∈ xs ++ ys, f x ≠ some i) → part f w l i = part f w l' i := by
  have e : ∀ i, part f w l i - part f w l' i = part f w xs i - part f w ys i := by
    intro i
    rw [part_perm f w h.left, part_perm f w h.right, part_append, part_append]
    abel
  constructor
  · intro I
    refine (Finset.sum_le_sum (g := fun i => |part f w xs i| + |part f w ys i|) fun i _ => ?_).trans ?_
    · rw [e]; exact abs_sub _ _
    · rw [Finset.sum_add_distrib]
      exact add_le_add (sum_part_le f w xs I) (sum_part_le f w ys I)
  · intro i hi
    rw [← sub_eq_zero, e, part_zero f w (fun x hx => hi x (List.mem_append_left _ hx)), part_zero f w (fun x hx => hi x (List.mem_append_right _ hx)), sub_zero]

private theorem sum_forall₂_le {p : α → Option Nat} (w : α → M) {R : α → α → Prop} (m : Nat) (hR : ∀ x y, R x y → ∃ i j, p x = some i ∧ p y = some j ∧ i ≤ j) (hw : ∀ x y, R x y → w x = w y ∧ 0 ≤ w x) {l l' : List α}
    (h : List.Forall₂ R l l') : ((l'.filter fun x => (p x).any (· < m)).map w).sum ≤ ((l.filter fun x => (p x).any (· < m)).map w).sum := by
  induction h with
  | nil => simp
  | @cons x y l l' hxy _ ih =>
    obtain ⟨i, j, hi, hj, hij⟩ := hR x y hxy
    obtain ⟨h1, h2⟩ := hw x y hxy
    simp only [List.filter_cons, hi, hj, Option.any_some]
    by_cases hjm : j < m
    · have him : i < m := by omega
      simp only [hjm, him, decide_true, if_true, List.map_cons, List.sum_cons, h1]
      exact add_le_add le_rfl ih
    · by_cases him : i < m
      · simp only [hjm, him, decide_true, decide_false, if_true, List.map_cons, List.sum_cons]
        exact ih.trans (le_add_of_nonneg_left h2)
      · simp only [hjm, him, decide_false, Bool.false_eq_true, if_false]
        exact ih
end

section
variable [cfg : Cfg] {A : Type} [Axis A] {a : A} {n : Nat} {dom : Axis.Coordinate A → Prop} {le : Axis.Coordinate A → Axis.Coordinate A → Prop} {V M : Type}
  [AddCommGroup M] [LinearOrder M] [IsOrderedAddMonoid M]

omit [LinearOrder M] [IsOrderedAddMonoid M] in
private theorem cumulative_succ (q : V → M) (value : Nat → Option V) (i : Nat) : cumulative q value (i + 1) = cumulative q value i + content q value i := by
  unfold cumulative content
  rw [Finset.sum_range_succ]

omit [LinearOrder M] [IsOrderedAddMonoid M] in
private theorem content_part {q : V → M} {value : Nat → Option V} {calls : List (Call V (Axis.Coordinate A))} {w : Call V (Axis.Coordinate A) → M}
    (h : ∀ m, cumulative q value m = ((calls.filter fun call => (binNo a call.coord).any (· < m)).map w).sum) (i : Nat) :
    content q value i = part (fun call : Call V (Axis.Coordinate A) => binNo a call.coord) w calls i := by
  have h1 := cumulative_succ q value i
  rw [h, h, sum_filter_lt_succ (fun call : Call V (Axis.Coordinate A) => binNo a call.coord)] at h1
  exact (add_left_cancel h1).symm

/-- **C108 (dense).** Two sequences of calls that differ in the calls `xs` and `ys`: the contents of all bins together differ by no more than the weights of these calls, and bins in which none of these is counted are the same. -/
theorem C108_dense [RDefault V] (hl : LawfulAxis a n) {h : VecHistogram A V} (hnew : VecHistogram.new a = .ok h) {calls calls' common xs ys : List (Call V (Axis.Coordinate A))}
    (hd : Differ calls calls' common xs ys) (q : V → M) (w : Call V (Axis.Coordinate A) → M)
    (hq : ∀ l : List (Call V (Axis.Coordinate A)), l.Sublist calls ∨ l.Sublist calls' → q (filledWith l RDefault.dflt) = (l.map w).sum) :
    (∀ I : Finset Nat, ∑ i ∈ I, |content q (h.callAllCaught calls).valueAtIndex i - content q (h.callAllCaught calls').valueAtIndex i| ≤ (xs.map fun x => |w x|).sum + (ys.map fun x => |w x|).sum) ∧
    ∀ i, (∀ x ∈ xs ++ ys, Axis.index a x.coord ≠ .ok (some i)) → content q (h.callAllCaught calls).valueAtIndex i = content q (h.callAllCaught calls').valueAtIndex i := by
  obtain ⟨h1, h2⟩ := part_differ (fun call : Call V (Axis.Coordinate A) => binNo a call.coord) w hd
  have e1 := content_part (cumulative_dense hl hnew calls q w fun l hl => hq l (.inl hl))
  have e2 := content_part (cumulative_dense hl hnew calls' q w fun l hl => hq l (.inr hl))
  simp only [e1, e2]
  exact ⟨h1, fun i hi => h2 i fun x hx => by rw [ne_eq, binNo_iff]; exact hi x hx⟩

/-- **C108 (sparse).** -/
theorem C108_sparse [RDefault V] {calls calls' common xs ys : List (Call V (Axis.Coordinate A))}
    (hd : Differ calls calls' common xs ys) (q : V → M) (w : Call V (Axis.Coordinate A) → M)
    (hq : ∀ l : List (Call V (Axis.Coordinate A)), l.Sublist calls ∨ l.Sublist calls' → q (filledWith l RDefault.dflt) = (l.map w).sum) :
    (∀ I : Finset Nat, ∑ i ∈ I, |content q ((HashHistogram.new a).callAllCaught calls).valueAtIndex i - content q ((HashHistogram.new a).callAllCaught calls').valueAtIndex i| ≤
      (xs.map fun x => |w x|).sum + (ys.map fun x => |w x|).sum) ∧
    ∀ i, (∀ x ∈ xs ++ ys, Axis.index a x.coord ≠ .ok (some i)) → content q ((HashHistogram.new a).callAllCaught calls).valueAtIndex i = content q ((HashHistogram.new a).callAllCaught calls').valueAtIndex i := by
  obtain ⟨h1, h2⟩ := part_differ (fun call : Call V (Axis.Coordinate A) => binNo a call.coord) w hd
  have e1 := content_part (a := a) (cumulative_sparse calls q w fun l hl => hq l (.inl hl))
  have e2 := content_part (a := a) (cumulative_sparse calls' q w fun l hl => hq l (.inr hl))
  simp only [e1, e2]
  exact ⟨h1, fun i hi => h2 i fun x hx => by rw [ne_eq, binNo_iff]; exact hi x hx⟩

/-- **C108 (counts).** Two data sets that differ in `xs` and `ys`: the numbers of entries of all bins together differ by at most `xs.length + ys.length`, dense and sparse, and bins in which none of these is counted are the same. -/
theorem C108_counts {τ : IntTy} (hl : LawfulAxis a n) {h : VecHistogram A (MInt τ)} (hnew : VecHistogram.new a = .ok h) {cs cs' common xs ys : List (Axis.Coordinate A)}
    (hd : Differ cs cs' common xs ys) (hfit : (cs.length : ℤ) ≤ τ.max) (hfit' : (cs'.length : ℤ) ≤ τ.max) :
    (∀ I : Finset Nat, ∑ i ∈ I, |content MInt.val (h.callAllCaught (cs.map .fill)).valueAtIndex i - content MInt.val (h.callAllCaught (cs'.map .fill)).valueAtIndex i| ≤ (xs.length : ℤ) + ys.length) ∧
    (∀ I : Finset Nat, ∑ i ∈ I, |content MInt.val ((HashHistogram.new a : HashHistogram A (MInt τ)).callAllCaught (cs.map .fill)).valueAtIndex i -
      content MInt.val ((HashHistogram.new a : HashHistogram A (MInt τ)).callAllCaught (cs'.map .fill)).valueAtIndex i| ≤ (xs.length : ℤ) + ys.length) ∧
    ∀ i, (∀ x ∈ xs ++ ys, Axis.index a x ≠ .ok (some i)) → content MInt.val (h.callAllCaught (cs.map .fill)).valueAtIndex i = content MInt.val (h.callAllCaught (cs'.map .fill)).valueAtIndex i := by
  have hd' : Differ (cs.map (Call.fill (V := MInt τ))) (cs'.map .fill) (common.map .fill) (xs.map .fill) (ys.map .fill) :=
    ⟨by rw [← List.map_append]; exact hd.left.map _, by rw [← List.map_append]; exact hd.right.map _⟩
  have hq : ∀ l : List (Call (MInt τ) (Axis.Coordinate A)), l.Sublist (cs.map .fill) ∨ l.Sublist (cs'.map .fill) → MInt.val (filledWith l RDefault.dflt) = (l.map fun _ => (1 : ℤ)).sum := by
    rintro l (hl | hl)
    · exact additive_count cs hfit l hl
    · exact additive_count cs' hfit' l hl
  have e : ∀ l : List (Axis.Coordinate A), ((l.map (Call.fill (V := MInt τ))).map fun _ => |(1 : ℤ)|).sum = l.length := by
    intro l
    induction l with
    | nil => simp
    | cons x l ih =>
      simp only [List.map_cons, List.sum_cons, ih, List.length_cons]
      push_cast
      rw [abs_one, add_comm]
  obtain ⟨h1, h2⟩ := C108_dense hl hnew hd' MInt.val _ hq
  obtain ⟨h3, -⟩ := C108_sparse (a := a) hd' MInt.val _ hq
  simp only [e] at h1 h3
  refine ⟨h1, h3, fun i hi => h2 i fun x hx => ?_⟩
  rw [← List.map_append] at hx
  obtain ⟨c, hc, rfl⟩ := List.mem_map.1 hx
  exact hi c hc

/-- **C108 (samples that move up, dense).** If every coordinate is replaced by one that is not smaller (both counted somewhere), with the same weight, not negative, no cumulative total gets larger. -/
theorem C108_moved_up [RDefault V] (hm : MonotoneAxis a n dom le) {h : VecHistogram A V} (hnew : VecHistogram.new a = .ok h) {calls calls' : List (Call V (Axis.Coordinate A))} (q : V → M)
    (w : Call V (Axis.Coordinate A) → M) (hq : ∀ l : List (Call V (Axis.Coordinate A)), l.Sublist calls ∨ l.Sublist calls' → q (filledWith l RDefault.dflt) = (l.map w).sum)
    (hup : List.Forall₂ (fun x y => dom x.coord ∧ dom y.coord ∧ le x.coord y.coord ∧ (∃ i, Axis.index a x.coord = .ok (some i)) ∧ (∃ j, Axis.index a y.coord = .ok (some j)) ∧ w x = w y ∧ 0 ≤ w x) calls calls')
    (m : Nat) : cumulative q (h.callAllCaught calls').valueAtIndex m ≤ cumulative q (h.callAllCaught calls).valueAtIndex m := by
  rw [cumulative_dense hm.lawful hnew calls q w fun l hl => hq l (.inl hl), cumulative_dense hm.lawful hnew calls' q w fun l hl => hq l (.inr hl)]
  refine sum_forall₂_le w m (R := _) ?_ ?_ hup
  · rintro x y ⟨h1, h2, h3, ⟨i, hi⟩, ⟨j, hj⟩, -⟩
    exact ⟨i, j, (binNo_iff _ _ _).2 hi, (binNo_iff _ _ _).2 hj, hm.mono _ _ _ _ h1 h2 h3 hi hj⟩
  · rintro x y ⟨-, -, -, -, -, h⟩
    exact h

/-- **C108 (samples that move up, sparse).** -/
theorem C108_moved_up_sparse [RDefault V] (hm : MonotoneAxis a n dom le) {calls calls' : List (Call V (Axis.Coordinate A))} (q : V → M)
    (w : Call V (Axis.Coordinate A) → M) (hq : ∀ l : List (Call V (Axis.Coordinate A)), l.Sublist calls ∨ l.Sublist calls' → q (filledWith l RDefault.dflt) = (l.map w).sum)
    (hup : List.Forall₂ (fun x y => dom x.coord ∧ dom y.coord ∧ le x.coord y.coord ∧ (∃ i, Axis.index a x.coord = .ok (some i)) ∧ (∃ j, Axis.index a y.coord = .ok (some j)) ∧ w x = w y ∧ 0 ≤ w x) calls calls')
    (m : Nat) : cumulative q ((HashHistogram.new a).callAllCaught calls').valueAtIndex m ≤ cumulative q ((HashHistogram.new a).callAllCaught calls).valueAtIndex m := by
  rw [cumulative_sparse calls q w fun l hl => hq l (.inl hl), cumulative_sparse calls' q w fun l hl => hq l (.inr hl)]
  refine sum_forall₂_le w m (R := _) ?_ ?_ hup
  · rintro x y ⟨h1, h2, h3, ⟨i, hi⟩, ⟨j, hj⟩, -⟩
    exact ⟨i, j, (binNo_iff _ _ _).2 hi, (binNo_iff _ _ _).2 hj, hm.mono _ _ _ _ h1 h2 h3 hi hj⟩
  · rintro x y ⟨-, -, -, -, -, h⟩
    exact h

/-- **C108 (counts of samples that move up).** No cumulative count gets larger, and every quantile (the bin in which the running total passes `k`) stays or moves to a later bin. -/
theorem C108_moved_up_counts {τ : IntTy} (hm : MonotoneAxis a n dom le) {h : VecHistogram A (MInt τ)} (hnew : VecHistogram.new a = .ok h) {cs cs' : List (Axis.Coordinate A)} (hfit : (cs.length : ℤ) ≤ τ.max)
    (hup : List.Forall₂ (fun x y => dom x ∧ dom y ∧ le x y ∧ (∃ i, Axis.index a x = .ok (some i)) ∧ (∃ j, Axis.index a y = .ok (some j))) cs cs') :
    (∀ m, cumulative MInt.val (h.callAllCaught (cs'.map .fill)).valueAtIndex m ≤ cumulative MInt.val (h.callAllCaught (cs.map .fill)).valueAtIndex m) ∧
    ∀ (k : ℤ) (i j : Nat), (cumulative MInt.val (h.callAllCaught (cs.map .fill)).valueAtIndex i ≤ k ∧ k < cumulative MInt.val (h.callAllCaught (cs.map .fill)).valueAtIndex (i + 1)) →
      (cumulative MInt.val (h.callAllCaught (cs'.map .fill)).valueAtIndex j ≤ k ∧ k < cumulative MInt.val (h.callAllCaught (cs'.map .fill)).valueAtIndex (j + 1)) → i ≤ j := by
  have hlen : (cs'.length : ℤ) ≤ τ.max := by rw [← hup.length_eq]; exact hfit
  have hq : ∀ l : List (Call (MInt τ) (Axis.Coordinate A)), l.Sublist (cs.map .fill) ∨ l.Sublist (cs'.map .fill) → MInt.val (filledWith l RDefault.dflt) = (l.map fun _ => (1 : ℤ)).sum := by
    rintro l (hl | hl)
    · exact additive_count cs hfit l hl
    · exact additive_count cs' hlen l hl
  have key := C108_moved_up (M := ℤ) hm hnew MInt.val (fun _ => 1) hq (List.forall₂_map_left_iff.2 (List.forall₂_map_right_iff.2 (hup.imp fun x y hxy =>
    ⟨hxy.1, hxy.2.1, hxy.2.2.1, hxy.2.2.2.1, hxy.2.2.2.2, rfl, zero_le_one⟩)))
  refine ⟨key, fun k i j h1 h2 => ?_⟩
  by_contra hij
  have hmono : cumulative MInt.val (h.callAllCaught (cs.map .fill)).valueAtIndex (j + 1) ≤ cumulative MInt.val (h.callAllCaught (cs.map .fill)).valueAtIndex i := by
    rw [cumulative_count_dense hm.lawful hnew cs hfit, cumulative_count_dense hm.lawful hnew cs hfit]
    exact_mod_cast List.countP_mono_left fun c _ hc => by
      obtain ⟨b, hb, hb'⟩ := (Option.any_eq_true _ _).1 hc
      rw [hb]
      simp only [Option.any_some, decide_eq_true_eq] at hb' ⊢
      omega
  have := key (j + 1)
  omega
end
end NdHist
