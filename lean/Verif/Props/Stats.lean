import Verif.SpecStats
import Verif.Props.Project
import Verif.Props.Near
import Verif.Props.FloatGrid
/-!
# C89: statistics read off the bins
-/
namespace NdHist
open scoped Classical

section
variable {α : Type*} {M : Type} [AddCommMonoid M]

theorem sum_filter_lt_succ (f : α → Option Nat) (w : α → M) (m : Nat) (l : List α) :
    ((l.filter fun x => (f x).any (· < m + 1)).map w).sum =
      ((l.filter fun x => (f x).any (· < m)).map w).sum + ((l.filter fun x => f x = some m).map w).sum := by
  induction l with
  | nil => simp
  | cons x l ih =>
    simp only [Nat.lt_succ_iff] at ih ⊢
    simp only [List.filter_cons]
    rcases hx : f x with _ | i
    · simp [ih]
    · rcases Nat.lt_trichotomy i m with h | h | h
      · have h1 : i ≤ m := by omega
        have h2 : ¬ i = m := by omega
        simp [h, h1, h2, ih, add_assoc]
      · subst h
        simp [ih, add_left_comm]
      · have h1 : ¬ i ≤ m := by omega
        have h2 : ¬ i = m := by omega
        have h3 : ¬ i < m := by omega
        simp [h1, h2, h3, ih]

theorem sum_filter_range (f : α → Option Nat) (w : α → M) (m : Nat) (l : List α) :
    ∑ i ∈ Finset.range m, ((l.filter fun x => f x = some i).map w).sum = ((l.filter fun x => (f x).any (· < m)).map w).sum := by
  induction m with
  | zero => simp
  | succ m ih => rw [Finset.sum_range_succ, ih, sum_filter_lt_succ]

/-- in a list of numbers in ascending order the `k`-th is below `m` exactly if more than `k` of them are -/
theorem sorted_lt_iff (l : List Nat) (hs : l.Pairwise (· ≤ ·)) (m k x : Nat) (hk : l[k]? = some x) : x < m ↔ k < l.countP (· < m) := by
  induction l generalizing k with
  | nil => simp at hk
  | cons y l ih =>
    rw [List.pairwise_cons] at hs
    cases k with
    | zero =>
      simp only [List.getElem?_cons_zero, Option.some.injEq] at hk
      subst hk
      constructor
      · intro h; rw [List.countP_cons_of_pos (by simpa using h)]; omega
      · intro h
        by_contra hy
        have : (y :: l).countP (· < m) = 0 := by
          rw [List.countP_eq_zero]
          intro z hz
          rcases List.mem_cons.1 hz with rfl | hz
          · simpa using hy
          · have := hs.1 z hz
            simp; omega
        omega
    | succ k =>
      rw [List.getElem?_cons_succ] at hk
      rw [ih hs.2 k hk]
      by_cases hy : y < m
      · rw [List.countP_cons_of_pos (by simpa using hy)]; omega
      · have h0 : l.countP (· < m) = 0 := by
          rw [List.countP_eq_zero]
          intro z hz
          have := hs.1 z hz
          simp; omega
        rw [List.countP_cons_of_neg (by simpa using hy)]; omega
theorem sum_disjoint {α β : Type*} (cov : α → β → Prop) (L : List α) (c : β) (hd : L.Pairwise fun x y => ¬ (cov x c ∧ cov y c)) (v : ℚ) :
    (L.map fun x => if cov x c then v else 0).sum = if ∃ x ∈ L, cov x c then v else 0 := by
  induction L with
  | nil => simp
  | cons x L ih =>
    rw [List.pairwise_cons] at hd
    rw [List.map_cons, List.sum_cons, ih hd.2]
    by_cases hx : cov x c
    · have : ¬ ∃ y ∈ L, cov y c := by
        rintro ⟨y, hy, hc⟩
        exact hd.1 y hy ⟨hx, hc⟩
      simp [hx, this]
    · simp [hx]

theorem sum_split {α β : Type*} (cov : α → β → Prop) (L : List α) (cs : List β) (hd : ∀ c ∈ cs, L.Pairwise fun x y => ¬ (cov x c ∧ cov y c)) (num : β → ℚ) :
    (L.map fun x => ((cs.filter fun c => cov x c).map num).sum).sum = ((cs.filter fun c => ∃ x ∈ L, cov x c).map num).sum := by
  induction cs with
  | nil => simp
  | cons c cs ih =>
    have e1 : ∀ x, (((c :: cs).filter fun c => cov x c).map num).sum = (if cov x c then num c else 0) + ((cs.filter fun c => cov x c).map num).sum := by
      intro x
      by_cases hx : cov x c <;> simp [hx]
    have e2 : (((c :: cs).filter fun c => ∃ x ∈ L, cov x c).map num).sum =
        (if ∃ x ∈ L, cov x c then num c else 0) + ((cs.filter fun c => ∃ x ∈ L, cov x c).map num).sum := by
      by_cases hx : ∃ x ∈ L, cov x c
      · rw [List.filter_cons_of_pos (by simpa using hx), if_pos hx]; simp
      · rw [List.filter_cons_of_neg (by simpa using hx), if_neg hx]; simp
    rw [e2, ← ih (fun c' hc' => hd c' (List.mem_cons_of_mem _ hc')), ← sum_disjoint cov L c (hd c List.mem_cons_self), ← List.sum_map_add]
    exact congrArg List.sum (List.map_congr_left fun x _ => e1 x)

theorem sum_between {β : Type*} (l : List β) (num : β → ℚ) (lo hi : ℚ) (h : ∀ c ∈ l, lo ≤ num c ∧ num c ≤ hi) :
    l.length * lo ≤ (l.map num).sum ∧ (l.map num).sum ≤ l.length * hi := by
  induction l with
  | nil => simp
  | cons c l ih =>
    have := ih fun c' hc' => h c' (List.mem_cons_of_mem _ hc')
    have h2 := h c List.mem_cons_self
    simp only [List.map_cons, List.sum_cons, List.length_cons]
    push_cast
    constructor <;> linarith [this.1, this.2, h2.1, h2.2]

theorem sum_map_le {α : Type*} (l : List α) (f g : α → ℚ) (h : ∀ x ∈ l, f x ≤ g x) : (l.map f).sum ≤ (l.map g).sum := by
  induction l with
  | nil => simp
  | cons x l ih =>
    simp only [List.map_cons, List.sum_cons]
    exact add_le_add (h x List.mem_cons_self) (ih fun y hy => h y (List.mem_cons_of_mem _ hy))

theorem sum_map_mul_right_le {α : Type*} (l : List α) (f g : α → ℚ) (W : ℚ) (h : ∀ x ∈ l, f x ≤ g x * W) : (l.map f).sum ≤ (l.map g).sum * W := by
  induction l with
  | nil => simp
  | cons x l ih =>
    simp only [List.map_cons, List.sum_cons]
    have := ih fun y hy => h y (List.mem_cons_of_mem _ hy)
    have := h x List.mem_cons_self
    linarith

end

section
variable [cfg : Cfg] {A : Type} [Axis A] {a : A} {n : Nat} {covers : Axis.Interval A → Axis.Coordinate A → Prop} {dom : Axis.Coordinate A → Prop}
  {stop : Axis.Interval A → Option (Axis.Coordinate A)} {lt le : Axis.Coordinate A → Axis.Coordinate A → Prop} {V M : Type} [AddCommMonoid M]

/-- the bin a coordinate is counted in, if any -/
def binNo (a : A) (c : Axis.Coordinate A) : Option Nat := match Axis.index a c with | .ok o => o | .error _ => none

theorem binNo_iff (a : A) (c : Axis.Coordinate A) (i : Nat) : binNo a c = some i ↔ Axis.index a c = .ok (some i) := by
  unfold binNo
  cases h : Axis.index a c <;> simp

theorem callsIn_binNo (a : A) (i : Nat) (calls : List (Call V (Axis.Coordinate A))) : callsIn a i calls = calls.filter fun call => binNo a call.coord = some i := by
  unfold callsIn
  congr 1
  funext call
  simp only [binNo_iff]

/-- dense: the total over the first `m` bins is that of the calls counted in them -/
theorem cumulative_dense [RDefault V] (hl : LawfulAxis a n) {h : VecHistogram A V} (hnew : VecHistogram.new a = .ok h) (calls : List (Call V (Axis.Coordinate A)))
    (q : V → M) (w : Call V (Axis.Coordinate A) → M)
    (hq : ∀ l : List (Call V (Axis.Coordinate A)), l.Sublist calls → q (filledWith l RDefault.dflt) = (l.map w).sum) (m : Nat) :
    cumulative q (h.callAllCaught calls).valueAtIndex m = ((calls.filter fun call => (binNo a call.coord).any (· < m)).map w).sum := by
  unfold cumulative
  rw [← sum_filter_range (fun call : Call V (Axis.Coordinate A) => binNo a call.coord)]
  refine Finset.sum_congr rfl fun i _ => ?_
  rw [(C28_dense hl hnew calls).2.2 i]
  simp only [← callsIn_binNo]
  split
  · exact hq _ List.filter_sublist
  · rename_i hi
    have : callsIn a i calls = [] := by
      rw [callsIn, List.filter_eq_nil_iff]
      intro call _ hc
      exact hi (hl.index_lt _ _ (by simpa using hc))
    simp [this]

/-- sparse: the total over the first `m` bins is that of the calls counted in them -/
theorem cumulative_sparse [RDefault V] (calls : List (Call V (Axis.Coordinate A))) (q : V → M) (w : Call V (Axis.Coordinate A) → M)
    (hq : ∀ l : List (Call V (Axis.Coordinate A)), l.Sublist calls → q (filledWith l RDefault.dflt) = (l.map w).sum) (m : Nat) :
    cumulative q ((HashHistogram.new a : HashHistogram A V).callAllCaught calls).valueAtIndex m =
      ((calls.filter fun call => (binNo a call.coord).any (· < m)).map w).sum := by
  unfold cumulative
  rw [← sum_filter_range (fun call : Call V (Axis.Coordinate A) => binNo a call.coord)]
  refine Finset.sum_congr rfl fun i _ => ?_
  rw [C28_sparse a calls i]
  simp only [← callsIn_binNo]
  split
  · rename_i hi
    simp [hi]
  · exact hq _ List.filter_sublist

theorem AscendingAxis.filter (ha : AscendingAxis a n covers dom stop lt) (calls : List (Call V (Axis.Coordinate A))) (hd : ∀ call ∈ calls, dom call.coord) {i : Nat} {b : Axis.Interval A}
    {e : Axis.Coordinate A} (hi : i < n) (hb : Axis.bin a i = .ok (some b)) (he : stop b = some e) :
    (calls.filter fun call => (binNo a call.coord).any (· < i + 1)) = (callsCovered a calls).filter fun call => lt call.coord e := by
  unfold callsCovered
  rw [List.filter_filter]
  refine List.filter_congr fun call hc => ?_
  have hdc := hd call hc
  obtain ⟨o, ho⟩ := ha.faithful.total _ hdc
  cases o with
  | none => simp [binNo, ho]
  | some j =>
    have hj := ha.faithful.lawful.index_lt _ _ ho
    obtain ⟨b', hb'⟩ := ha.faithful.lawful.bin_some j hj
    have := ha.below i b e hi hb he j b' call.coord hj hb' hdc ((ha.faithful.index_iff _ hdc j b' hj hb').1 ho)
    simp [binNo, ho, this]

/-- C89: a cumulative total of bins is the total of the calls with coordinates below the end of the last of these bins (dense) -/
theorem C89_cumulative [RDefault V] (ha : AscendingAxis a n covers dom stop lt) {h : VecHistogram A V} (hnew : VecHistogram.new a = .ok h) (calls : List (Call V (Axis.Coordinate A)))
    (hd : ∀ call ∈ calls, dom call.coord) (q : V → M) (w : Call V (Axis.Coordinate A) → M)
    (hq : ∀ l : List (Call V (Axis.Coordinate A)), l.Sublist calls → q (filledWith l RDefault.dflt) = (l.map w).sum) {i : Nat} {b : Axis.Interval A} {e : Axis.Coordinate A} (hi : i < n)
    (hb : Axis.bin a i = .ok (some b)) (he : stop b = some e) :
    cumulative q (h.callAllCaught calls).valueAtIndex (i + 1) = (((callsCovered a calls).filter fun call => lt call.coord e).map w).sum := by
  rw [cumulative_dense ha.faithful.lawful hnew calls q w hq, ha.filter calls hd hi hb he]

/-- C89 for sparse histograms -/
theorem C89_cumulative_sparse [RDefault V] (ha : AscendingAxis a n covers dom stop lt) (calls : List (Call V (Axis.Coordinate A)))
    (hd : ∀ call ∈ calls, dom call.coord) (q : V → M) (w : Call V (Axis.Coordinate A) → M)
    (hq : ∀ l : List (Call V (Axis.Coordinate A)), l.Sublist calls → q (filledWith l RDefault.dflt) = (l.map w).sum) {i : Nat} {b : Axis.Interval A} {e : Axis.Coordinate A} (hi : i < n)
    (hb : Axis.bin a i = .ok (some b)) (he : stop b = some e) :
    cumulative q ((HashHistogram.new a : HashHistogram A V).callAllCaught calls).valueAtIndex (i + 1) = (((callsCovered a calls).filter fun call => lt call.coord e).map w).sum := by
  rw [cumulative_sparse calls q w hq, ha.filter calls hd hi hb he]

/-- C89: the number of entries of the bins up to and including the one ending at `e` is the number of (counted) coordinates below `e` -/
theorem C89_count_below {τ : IntTy} (ha : AscendingAxis a n covers dom stop lt) {h : VecHistogram A (MInt τ)} (hnew : VecHistogram.new a = .ok h) (cs : List (Axis.Coordinate A))
    (hd : ∀ c ∈ cs, dom c) (hfit : (cs.length : ℤ) ≤ τ.max) {i : Nat} {b : Axis.Interval A} {e : Axis.Coordinate A} (hi : i < n) (hb : Axis.bin a i = .ok (some b)) (he : stop b = some e) :
    cumulative MInt.val (h.callAllCaught (cs.map .fill)).valueAtIndex (i + 1) = ((cs.countP fun c => (∃ j, Axis.index a c = .ok (some j)) ∧ lt c e : ℕ) : ℤ) := by
  rw [C89_cumulative ha hnew (cs.map .fill) (by intro call hc; obtain ⟨c, hc', rfl⟩ := List.mem_map.1 hc; exact hd c hc') MInt.val _ (additive_count cs hfit) hi hb he,
    callsCovered, List.filter_map, List.filter_map, List.filter_filter, List.map_map]
  have hc : ((fun _ : Call (MInt τ) (Axis.Coordinate A) => (1 : ℤ)) ∘ Call.fill) = fun _ => 1 := rfl
  rw [hc, List.map_const', List.sum_replicate, List.countP_eq_length_filter]
  simp only [nsmul_eq_mul, mul_one]
  congr 2
  refine List.filter_congr fun c _ => ?_
  simp only [Function.comp, Call.coord]
  rcases hx : Axis.index a c with p | o
  · simp
  · cases o
    · simp
    · simp
      exact decide_eq_decide.2 Iff.rfl

/-- C89: an axis with ascending bins counts larger coordinates in later bins -/
theorem C89_monotone (ha : AscendingAxis a n covers dom stop lt) (hle : ∀ c d e, le c d → lt d e → lt c e) : MonotoneAxis a n dom le := by
  refine ⟨ha.faithful.lawful, fun c d i j hc hd hcd hi hj => ?_⟩
  have hi' := ha.faithful.lawful.index_lt _ _ hi
  have hj' := ha.faithful.lawful.index_lt _ _ hj
  obtain ⟨b, hb⟩ := ha.faithful.lawful.bin_some i hi'
  obtain ⟨b', hb'⟩ := ha.faithful.lawful.bin_some j hj'
  by_cases hlast : j + 1 < n
  · obtain ⟨e, he⟩ := ha.ends j b' hlast hb'
    have h1 := (ha.below j b' e hj' hb' he j b' d hj' hb' hd ((ha.faithful.index_iff d hd j b' hj' hb').1 hj)).2 le_rfl
    exact (ha.below j b' e hj' hb' he i b c hi' hb hc ((ha.faithful.index_iff c hc i b hi' hb).1 hi)).1 (hle c d e hcd h1)
  · omega

theorem quantile_aux (hm : MonotoneAxis a n dom le) (cs s : List (Axis.Coordinate A)) (hd : ∀ c ∈ cs, dom c)
    (hperm : s.Perm (cs.filter fun c => ∃ j, Axis.index a c = .ok (some j))) (hs : s.Pairwise le) (k : Nat) (x : Axis.Coordinate A) (hk : s[k]? = some x) :
    ∃ j, Axis.index a x = .ok (some j) ∧ ∀ m, j < m ↔ k < cs.countP fun c => (binNo a c).any (· < m) := by
  have hmem : ∀ c ∈ s, dom c ∧ ∃ j, Axis.index a c = .ok (some j) := by
    intro c hc
    have := hperm.mem_iff.1 hc
    simp only [List.mem_filter, decide_eq_true_eq] at this
    exact ⟨hd c this.1, this.2⟩
  obtain ⟨-, j, hj⟩ := hmem x (List.mem_of_getElem? hk)
  refine ⟨j, hj, fun m => ?_⟩
  have hlist : (s.map fun c => (binNo a c).getD 0).Pairwise (· ≤ ·) := by
    rw [List.pairwise_map]
    refine List.Pairwise.imp_of_mem (R := le) ?_ hs
    intro c d hc hd' hcd
    obtain ⟨h1, i1, e1⟩ := hmem c hc
    obtain ⟨h2, i2, e2⟩ := hmem d hd'
    rw [(binNo_iff a c i1).2 e1, (binNo_iff a d i2).2 e2]
    exact hm.mono c d i1 i2 h1 h2 hcd e1 e2
  have hk' : (s.map fun c => (binNo a c).getD 0)[k]? = some j := by
    rw [List.getElem?_map, hk]
    simp [(binNo_iff a x j).2 hj]
  rw [sorted_lt_iff _ hlist m k j hk', List.countP_map]
  have e1 : s.countP ((fun x => decide (x < m)) ∘ fun c => (binNo a c).getD 0) = s.countP fun c => (binNo a c).any (· < m) := by
    refine List.countP_congr fun c hc => ?_
    obtain ⟨-, i1, e1⟩ := hmem c hc
    simp [(binNo_iff a c i1).2 e1]
  rw [e1, hperm.countP_eq, List.countP_filter]
  have e2 : cs.countP (fun c => (binNo a c).any (· < m) && decide (∃ j, Axis.index a c = .ok (some j))) = cs.countP fun c => (binNo a c).any (· < m) := by
    refine List.countP_congr fun c _ => ?_
    simp only [Bool.and_eq_true, decide_eq_true_eq]
    constructor
    · exact fun h => h.1
    · intro h
      obtain ⟨i, h1, h2⟩ := Option.any_eq_true _ _ |>.1 h
      exact ⟨h, i, (binNo_iff a c i).1 h1⟩
  rw [e2]

theorem cumulative_count_dense {τ : IntTy} (hl : LawfulAxis a n) {h : VecHistogram A (MInt τ)} (hnew : VecHistogram.new a = .ok h) (cs : List (Axis.Coordinate A))
    (hfit : (cs.length : ℤ) ≤ τ.max) (m : Nat) :
    cumulative MInt.val (h.callAllCaught (cs.map .fill)).valueAtIndex m = ((cs.countP fun c => (binNo a c).any (· < m) : ℕ) : ℤ) := by
  rw [cumulative_dense hl hnew (cs.map .fill) MInt.val _ (additive_count cs hfit), List.filter_map, List.map_map]
  have hc : ((fun _ : Call (MInt τ) (Axis.Coordinate A) => (1 : ℤ)) ∘ Call.fill) = fun _ => 1 := rfl
  rw [hc, List.map_const', List.sum_replicate, List.countP_eq_length_filter]
  simp only [nsmul_eq_mul, mul_one]
  rfl

theorem cumulative_count_sparse {τ : IntTy} (cs : List (Axis.Coordinate A)) (hfit : (cs.length : ℤ) ≤ τ.max) (m : Nat) :
    cumulative MInt.val ((HashHistogram.new a : HashHistogram A (MInt τ)).callAllCaught (cs.map .fill)).valueAtIndex m = ((cs.countP fun c => (binNo a c).any (· < m) : ℕ) : ℤ) := by
  rw [cumulative_sparse (cs.map .fill) MInt.val _ (additive_count cs hfit), List.filter_map, List.map_map]
  have hc : ((fun _ : Call (MInt τ) (Axis.Coordinate A) => (1 : ℤ)) ∘ Call.fill) = fun _ => 1 := rfl
  rw [hc, List.map_const', List.sum_replicate, List.countP_eq_length_filter]
  simp only [nsmul_eq_mul, mul_one]
  rfl

/-- C89: quantiles. `s` are the counted coordinates in ascending order; the `k`-th of them (from 0) is in bin `i` exactly if the running total of the bins passes `k` there. -/
theorem C89_quantile {τ : IntTy} (hm : MonotoneAxis a n dom le) {h : VecHistogram A (MInt τ)} (hnew : VecHistogram.new a = .ok h) (cs s : List (Axis.Coordinate A))
    (hd : ∀ c ∈ cs, dom c) (hfit : (cs.length : ℤ) ≤ τ.max) (hperm : s.Perm (cs.filter fun c => ∃ j, Axis.index a c = .ok (some j))) (hs : s.Pairwise le)
    {k : Nat} {x : Axis.Coordinate A} (hk : s[k]? = some x) :
    ∃ i, Axis.index a x = .ok (some i) ∧ ∀ i', (cumulative MInt.val (h.callAllCaught (cs.map .fill)).valueAtIndex i' ≤ k ∧
      k < cumulative MInt.val (h.callAllCaught (cs.map .fill)).valueAtIndex (i' + 1)) ↔ i' = i := by
  obtain ⟨j, hj, hlt⟩ := quantile_aux hm cs s hd hperm hs k x hk
  refine ⟨j, hj, fun i' => ?_⟩
  rw [cumulative_count_dense hm.lawful hnew cs hfit, cumulative_count_dense hm.lawful hnew cs hfit]
  have h1 := hlt i'
  have h2 := hlt (i' + 1)
  constructor
  · rintro ⟨ha, hb⟩
    have ha' : ¬ k < cs.countP fun c => (binNo a c).any (· < i') := by push Not; exact_mod_cast ha
    have hb' : k < cs.countP fun c => (binNo a c).any (· < i' + 1) := by exact_mod_cast hb
    have := h2.2 hb'
    have := mt h1.1 ha'
    omega
  · rintro rfl
    refine ⟨?_, by exact_mod_cast h2.1 (by omega)⟩
    have : ¬ k < cs.countP fun c => (binNo a c).any (· < i') := mt h1.2 (by omega)
    push Not at this
    exact_mod_cast this

/-- C89: quantiles of sparse histograms -/
theorem C89_quantile_sparse {τ : IntTy} (hm : MonotoneAxis a n dom le) (cs s : List (Axis.Coordinate A))
    (hd : ∀ c ∈ cs, dom c) (hfit : (cs.length : ℤ) ≤ τ.max) (hperm : s.Perm (cs.filter fun c => ∃ j, Axis.index a c = .ok (some j))) (hs : s.Pairwise le)
    {k : Nat} {x : Axis.Coordinate A} (hk : s[k]? = some x) :
    ∃ i, Axis.index a x = .ok (some i) ∧ ∀ i', (cumulative MInt.val ((HashHistogram.new a : HashHistogram A (MInt τ)).callAllCaught (cs.map .fill)).valueAtIndex i' ≤ k ∧
      k < cumulative MInt.val ((HashHistogram.new a : HashHistogram A (MInt τ)).callAllCaught (cs.map .fill)).valueAtIndex (i' + 1)) ↔ i' = i := by
  obtain ⟨j, hj, hlt⟩ := quantile_aux hm cs s hd hperm hs k x hk
  refine ⟨j, hj, fun i' => ?_⟩
  rw [cumulative_count_sparse cs hfit, cumulative_count_sparse cs hfit]
  have h1 := hlt i'
  have h2 := hlt (i' + 1)
  constructor
  · rintro ⟨ha, hb⟩
    have ha' : ¬ k < cs.countP fun c => (binNo a c).any (· < i') := by push Not; exact_mod_cast ha
    have hb' : k < cs.countP fun c => (binNo a c).any (· < i' + 1) := by exact_mod_cast hb
    have := h2.2 hb'
    have := mt h1.1 ha'
    omega
  · rintro rfl
    refine ⟨?_, by exact_mod_cast h2.1 (by omega)⟩
    have : ¬ k < cs.countP fun c => (binNo a c).any (· < i') := mt h1.2 (by omega)
    push Not at this
    exact_mod_cast this

/-- C89: quantiles, in terms of the reported bins: the bin at which the running total passes `k` contains the `k`-th smallest counted coordinate -/
theorem C89_quantile_bin {τ : IntTy} (ha : AscendingAxis a n covers dom stop lt) (hle : ∀ c d e, le c d → lt d e → lt c e) {h : VecHistogram A (MInt τ)} (hnew : VecHistogram.new a = .ok h)
    (cs s : List (Axis.Coordinate A)) (hd : ∀ c ∈ cs, dom c) (hfit : (cs.length : ℤ) ≤ τ.max) (hperm : s.Perm (cs.filter fun c => ∃ j, Axis.index a c = .ok (some j))) (hs : s.Pairwise le)
    {k : Nat} {x : Axis.Coordinate A} (hk : s[k]? = some x) :
    ∃ i b, i < n ∧ Axis.bin a i = .ok (some b) ∧ covers b x ∧ ∀ i', (cumulative MInt.val (h.callAllCaught (cs.map .fill)).valueAtIndex i' ≤ k ∧
      k < cumulative MInt.val (h.callAllCaught (cs.map .fill)).valueAtIndex (i' + 1)) ↔ i' = i := by
  obtain ⟨i, hi, hq⟩ := C89_quantile (C89_monotone ha hle) hnew cs s hd hfit hperm hs hk
  have hi' := ha.faithful.lawful.index_lt _ _ hi
  obtain ⟨b, hb⟩ := ha.faithful.lawful.bin_some i hi'
  have hx : dom x := by
    have := hperm.mem_iff.1 (List.mem_of_getElem? hk)
    exact hd x (List.mem_of_mem_filter this)
  exact ⟨i, b, hi', hb, (ha.faithful.index_iff x hx i b hi' hb).1 hi, hq⟩

/-- C89: quantiles with float axes: the bin at which the running total passes `k` contains the `k`-th smallest counted coordinate up to the rounding of the axis (`near`, see C78) -/
theorem C89_quantile_near {τ : IntTy} {inside near : Axis.Interval A → Axis.Coordinate A → Prop} (hr : RoughAxis a n inside near dom) (hm : MonotoneAxis a n dom le)
    {h : VecHistogram A (MInt τ)} (hnew : VecHistogram.new a = .ok h)
    (cs s : List (Axis.Coordinate A)) (hd : ∀ c ∈ cs, dom c) (hfit : (cs.length : ℤ) ≤ τ.max) (hperm : s.Perm (cs.filter fun c => ∃ j, Axis.index a c = .ok (some j))) (hs : s.Pairwise le)
    {k : Nat} {x : Axis.Coordinate A} (hk : s[k]? = some x) :
    ∃ i b, i < n ∧ Axis.bin a i = .ok (some b) ∧ near b x ∧ ∀ i', (cumulative MInt.val (h.callAllCaught (cs.map .fill)).valueAtIndex i' ≤ k ∧
      k < cumulative MInt.val (h.callAllCaught (cs.map .fill)).valueAtIndex (i' + 1)) ↔ i' = i := by
  obtain ⟨i, hi, hq⟩ := C89_quantile hm hnew cs s hd hfit hperm hs hk
  obtain ⟨counted, hf, -, hnear⟩ := hr
  have hi' := hf.lawful.index_lt _ _ hi
  obtain ⟨b, hb⟩ := hf.lawful.bin_some i hi'
  have hx : dom x := by
    have := hperm.mem_iff.1 (List.mem_of_getElem? hk)
    exact hd x (List.mem_of_mem_filter this)
  exact ⟨i, b, hi', hb, hnear _ _ ((hf.index_iff x hx i b hi' hb).1 hi), hq⟩

/-- the argument of `C89_sum`, for any kind of counter (`cnt` reads it as a number) -/
theorem sum_core (cnt : V → ℚ) (hf : FaithfulAxis a n covers dom) (cs : List (Axis.Coordinate A)) (hd : ∀ c ∈ cs, dom c) {items : List (Item (Axis.Interval A) V)} (hlen : items.length = n)
    (h3 : ∀ i it, items[i]? = some it → Axis.bin a i = .ok (some it.bin) ∧ cnt it.value = ((cs.countP fun c => covers it.bin c : ℕ) : ℚ))
    (inner : Axis.Interval A → Prop) (num : Axis.Coordinate A → ℚ) (lo hi : Axis.Interval A → ℚ)
    (hb : ∀ b c, inner b → dom c → covers b c → lo b ≤ num c ∧ num c ≤ hi b) :
      ((items.filter fun it => inner it.bin).map fun it => cnt it.value).sum = (cs.countP fun c => ∃ it ∈ items, inner it.bin ∧ covers it.bin c : ℕ) ∧
      ((items.filter fun it => inner it.bin).map fun it => cnt it.value * lo it.bin).sum ≤ ((cs.filter fun c => ∃ it ∈ items, inner it.bin ∧ covers it.bin c).map num).sum ∧
      ((cs.filter fun c => ∃ it ∈ items, inner it.bin ∧ covers it.bin c).map num).sum ≤ ((items.filter fun it => inner it.bin).map fun it => cnt it.value * hi it.bin).sum := by
  have hmem : ∀ it ∈ items, cnt it.value = (cs.filter fun c => covers it.bin c).length := by
    intro it hit
    obtain ⟨i, hi⟩ := List.mem_iff_getElem?.1 hit
    rw [(h3 i it hi).2, List.countP_eq_length_filter]
  have hdis : ∀ c ∈ cs, (items.filter fun it => inner it.bin).Pairwise fun x y => ¬ (covers x.bin c ∧ covers y.bin c) := by
    intro c hc
    refine List.Pairwise.sublist List.filter_sublist ?_
    rw [List.pairwise_iff_getElem]
    rintro i j hi hj hij ⟨c1, c2⟩
    obtain ⟨b1, -⟩ := h3 i _ (List.getElem?_eq_getElem hi)
    obtain ⟨b2, -⟩ := h3 j _ (List.getElem?_eq_getElem hj)
    have e1 := (hf.index_iff c (hd c hc) i _ (hlen ▸ hi) b1).2 c1
    have e2 := (hf.index_iff c (hd c hc) j _ (hlen ▸ hj) b2).2 c2
    rw [e1] at e2
    cases e2
    exact lt_irrefl _ hij
  have key : ∀ f : Axis.Coordinate A → ℚ, ((cs.filter fun c => ∃ it ∈ items, inner it.bin ∧ covers it.bin c).map f).sum =
      ((items.filter fun it => inner it.bin).map fun it => ((cs.filter fun c => covers it.bin c).map f).sum).sum := by
    intro f
    rw [sum_split (fun (it : Item (Axis.Interval A) V) c => covers it.bin c) _ cs hdis f]
    congr 2
    refine List.filter_congr fun c _ => ?_
    simp only [List.mem_filter, decide_eq_true_eq, and_assoc]
  have hin : ∀ it ∈ items.filter (fun it => inner it.bin), cnt it.value = (cs.filter fun c => covers it.bin c).length ∧
      ∀ c ∈ cs.filter (fun c => covers it.bin c), lo it.bin ≤ num c ∧ num c ≤ hi it.bin := by
    intro it hit
    simp only [List.mem_filter, decide_eq_true_eq] at hit
    refine ⟨hmem it hit.1, fun c hc => ?_⟩
    simp only [List.mem_filter, decide_eq_true_eq] at hc
    exact hb _ _ hit.2 (hd c hc.1) hc.2
  refine ⟨?_, ?_, ?_⟩
  · have := key fun _ => 1
    rw [List.countP_eq_length_filter]
    simp only [List.map_const', List.sum_replicate, nsmul_eq_mul, mul_one] at this
    rw [this]
    exact congrArg List.sum (List.map_congr_left fun it hit => (hin it hit).1)
  · rw [key num]
    refine sum_map_le _ _ _ fun it hit => ?_
    rw [(hin it hit).1]
    exact (sum_between _ num _ _ (hin it hit).2).1
  · rw [key num]
    refine sum_map_le _ _ _ fun it hit => ?_
    rw [(hin it hit).1]
    exact (sum_between _ num _ _ (hin it hit).2).2

/-- the argument of `C89_mean`, for any kind of counter -/
theorem mean_core (cnt : V → ℚ) (hf : FaithfulAxis a n covers dom) (cs : List (Axis.Coordinate A)) (hd : ∀ c ∈ cs, dom c) {items : List (Item (Axis.Interval A) V)} (hlen : items.length = n)
    (hc : ∀ i it, items[i]? = some it → Axis.bin a i = .ok (some it.bin) ∧ cnt it.value = ((cs.countP fun c => covers it.bin c : ℕ) : ℚ))
    (inner : Axis.Interval A → Prop) (num : Axis.Coordinate A → ℚ) (lo hi : Axis.Interval A → ℚ)
    (hb : ∀ b c, inner b → dom c → covers b c → lo b ≤ num c ∧ num c ≤ hi b) (W : ℚ) (hW : ∀ b, inner b → hi b - lo b ≤ W) :
      ∀ N S B : ℚ, N = ((items.filter fun it => inner it.bin).map fun it => cnt it.value).sum →
        S = ((cs.filter fun c => ∃ it ∈ items, inner it.bin ∧ covers it.bin c).map num).sum →
        B = ((items.filter fun it => inner it.bin).map fun it => cnt it.value * ((lo it.bin + hi it.bin) / 2)).sum → 0 < N →
        N = (cs.filter fun c => ∃ it ∈ items, inner it.bin ∧ covers it.bin c).length ∧ |B / N - S / N| ≤ W / 2 := by
  rintro N S B rfl rfl rfl hN
  obtain ⟨h3, h4, h5⟩ := sum_core cnt hf cs hd hlen hc inner num lo hi hb
  refine ⟨by rw [h3, List.countP_eq_length_filter], ?_⟩
  set L := items.filter fun it => inner it.bin with hL
  have hnn : ∀ it ∈ L, (0 : ℚ) ≤ cnt it.value := by
    intro it hit
    obtain ⟨i, hi⟩ := List.mem_iff_getElem?.1 (List.mem_of_mem_filter hit)
    rw [(hc i it hi).2]
    positivity
  have hmid : ∀ it : Item (Axis.Interval A) V, cnt it.value * ((lo it.bin + hi it.bin) / 2) = cnt it.value * lo it.bin + cnt it.value * ((hi it.bin - lo it.bin) / 2) := by
    intro it; ring
  have hmid' : ∀ it : Item (Axis.Interval A) V, cnt it.value * hi it.bin = cnt it.value * ((lo it.bin + hi it.bin) / 2) + cnt it.value * ((hi it.bin - lo it.bin) / 2) := by
    intro it; ring
  have e1 : (L.map fun it => cnt it.value * ((lo it.bin + hi it.bin) / 2)).sum = (L.map fun it => cnt it.value * lo it.bin).sum +
      (L.map fun it => cnt it.value * ((hi it.bin - lo it.bin) / 2)).sum := by
    rw [← List.sum_map_add]; exact congrArg List.sum (List.map_congr_left fun it _ => hmid it)
  have e2 : (L.map fun it => cnt it.value * hi it.bin).sum = (L.map fun it => cnt it.value * ((lo it.bin + hi it.bin) / 2)).sum +
      (L.map fun it => cnt it.value * ((hi it.bin - lo it.bin) / 2)).sum := by
    rw [← List.sum_map_add]; exact congrArg List.sum (List.map_congr_left fun it _ => hmid' it)
  have e3 : (L.map fun it => cnt it.value * ((hi it.bin - lo it.bin) / 2)).sum ≤ (L.map fun it => cnt it.value).sum * (W / 2) := by
    refine sum_map_mul_right_le _ _ _ _ fun it hit => ?_
    have hin : inner it.bin := by
      rw [hL, List.mem_filter] at hit
      exact of_decide_eq_true hit.2
    exact mul_le_mul_of_nonneg_left (by linarith [hW it.bin hin]) (hnn it hit)
  rw [← sub_div, abs_div, abs_of_pos hN, div_le_iff₀ hN, abs_le]
  constructor <;> linarith

/-- C89: the sum of the coordinates lies between the sums of the lower and of the upper bin edges, each times the number of entries. `inner` selects the bins considered (e.g. those that are not
flow bins), `num` reads a coordinate as a number, `lo` and `hi` are the edges. -/
theorem C89_sum {τ : IntTy} (hf : FaithfulAxis a n covers dom) {h : VecHistogram A (MInt τ)} (hnew : VecHistogram.new a = .ok h) (cs : List (Axis.Coordinate A)) (hd : ∀ c ∈ cs, dom c)
    (hfit : (cs.length : ℤ) ≤ τ.max) (inner : Axis.Interval A → Prop) (num : Axis.Coordinate A → ℚ) (lo hi : Axis.Interval A → ℚ)
    (hb : ∀ b c, inner b → dom c → covers b c → lo b ≤ num c ∧ num c ≤ hi b) :
    ∃ h' items, h.callAll (cs.map .fill) = (h', none) ∧ h'.iter = .ok items ∧
      ((items.filter fun it => inner it.bin).map fun it => (it.value.val : ℚ)).sum = (cs.countP fun c => ∃ it ∈ items, inner it.bin ∧ covers it.bin c : ℕ) ∧
      ((items.filter fun it => inner it.bin).map fun it => it.value.val * lo it.bin).sum ≤ ((cs.filter fun c => ∃ it ∈ items, inner it.bin ∧ covers it.bin c).map num).sum ∧
      ((cs.filter fun c => ∃ it ∈ items, inner it.bin ∧ covers it.bin c).map num).sum ≤ ((items.filter fun it => inner it.bin).map fun it => it.value.val * hi it.bin).sum := by
  obtain ⟨h', items, h1, h2, hlen, h3⟩ := C52_count_int hf hnew cs hd hfit
  refine ⟨h', items, h1, h2, sum_core (fun v : MInt τ => (v.val : ℚ)) hf cs hd hlen (fun i it hi => ⟨(h3 i it hi).2.1, ?_⟩) inner num lo hi hb⟩
  simp only [(h3 i it hi).2.2]
  push_cast
  rfl

/-- C89: the mean estimated from the bin centres is off by at most half a bin width -/
theorem C89_mean {τ : IntTy} (hf : FaithfulAxis a n covers dom) {h : VecHistogram A (MInt τ)} (hnew : VecHistogram.new a = .ok h) (cs : List (Axis.Coordinate A)) (hd : ∀ c ∈ cs, dom c)
    (hfit : (cs.length : ℤ) ≤ τ.max) (inner : Axis.Interval A → Prop) (num : Axis.Coordinate A → ℚ) (lo hi : Axis.Interval A → ℚ)
    (hb : ∀ b c, inner b → dom c → covers b c → lo b ≤ num c ∧ num c ≤ hi b) (W : ℚ) (hW : ∀ b, inner b → hi b - lo b ≤ W) :
    ∃ h' items, h.callAll (cs.map .fill) = (h', none) ∧ h'.iter = .ok items ∧
      ∀ N S B : ℚ, N = ((items.filter fun it => inner it.bin).map fun it => (it.value.val : ℚ)).sum →
        S = ((cs.filter fun c => ∃ it ∈ items, inner it.bin ∧ covers it.bin c).map num).sum →
        B = ((items.filter fun it => inner it.bin).map fun it => it.value.val * ((lo it.bin + hi it.bin) / 2)).sum → 0 < N →
        N = (cs.filter fun c => ∃ it ∈ items, inner it.bin ∧ covers it.bin c).length ∧ |B / N - S / N| ≤ W / 2 := by
  obtain ⟨h', items, h1, h2, hlen, h3⟩ := C52_count_int hf hnew cs hd hfit
  refine ⟨h', items, h1, h2, mean_core (fun v : MInt τ => (v.val : ℚ)) hf cs hd hlen (fun i it hi => ⟨(h3 i it hi).2.1, ?_⟩) inner num lo hi hb W hW⟩
  simp only [(h3 i it hi).2.2]
  push_cast
  rfl
end

/-! ## The axes of the library -/
section
variable {T : Type} [POrd T] [LawfulPOrd T]

theorem lt_of_lt_of_le' {x y z : T} (h1 : POrd.lt x y = true) (h2 : POrd.le y z = true) : POrd.lt x z = true := by
  rw [LawfulPOrd.lt_iff] at h1 ⊢
  rw [LawfulPOrd.le_iff] at h2
  obtain ⟨a, b, ha, hb, hab⟩ := h1
  obtain ⟨b', c, hb', hc, hbc⟩ := h2
  rw [hb] at hb'
  cases hb'
  exact ⟨a, c, ha, hc, lt_of_lt_of_le hab hbc⟩

theorem lt_of_le_of_lt' {x y z : T} (h1 : POrd.le x y = true) (h2 : POrd.lt y z = true) : POrd.lt x z = true := by
  rw [LawfulPOrd.lt_iff] at h2 ⊢
  rw [LawfulPOrd.le_iff] at h1
  obtain ⟨a, b, ha, hb, hab⟩ := h1
  obtain ⟨b', c, hb', hc, hbc⟩ := h2
  rw [hb] at hb'
  cases hb'
  exact ⟨a, c, ha, hc, lt_of_le_of_lt hab hbc⟩

theorem not_lt_of_le' {x y : T} (h : POrd.le x y = true) : ¬ POrd.lt y x = true := by
  intro h2
  have := lt_of_le_of_lt' h h2
  rw [LawfulPOrd.lt_iff] at this
  obtain ⟨a, b, ha, hb, hab⟩ := this
  rw [ha] at hb
  cases hb
  exact lt_irrefl _ hab

theorem le_trans' {x y z : T} (h1 : POrd.le x y = true) (h2 : POrd.le y z = true) : POrd.le x z = true := by
  rw [LawfulPOrd.le_iff] at h1 h2 ⊢
  obtain ⟨a, b, ha, hb, hab⟩ := h1
  obtain ⟨b', c, hb', hc, hbc⟩ := h2
  rw [hb] at hb'
  cases hb'
  exact ⟨a, c, ha, hc, le_trans hab hbc⟩

/-- flow bins below `U 0` and from `L num` on, and the bins `[L k, U (k+1))` in between -/
theorem below_flow {bin : Nat → Res (Option (BinInterval T))} {num : Nat} (L U : Nat → T) (b0 : bin 0 = .ok (some (.Underflow (U 0))))
    (bm : ∀ k, k < num → bin (k + 1) = .ok (some (.Bin (L k) (U (k + 1))))) (bl : bin (num + 1) = .ok (some (.Overflow (L num))))
    (hUL : ∀ i k, i ≤ k → k ≤ num → POrd.le (U i) (L k) = true) (hLU : ∀ k, k < num → POrd.le (L k) (U (k + 1)) = true) :
    (∀ i b, i + 1 < num + 2 → bin i = .ok (some b) → ∃ e, b.stop = some e) ∧
    ∀ i b e, i < num + 2 → bin i = .ok (some b) → b.stop = some e → ∀ j b' c, j < num + 2 → bin j = .ok (some b') → b'.Covers c →
      (POrd.lt c e = true ↔ j ≤ i) := by
  have hstop : ∀ i b e, i < num + 2 → bin i = .ok (some b) → b.stop = some e → i ≤ num ∧ e = U i := by
    intro i b e hi hb he
    rcases Nat.eq_zero_or_pos i with rfl | h
    · rw [b0] at hb; cases hb; cases he; exact ⟨by omega, rfl⟩
    · obtain ⟨k, rfl⟩ : ∃ k, i = k + 1 := ⟨i - 1, by omega⟩
      by_cases hk : k < num
      · rw [bm k hk] at hb; cases hb; cases he; exact ⟨by omega, rfl⟩
      · obtain rfl : k = num := by omega
        rw [bl] at hb; cases hb; cases he
  have hUU : ∀ i j, i < j → j ≤ num → POrd.le (U i) (U j) = true := by
    intro i j hij hj
    obtain ⟨k, rfl⟩ : ∃ k, j = k + 1 := ⟨j - 1, by omega⟩
    exact le_trans' (hUL i k (by omega) (by omega)) (hLU k (by omega))
  refine ⟨?_, ?_⟩
  · intro i b hi hb
    rcases Nat.eq_zero_or_pos i with rfl | h
    · rw [b0] at hb; cases hb; exact ⟨_, rfl⟩
    · obtain ⟨k, rfl⟩ : ∃ k, i = k + 1 := ⟨i - 1, by omega⟩
      rw [bm k (by omega)] at hb; cases hb; exact ⟨_, rfl⟩
  · intro i b e hi hb he j b' c hj hb' hc
    obtain ⟨hin, rfl⟩ := hstop i b e hi hb he
    rcases Nat.eq_zero_or_pos j with rfl | h
    · rw [b0] at hb'; cases hb'
      have hc' : POrd.lt c (U 0) = true := hc
      simp only [zero_le, iff_true]
      rcases Nat.eq_zero_or_pos i with rfl | h
      · exact hc'
      · exact lt_of_lt_of_le' hc' (hUU 0 i h hin)
    · obtain ⟨k, rfl⟩ : ∃ k, j = k + 1 := ⟨j - 1, by omega⟩
      by_cases hk : k < num
      · rw [bm k hk] at hb'; cases hb'
        obtain ⟨h1, h2⟩ : POrd.le (L k) c = true ∧ POrd.lt c (U (k + 1)) = true := hc
        constructor
        · intro hlt
          by_contra hki
          exact not_lt_of_le' (le_trans' (hUL i k (by omega) (by omega)) h1) hlt
        · intro hki
          rcases Nat.lt_or_ge (k + 1) i with h | h
          · exact lt_of_lt_of_le' h2 (hUU _ _ h hin)
          · obtain rfl : i = k + 1 := by omega
            exact h2
      · obtain rfl : k = num := by omega
        rw [bl] at hb'; cases hb'
        have h1 : POrd.le (L k) c = true := hc
        constructor
        · intro hlt
          exact absurd hlt (not_lt_of_le' (le_trans' (hUL i k hin le_rfl) h1))
        · intro; omega

/-- only the bins `[L k, U (k+1))` -/
theorem below_noflow {bin : Nat → Res (Option (BinInterval T))} {num : Nat} (L U : Nat → T)
    (bm : ∀ k, k < num → bin k = .ok (some (.Bin (L k) (U (k + 1)))))
    (hUL : ∀ i k, i ≤ k → k ≤ num → POrd.le (U i) (L k) = true) (hLU : ∀ k, k < num → POrd.le (L k) (U (k + 1)) = true) :
    (∀ i b, i + 1 < num → bin i = .ok (some b) → ∃ e, b.stop = some e) ∧
    ∀ i b e, i < num → bin i = .ok (some b) → b.stop = some e → ∀ j b' c, j < num → bin j = .ok (some b') → b'.Covers c →
      (POrd.lt c e = true ↔ j ≤ i) := by
  refine ⟨fun i b hi hb => by rw [bm i (by omega)] at hb; cases hb; exact ⟨_, rfl⟩, ?_⟩
  have := (below_flow (bin := fun i => if i = 0 then .ok (some (.Underflow (U 0))) else if i = num + 1 then .ok (some (.Overflow (L num))) else bin (i - 1)) L U (num := num) rfl
    (fun k hk => by
      have h1 : ¬ k = num := by omega
      simp [h1, bm k hk]) (by simp) hUL hLU).2
  intro i b e hi hb he j b' c hj hb' hc
  have h1 : ¬ i = num := by omega
  have h2 : ¬ j = num := by omega
  have := this (i + 1) b e (by omega) (by simp [h1, hb]) he (j + 1) b' c (by omega) (by simp [h2, hb']) hc
  rw [this]
  omega
end

section
variable [cfg : Cfg]

/-- C89: the bins of a uniform axis with integer coordinates ascend -/
theorem C89_uniform_int {τ : IntTy} {num : Nat} {low step : MInt τ} {a : Uniform (MInt τ)} (hnew : Uniform.withStepSize num low step = .ok (.ok a))
    (hfit : Cfg.checked = false → (num : ℤ) * step.val ≤ τ.max ∧ low.val + num * step.val ≤ τ.max) (hnum : num + 2 < usizeSize) (hbin : (num : ℤ) * (num * step.val) ≤ τ.max) :
    AscendingAxis a (num + 2) (BinInterval.Covers (T := MInt τ)) (fun _ => True) BinInterval.stop (fun c e => @POrd.lt (MInt τ) _ c e = true) := by
  have hf := C51_uniform_int hnew hfit hnum hbin
  obtain ⟨-, b0, ⟨high, hhigh, blast⟩, bmid, -⟩ := C02_uniform_int_bins_partial hnew hfit hnum
  obtain ⟨-, -, hstep, -⟩ := Uniform.withStepSize_ok hnew hfit
  have hle : ∀ k, k < num → ((k : ℤ) + 1) * (num * step.val) ≤ τ.max := fun k hk =>
    le_trans (mul_le_mul_of_nonneg_right (by exact_mod_cast hk) (by positivity)) hbin
  choose s e hs he hb using fun k hk => bmid k hk (hle k hk)
  let L : Nat → MInt τ := fun k => if h : k < num then s k h else high
  let U : Nat → MInt τ := fun k => if k = 0 then low else if h : k - 1 < num then e (k - 1) h else high
  have hL : ∀ k, k ≤ num → (L k).val = low.val + k * step.val := by
    intro k hk
    by_cases h : k < num
    · simp only [L, h, dif_pos, hs]
    · obtain rfl : k = num := by omega
      simp only [L, h, dif_neg, not_false_eq_true, hhigh]
  have hU : ∀ k, k ≤ num → (U k).val = low.val + k * step.val := by
    intro k hk
    rcases Nat.eq_zero_or_pos k with rfl | h
    · simp [U]
    · have h1 : ¬ k = 0 := by omega
      have h2 : k - 1 < num := by omega
      simp only [U, h1, if_false, h2, dif_pos, he]
      have : ((k - 1 : ℕ) : ℤ) + 1 = k := by omega
      rw [this]
  obtain ⟨g1, g2⟩ := below_flow (bin := a.bin) (num := num) L U (by simpa [U] using b0)
    (fun k hk => by
      rw [hb k hk]
      simp [L, U, hk]) (by simpa [L] using blast)
    (fun i k hik hk => by
      show @POrd.le (MInt τ) (@RNum.toPOrd (MInt τ) cfg MInt.instRNum) _ _ = true
      rw [MInt.le_iff, decide_eq_true_eq, hL k hk, hU i (by omega)]
      have : (i : ℤ) * step.val ≤ k * step.val := mul_le_mul_of_nonneg_right (by exact_mod_cast hik) hstep.le
      linarith)
    (fun k hk => by
      show @POrd.le (MInt τ) (@RNum.toPOrd (MInt τ) cfg MInt.instRNum) _ _ = true
      rw [MInt.le_iff, decide_eq_true_eq, hL k (by omega), hU (k + 1) (by omega)]
      push_cast
      linarith)
  exact ⟨hf, g1, fun i b e hi hb he j b' c hj hb' _ hc => g2 i b e hi hb he j b' c hj hb' hc⟩

/-- C89: leaving out the flow bins of a uniform axis -/
theorem C89_uniform_noflow {T : Type} [RNum T] {u : Uniform T} {covers : BinInterval T → T → Prop} {dom : T → Prop} {lt : T → T → Prop}
    (ha : AscendingAxis u (u.num + 2) covers dom BinInterval.stop lt) : AscendingAxis (UniformNoFlow.mk u) u.num covers dom BinInterval.stop lt := by
  have hn : u.num + 2 < usizeSize := ha.faithful.lawful.fits
  have hb : ∀ i b, i < u.num → Axis.bin (UniformNoFlow.mk u) i = .ok (some b) → Axis.bin u (i + 1) = .ok (some b) := by
    intro i b hi hb
    show u.bin (i + 1) = _
    rw [← (C07_noflow_bin u i (by omega) (by omega)).1 hi]; exact hb
  refine ⟨C51_uniform_noflow ha.faithful, fun i b hi h => ha.ends (i + 1) b (by omega) (hb i b (by omega) h), ?_⟩
  intro i b e hi h1 he j b' c hj h2 hc hcov
  rw [ha.below (i + 1) b e (by omega) (hb i b hi h1) he (j + 1) b' c (by omega) (hb j b' hj h2) hc hcov]
  omega

/-- C89: a one-axis histogram -/
theorem C89_tuple1 {X : Type} [Axis X] {x : X} {n : Nat} {cov dom stop lt} (ha : AscendingAxis x n cov dom stop lt) {a : AxesTuple1 X}
    (h : AxesTuple1.fromTuple x = .ok a) : AscendingAxis a n cov dom stop lt := by
  have hf := C51_tuple1 ha.faithful h
  have hx : a.axis = x := by
    simp [AxesTuple1.fromTuple, ha.faithful.lawful.numBins] at h
    rw [← h]
  subst hx
  exact ⟨hf, ha.ends, ha.below⟩

/-- C89: the bins of a variable-width axis with distinct edges ascend -/
theorem C89_variable {T : Type} [POrd T] [LawfulPOrd T] [StdLib] {edges : List T} {a : Variable T}
    (hnew : Variable.new edges = .ok (.ok a)) (hmem : edges.length + 1 < usizeSize) (hd : edges.Pairwise (fun x y => POrd.eq x y = false)) :
    AscendingAxis a (edges.length + 1) BinInterval.Covers (fun c => POrd.eq c c = true) BinInterval.stop (fun c e => POrd.lt c e = true) := by
  have hf := C51_variable hnew hmem hd
  obtain ⟨-, ⟨e0, he0, -, b0⟩, ⟨el, hel, -, bl⟩, bm, -⟩ := C13_variable_bins hnew hmem
  obtain ⟨hlen, -⟩ := (C10_variable_new_sorts edges).1.1 ⟨a, hnew⟩
  obtain ⟨hperm, -⟩ := (C10_variable_new_sorts edges).2 a hnew
  have hl : a.binEdges.length = edges.length := hperm.length_eq
  let E : Nat → T := fun k => a.binEdges.getD k e0
  have hE : ∀ k x, a.binEdges[k]? = some x → E k = x := fun k x h => by simp [E, h]
  have hle : ∀ i k, i ≤ k → k ≤ edges.length - 1 → POrd.le (E i) (E k) = true := by
    intro i k hik hk
    obtain ⟨_, _, _, ok1⟩ := Variable.new_ok hnew
    have h2 := ok1.mono hik (by omega : k < a.binEdges.length)
    rwa [hE i _ (List.getElem?_eq_getElem (by omega)), hE k _ (List.getElem?_eq_getElem (by omega))]
  have hn : edges.length - 1 + 2 = edges.length + 1 := by omega
  have hn1 : edges.length - 1 + 1 = edges.length := by omega
  obtain ⟨g1, g2⟩ := below_flow (bin := a.bin) (num := edges.length - 1) E E (by rw [hE 0 e0 he0]; exact b0)
    (fun k hk => by
      obtain ⟨s, e, h1, h2, h3⟩ := bm k (by omega)
      rw [h3, hE _ _ h1, hE _ _ h2]) (by rw [hn1, hE _ _ hel]; exact bl) hle (fun k hk => hle k (k + 1) (by omega) (by omega))
  rw [hn] at g1 g2
  exact ⟨hf, g1, fun i b e hi hb he j b' c hj hb' _ hc => g2 i b e hi hb he j b' c hj hb' hc⟩

/-- C89: the bins of a variable-width axis without flow bins -/
theorem C89_variable_noflow {T : Type} [POrd T] [LawfulPOrd T] [StdLib] {edges : List T} {a : VariableNoFlow T}
    (hnew : VariableNoFlow.new edges = .ok (.ok a)) (hmem : edges.length + 1 < usizeSize) (hd : edges.Pairwise (fun x y => POrd.eq x y = false)) :
    AscendingAxis a (edges.length - 1) BinInterval.Covers (fun _ => True) BinInterval.stop (fun c e => POrd.lt c e = true) := by
  have hf := C51_variable_noflow hnew hmem hd
  obtain ⟨-, bm, -⟩ := C14_variable_noflow_bins hnew hmem
  have hnew' := VariableNoFlow.new_ok hnew
  obtain ⟨hlen, -⟩ := (C10_variable_new_sorts edges).1.1 ⟨a.axis, hnew'⟩
  obtain ⟨hperm, -⟩ := (C10_variable_new_sorts edges).2 a.axis hnew'
  have hl : a.axis.binEdges.length = edges.length := hperm.length_eq
  let E : Nat → T := fun k => a.axis.binEdges.getD k (a.axis.binEdges[0]'(by omega))
  have hE : ∀ k x, a.axis.binEdges[k]? = some x → E k = x := fun k x h => by simp [E, h]
  have hle : ∀ i k, i ≤ k → k ≤ edges.length - 1 → POrd.le (E i) (E k) = true := by
    intro i k hik hk
    obtain ⟨_, _, _, ok1⟩ := Variable.new_ok hnew'
    have h2 := ok1.mono hik (by omega : k < a.axis.binEdges.length)
    rwa [hE i _ (List.getElem?_eq_getElem (by omega)), hE k _ (List.getElem?_eq_getElem (by omega))]
  obtain ⟨g1, g2⟩ := below_noflow (bin := a.bin) (num := edges.length - 1) E E
    (fun k hk => by
      obtain ⟨s, e, h1, h2, h3⟩ := bm k (by omega)
      rw [h3, hE _ _ h1, hE _ _ h2]) hle (fun k hk => hle k (k + 1) (by omega) (by omega))
  exact ⟨hf, g1, fun i b e hi hb he j b' c hj hb' _ hc => g2 i b e hi hb he j b' c hj hb' hc⟩

/-- C89: the bins of a float axis on a grid ascend -/
theorem C89_uniform_float {F : FFmt} {e z : ℤ} {w num : ℕ} {low high : Flt F} {a : Uniform (Flt F)} (hg : GridFits F e z w num) (hl : low.isFin) (hl0 : low.val = z * pow2 e) (hh : high.isFin)
    (hh0 : high.val = (z + num * w) * pow2 e) (hn : num + 2 < usizeSize) (hnew : Uniform.new num low high = .ok (.ok a)) :
    AscendingAxis a (num + 2) BinInterval.Covers (GridCoord e low high) BinInterval.stop (fun c e : Flt F => POrd.lt c e = true) := by
  obtain ⟨hf, bm⟩ := C76_uniform_new hg hl hl0 hh hh0 hn hnew
  obtain ⟨h, rfl, rfl, rfl⟩ := Uniform.grid_new hg hl hl0 hh hh0 hnew
  have hpe : (0 : ℚ) < pow2 e := pow2_pos e
  choose s t hb hs ht sv tv using bm
  let L : Nat → Flt F := fun k => if h : k < a.num then s k h else a.high
  let U : Nat → Flt F := fun k => if k = 0 then a.low else if h : k - 1 < a.num then t (k - 1) h else a.high
  have hL : ∀ k, k ≤ a.num → (L k).isFin ∧ (L k).val = (z + k * w) * pow2 e := by
    intro k hk
    by_cases h' : k < a.num
    · simp only [L, h', dif_pos]
      exact ⟨hs k h', sv k h'⟩
    · obtain rfl : k = a.num := by omega
      simp only [L, h', dif_neg, not_false_eq_true]
      exact ⟨hh, hh0⟩
  have hU : ∀ k, k ≤ a.num → (U k).isFin ∧ (U k).val = (z + k * w) * pow2 e := by
    intro k hk
    rcases Nat.eq_zero_or_pos k with rfl | h'
    · simp only [U, if_true]
      exact ⟨hl, by rw [hl0]; simp⟩
    · have h1 : ¬ k = 0 := by omega
      have h2 : k - 1 < a.num := by omega
      simp only [U, h1, if_false, h2, dif_pos]
      refine ⟨ht _ _, ?_⟩
      rw [tv]
      have : ((k - 1 : ℕ) : ℚ) + 1 = k := by
        have : ((k - 1 : ℕ) : ℚ) = (k : ℚ) - 1 := by push_cast [Nat.cast_sub h']; rfl
        rw [this]; ring
      rw [this]
  have hmono : ∀ i k : ℕ, i ≤ k → ((z : ℚ) + i * w) * pow2 e ≤ (z + k * w) * pow2 e := by
    intro i k hik
    refine mul_le_mul_of_nonneg_right ?_ hpe.le
    have : (i : ℚ) * w ≤ k * w := mul_le_mul_of_nonneg_right (by exact_mod_cast hik) (by positivity)
    linarith
  obtain ⟨g1, g2⟩ := below_flow (bin := a.bin) (num := a.num) L U (by
      simp only [U, if_true]
      unfold Uniform.bin; rfl)
    (fun k hk => by
      rw [hb k hk]
      simp [L, U, hk]) (by
      simp only [L, lt_irrefl, dif_neg, not_false_eq_true]
      unfold Uniform.bin
      simp [uadd_ok (show a.num + 1 < usizeSize by omega), BinInterval.overflow])
    (fun i k hik hk => by
      rw [Flt.le_fin (hU i (by omega)).1 (hL k hk).1, decide_eq_true_eq, (hL k hk).2, (hU i (by omega)).2]
      exact hmono i k hik)
    (fun k hk => by
      rw [Flt.le_fin (hL k (by omega)).1 (hU (k + 1) (by omega)).1, decide_eq_true_eq, (hL k (by omega)).2, (hU (k + 1) (by omega)).2]
      exact hmono k (k + 1) (by omega))
  exact ⟨hf, g1, fun i b e hi hb he j b' c hj hb' _ hc => g2 i b e hi hb he j b' c hj hb' hc⟩

/-- C89: a float axis built with `Uniform::new` counts larger coordinates in later bins, whatever the rounding -/
theorem C89_monotone_float {F : FFmt} {num : Nat} {low high : Flt F} {a : Uniform (Flt F)} (hnew : Uniform.new num low high = .ok (.ok a)) (hl : low ≠ .nan) (hh : high ≠ .nan)
    (hn : num + 2 < usizeSize) (hp : num < 2 ^ (F.p - 1)) (hw : low.isFin → high.isFin → num * pow2 F.emin ≤ |high.val - low.val|) :
    MonotoneAxis a (num + 2) (fun _ => True) (fun c d : Flt F => POrd.le c d = true) := by
  obtain ⟨-, h⟩ := C05_uniform_new hnew hl hh hn hp hw
  refine ⟨C25_lawful_uniform_float_new hnew hl hh hn hp hw, fun c d i j _ _ hcd hi hj => ?_⟩
  obtain ⟨i', hi', -, -, -, hm⟩ := h c
  obtain ⟨j', hj', hij⟩ := hm d hcd
  have e1 : i = i' := by
    have : a.index c = .ok (some i) := hi
    rw [this] at hi'; cases hi'; rfl
  have e2 : j = j' := by
    have : a.index d = .ok (some j) := hj
    rw [this] at hj'; cases hj'; rfl
  omega

/-- C89: the same for `Uniform::with_step_size` -/
theorem C89_monotone_float_step {F : FFmt} {num : Nat} {low step : Flt F} {a : Uniform (Flt F)} (hnew : Uniform.withStepSize num low step = .ok (.ok a)) (hl : low.isFin) (hs : step.isFin)
    (hn : num + 2 < usizeSize) (hp : num < 2 ^ (F.p - 1)) : MonotoneAxis a (num + 2) (fun _ => True) (fun c d : Flt F => POrd.le c d = true) := by
  obtain ⟨-, h⟩ := C05_with_step_size hnew hl hs hn hp
  refine ⟨C25_lawful_uniform_float_step hnew hl hs hn hp, fun c d i j _ _ hcd hi hj => ?_⟩
  obtain ⟨i', hi', -, -, -, hm⟩ := h c
  obtain ⟨j', hj', hij⟩ := hm d hcd
  have e1 : i = i' := by
    have : a.index c = .ok (some i) := hi
    rw [this] at hi'; cases hi'; rfl
  have e2 : j = j' := by
    have : a.index d = .ok (some j) := hj
    rw [this] at hj'; cases hj'; rfl
  omega

/-- C89: leaving out the flow bins of a monotone uniform axis -/
theorem C89_monotone_noflow {T : Type} [RNum T] {u : Uniform T} {dom : T → Prop} {le : T → T → Prop} (hm : MonotoneAxis u (u.num + 2) dom le) :
    MonotoneAxis (UniformNoFlow.mk u) u.num dom le := by
  have hn : u.num + 2 < usizeSize := hm.lawful.fits
  have key : ∀ c i, UniformNoFlow.index ⟨u⟩ c = .ok (some i) → u.index c = .ok (some (i + 1)) := by
    intro c i h
    cases ho : u.index c with
    | error p => unfold UniformNoFlow.index at h; simp [ho] at h
    | ok o =>
      cases o with
      | none => unfold UniformNoFlow.index at h; simp [ho] at h
      | some j =>
        have hj := hm.lawful.index_lt c j ho
        have := ((C07_noflow_index u hn c j ho (by omega)).2.1 i).1 h
        rw [this.1]
  refine ⟨C25_lawful_uniform_noflow hm.lawful, fun c d i j hc hd hcd hi hj => ?_⟩
  have := hm.mono c d (i + 1) (j + 1) hc hd hcd (key c i hi) (key d j hj)
  omega
end
end NdHist
