import Verif.SpecProject
import Verif.Props.Axes
import Verif.Props.Content
import Verif.Exact
import Mathlib.Algebra.BigOperators.Group.Finset.Basic
import Mathlib.Algebra.BigOperators.Group.Finset.Piecewise
/-!
# C61: projections of a multi-dimensional histogram

Summing an N-dimensional histogram over some of its axes gives the histogram of the remaining axes; rearranging the axes rearranges the bins.
-/
set_option linter.unusedSectionVars false
namespace NdHist

@[simp] theorem Call.mapCoord_coord {V C C' : Type} (f : C → C') (c : Call V C) : (c.mapCoord f).coord = f c.coord := by cases c <;> rfl
@[simp] theorem Call.mapCoord_on {V C C' : Type} (f : C → C') (c : Call V C) : (c.mapCoord f).on = c.on := by cases c <;> rfl

/-- what happens to a value does not depend on the coordinates -/
theorem filledWith_mapCoord {V C C' : Type} (f : C → C') (l : List (Call V C)) (v : V) : filledWith (l.map (Call.mapCoord f)) v = filledWith l v := by
  induction l generalizing v with
  | nil => rfl
  | cons c l ih => simp only [filledWith, List.map_cons, List.foldl_cons, Call.mapCoord_on] at ih ⊢; exact ih _

section
variable [cfg : Cfg] {A A' V : Type} [Axis A] [Axis A'] {M : Type} [AddCommMonoid M]

theorem callsIn_cons (a : A) (N : Nat) (c : Call V (Axis.Coordinate A)) (l : List (Call V (Axis.Coordinate A))) :
    callsIn a N (c :: l) = if Axis.index a c.coord = .ok (some N) then c :: callsIn a N l else callsIn a N l := by
  simp only [callsIn, List.filter_cons, decide_eq_true_eq]

theorem callsCovered_sublist (a : A) (calls : List (Call V (Axis.Coordinate A))) : (callsCovered a calls).Sublist calls := List.filter_sublist
theorem callsIn_sublist (a : A) (N : Nat) (calls : List (Call V (Axis.Coordinate A))) : (callsIn a N calls).Sublist calls := List.filter_sublist

/-- every covered call is counted in exactly one bin, and in the image of that bin after projecting -/
theorem sum_proj {a : A} {a' : A'} {n : Nat} (hlt : ∀ c N, Axis.index a c = .ok (some N) → N < n) {π : Axis.Coordinate A → Axis.Coordinate A'} {ρ : Nat → Nat}
    (hidx : ∀ c N, Axis.index a c = .ok (some N) → Axis.index a' (π c) = .ok (some (ρ N))) (w : Call V (Axis.Coordinate A) → M) (j : Nat)
    (calls : List (Call V (Axis.Coordinate A))) :
    ∑ N ∈ (Finset.range n).filter (fun N => ρ N = j), ((callsIn a N calls).map w).sum =
      (((callsCovered a calls).filter fun c => decide (Axis.index a' (π c.coord) = .ok (some j))).map w).sum := by
  induction calls with
  | nil => simp [callsIn, callsCovered]
  | cons c l ih =>
    rcases h : Axis.index a c.coord with p | o
    · have e1 : ∀ N, callsIn a N (c :: l) = callsIn a N l := fun N => by rw [callsIn_cons, h]; simp
      have e2 : callsCovered a (c :: l) = callsCovered a l := by simp [callsCovered, h]
      simp only [e1, e2, ih]
    · cases o with
      | none =>
        have e1 : ∀ N, callsIn a N (c :: l) = callsIn a N l := fun N => by rw [callsIn_cons, h]; simp
        have e2 : callsCovered a (c :: l) = callsCovered a l := by simp [callsCovered, h]
        simp only [e1, e2, ih]
      | some N₀ =>
        have e1 : ∀ N, ((callsIn a N (c :: l)).map w).sum = (if N₀ = N then w c else 0) + ((callsIn a N l).map w).sum := fun N => by
          rw [callsIn_cons, h]
          by_cases hN : N₀ = N <;> simp [hN]
        have e2 : callsCovered a (c :: l) = c :: callsCovered a l := by simp [callsCovered, h]
        have hN₀ := hlt _ _ h
        simp only [e1, Finset.sum_add_distrib, ih, e2, List.filter_cons, hidx _ _ h]
        rw [Finset.sum_ite_eq]
        by_cases hj : ρ N₀ = j
        · simp [hj, hN₀]
        · simp [hj]

theorem callsIn_covered_map {a : A} {a' : A'} {π : Axis.Coordinate A → Axis.Coordinate A'} (j : Nat) (calls : List (Call V (Axis.Coordinate A))) :
    callsIn a' j ((callsCovered a calls).map (Call.mapCoord π)) =
      ((callsCovered a calls).filter fun c => decide (Axis.index a' (π c.coord) = .ok (some j))).map (Call.mapCoord π) := by
  unfold callsIn
  rw [List.filter_map]
  congr 1
  apply List.filter_congr
  intro c _
  simp

/-- the projection theorem for any two axes and any map of coordinates that determines a map of bin numbers -/
theorem project_dense [RDefault V] {a : A} {a' : A'} {n n' : Nat} (hl : LawfulAxis a n) (hl' : LawfulAxis a' n') {π : Axis.Coordinate A → Axis.Coordinate A'}
    {ρ : Nat → Nat} (hidx : ∀ c N, Axis.index a c = .ok (some N) → Axis.index a' (π c) = .ok (some (ρ N)))
    {h : VecHistogram A V} {h' : VecHistogram A' V} (hnew : VecHistogram.new a = .ok h) (hnew' : VecHistogram.new a' = .ok h')
    (calls : List (Call V (Axis.Coordinate A))) (q : V → M) (w : Call V (Axis.Coordinate A) → M)
    (hq : ∀ l : List (Call V (Axis.Coordinate A)), l.Sublist calls → q (filledWith l RDefault.dflt) = (l.map w).sum) {j : Nat} (hj : j < n') :
    ∃ v', (h'.callAllCaught ((callsCovered a calls).map (Call.mapCoord π))).valueAtIndex j = some v' ∧
      q v' = ∑ N ∈ (Finset.range n).filter (fun N => ρ N = j), ((h.callAllCaught calls).valueAtIndex N).elim 0 q := by
  obtain ⟨-, -, hv⟩ := C28_dense hl hnew calls
  obtain ⟨-, -, hv'⟩ := C28_dense hl' hnew' ((callsCovered a calls).map (Call.mapCoord π))
  refine ⟨_, by rw [hv', if_pos hj], ?_⟩
  rw [callsIn_covered_map, filledWith_mapCoord, hq _ (List.filter_sublist.trans (callsCovered_sublist a calls)), ← sum_proj hl.index_lt hidx w j calls]
  apply Finset.sum_congr rfl
  intro N hN
  have : N < n := by simpa using (Finset.mem_filter.1 hN).1
  rw [hv, if_pos this]
  exact (hq _ List.filter_sublist).symm

theorem project_sparse [RDefault V] {a : A} {a' : A'} {n : Nat} (hl : LawfulAxis a n) {π : Axis.Coordinate A → Axis.Coordinate A'}
    {ρ : Nat → Nat} (hidx : ∀ c N, Axis.index a c = .ok (some N) → Axis.index a' (π c) = .ok (some (ρ N)))
    (calls : List (Call V (Axis.Coordinate A))) (q : V → M) (w : Call V (Axis.Coordinate A) → M)
    (hq : ∀ l : List (Call V (Axis.Coordinate A)), l.Sublist calls → q (filledWith l RDefault.dflt) = (l.map w).sum) (j : Nat) :
    (((HashHistogram.new a' : HashHistogram A' V).callAllCaught ((callsCovered a calls).map (Call.mapCoord π))).valueAtIndex j).elim 0 q =
      ∑ N ∈ (Finset.range n).filter (fun N => ρ N = j), (((HashHistogram.new a : HashHistogram A V).callAllCaught calls).valueAtIndex N).elim 0 q := by
  rw [C28_sparse, callsIn_covered_map]
  have e : (if (((callsCovered a calls).filter fun c => decide (Axis.index a' (π c.coord) = .ok (some j))).map (Call.mapCoord π)) = [] then none
      else some (filledWith (((callsCovered a calls).filter fun c => decide (Axis.index a' (π c.coord) = .ok (some j))).map (Call.mapCoord π)) (RDefault.dflt : V))).elim 0 q
      = (((callsCovered a calls).filter fun c => decide (Axis.index a' (π c.coord) = .ok (some j))).map w).sum := by
    rw [← hq _ (List.filter_sublist.trans (callsCovered_sublist a calls))]
    have h0 := hq [] (List.nil_sublist _)
    split
    next he => rw [List.map_eq_nil_iff.1 he]; simp [h0]
    next => rw [filledWith_mapCoord]; rfl
  rw [e, ← sum_proj hl.index_lt hidx w j calls]
  apply Finset.sum_congr rfl
  intro N _
  rw [C28_sparse, ← hq _ (callsIn_sublist a N calls)]
  have h0 := hq [] (List.nil_sublist _)
  split
  next he => rw [he]; simp [h0]
  next => rfl
end

/-! ## Selecting axes of a tuple -/
section
variable [cfg : Cfg]

theorem getD_cellOf {ns : List Nat} {k : Nat} (hk : k < ns.length) (N : Nat) : (cellOf N ns).getD k 0 = alongAxis ns k N := by
  induction ns generalizing k N with
  | nil => simp at hk
  | cons n ns ih =>
    cases k with
    | zero => simp [cellOf, alongAxis]
    | succ k =>
      have := ih (k := k) (by simpa using hk) (N / n)
      simp only [cellOf, List.getD_cons_succ, this, alongAxis, List.take_succ_cons, List.prod_cons, Nat.div_div_eq_div_mul]

theorem IndexOf.nth {ts : List AxTy} {t : Tup ts} {c : Coords ts} {is : List Nat} (h : IndexOf t c is) (k : Fin ts.length) :
    Axis.index (t.nth k) (c.nth k) = .ok (some (is.getD k 0)) := by
  induction ts generalizing is with
  | nil => exact k.elim0
  | cons t' ts ih =>
    obtain ⟨a, as⟩ := t
    obtain ⟨c, cs⟩ := c
    obtain ⟨i, is', rfl, h1, h2⟩ := h
    obtain ⟨k, hk⟩ := k
    cases k with
    | zero => exact h1
    | succ k => exact ih h2 ⟨k, Nat.lt_of_succ_lt_succ hk⟩

theorem BinsOf.nth {ts : List AxTy} {t : Tup ts} {b : Intervals ts} {is : List Nat} (h : BinsOf t is b) (k : Fin ts.length) :
    Axis.bin (t.nth k) (is.getD k 0) = .ok (some (b.nth k)) := by
  induction ts generalizing is with
  | nil => exact k.elim0
  | cons t' ts ih =>
    obtain ⟨a, as⟩ := t
    obtain ⟨c, cs⟩ := b
    obtain ⟨i, is', rfl, h1, h2⟩ := h
    obtain ⟨k, hk⟩ := k
    cases k with
    | zero => exact h1
    | succ k => exact ih h2 ⟨k, Nat.lt_of_succ_lt_succ hk⟩

theorem TupLawful.nth {ts : List AxTy} {t : Tup ts} {ns : List Nat} (h : TupLawful t ns) (k : Fin ts.length) : LawfulAxis (t.nth k) (ns.getD k 1) := by
  induction ts generalizing ns with
  | nil => exact k.elim0
  | cons t' ts ih =>
    obtain ⟨a, as⟩ := t
    obtain ⟨n, ns', rfl, h1, h2⟩ := h
    obtain ⟨k, hk⟩ := k
    cases k with
    | zero => exact h1
    | succ k => exact ih h2 ⟨k, Nat.lt_of_succ_lt_succ hk⟩

theorem IndexOf.select {ts : List AxTy} {t : Tup ts} {c : Coords ts} {is : List Nat} (h : IndexOf t c is) (σ : List (Fin ts.length)) :
    IndexOf (t.select σ) (c.select σ) (σ.map fun k : Fin _ => is.getD k.1 0) := by
  induction σ with
  | nil => exact (rfl : _ = _)
  | cons k σ ih => exact ⟨_, _, rfl, h.nth k, ih⟩

theorem BinsOf.select {ts : List AxTy} {t : Tup ts} {b : Intervals ts} {is : List Nat} (h : BinsOf t is b) (σ : List (Fin ts.length)) :
    BinsOf (t.select σ) (σ.map fun k : Fin _ => is.getD k.1 0) (b.select σ) := by
  induction σ with
  | nil => exact (rfl : _ = _)
  | cons k σ ih => exact ⟨_, _, rfl, h.nth k, ih⟩

theorem TupLawful.select {ts : List AxTy} {t : Tup ts} {ns : List Nat} (h : TupLawful t ns) (σ : List (Fin ts.length)) :
    TupLawful (t.select σ) (σ.map fun k : Fin _ => ns.getD k.1 1) := by
  induction σ with
  | nil => exact (rfl : _ = _)
  | cons k σ ih => exact ⟨_, _, rfl, h.nth k, ih⟩

variable {t₀ t₁ : AxTy} {ts : List AxTy} {V M : Type} [AddCommMonoid M] [RDefault V]

theorem select_index {item : Tup (t₀ :: t₁ :: ts)} {ns : List Nat} (hl : TupLawful item ns) (hpos : ∀ n ∈ ns, 0 < n) (hfit : ns.prod < usizeSize)
    {a : AxesTuple t₀ t₁ ts} (ha : AxesTuple.fromTuple item = .ok a) {c : Coords (t₀ :: t₁ :: ts)} {N : Nat} (hN : a.index c = .ok (some N))
    (σ : List (Fin (t₀ :: t₁ :: ts).length)) :
    IndexOf (item.select σ) (c.select σ) (σ.map fun k : Fin _ => alongAxis ns k.1 N) := by
  obtain ⟨is, hio, rfl, -⟩ := ((C20_index_formula hl hpos hfit ha).2 c N).1 hN
  have h := hio.select σ
  have hg := hio.inGrid hl
  have : (σ.map fun k : Fin _ => alongAxis ns k.1 (cellNumber 1 ns is)) = σ.map fun k : Fin _ => is.getD k.1 0 := by
    apply List.map_congr_left
    intro k _
    rw [← getD_cellOf (by rw [hl.length]; exact k.2), cellOf_cellNumber hg]
  rw [this]; exact h

/-- the number of bins is positive along every selected axis -/
theorem select_pos {ns : List Nat} (hpos : ∀ n ∈ ns, 0 < n) {m : Nat} (σ : List (Fin m)) : ∀ n ∈ σ.map fun k : Fin _ => ns.getD k.1 1, 0 < n := by
  intro n hn
  obtain ⟨k, -, rfl⟩ := List.mem_map.1 hn
  rw [List.getD_eq_getElem?_getD]
  rcases h : ns[(k : Nat)]? with _ | x
  · simp
  · simpa using hpos x (List.mem_of_getElem? h)

section
variable {item : Tup (t₀ :: t₁ :: ts)} {ns : List Nat} (hl : TupLawful item ns) (hpos : ∀ n ∈ ns, 0 < n) (hfit : ns.prod < usizeSize)
  {a : AxesTuple t₀ t₁ ts} (ha : AxesTuple.fromTuple item = .ok a) {k₀ k₁ : Fin (t₀ :: t₁ :: ts).length} {σ : List (Fin (t₀ :: t₁ :: ts).length)}
  (hfit' : ((k₀ :: k₁ :: σ).map fun k : Fin _ => ns.getD k.1 1).prod < usizeSize)
  {a' : AxesTuple ((t₀ :: t₁ :: ts).get k₀) ((t₀ :: t₁ :: ts).get k₁) (σ.map (t₀ :: t₁ :: ts).get)} (ha' : AxesTuple.fromTuple (item.select (k₀ :: k₁ :: σ)) = .ok a')

include hl hpos hfit ha hfit' ha'

theorem select_index_eq (c : Coords (t₀ :: t₁ :: ts)) (N : Nat) (hN : Axis.index a c = .ok (some N)) :
    Axis.index a' (c.select (k₀ :: k₁ :: σ)) = .ok (some (selectBin ns (k₀ :: k₁ :: σ) N)) := by
  have h := select_index hl hpos hfit ha hN (k₀ :: k₁ :: σ)
  have hg := h.inGrid (hl.select (k₀ :: k₁ :: σ))
  exact ((C20_index_formula (hl.select (k₀ :: k₁ :: σ)) (select_pos hpos _) hfit' ha').2 _ _).2 ⟨_, h, rfl, cellNumber_lt hg⟩

/-- **C61 (bins).** Bin `N` of the histogram lies over bin `selectBin N` of the histogram of the selected axes: its position along each selected axis is that
of bin `N`, and so is its interval. -/
theorem C61_select_bins {N : Nat} (hN : N < ns.prod) {b : Intervals (t₀ :: t₁ :: ts)} (hb : a.bin N = .ok (some b)) :
    selectBin ns (k₀ :: k₁ :: σ) N < ((k₀ :: k₁ :: σ).map fun k : Fin _ => ns.getD k.1 1).prod ∧
    a'.bin (selectBin ns (k₀ :: k₁ :: σ) N) = .ok (some (b.select (k₀ :: k₁ :: σ))) := by
  obtain ⟨is, bs, hg, hc, hb1, hb2, -⟩ := C21_bin_numbering hl hpos hfit ha hN
  rw [hb] at hb1
  injection hb1 with hb1; injection hb1 with hb1; subst hb1
  have hsel := hb2.select (k₀ :: k₁ :: σ)
  have hpos' := select_pos hpos (k₀ :: k₁ :: σ)
  have e : ((k₀ :: k₁ :: σ).map fun k : Fin _ => alongAxis ns k.1 N) = (k₀ :: k₁ :: σ).map fun k : Fin _ => is.getD k.1 0 := by
    apply List.map_congr_left
    intro k _
    rw [← getD_cellOf (by rw [hl.length]; exact k.2), ← hc, cellOf_cellNumber hg]
  have hg' : InGrid ((k₀ :: k₁ :: σ).map fun k : Fin _ => ns.getD k.1 1) ((k₀ :: k₁ :: σ).map fun k : Fin _ => is.getD k.1 0) := by
    rw [← e]
    unfold InGrid
    rw [List.forall₂_map_left_iff, List.forall₂_map_right_iff, List.forall₂_same]
    intro k _
    have hk : (k : Nat) < ns.length := by rw [hl.length]; exact k.2
    unfold alongAxis
    apply Nat.mod_lt
    rw [List.getD_eq_getElem?_getD, List.getElem?_eq_getElem hk]
    exact hpos _ (List.getElem_mem hk)
  have hlt : selectBin ns (k₀ :: k₁ :: σ) N < ((k₀ :: k₁ :: σ).map fun k : Fin _ => ns.getD k.1 1).prod := by
    unfold selectBin; rw [e]; exact cellNumber_lt hg'
  refine ⟨hlt, ?_⟩
  obtain ⟨is', bs', hg2, hc2, hb3, hb4, -⟩ := C21_bin_numbering (hl.select (k₀ :: k₁ :: σ)) hpos' hfit' ha' hlt
  have : is' = (k₀ :: k₁ :: σ).map fun k : Fin _ => is.getD k.1 0 := by
    rw [← cellOf_cellNumber hg2, hc2]
    unfold selectBin
    rw [e, cellOf_cellNumber hg']
  subst this
  rw [hb3, hb4.unique hsel]

/-- **C61 (dense).** Take any selection of the axes, in any order. Fill one histogram with all axes and another one with the selected axes and the
corresponding components of the coordinates (those that lie in some bin of the full histogram). Each bin of the second holds the total of the bins of the first
that lie over it, for every quantity `q` that is additive over fills: the count, the sum of weights, ... . -/
theorem C61_select_dense {h : VecHistogram (AxesTuple t₀ t₁ ts) V} {h' : VecHistogram (AxesTuple _ _ _) V} (hnew : VecHistogram.new a = .ok h)
    (hnew' : VecHistogram.new a' = .ok h') (calls : List (Call V (Coords (t₀ :: t₁ :: ts)))) (q : V → M) (w : Call V (Coords (t₀ :: t₁ :: ts)) → M)
    (hq : ∀ l : List (Call V (Coords (t₀ :: t₁ :: ts))), l.Sublist calls → q (filledWith l RDefault.dflt) = (l.map w).sum) {j : Nat}
    (hj : j < ((k₀ :: k₁ :: σ).map fun k : Fin _ => ns.getD k.1 1).prod) :
    ∃ v', (h'.callAllCaught ((callsCovered a calls).map (Call.mapCoord fun c => c.select (k₀ :: k₁ :: σ)))).valueAtIndex j = some v' ∧
      q v' = ∑ N ∈ (Finset.range ns.prod).filter (fun N => selectBin ns (k₀ :: k₁ :: σ) N = j), ((h.callAllCaught calls).valueAtIndex N).elim 0 q :=
  project_dense (C25_lawful_tuple hl hpos hfit ha) (C25_lawful_tuple (hl.select (k₀ :: k₁ :: σ)) (select_pos hpos _) hfit' ha')
    (select_index_eq hl hpos hfit ha hfit' ha') hnew hnew' calls q w hq hj

/-- **C61 (sparse).** The same for sparse histograms; a bin that is not stored counts as zero. -/
theorem C61_select_sparse (calls : List (Call V (Coords (t₀ :: t₁ :: ts)))) (q : V → M) (w : Call V (Coords (t₀ :: t₁ :: ts)) → M)
    (hq : ∀ l : List (Call V (Coords (t₀ :: t₁ :: ts))), l.Sublist calls → q (filledWith l RDefault.dflt) = (l.map w).sum) (j : Nat) :
    (((HashHistogram.new a' : HashHistogram _ V).callAllCaught ((callsCovered a calls).map (Call.mapCoord fun c => c.select (k₀ :: k₁ :: σ)))).valueAtIndex j).elim 0 q =
      ∑ N ∈ (Finset.range ns.prod).filter (fun N => selectBin ns (k₀ :: k₁ :: σ) N = j), (((HashHistogram.new a : HashHistogram _ V).callAllCaught calls).valueAtIndex N).elim 0 q :=
  project_sparse (C25_lawful_tuple hl hpos hfit ha) (select_index_eq hl hpos hfit ha hfit' ha') calls q w hq j
end

section
variable {item : Tup (t₀ :: t₁ :: ts)} {ns : List Nat} (hl : TupLawful item ns) (hpos : ∀ n ∈ ns, 0 < n) (hfit : ns.prod < usizeSize)
  {a : AxesTuple t₀ t₁ ts} (ha : AxesTuple.fromTuple item = .ok a) (k : Fin (t₀ :: t₁ :: ts).length)

include hl hpos hfit ha

/-- **C61 (one axis).** The one-dimensional histogram of the `k`-th axis: each of its bins holds the total of the bins of the full histogram with the same
position along that axis. -/
theorem C61_marginal {a' : AxesTuple1 ((t₀ :: t₁ :: ts).get k).A} (ha' : AxesTuple1.fromTuple (item.nth k) = .ok a')
    {h : VecHistogram (AxesTuple t₀ t₁ ts) V} {h' : VecHistogram (AxesTuple1 ((t₀ :: t₁ :: ts).get k).A) V} (hnew : VecHistogram.new a = .ok h)
    (hnew' : VecHistogram.new a' = .ok h') (calls : List (Call V (Coords (t₀ :: t₁ :: ts)))) (q : V → M) (w : Call V (Coords (t₀ :: t₁ :: ts)) → M)
    (hq : ∀ l : List (Call V (Coords (t₀ :: t₁ :: ts))), l.Sublist calls → q (filledWith l RDefault.dflt) = (l.map w).sum) :
    Axis.numBins a' = .ok (ns.getD k 1) ∧
    ∀ j, j < ns.getD k 1 →
      ∃ v', (h'.callAllCaught ((callsCovered a calls).map (Call.mapCoord fun c => c.nth k))).valueAtIndex j = some v' ∧
        q v' = ∑ N ∈ (Finset.range ns.prod).filter (fun N => alongAxis ns k N = j), ((h.callAllCaught calls).valueAtIndex N).elim 0 q := by
  have hlk := hl.nth k
  obtain ⟨a'', h1, h2⟩ := C25_lawful_tuple1 hlk
  have h3 : (Except.ok a' : Res _) = .ok a'' := ha'.symm.trans h1
  injection h3 with h3
  subst h3
  have hax : a'.axis = item.nth k := by
    have h4 : AxesTuple1.fromTuple (item.nth k) = .ok ⟨item.nth k, [ns.getD k 1]⟩ := by simp [AxesTuple1.fromTuple, hlk.numBins]
    have h3 : (Except.ok a' : Res _) = .ok ⟨item.nth k, [ns.getD k 1]⟩ := ha'.symm.trans h4
    injection h3 with h3
    rw [h3]
  refine ⟨h2.numBins, fun j hj => ?_⟩
  refine project_dense (C25_lawful_tuple hl hpos hfit ha) h2 (fun c N hN => ?_) hnew hnew' calls q w hq hj
  have := select_index hl hpos hfit ha hN [k]
  obtain ⟨i, is, e, h4, -⟩ := this
  injection e with e
  change alongAxis ns k.1 N = i at e
  show Axis.index a'.axis _ = _
  rw [hax, e]
  exact h4
end
end

/-! ## Quantities that are additive over fills -/
section
variable [cfg : Cfg] {C : Type}

/-- counting with integers, as long as the number of fills fits the counter -/
theorem additive_count {τ : IntTy} (cs : List C) (hfit : (cs.length : ℤ) ≤ τ.max) (l : List (Call (MInt τ) C))
    (hl : l.Sublist (cs.map Call.fill)) : (filledWith l RDefault.dflt).val = (l.map fun _ => (1 : ℤ)).sum := by
  obtain ⟨cs', hs, rfl⟩ := List.sublist_map_iff.1 hl
  have hlen : ((cs'.length : ℕ) : ℤ) ≤ τ.max := le_trans (by exact_mod_cast hs.length_le) hfit
  have h0 : (RDefault.dflt : MInt τ).val = 0 := rfl
  rw [filledWith_fill_int cs' _ (by rw [h0]; simpa using hlen), h0]
  have : ((fun _ => (1 : ℤ)) ∘ (Call.fill : C → Call (MInt τ) C)) = fun _ => 1 := rfl
  rw [List.map_map, this]
  simp

/-- weighted sums in exact arithmetic: the sum of weights and of squared weights -/
theorem additive_weighted {K : Type} [Field K] [LinearOrder K] [FloorRing K] (data : List (C × K)) :
    letI := exactNum K
    ∀ l : List (Call (WeightedSum K) C), l.Sublist (data.map fun cw => Call.fillWith cw.1 cw.2) →
      ((fun s : WeightedSum K => (s.get, s.variance)) (filledWith l RDefault.dflt)) =
        (l.map (fun call => ((call.on ⟨0, 0⟩).1.get, (call.on ⟨0, 0⟩).1.variance))).sum := by
  intro l hl
  obtain ⟨d', -, rfl⟩ := List.sublist_map_iff.1 hl
  have key : ∀ (d : List (C × K)) (s : WeightedSum K), ((fun s : WeightedSum K => (s.get, s.variance))
      (filledWith (d.map fun cw => (@Call.fillWith (WeightedSum K) C K (@WeightedSum.instFillWithOfRNum K K cfg (exactNum K) (@instFillWith K cfg (exactNum K))) cw.1 cw.2)) s)) =
      (s.get, s.variance) + ((d.map fun cw => (cw.2, cw.2 * cw.2))).sum := by
    intro d
    induction d with
    | nil => intro s; simp [filledWith]
    | cons cw d ih =>
      intro s
      have := ih ⟨s.sumw + cw.2, s.sumw2 + cw.2 * cw.2⟩
      simp only [List.map_cons, List.sum_cons]
      refine Eq.trans this ?_
      ext <;> simp [WeightedSum.get, WeightedSum.variance, add_assoc]
  refine (key d' ⟨0, 0⟩).trans ?_
  simp only [List.map_map]
  have : ((⟨0, 0⟩ : WeightedSum K).get, (⟨0, 0⟩ : WeightedSum K).variance) = (0 : K × K) := rfl
  rw [this, zero_add]
  congr 1
  apply List.map_congr_left
  intro cw _
  show _ = ((0 : K) + cw.2, (0 : K) + cw.2 * cw.2)
  simp
end

section
variable [cfg : Cfg] {t₀ t₁ : AxTy} {ts : List AxTy}

/-- **C61 (counts).** Counting with integers: each bin of the histogram of one axis is the sum of the counts of the bins of the full histogram over it. -/
theorem C61_marginal_count {τ : IntTy} {item : Tup (t₀ :: t₁ :: ts)} {ns : List Nat} (hl : TupLawful item ns) (hpos : ∀ n ∈ ns, 0 < n) (hfit : ns.prod < usizeSize)
    {a : AxesTuple t₀ t₁ ts} (ha : AxesTuple.fromTuple item = .ok a) (k : Fin (t₀ :: t₁ :: ts).length)
    {a' : AxesTuple1 ((t₀ :: t₁ :: ts).get k).A} (ha' : AxesTuple1.fromTuple (item.nth k) = .ok a')
    {h : VecHistogram (AxesTuple t₀ t₁ ts) (MInt τ)} {h' : VecHistogram (AxesTuple1 ((t₀ :: t₁ :: ts).get k).A) (MInt τ)} (hnew : VecHistogram.new a = .ok h)
    (hnew' : VecHistogram.new a' = .ok h') (cs : List (Coords (t₀ :: t₁ :: ts))) (hcov : ∀ c ∈ cs, ∃ N, a.index c = .ok (some N))
    (hcount : (cs.length : ℤ) ≤ τ.max) {j : Nat} (hj : j < ns.getD k 1) :
    ∃ v', (h'.callAllCaught (cs.map fun c => .fill (c.nth k))).valueAtIndex j = some v' ∧
      v'.val = ∑ N ∈ (Finset.range ns.prod).filter (fun N => alongAxis ns k N = j), ((h.callAllCaught (cs.map .fill)).valueAtIndex N).elim 0 MInt.val := by
  have e : (callsCovered a (cs.map (Call.fill : _ → Call (MInt τ) _))) = cs.map Call.fill := by
    unfold callsCovered
    rw [List.filter_eq_self]
    intro call hcall
    obtain ⟨c, hc, rfl⟩ := List.mem_map.1 hcall
    obtain ⟨N, hN⟩ := hcov c hc
    have : Axis.index a c = .ok (some N) := hN
    simp [Call.coord, this]
  have := (C61_marginal hl hpos hfit ha k ha' hnew hnew' (cs.map .fill) MInt.val (fun _ => (1 : ℤ)) (additive_count cs hcount)).2 j hj
  rw [e, List.map_map] at this
  exact this
end

section
attribute [local instance] dbg64

/-- C61: exchanging two axes with 12 and 2 bins; and the 2-dimensional histogram of the first and last of three axes -/
example : selectBin [12, 2] [(1 : Fin 2), 0] 14 = 1 + 2 * 2 ∧ alongAxis [12, 2] 0 14 = 2 ∧ alongAxis [12, 2] 1 14 = 1 ∧
    selectBin [3, 4, 5] [(0 : Fin 3), 2] 59 = 2 + 3 * 4 := by decide

/-- C61: the hypotheses of `C61_marginal_count` hold for a 12 x 2 histogram and the first axis, and the two sides are computed: two coordinates in `[5, 10)` -/
example : ∃ (a' : AxesTuple1 (Uniform (MInt .i32))) (h : VecHistogram (AxesTuple ⟨Uniform (MInt .i32), inferInstance⟩ ⟨CategoryNoFlow String, inferInstance⟩ []) (MInt .u8))
    (h' : VecHistogram (AxesTuple1 (Uniform (MInt .i32))) (MInt .u8)),
    TupLawful (ts := [⟨Uniform (MInt .i32), inferInstance⟩, ⟨CategoryNoFlow String, inferInstance⟩]) (exUni, exAxis, ()) [12, 2] ∧
    AxesTuple.fromTuple (t₀ := ⟨Uniform (MInt .i32), inferInstance⟩) (t₁ := ⟨CategoryNoFlow String, inferInstance⟩) (ts := []) (exUni, exAxis, ()) = .ok exPair ∧
    AxesTuple1.fromTuple exUni = .ok a' ∧ VecHistogram.new exPair = .ok h ∧ VecHistogram.new a' = .ok h' ∧
    (∀ c ∈ [(MInt.lit 7, "a", ()), (MInt.lit 3, "a", ()), (MInt.lit 9, "b", ())], ∃ N, exPair.index c = .ok (some N)) ∧
    (h'.callAllCaught ([MInt.lit 7, MInt.lit 3, MInt.lit 9].map .fill)).valueAtIndex 2 = some (.lit 2) ∧
    (h.callAllCaught ([(MInt.lit 7, "a", ()), (MInt.lit 3, "a", ()), (MInt.lit 9, "b", ())].map .fill)).valueAtIndex 2 = some (.lit 1) ∧
    (h.callAllCaught ([(MInt.lit 7, "a", ()), (MInt.lit 3, "a", ()), (MInt.lit 9, "b", ())].map .fill)).valueAtIndex 14 = some (.lit 1) := by
  refine ⟨⟨exUni, [12]⟩, ⟨exPair, List.replicate 24 (.lit 0)⟩, ⟨⟨exUni, [12]⟩, List.replicate 12 (.lit 0)⟩,
    ⟨12, [2], rfl, exUni_faithful.lawful, 2, [], rfl, exAxis_lawful, rfl⟩, rfl, rfl, rfl, rfl, ?_, by decide +kernel, by decide +kernel, by decide +kernel⟩
  intro c hc
  simp only [List.mem_cons, List.not_mem_nil, or_false] at hc
  rcases hc with rfl | rfl | rfl
  · exact ⟨2, by decide +kernel⟩
  · exact ⟨1, by decide +kernel⟩
  · exact ⟨14, by decide +kernel⟩
end
end NdHist
