import Verif.Props.Variable
import Verif.Props.Category
import Verif.Props.BinInterval
/-!
# Concrete cases of the theorems in `Props/Variable.lean`, `Props/Category.lean` and `Props/BinInterval.lean`

`exV` is `Variable::<i32>::new([5, 1, 3])`, `exVN` and `exVC` its no-flow and cyclic forms.
-/
namespace NdHist.Examples
open NdHist
section
attribute [local instance] dbg64 stdNew

/-- the edges as given -/
def exE : List (MInt .i32) := [.lit 5, .lit 1, .lit 3]
def exV : Variable (MInt .i32) := ⟨[.lit 1, .lit 3, .lit 5]⟩
def exVN : VariableNoFlow (MInt .i32) := ⟨exV⟩
def exVC : VariableCyclic (MInt .i32) := ⟨exVN⟩
theorem exV_new : Variable.new exE = .ok (.ok exV) := by decide
theorem exVN_new : VariableNoFlow.new exE = .ok (.ok exVN) := by decide
theorem exVC_new : VariableCyclic.new exE = .ok (.ok exVC) := by decide
theorem exE_distinct : exE.Pairwise (fun x y => POrd.eq x y = false) := by decide

example : Variable.new (T := MInt .i32) [.lit 5] = .ok (.error .InvalidNumberOfBinEdges) := (C10_too_few_edges _).2 (by decide)
example : Variable.new exE ≠ .ok (.error .InvalidNumberOfBinEdges) := fun h => absurd ((C10_too_few_edges _).1 h) (by decide)
example : Variable.new (T := Flt .f64) [@RNum.one _ dbg64 _, .nan] = .ok (.error .FailedToSortBinEdges) ∨
    Variable.new (T := Flt .f64) [@RNum.one _ dbg64 _, .nan] = .error .sortOrder :=
  C10_nan_rejected_partial _ (by decide) ⟨.nan, by simp, rfl⟩
example : ∃ a, Variable.new exE = .ok (.ok a) := (C10_variable_new_sorts exE).1.2 ⟨by decide, by decide⟩
example : exV.binEdges.Perm exE := ((C10_variable_new_sorts exE).2 _ exV_new).1
/-- the edges 0.0 and -0.0 are equal but not the same -/
example : List.Forall₂ (fun x y : Flt .f64 => POrd.eq x y = true) [.zero true, .zero false, @RNum.one _ dbg64 _] [.zero false, .zero true, @RNum.one _ dbg64 _] :=
  C10_edge_order_irrelevant [.zero true, .zero false, @RNum.one _ dbg64 _] [.zero false, .zero true, @RNum.one _ dbg64 _]
    (List.Perm.swap _ _ _) ⟨_⟩ ⟨_⟩ (by decide +kernel) (by decide +kernel)
example : Variable.new (T := MInt .i32) [.lit 1, .lit 5, .lit 3] = .ok (.ok exV) := by
  obtain ⟨a, h⟩ := (C10_variable_new_sorts (T := MInt .i32) [.lit 1, .lit 5, .lit 3]).1.2 ⟨by decide, by decide⟩
  rw [h, C10_edge_order_irrelevant_int exE [.lit 1, .lit 5, .lit 3] (List.Perm.swap _ _ _) exV a exV_new h]
example := C10_nan_may_panic

/-- 3 is in the second bin [3, 5) -/
example : exV.index (.lit 3) = .ok (some 2) := by
  obtain ⟨i, h1, -, -, -, h5⟩ := C11_variable_index exV_new exE_distinct (by decide) (.lit 3)
  rw [h1, (h5 1 (by decide)).2 ⟨_, _, rfl, rfl, by decide, by decide⟩]
/-- NaN is in the overflow bin -/
example : ∃ i, Variable.index (T := Flt .f64) ⟨[.zero false, @RNum.one _ dbg64 _]⟩ .nan = .ok (some i) ∧ i = 2 := by
  obtain ⟨i, h1, -, -, h4, -⟩ := C11_variable_index (T := Flt .f64) (edges := [.zero false, @RNum.one _ dbg64 _]) (a := ⟨[.zero false, @RNum.one _ dbg64 _]⟩)
    (by decide +kernel) (by decide +kernel) (by decide) .nan
  exact ⟨i, h1, h4.2 (.inl rfl)⟩
example : ∃ b, exV.bin 2 = .ok (some b) ∧ b.Covers (.lit 3) := (C11_index_iff_bin_covers exV_new exE_distinct (by decide) _ rfl 2).1 (by decide)
/-- repeated edges: whatever bin 1 gets, the edges before it are at most 1 and the edges from it on at least 1 -/
def exRep : List (MInt .i32) := [.lit 0, .lit 1, .lit 1, .lit 1, .lit 2]
theorem exRep_new : Variable.new exRep = .ok (.ok ⟨exRep⟩) := by decide
example : ∃ i, Variable.index (T := MInt .i32) ⟨exRep⟩ (.lit 1) = .ok (some i) ∧ i ≤ 5 ∧ (4 < i → False) := by
  obtain ⟨i, h1, h2, h3, -⟩ := C12_repeated_edges_partial exRep_new (by decide) (.lit 1) rfl
  exact ⟨i, h1, h2, fun h => absurd (h3 4 _ rfl h) (by decide)⟩
/-- with the binary search of the newer standard library, the last bin starting at 1 -/
example : ∃ i, Variable.index (T := MInt .i32) ⟨exRep⟩ (.lit 1) = .ok (some i) ∧ (i ≤ 3 → False) ∧ (4 < i → False) := by
  obtain ⟨i, h1, h2, h3, h4⟩ := C12_last_match exRep_new (by decide) (fun n cmp i hs h => ((searchNew_spec n cmp hs).1 i h).2.2) (.lit 1) rfl
  exact ⟨i, h1, fun h => absurd (h4 3 _ rfl h) (by decide), fun h => absurd (h3 4 _ rfl h) (by decide)⟩
example : exV.bin 0 = .ok (some (.Underflow (.lit 1))) := by
  obtain ⟨-, ⟨e, h1, -, h3⟩, -⟩ := C13_variable_bins exV_new (by decide)
  cases h1; exact h3
example : exV.bin 9 = .ok none := (C13_variable_bins exV_new (by decide)).2.2.2.2 9 (by decide)
example : exVN.index (.lit 5) = .ok none := by
  obtain ⟨j, h1, -, -, h4⟩ := C14_variable_noflow_index exVN_new (by decide) (.lit 5)
  have : exVN.axis.index (.lit 5) = .ok (some 3) := by decide
  rw [this] at h1; cases h1
  exact h4.2 (.inr rfl)
example : exVN.index (.lit 4) = .ok (some 1) :=
  ((C14_variable_noflow_covers exVN_new (by decide) exE_distinct (.lit 4)).2.1 1).2 ⟨by decide, _, _, rfl, rfl, by decide, by decide⟩
example : exVN.index (.lit 0) = .ok none :=
  (C14_variable_noflow_covers exVN_new (by decide) exE_distinct (.lit 0)).2.2.2 (.inr (.inl ⟨_, rfl, by decide⟩))
example : exVN.bin 2 = .ok none := (C14_variable_noflow_bins exVN_new (by decide)).2.2 2 (by decide) (by decide)
example : ∃ b, exVN.bin 1 = .ok (some b) ∧ b.Covers (.lit 4) := (C14_index_iff_bin_covers exVN_new (by decide) exE_distinct _ 1 (by decide)).1 (by decide)
/-- 100 on the circle [1, 5) -/
example : ∃ k, exVC.index (.lit 100) = .ok (some k) ∧ k < 2 := by
  obtain ⟨lo, hi, h1, h2, -, h4⟩ := C15_variable_cyclic_int_partial exVC_new (by decide) (by decide) (.lit 100)
  cases h1; cases h2
  obtain ⟨k, s, e, h5, h6, -⟩ := h4 (by decide) (by decide) (by decide)
  exact ⟨k, h6, by simp [exE] at h5; omega⟩
/-- twenty turns -/
example : exVC.index (.lit 84) = exVC.index (.lit 4) :=
  C15_variable_cyclic_int_turns_partial exVC_new (by decide) (.lit 1) (.lit 5) rfl rfl (by decide) _ _ (-20) (by decide) (by decide) (by decide) (by decide) (by decide)
example : ∃ a, VariableCyclic.new (T := MInt .u8) [.lit 7, .lit 7, .lit 7] = .ok (.ok a) ∧ (a.index (.lit 9) = .error .divZero ∨ a.index (.lit 9) = .error .overflow) := by
  obtain ⟨a, h1, h2⟩ := C15_equal_edges_panic (MInt.lit 7 : MInt .u8) 3 (by decide)
  exact ⟨a, h1, h2 _⟩

/-! ## Categories -/

example : (Category.new ["a", "b"]).bin 2 = .ok (some .Overflow) := (C16_category_bins ["a", "b"] (by decide)).2.2.1
example : (Category.new ["a", "b"]).index "b" = .ok (some 1) := (C16_category_index ["a", "b"] (by decide) "b").1 1 rfl
example : (Category.new ["a", "b"]).index "z" = .ok (some 2) := (C16_category_index ["a", "b"] (by decide) "z").2 (by decide)
example : ∃ b, (Category.new ["a", "b"]).bin 2 = .ok (some b) ∧ b.Covers ["a", "b"] "z" :=
  (C16_index_iff_bin_covers ["a", "b"] (by decide) (by decide) "z" 2).1 (by decide)
/-- the last of the repeated categories gets the value -/
example : (Category.new ["a", "b", "a"]).index "a" = .ok (some 2) := by
  obtain ⟨i, h1, h2, h3, -⟩ := C17_category_repeated ["a", "b", "a"] (by decide) "a"
  obtain ⟨h4, h5, -⟩ := h3 (by decide)
  have : ¬ i < 2 := fun h => h5 2 h rfl
  have : i = 2 := by
    have h6 : i < 3 := by
      by_contra h7
      rw [List.getElem?_eq_none (by simp; omega)] at h4; cases h4
    omega
  rw [h1, this]
example : (CategoryNoFlow.new ["a", "b"]).index "z" = .ok none := (C18_category_noflow_index ["a", "b"] (by decide) "z").2 (by decide)
example : ∃ i, (CategoryNoFlow.new ["a", "b"]).index "b" = .ok (some i) ∧ i < 2 := ((C18_category_noflow_index ["a", "b"] (by decide) "b").1 (by decide)).2
example : (CategoryNoFlow.new ["a", "b"]).bin 2 = .ok none := (C18_category_noflow_bins ["a", "b"] (by decide)).2.2 2 (by decide)

/-! ## Intervals -/

example : (BinInterval.Bin 1 2 : BinInterval Nat).start = some 1 ∧ (BinInterval.Bin 1 2 : BinInterval Nat).stop = some 2 :=
  ((C19_end_points (.Bin 1 2) (.Bin 1 2)).2.1 1 2).2 rfl
example : (BinInterval.Underflow 2 : BinInterval Nat).start = none := (C19_end_points (.Underflow 2) (.Underflow 2)).1.1.2 ⟨2, rfl⟩
example : (BinInterval.fromRange ⟨1, 2⟩ : BinInterval Nat).tryIntoRange = .ok ⟨1, 2⟩ := (C19_range_round_trip ⟨1, 2⟩ ⟨2⟩ ⟨1⟩).1
example := C19_exactly_one_range (.Overflow 2 : BinInterval Nat)
example : (BinInterval.Underflow 2 : BinInterval Nat).stop = some 2 := ((C19_range_end_points (.Underflow 2)).2.1 ⟨2⟩ rfl).2
example : (SingleValueBinInterval.new "a").value = some "a" := (C19_single_value "a" _).1.2 rfl

end
end NdHist.Examples
