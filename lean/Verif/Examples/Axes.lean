import Verif.Examples.Variable
import Verif.Examples.UniformInt
import Verif.Examples.Fill
import Verif.Props.AxisDisplay
import Verif.Props.AxisEq
import Verif.Props.Checked
import Verif.Props.Default
/-!
# Concrete cases of the theorems in `Props/Axes.lean`, `AxisDisplay.lean`, `AxisEq.lean`, `Checked.lean` and `Default.lean`

`exItem` is the tuple (categories "a", "b" and overflow; categories 10, 20 without overflow), `exTup` the axes made of it: 3 x 2 cells.
-/
namespace NdHist.Examples
open NdHist
section
attribute [local instance] dbg64 stdNew

abbrev exT₀ : AxTy := ⟨Category String, inferInstance⟩
abbrev exT₁ : AxTy := ⟨CategoryNoFlow Nat, inferInstance⟩
def exTup : AxesTuple exT₀ exT₁ [] := ⟨exItem, [3, 6]⟩
theorem exTup_new : AxesTuple.fromTuple exItem = .ok exTup := rfl
theorem exItem_lawful : TupLawful exItem [3, 2] :=
  ⟨3, [2], rfl, C25_lawful_category _ (by decide), 2, [], rfl, C25_lawful_category_noflow _ (by decide), rfl⟩
theorem exPos : ∀ n ∈ [3, 2], 0 < n := by decide
theorem exProd : [3, 2].prod < usizeSize := by decide
theorem exIndexOf : IndexOf exItem ("b", (20 : Nat), ()) [1, 1] := ⟨1, [1], rfl, by decide, 1, [], rfl, by decide, rfl⟩
theorem exIndexOf' : IndexOf exItem ("z", (10 : Nat), ()) [2, 0] := ⟨2, [0], rfl, by decide, 0, [], rfl, by decide, rfl⟩

example : ∃ a, AxesTuple.fromTuple exItem = .ok a ∧ a.axes = exItem ∧ a.shape = prefixProd 1 [3, 2] := C20_construct exItem_lawful exPos exProd
example : exTup.numBins = .ok 6 := (C20_index_formula exItem_lawful exPos exProd exTup_new).1
example : exTup.index ("b", (20 : Nat), ()) = .ok (some (cellNumber 1 [3, 2] [1, 1])) :=
  ((C20_index_formula exItem_lawful exPos exProd exTup_new).2 _ _).2 ⟨_, exIndexOf, rfl, by decide⟩
example : (4 : Nat) = 2 ↔ ([1, 1] : List Nat) = [2, 0] :=
  C20_index_injective exItem_lawful exPos exProd exTup_new exIndexOf exIndexOf' (by decide) (by decide)
example : ∃ is bs, IndexOf exItem ("b", (20 : Nat), ()) is ∧ exTup.bin 4 = .ok (some bs) ∧ BinsOf exItem is bs :=
  C21_bin_of_index exItem_lawful exPos exProd exTup_new (by decide)
example : ∃ is bs, InGrid [3, 2] is ∧ cellNumber 1 [3, 2] is = 5 ∧ exTup.bin 5 = .ok (some bs) ∧ BinsOf exItem is bs := by
  obtain ⟨is, bs, h1, h2, h3, h4, -⟩ := C21_bin_numbering exItem_lawful exPos exProd exTup_new (N := 5) (by decide)
  exact ⟨is, bs, h1, h2, h3, h4⟩
/-- from cell 2 to cell 3: the first axis starts again -/
example : ∃ b' rest', exTup.bin 3 = .ok (some (b', rest')) ∧ Axis.bin exItem.1 0 = .ok (some b') := by
  obtain ⟨-, -, b', rest', -, h2, -, -, h5⟩ := C21_first_axis_fastest exItem_lawful exPos exProd exTup_new (N := 2) (by decide)
  exact ⟨b', rest', h2, h5 rfl⟩
/-- from cell 3 to cell 4: the second axis keeps its bin -/
example : ∃ b rest b', exTup.bin 3 = .ok (some (b, rest)) ∧ exTup.bin 4 = .ok (some (b', rest)) := by
  obtain ⟨b, rest, b', rest', h1, h2, -, h4, -⟩ := C21_first_axis_fastest exItem_lawful exPos exProd exTup_new (N := 3) (by decide)
  obtain ⟨-, rfl⟩ := h4 (by decide)
  exact ⟨b, _, b', h1, h2⟩
example : exTup.index ("a", (30 : Nat), ()) = .ok none :=
  (C22_tuple_none exItem_lawful exPos exProd exTup_new ("a", (30 : Nat), ()) ⟨⟨some 0, by decide⟩, ⟨none, by decide⟩, trivial⟩).1.2 (.inr (.inl (by decide)))
example : exTup.bin 13 = exTup.bin 1 := C23_tuple_bin_wraps exItem_lawful exPos exProd exTup_new 1 2

/-- an axis without bins in a tuple -/
def exEmpty : Tup [⟨CategoryNoFlow Nat, inferInstance⟩, ⟨Category Nat, inferInstance⟩] := (CategoryNoFlow.new [], Category.new [1], ())
example : ∃ a, AxesTuple.fromTuple exEmpty = .ok a ∧ a.bin 7 = .error .divZero :=
  ⟨⟨exEmpty, [0, 0]⟩, rfl, C23_zero_bins_panics (item := exEmpty) (ns := [0, 2]) ⟨0, [2], rfl, C25_lawful_category_noflow _ (by decide), 2, [], rfl, C25_lawful_category _ (by decide), rfl⟩
    (by decide) rfl 7⟩

/-- three axes of 2^22 bins -/
abbrev exBigT : AxTy := ⟨UniformNoFlow (MInt .i64), inferInstance⟩
def exBigAxis : Uniform (MInt .i64) := ⟨2 ^ 22, .lit 0, .lit (2 ^ 22), .lit 1⟩
def exBig : Tup [exBigT, exBigT, exBigT] := (⟨exBigAxis⟩, ⟨exBigAxis⟩, ⟨exBigAxis⟩, ())
theorem exBig_lawful : TupLawful exBig [2 ^ 22, 2 ^ 22, 2 ^ 22] :=
  have h : LawfulAxis (UniformNoFlow.mk exBigAxis) (2 ^ 22) :=
    C25_lawful_uniform_noflow (u := exBigAxis)
      (C25_lawful_uniform_int (num := 2 ^ 22) (low := .lit 0) (step := .lit 1) (by decide) (fun h => absurd h (by decide)) (by decide) (by decide))
  ⟨_, _, rfl, h, _, _, rfl, h, _, _, rfl, h, rfl⟩
example : AxesTuple.fromTuple exBig = .error .overflow := C24_overflow_panics_partial rfl exBig_lawful (by decide)
example : AxesTuple.fromTuple exBig = .error .overflow := by
  obtain ⟨h, -⟩ | ⟨h, -⟩ := C59_axes_tuple rfl exBig_lawful (by decide)
  · exact h
  · exact absurd h (by decide)

example : Axis.indices exTup = .ok (List.range 6) := (C25_axis_iteration (C25_lawful_tuple exItem_lawful exPos exProd exTup_new)).1
example : Axis.numDim exTup = 2 := C25_num_dim exTup
example : ∃ a, AxesTuple1.fromTuple exTup = .ok a ∧ LawfulAxis a 6 := C25_lawful_tuple1 (C25_lawful_tuple exItem_lawful exPos exProd exTup_new)
example : LawfulAxis exV 4 := C25_lawful_variable exV_new (by decide)
example : LawfulAxis exVN 2 := C25_lawful_variable_noflow exVN_new (by decide)
example : LawfulAxis exVC 2 := C25_lawful_variable_cyclic exVC_new (by decide)
theorem exU_lawful : LawfulAxis exU 5 := C25_lawful_uniform_int exU_new (fun h => absurd h (by decide)) (by decide) (by decide)
example : LawfulAxis (UniformCyclic.mk (UniformNoFlow.mk exU)) 3 := C25_lawful_uniform_cyclic exU_lawful

/-! ## Display -/

/-- numbers, written as the numerator -/
local instance : Disp (MInt τ) := ⟨fun _ x => toString x.val⟩
example : exU.display = axisLine 3 "10" "25" "Uniform" := C49_uniform exU (n := 3) rfl (by decide)
example : (UniformNoFlow.mk exU).display = .ok (axisLine 3 "10" "25" "UniformNoFlow") := (C49_uniform_noflow (UniformNoFlow.mk exU) (n := 3) rfl).1
example : exVC.display = .ok (axisLine 2 "1" "5" "VariableCyclic") := by
  obtain ⟨lo, hi, h1, h2, -, -, h⟩ := C49_variable exV_new (by decide)
  cases h1; cases h2; exact h
example : (Category.new [MInt.lit 3, (.lit 4 : MInt .u8)]).display = .ok ("{" ++ ", ".intercalate ["{3}", "{4}", "{overflow}"] ++ "}") :=
  C49_category [MInt.lit 3, (.lit 4 : MInt .u8)] (by decide)

/-! ## Comparisons -/

example : PEq.peq (Category.new ["a", "b"]) (Category.new ["b", "a"]) = false := by
  rw [Bool.eq_false_iff]
  exact fun h => absurd ((C45_category ["a", "b"] ["b", "a"]).1.1 h) (by decide)
example : (3 : Nat) = 3 ∧ (MInt.lit 10 : MInt .i32) = .lit 10 ∧ (MInt.lit 5 : MInt .i32) = .lit 5 :=
  (C45_uniform_int exU_new exU_new (by decide) (by decide) (by decide) (by decide)).1 rfl
example : PEq.peq exU exU = true := (C45_uniform_self exU).2 ⟨rfl, rfl, rfl⟩
section
attribute [local instance] numPEq
example : PEq.peq exV exV = true := (C45_variable_int exV_new exV_new).2 (List.Perm.refl _)
end

/-! ## Checked builds -/

example : Uniform.withStepSize 100 (.lit 3 : MInt .i8) (.lit 2) = .error .overflow :=
  ((C59_with_step_size rfl 100 (.lit 3 : MInt .i8) (.lit 2)).2.1 (by decide)).2 (by decide)
example : exU8.bin 13 = .error .overflow ∧ exU8.bin 12 ≠ .error .overflow := by
  refine ⟨?_, ?_⟩
  · obtain ⟨h, -⟩ | ⟨h, -⟩ := C59_uniform_bin rfl exU8_new (by decide) (k := 12) (by decide)
    · exact h
    · exact absurd h (by decide)
  · obtain ⟨-, h⟩ | ⟨-, s, e, -, -, h⟩ := C59_uniform_bin rfl exU8_new (by decide) (k := 11) (by decide)
    · exact absurd (by decide) h
    · rw [h]; exact fun h => by cases h
example : exC.index (.lit 725) = .ok (some 3) ∨ ∃ k, k < 4 ∧ exC.index (.lit 725) = .ok (some k) := by
  obtain ⟨-, h⟩ | ⟨-, k, h, h', -⟩ := C59_uniform_cyclic_index rfl exC_new (by decide) (.lit 725)
  · exact absurd (by decide) h
  · exact .inr ⟨k, h, h'⟩
example : exVC.index (.lit (-2147483648)) = .error .overflow := by
  obtain ⟨lo, hi, h1, h2, -, h⟩ := C59_variable_cyclic_index rfl exVC_new (by decide) (by decide) (.lit (-2147483648))
  cases h1; cases h2
  obtain ⟨h, -⟩ | ⟨-, h, -⟩ := h
  · exact h
  · exact absurd h (by decide)

/-! ## Defaults -/

example : (RDefault.dflt : Uniform (MInt .i32)).index (.lit (-3)) = .ok (some 0) := (C48_uniform_int .i32).2 (.lit (-3))
example : (RDefault.dflt : Uniform (Flt .f64)).index .nan = .ok (some 1) := (C48_uniform_float .f64).2 .nan
example : LawfulAxis (RDefault.dflt : UniformNoFlow (MInt .u8)) 0 := (C48_uniform_noflow_int .u8).1
example : LawfulAxis (RDefault.dflt : UniformCyclic (Flt .f32)) 0 := (C48_uniform_noflow_float .f32).2
example : (RDefault.dflt : UniformCyclic (MInt .u8)).index (.lit 7) = .error .divZero := C48_cyclic_int_panics .u8 _
example : LawfulAxis (RDefault.dflt : Category String) 1 := C48_category.2.1
example : (RDefault.dflt : HashHistogram (Category String) (MInt .u8)) = HashHistogram.new (Category.new []) := C48_hash.trans rfl

end
end NdHist.Examples
