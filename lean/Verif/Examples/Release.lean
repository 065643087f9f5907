import Verif.Props.Release
import Verif.Examples.Variable
/-!
# Concrete cases of the theorems in `Props/Release.lean`
-/
namespace NdHist.Examples
open NdHist
section
attribute [local instance] rel64 stdNew

example : ∃ m : MInt .i8, IntTy.Residue .i8 200 m ∧ (∀ m', IntTy.Residue .i8 200 m' → m' = m) ∧
    (m.val = 200 ↔ IntTy.Holds .i8 200) := C69_residue .i8 200

/-- `Uniform::<i8>::with_step_size(100, -100, 2)`: [-100, 100); `100 * 2` is not an `i8`, the upper end is -/
def exR : Uniform (MInt .i8) := ⟨100, .lit (-100), .lit 100, .lit 2⟩
theorem exR_new : Uniform.withStepSize 100 (.lit (-100)) (.lit 2) = .ok (.ok exR) := by decide

/-- an axis whose ends are swapped -/
example : Uniform.withStepSize (T := MInt .i8) 2 (.lit 100) (.lit 20) = .ok (.ok ⟨2, .lit (-116), .lit 100, .lit 20⟩) := by
  obtain ⟨o, ⟨t, ht⟩, h⟩ := (C69_with_step_size (τ := .i8) rfl 2 (.lit 100) (.lit 20)).2.2 (by decide) (by decide) (by decide)
  obtain rfl : o = .lit (-116) := IntTy.Residue.unique ⟨t, ht⟩ ⟨-1, by decide⟩
  exact h
example : exR.low = .lit (-100) ∧ exR.high.val = -100 + (100 : Nat) * 2 := (C69_right_axis rfl exR_new).2.2.1 (by decide)
/-- the swapped axis again -/
example : ¬ ((MInt.lit (-116) : MInt .i8) = .lit 100 ∧ ((MInt.lit 100 : MInt .i8).val : ℤ) = 100 + (2 : Nat) * 20) :=
  (C69_right_axis (τ := .i8) (num := 2) (low := .lit 100) (step := .lit 20) (a := ⟨2, .lit (-116), .lit 100, .lit 20⟩)
    rfl (by decide)).2.2.2 (by decide)
/-- coordinate 10 of the swapped axis: `d = 126`, bin 7 of 4 -/
example : Uniform.index (⟨2, .lit (-116), .lit 100, .lit 20⟩ : Uniform (MInt .i8)) (.lit 10) = .ok (some 7) := by
  obtain ⟨d, hd, h, -⟩ := (C69_uniform_index rfl (⟨2, .lit (-116), .lit 100, .lit 20⟩ : Uniform (MInt .i8)) (by decide)
    (by decide) (.lit 10)).2.2 (by decide) (by decide)
  have : d = .lit 126 := hd.unique ⟨0, by decide⟩
  subst this
  exact h 6 (by decide) (by decide) (by decide)
/-- `-2` is in bin 50 (`c - low = 98`), `50` is reported in the overflow bin (`c - low = 150`) -/
example : exR.index (.lit (-2)) = .ok (some 50) := by
  obtain ⟨i, h1, -, -, -, h5, -⟩ := C69_uniform_index_right rfl exR_new (by decide) (by decide) (.lit (-2))
  obtain rfl := h5 (by decide) 49 (by decide) (by decide) (by decide)
  exact h1
example : exR.index (.lit 50) = .ok (some 101) := by
  obtain ⟨i, h1, -, -, -, -, h6⟩ := C69_uniform_index_right rfl exR_new (by decide) (by decide) (.lit 50)
  obtain rfl := (h6 (by decide) (by decide) (by decide)).2.1 (by decide)
  exact h1
/-- `Uniform::<i8>::with_step_size(2, -100, 100)`: `2 * 2 * 100` is not an `i8`, but `(2 * 100 - 256) * 2` is, and the bin is
right; on `Uniform::<u8>::with_step_size(20, 0, 1)` the upper end of bin [12, 13) is wrong -/
example : ∃ s e : MInt .i8, Uniform.bin (⟨2, .lit (-100), .lit 100, .lit 100⟩ : Uniform (MInt .i8)) 2 = .ok (some (.Bin s e)) ∧
    e.val = 100 := by
  obtain ⟨s, e, h1, -, h3⟩ := C69_uniform_bin_right (τ := .i8) (num := 2) (low := .lit (-100)) (step := .lit 100) rfl
    (a := ⟨2, .lit (-100), .lit 100, .lit 100⟩) (by decide) (by decide) (by decide) (k := 1) (by decide)
  exact ⟨s, e, h1, h3.mpr (.inr (by decide))⟩
example : ∃ s e : MInt .u8, Uniform.bin (⟨20, .lit 0, .lit 20, .lit 1⟩ : Uniform (MInt .u8)) 13 = .ok (some (.Bin s e)) ∧
    s.val = 12 ∧ e.val ≠ 13 := by
  obtain ⟨s, e, h1, h2, h3⟩ := C69_uniform_bin_right (τ := .u8) (num := 20) (low := .lit 0) (step := .lit 1) rfl
    (a := ⟨20, .lit 0, .lit 20, .lit 1⟩) (by decide) (by decide) (by decide) (k := 12) (by decide)
  exact ⟨s, e, h1, h2.mpr (.inl (by decide)), fun h => absurd (h3.mp h) (by decide)⟩
example : ∃ s e : MInt .u8, Uniform.bin (⟨20, .lit 0, .lit 20, .lit 1⟩ : Uniform (MInt .u8)) 13 = .ok (some (.Bin s e)) := by
  obtain ⟨-, -, s, e, -, -, -, -, h⟩ := C69_uniform_bin (τ := .u8) (num := 20) (low := .lit 0) (step := .lit 1) rfl
    (a := ⟨20, .lit 0, .lit 20, .lit 1⟩) (by decide) (by decide) (k := 12) (by decide)
  exact ⟨s, e, h⟩

/-- `UniformCyclic::<u8>::with_step_size(4, 10, 8)`: turns of 32 divide 256, so coordinates below `low` are right -/
def exRC : UniformCyclic (MInt .u8) := ⟨⟨⟨4, .lit 10, .lit 42, .lit 8⟩⟩⟩
theorem exRC_new : UniformCyclic.withStepSize 4 (.lit 10) (.lit 8) = .ok (.ok exRC) := by decide
example : ∃ k, k < 4 ∧ exRC.index (.lit 3) = .ok (some k) ∧
    ∃ t : ℤ, 10 + (k : ℤ) * 8 ≤ 3 + t * ((4 : Nat) * 8) ∧ 3 + t * ((4 : Nat) * 8) < 10 + ((k : ℤ) + 1) * 8 :=
  C69_uniform_cyclic_right rfl exRC_new (by decide) (by decide) (by decide) (.lit 3) (.inr ⟨8, by decide⟩)
/-- turns of 20 do not: 8 is looked up as `10 + 254`, in bin 2 -/
example : ∃ k, k < 4 ∧ UniformCyclic.index (⟨⟨⟨4, .lit 10, .lit 30, .lit 5⟩⟩⟩ : UniformCyclic (MInt .u8)) (.lit 8) = .ok (some k) := by
  obtain ⟨k, h1, h2, -⟩ := C69_uniform_cyclic_index (τ := .u8) (num := 4) (low := .lit 10) (step := .lit 5)
    (a := ⟨⟨⟨4, .lit 10, .lit 30, .lit 5⟩⟩⟩) rfl (by decide) (by decide) (by decide) (by decide) (.lit 8)
  exact ⟨k, h1, h2⟩
example : ∃ lo hi : MInt .i32, VariableCyclic.low exVC = .ok lo ∧ VariableCyclic.high exVC = .ok hi ∧ lo.val < hi.val := by
  obtain ⟨lo, hi, h1, h2, h3, -⟩ := C69_variable_cyclic_index (τ := .i32) (edges := exE) (a := exVC) rfl (by decide) (by decide)
    (by decide) (.lit (-2147483648))
  exact ⟨lo, hi, h1, h2, h3⟩
end

section
/-- release build for a 16-bit platform -/
@[reducible] def rel16 : Cfg := ⟨16, false, by decide⟩
attribute [local instance] rel16

/-- `UniformNoFlow::<i32>::with_step_size(257, 0, 1)` -/
def exR257 : Uniform (MInt .i32) := ⟨257, .lit 0, .lit 257, .lit 1⟩
theorem exR257_lawful : LawfulAxis (UniformNoFlow.mk exR257) 257 :=
  C25_lawful_uniform_noflow (u := exR257)
    (C25_lawful_uniform_int (num := 257) (low := .lit 0) (step := .lit 1) (by decide) (fun _ => by decide) (by decide) (by decide))
def exR2 : Tup [⟨UniformNoFlow (MInt .i32), inferInstance⟩, ⟨UniformNoFlow (MInt .i32), inferInstance⟩] :=
  (⟨exR257⟩, ⟨exR257⟩, ())
theorem exR2_lawful : TupLawful exR2 [257, 257] := ⟨_, _, rfl, exR257_lawful, _, _, rfl, exR257_lawful, rfl⟩
/-- 66049 cells, of which 513 are reported -/
example : ∃ a, AxesTuple.fromTuple exR2 = .ok a ∧ a.numBins = .ok 513 := by
  obtain ⟨a, h1, -, h2, -⟩ := C69_axes_tuple rfl exR2_lawful
  exact ⟨a, h1, h2⟩
/-- the cells (0, 0) and (1, 255) share a number -/
example : ∃ a, AxesTuple.fromTuple exR2 = .ok a ∧ a.numBins ≠ .ok 0 ∧ ∃ is is', InGrid [257, 257] is ∧ InGrid [257, 257] is' ∧ is ≠ is' := by
  obtain ⟨a, h1, -, h2, -⟩ := C69_axes_tuple rfl exR2_lawful
  obtain ⟨a', h1', h⟩ := C69_too_many_cells rfl exR2_lawful (by decide) (by decide)
  rw [h1] at h1'
  cases h1'
  have hne : a.numBins ≠ .ok 0 := by rw [h2]; decide
  obtain ⟨is, is', g1, g2, g3, -⟩ := h.resolve_left hne
  exact ⟨a, h1, hne, is, is', g1, g2, g3⟩
end
end NdHist.Examples
