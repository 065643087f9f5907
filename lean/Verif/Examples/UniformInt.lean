import Verif.Props.UniformInt
/-!
# Concrete cases of the theorems in `Props/UniformInt.lean`

Every theorem applied to a concrete axis: its hypotheses can be met. `exU` is `Uniform::<i32>::with_step_size(3, 10, 5)`.
-/
namespace NdHist.Examples
open NdHist
section
attribute [local instance] dbg64

/-- `Uniform::<i32>::with_step_size(3, 10, 5)`: [10, 15), [15, 20), [20, 25) -/
def exU : Uniform (MInt .i32) := ⟨3, .lit 10, .lit 25, .lit 5⟩
theorem exU_new : Uniform.withStepSize 3 (.lit 10) (.lit 5) = .ok (.ok exU) := by decide
/-- `Uniform::<u8>::with_step_size(20, 0, 1)` -/
def exU8 : Uniform (MInt .u8) := ⟨20, .lit 0, .lit 20, .lit 1⟩
theorem exU8_new : Uniform.withStepSize 20 (.lit 0) (.lit 1) = .ok (.ok exU8) := by decide
/-- `UniformCyclic::<i32>::with_step_size(4, 10, 90)` -/
def exC : UniformCyclic (MInt .i32) := ⟨⟨⟨4, .lit 10, .lit 370, .lit 90⟩⟩⟩
theorem exC_new : UniformCyclic.withStepSize 4 (.lit 10) (.lit 90) = .ok (.ok exC) := by decide

/-- C01 at the edge 15, in a checked build -/
example : ∃ i, exU.index (.lit 15) = .ok (some i) ∧ i ≤ 4 ∧ (i = 0 ↔ (15 : ℤ) < 10) ∧ (i = 2 ↔ (15 : ℤ) ≤ 15 ∧ (15 : ℤ) < 20) := by
  obtain ⟨i, h1, h2, h3, -, h5⟩ := C01_uniform_int_index exU_new (fun h => absurd h (by decide)) (by decide) (.lit 15)
  exact ⟨i, h1, h2, h3, h5 1 (by decide)⟩
/-- C01 in a release build -/
example := @C01_uniform_int_index rel64 .i32 3 (.lit 10) (.lit 5) exU (by decide) (fun _ => by decide) (by decide) (.lit 15)
example : (3 : ℤ) * 5 ≤ IntTy.max .i32 ∧ (10 : ℤ) + 3 * 5 ≤ IntTy.max .i32 := C03_checked_construction_fits rfl exU_new
/-- C02: the bin [15, 20) -/
example : ∃ s e : MInt .i32, s.val = 15 ∧ e.val = 20 ∧ exU.bin 2 = .ok (some (.Bin s e)) := by
  obtain ⟨-, -, -, h, -⟩ := C02_uniform_int_bins_partial exU_new (fun h => absurd h (by decide)) (by decide)
  obtain ⟨s, e, h1, h2, h3⟩ := h 1 (by decide) (by decide)
  exact ⟨s, e, h1, h2, h3⟩
example : exU.bin 7 = .ok none := (C02_uniform_int_bins_partial exU_new (fun h => absurd h (by decide)) (by decide)).2.2.2.2 7 (by decide)
example : exU8.bin 13 = .error .overflow := C02_bin_panics rfl exU8_new (by decide) (k := 12) (by decide) (by decide)
example : ∃ a, Uniform.withStepSize 2 (.lit 3 : MInt .i8) (.lit 4) = .ok (.ok a) :=
  (C03_with_step_size_int 2 (.lit 3 : MInt .i8) (.lit 4) (by decide) (by decide)).2.2.1.2 (by decide)
example : Uniform.withStepSize 2 (.lit 3 : MInt .i8) (.lit (-4)) = .ok (.error .InvalidStepSize) :=
  (C03_with_step_size_int 2 (.lit 3 : MInt .i8) (.lit (-4)) (by decide) (by decide)).2.1.2 (by decide)
example : Uniform.withStepSize 100 (.lit 3 : MInt .i8) (.lit 2) = .error .overflow :=
  C03_overflow_panics rfl 100 (.lit 3) (.lit 2) (by decide) (by decide)
example : UniformNoFlow.index ⟨exU⟩ (.lit 17) = .ok (some 1) ∧ UniformNoFlow.index ⟨exU⟩ (.lit 25) = .ok none :=
  ⟨((C07_noflow_index exU (by decide) (.lit 17) 2 (by decide) (by decide)).2.1 1).2 (by decide),
    (C07_noflow_index exU (by decide) (.lit 25) 4 (by decide) (by decide)).2.2.1.2 (by decide)⟩
example : UniformNoFlow.bin ⟨exU⟩ 2 = exU.bin 3 ∧ UniformNoFlow.bin ⟨exU⟩ 3 = .ok none :=
  ⟨(C07_noflow_bin exU 2 (by decide) (by decide)).1 (by decide), (C07_noflow_bin exU 3 (by decide) (by decide)).2 (by decide)⟩
/-- C08: the coordinate 1000, 630 above the range -/
example : ∃ k, k < 4 ∧ exC.index (.lit 1000) = .ok (some k) ∧
    ∃ t : ℤ, 10 + k * 90 ≤ 1000 + t * (4 * 90) ∧ 1000 + t * (4 * 90) < 10 + ((k : ℤ) + 1) * 90 :=
  C08_uniform_cyclic_int exC_new (fun h => absurd h (by decide)) (by decide) (.lit 1000) (by decide)
/-- three turns further down -/
example : exC.index (.lit 1000) = exC.index (.lit (-80)) :=
  C08_uniform_cyclic_int_turns exC_new (fun h => absurd h (by decide)) (by decide) (.lit 1000) (.lit (-80)) (-3) (by decide) (by decide) (by decide)
end
end NdHist.Examples
