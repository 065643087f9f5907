import Verif.Examples.Interchange
import Verif.Props.Rescale
/-!
# Concrete cases of the theorems in `Props/Rescale.lean`
-/
namespace NdHist.Examples
open NdHist
section
attribute [local instance] dbg64 stdNew

/-- `i32` as `i64`, times 100 (metres to centimetres), plus 7 -/
def exCm (c : MInt .i32) : MInt .i64 :=
  ⟨100 * c.val + 7, by have := c.min_le; simp only [IntTy.min, IntTy.i32, IntTy.i64] at *; norm_num at *; omega, by have := c.le_max; simp only [IntTy.max, IntTy.i32, IntTy.i64] at *; norm_num at *; omega⟩
theorem exCm_order : PreservesOrder exCm (fun _ => True) := by
  intro x y _ _
  rw [MInt.pcmp_eq, MInt.pcmp_eq]
  congr 1
  show compare (100 * x.val + 7) (100 * y.val + 7) = compare x.val y.val
  rcases lt_trichotomy x.val y.val with h | h | h
  · rw [Int.compare_eq_lt.2 h, Int.compare_eq_lt.2 (by omega)]
  · rw [h]; simp
  · rw [Int.compare_eq_gt.2 h, Int.compare_eq_gt.2 (by omega)]
theorem exSelf (c : MInt .i32) : POrd.eq c c = true := by
  have := MInt.eq_iff c c
  rw [this]; simp
/-- the edges 0, 5, 10, 20 and 50 m -/
example : Coarser exFineV 6 (BinInterval.Covers (T := MInt .i32)) (Variable.mk (exFineV.binEdges.map exCm)) 6 (BinInterval.Covers (T := MInt .i64)) exCm (fun _ => True) id :=
  C84_variable exCm_order (fun c _ => exSelf c) (fun _ _ => trivial) (List.Perm.refl _) (by decide) (by decide) exFineV_new (by decide +kernel)
example : Coarser (VariableNoFlow.mk exFineV) 4 (BinInterval.Covers (T := MInt .i32)) (VariableNoFlow.mk (Variable.mk (exFineV.binEdges.map exCm))) 4 (BinInterval.Covers (T := MInt .i64)) exCm (fun _ => True) id :=
  C84_variable_noflow (edges := exFine) exCm_order (fun c _ => exSelf c) (fun _ _ => trivial) (List.Perm.refl _) (by decide) (by decide) (by decide +kernel) (by decide +kernel)
example : exFineV.index (.lit 7 : MInt .i32) = .ok (some 2) ∧ (Variable.mk (exFineV.binEdges.map exCm)).index (.lit 707 : MInt .i64) = .ok (some 2) := by decide +kernel

/-- fruits renamed to their lists of letters -/
example : Coarser (Category.new exFruit) 4 (SingleValueBinInterval.Covers exFruit) (Category.new (exFruit.map String.toList)) 4 (SingleValueBinInterval.Covers (exFruit.map String.toList)) String.toList
      (fun _ => True) id ∧
    Coarser (CategoryNoFlow.new exFruit) 3 (SingleValueBinInterval.Covers exFruit) (CategoryNoFlow.new (exFruit.map String.toList)) 3 (SingleValueBinInterval.Covers (exFruit.map String.toList)) String.toList
      (fun _ => True) id := C84_category (by decide) (by decide) (fun _ _ h => String.toList_injective h)

theorem exUni_bins : BinsAre exUni 12 (BinInterval.Covers (T := MInt .i32)) (fun _ => True) MInt.Is (evenBins 10 (0 : ℤ) (5 : ℤ)) :=
  C84_int (num := 10) (low := .lit 0) (step := .lit 5) rfl (fun h => absurd h (by decide)) (by decide) (by decide)
def exUniCm : Uniform (MInt .i64) := ⟨10, .lit 7, .lit 5007, .lit 500⟩
theorem exUniCm_bins : BinsAre exUniCm 12 (BinInterval.Covers (T := MInt .i64)) (fun _ => True) MInt.Is (evenBins 10 (100 * (0 : ℤ) + 7) (100 * (5 : ℤ))) := by
  have := C84_int (num := 10) (low := (.lit 7 : MInt .i64)) (step := .lit 500) (a := exUniCm) rfl (fun h => absurd h (by decide)) (by decide) (by decide)
  have e1 : (((.lit 7 : MInt .i64).val : ℤ) : ℚ) = 100 * (0 : ℤ) + 7 := by show ((7 : ℤ) : ℚ) = _; norm_num
  have e2 : (((.lit 500 : MInt .i64).val : ℤ) : ℚ) = 100 * (5 : ℤ) := by show ((500 : ℤ) : ℚ) = _; norm_num
  rwa [e1, e2] at this
example : Coarser exUni 12 (BinInterval.Covers (T := MInt .i32)) exUniCm 12 (BinInterval.Covers (T := MInt .i64)) exCm (fun _ => True) id :=
  C84_uniform (by norm_num) exUni_bins exUniCm_bins fun (c : MInt .i32) _ => ⟨trivial, trivial, c.val, rfl, by show ((100 * c.val + 7 : ℤ) : ℚ) = _; push_cast; ring⟩
example : exUni.index (.lit 23 : MInt .i32) = .ok (some 5) ∧ exUniCm.index (.lit 2307 : MInt .i64) = .ok (some 5) := by decide +kernel
example : Coarser exUni 12 (BinInterval.Covers (T := MInt .i32)) exUniCm 12 (BinInterval.Covers (T := MInt .i64)) exCm (fun _ => True) id := by
  refine C84_same_numbers (φ := fun x => 100 * x + 7) exUni_bins exUniCm_bins ?_ (fun (c : MInt .i32) _ => ⟨trivial, trivial, c.val, rfl, by show ((100 * c.val + 7 : ℤ) : ℚ) = _; push_cast; ring⟩)
  intro i x _
  unfold evenBins
  split
  · simp only [Set.mem_ofPred_eq]; constructor <;> intro h <;> push_cast at * <;> linarith
  · split
    · simp only [Set.mem_ofPred_eq]; constructor <;> intro h <;> push_cast at * <;> linarith
    · simp only [Set.mem_ofPred_eq]; constructor <;> rintro ⟨h, h'⟩ <;> constructor <;> push_cast at * <;> linarith

theorem exNoFlow_bins : BinsAre (UniformNoFlow.mk exUni) 10 (BinInterval.Covers (T := MInt .i32)) (fun _ => True) MInt.Is (evenBinsNoFlow (0 : ℤ) (5 : ℤ)) :=
  C84_int_noflow (num := 10) (low := .lit 0) (step := .lit 5) rfl (fun h => absurd h (by decide)) (by decide) (by decide)
theorem exCyc_bins : BinsAre exUniCyc 10 (BinInterval.CoversTurns (τ := .i32) ((10 : ℕ) * 5)) (fun c : MInt .i32 => IntTy.min .i32 ≤ c.val - 0 ∧ c.val - 0 ≤ IntTy.max .i32) MInt.Is
    (evenBinsTurns 10 (0 : ℤ) (5 : ℤ)) :=
  C84_int_cyclic (num := 10) (low := .lit 0) (step := .lit 5) rfl (fun h => absurd h (by decide)) (by decide) (by decide)

/-- floats: ten bins of width ten -/
theorem exGrid_bins : BinsAre exGridTen 12 BinInterval.Covers (GridCoord 0 (f64 0) (f64 100)) Flt.Is (evenBins 10 (f64 0).val ((10 : ℕ) * pow2 0)) :=
  C84_float exTen_fits (by decide +kernel) (by decide +kernel) (by decide) (.inl ⟨f64 100, by decide +kernel, by decide +kernel, exGridTen_new⟩)
theorem exGridNF_bins : BinsAre (UniformNoFlow.mk exGridTen) 10 BinInterval.Covers (GridCoord 0 (f64 0) (f64 100)) Flt.Is (evenBinsNoFlow (f64 0).val ((10 : ℕ) * pow2 0)) :=
  C84_float_noflow exTen_fits (by decide +kernel) (by decide +kernel) (by decide) (.inl ⟨f64 100, by decide +kernel, by decide +kernel, by decide +kernel⟩)
/-- the integer twice as large, as a float -/
def exTwice (c : MInt .i32) : F64 := f64 ((2 * c.val : ℤ) : ℚ)
theorem exTwice_spec (c : MInt .i32) : (exTwice c).isFin ∧ (exTwice c).val = 2 * c.val := by
  have h1 := c.min_le
  have h2 := c.le_max
  have := Flt.ofInt_spec (F := FFmt.f64) (k := 2 * c.val) (by
    rw [abs_le]
    simp only [IntTy.min, IntTy.max, IntTy.i32] at h1 h2
    norm_num at h1 h2
    have a1 : (-(2 ^ 53) : ℤ) ≤ 2 * c.val := by omega
    have a2 : 2 * c.val ≤ (2 ^ 53 : ℤ) := by omega
    exact ⟨by exact_mod_cast a1, by exact_mod_cast a2⟩)
  refine ⟨this.1, this.2.trans (by push_cast; rfl)⟩
theorem exTwice_dom (c : MInt .i32) : GridCoord 0 (f64 0) (f64 100) (exTwice c) := by
  refine ⟨fun h => ?_, fun _ _ => ⟨2 * c.val, ?_⟩⟩
  · have := (exTwice_spec c).1
    rw [h] at this; exact this
  · rw [(exTwice_spec c).2]; push_cast; simp
theorem ex_z : (f64 0).val = 2 * ((0 : ℤ) : ℚ) + 0 := by norm_num; decide +kernel
theorem ex_s : (((10 : ℕ) : ℚ) * pow2 0) = 2 * ((5 : ℤ) : ℚ) := by rw [pow2_zero]; norm_num
theorem exGrid_bins2 : BinsAre exGridTen 12 BinInterval.Covers (GridCoord 0 (f64 0) (f64 100)) Flt.Is (evenBins 10 (2 * (0 : ℤ) + 0) (2 * (5 : ℤ))) := by
  have := exGrid_bins; rwa [ex_z, ex_s] at this
theorem exGridNF_bins2 : BinsAre (UniformNoFlow.mk exGridTen) 10 BinInterval.Covers (GridCoord 0 (f64 0) (f64 100)) Flt.Is (evenBinsNoFlow (2 * (0 : ℤ) + 0) (2 * (5 : ℤ))) := by
  have := exGridNF_bins; rwa [ex_z, ex_s] at this
example : Coarser exUni 12 (BinInterval.Covers (T := MInt .i32)) exGridTen 12 BinInterval.Covers exTwice (fun _ => True) id :=
  C84_uniform (s := 2) (δ := 0) (by norm_num) exUni_bins exGrid_bins2
    fun (c : MInt .i32) _ => ⟨trivial, exTwice_dom c, c.val, rfl, (exTwice_spec c).1, by rw [add_zero]; exact (exTwice_spec c).2⟩
example : Coarser (UniformNoFlow.mk exUni) 10 (BinInterval.Covers (T := MInt .i32)) (UniformNoFlow.mk exGridTen) 10 BinInterval.Covers exTwice (fun _ => True) id :=
  C84_uniform_noflow (s := 2) (δ := 0) (by norm_num) exNoFlow_bins exGridNF_bins2
    fun (c : MInt .i32) _ => ⟨trivial, exTwice_dom c, c.val, rfl, (exTwice_spec c).1, by rw [add_zero]; exact (exTwice_spec c).2⟩
/-- cyclic: quarter turns of 90 degrees and the same in units of 1/16 turn -/
theorem exDeg_bins : BinsAre exDeg 4 (BinInterval.CoversTurnsF ((4 : ℕ) * ((90 : ℕ) * pow2 0))) (GridTurns 0 (f64 0)) Flt.Is (evenBinsTurns 4 (f64 0).val ((90 : ℕ) * pow2 0)) :=
  C84_float_cyclic exDeg_fits (by decide +kernel) (by decide +kernel) (by decide) (.inl ⟨f64 360, by decide +kernel, by decide +kernel, by decide +kernel⟩)
theorem exDeg_bins2 : BinsAre exDeg 4 (BinInterval.CoversTurnsF ((4 : ℕ) * ((90 : ℕ) * pow2 0))) (GridTurns 0 (f64 0)) Flt.Is (evenBinsTurns 4 (22.5 * (0 : ℤ) + 0) (22.5 * (4 : ℤ))) := by
  have := exDeg_bins
  rw [show (f64 0).val = 22.5 * ((0 : ℤ) : ℚ) + 0 by norm_num; decide +kernel] at this
  have e : ((90 : ℕ) : ℚ) * pow2 0 = 22.5 * ((4 : ℤ) : ℚ) := by rw [pow2_zero]; norm_num
  exact ⟨this.faithful, e ▸ this.contains⟩
def exQuart : UniformCyclic (MInt .i32) := ⟨⟨⟨4, .lit 0, .lit 16, .lit 4⟩⟩⟩
theorem exQuart_bins : BinsAre exQuart 4 (BinInterval.CoversTurns (τ := .i32) ((4 : ℕ) * 4)) (fun c : MInt .i32 => IntTy.min .i32 ≤ c.val - 0 ∧ c.val - 0 ≤ IntTy.max .i32) MInt.Is
    (evenBinsTurns 4 (0 : ℤ) (4 : ℤ)) :=
  C84_int_cyclic (num := 4) (low := .lit 0) (step := .lit 4) rfl (fun h => absurd h (by decide)) (by decide) (by decide)
example : Coarser exQuart 4 (BinInterval.CoversTurns (τ := .i32) ((4 : ℕ) * 4)) exDeg 4 (BinInterval.CoversTurnsF ((4 : ℕ) * ((90 : ℕ) * pow2 0))) (fun c : MInt .i32 => f64 (22.5 * c.val))
    (fun c : MInt .i32 => c = .lit (-2) ∨ c = .lit 38) id :=
  C84_uniform_cyclic (s := 22.5) (δ := 0) (by norm_num) exQuart_bins exDeg_bins2 (by
    rintro c (rfl | rfl)
    · exact ⟨by decide, ⟨by decide +kernel, ⟨-45, by decide +kernel⟩, by decide +kernel⟩, (-2 : ℤ), rfl, by decide +kernel, by decide +kernel⟩
    · exact ⟨by decide, ⟨by decide +kernel, ⟨855, by decide +kernel⟩, by decide +kernel⟩, (38 : ℤ), rfl, by decide +kernel, by decide +kernel⟩)

/-- every `i32` is an `f64` -/
example : Coarser exUni 12 (BinInterval.Covers (T := MInt .i32)) (Uniform.mk 10 (f64 0) (f64 50) (f64 5)) 12 BinInterval.Covers (fun c : MInt .i32 => (RFrom.conv c : F64)) (fun _ => True) id :=
  C84_int_as_float (num := 10) (low := .lit 0) (step := .lit 5) (fun c => by
    have h1 := c.min_le
    have h2 := c.le_max
    simp only [IntTy.min, IntTy.max, IntTy.i32] at h1 h2
    norm_num at h1 h2
    rw [abs_le]
    have a1 : (-(2 ^ 53) : ℤ) ≤ c.val := by omega
    have a2 : c.val ≤ (2 ^ 53 : ℤ) := by omega
    exact ⟨by exact_mod_cast a1, by exact_mod_cast a2⟩) (by decide) (by decide) rfl (fun h => absurd h (by decide)) (by decide) (by decide) (by decide +kernel)
end
end NdHist.Examples
