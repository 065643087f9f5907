import Verif.Examples.Content
import Verif.Props.Order
import Verif.Props.Serde
import Verif.Props.Display
import Verif.Props.UniformFloatExact
/-!
# Concrete cases of the theorems in `Props/Order.lean`, `Serde.lean`, `Display.lean` and `UniformFloat*.lean`
-/
namespace NdHist.Examples
open NdHist
section
attribute [local instance] dbg64 stdNew numPEq

/-! ## Order -/

abbrev Laws (S : Type) [PEq S] [POrd S] : Prop := CmpLaws (PEq.peq (A := S)) POrd.pcmp
theorem laws_f64 : Laws F64 := cmpLaws_num
example : Laws (BinInterval F64) := C60_bin_interval laws_f64
example : TotalLaws (PEq.peq (A := BinInterval (MInt .u8))) POrd.pcmp := C60_bin_interval_total totalLaws_int
example : Laws (SingleValueBinInterval F64) := C60_single_value_interval laws_f64
example : Laws (Sum F64) := C60_sum laws_f64
example : Laws (Mean F64 F64 (MInt .u32)) := C60_mean laws_f64 cmpLaws_num
example : Laws (WeightedMean F64 F64 F64 (MInt .u32)) := C60_weighted_mean laws_f64 laws_f64 cmpLaws_num
example : POrd.lt (⟨1, .Overflow (f64 3), .nan⟩ : Item (BinInterval F64) F64) ⟨2, .Underflow (f64 0), f64 7⟩ = true :=
  (C60_item (C60_bin_interval laws_f64) laws_f64).2 _ _ (by decide)
example : Laws (UniformNoFlow F64) := C60_uniform_noflow
example : Laws (UniformCyclic F64) := C60_uniform_cyclic
example : Laws (VariableNoFlow F64) := C60_variable_noflow
example : Laws (VariableCyclic F64) := C60_variable_cyclic
example : Laws (AxesTuple1 (Variable F64)) := C60_tuple1 C60_variable
example : POrd.lt (.Bin (.lit 1) (.lit 3) : BinInterval (MInt .i32)) (.Bin (.lit 3) (.lit 5)) = true :=
  (C60_variable_bins_order exV_new exE_distinct (by decide)).1 1 2 _ _ (by decide) (by decide) (by decide) (by rfl) (by rfl)
example : POrd.lt (.Overflow (.lit 25) : BinInterval (MInt .i32)) (.Bin (.lit 10) (.lit 15)) = true :=
  (C60_uniform_int_bins_order exU_new (by decide) (by decide) (by decide)).2.2 1 _ _ (by decide) (by decide) (by rfl) (by rfl)

/-! ## Serialization -/

example : RoundTrips (WeightedSum (MInt .u8)) := C46_weighted_sum (C46_int _)
example : RoundTrips (Mean F64 F64 (MInt .u32)) := C46_mean C46_f64 (C46_int _)
example : RoundTrips (WeightedMean F64 F64 F64 (MInt .u32)) := C46_weighted_mean C46_f64 C46_f64 (C46_int _)
example : RoundTrips AxisError := C46_errors.2.1
example : ∃ v, Serde.ser (UniformNoFlow.mk exU) v ∧ Serde.de v = some (UniformNoFlow.mk exU) := by
  obtain ⟨⟨v, h⟩, h'⟩ := C46_uniform_noflow (C46_int _) (UniformNoFlow.mk exU) (by decide)
  exact ⟨v, h, h' v h⟩
example : ∃ v, Serde.ser exC v ∧ Serde.de v = some exC := by
  obtain ⟨⟨v, h⟩, h'⟩ := C46_uniform_cyclic (C46_int _) exC (by decide)
  exact ⟨v, h, h' v h⟩
example : RoundTrips (Variable F64) := C46_variable C46_f64
example : RoundTrips (VariableNoFlow F64) := C46_variable_noflow C46_f64
example : RoundTrips (VariableCyclic F64) := C46_variable_cyclic C46_f64
theorem exAxis_round : AxisRoundTrips exAxis := (C46_category C46_string ["a", "b"] (by decide)).2
example : AxisRoundTrips (⟨exAxis, [2]⟩ : AxesTuple1 (CategoryNoFlow String)) := C46_tuple1 _ exAxis_round (by decide)
example : ∃ v, ∃ h' : HashHistogram (CategoryNoFlow String) (MInt .u8), Serde.ser exS v ∧ Serde.de v = some h' ∧ h'.value "b" = .ok (some (MInt.lit 7 : MInt .u8)) := by
  obtain ⟨⟨v, h⟩, h'⟩ := C46_hash_histogram (C46_int .u8) exS exS_ok exAxis_round
  obtain ⟨g, h1, -, -, -, h5, -⟩ := h' v h
  exact ⟨v, g, h, h1, (h5 "b").trans (by decide)⟩
example : ∃ v, Serde.ser (⟨3, "x", .lit 7⟩ : Item String (MInt .u8)) v := (C46_item C46_string (C46_int .u8) _ (by decide)).1
example : ∃ v, Serde.ser exD v ∧ ∀ h, Serde.de v = some h → ∃ x, Serde.de x = some (VecHistogram.axes (A := CategoryNoFlow String) (V := MInt .u8) h) := by
  obtain ⟨⟨v, h⟩, -⟩ := C46_vec_histogram (C46_int .u8) exD exAxis_round
  exact ⟨v, h, fun g hg => by obtain ⟨x, -, hx, -⟩ := C50_fields_partial hg; exact ⟨x, hx⟩⟩

/-! ## Display -/

local instance : Disp F64 := ⟨fun _ _ => "x"⟩
local instance : Disp String := ⟨fun _ s => s⟩
local instance : Disp (@Axis.Interval (CategoryNoFlow String) dbg64 _) := inferInstanceAs (Disp (SingleValueBinInterval String))
def exShow : VecHistogram (CategoryNoFlow String) F64 := ⟨exAxis, [f64 3, f64 1]⟩
example : ∃ rows, exShow.display id (fun _ => true) none = .ok ("VecHistogram1D(2 bins, sum=x)" :: rows, true) ∧ rows.length = 2 := by
  obtain ⟨rows, h1, h2, -⟩ := C44_display_partial (h := exShow) ⟨exAxis_lawful, rfl⟩ id none (by decide +kernel) (.inl ⟨f64 3, by decide +kernel, by decide +kernel⟩)
  exact ⟨rows, h1, h2⟩
def exNegated : VecHistogram (CategoryNoFlow String) F64 := ⟨exAxis, [f64 (-1), Flt.zero true]⟩
example : exNegated.display id (fun _ => true) none = .error .capacityOverflow :=
  C44_negative_zero_panics (h := exNegated) ⟨exAxis_lawful, rfl⟩ id none (by decide +kernel) ⟨Flt.zero true, by decide +kernel, rfl⟩ ⟨f64 (-1), by decide +kernel, by decide +kernel⟩
example : exShow.display id (fun k => k == 0) none = .ok (["VecHistogram1D(2 bins, sum=x)"], true) :=
  ((C44_sink_errors_ignored exShow id (fun k => k == 0) none).2.2 rfl ["VecHistogram1D(2 bins, sum=x)",
    "\n             {a} | ##################################################", "\n             {b} | ################"] true (by decide +kernel)).2
example : exShow.display id (fun k => k != 0) none = .ok ([], false) := (C44_sink_errors_ignored exShow id (fun k => k != 0) none).1 rfl ⟨2, rfl⟩

/-! ## Floating-point uniform axes -/

/-- `Uniform::new(4, 0.0, 1.0)` and `Uniform::new(10, 0.1, 1.3)` -/
def exQ4 : Uniform F64 := ⟨4, f64 0, f64 1, f64 0.25⟩
theorem exQ4_new : Uniform.new 4 (f64 0) (f64 1) = .ok (.ok exQ4) := by decide +kernel
def exTen : Uniform F64 := ⟨10, f64 0.1, f64 1.3, Flt.div (Flt.sub (f64 1.3) (f64 0.1)) (f64 10)⟩
theorem exTen_new : Uniform.new 10 (f64 0.1) (f64 1.3) = .ok (.ok exTen) := by decide +kernel
/-- `Uniform::with_step_size(10, 0.1, 0.3)` -/
def exStep : Uniform F64 := ⟨10, f64 0.1, Flt.add (Flt.mul (f64 10) (f64 0.3)) (f64 0.1), f64 0.3⟩
theorem exStep_new : Uniform.withStepSize 10 (f64 0.1) (f64 0.3) = .ok (.ok exStep) := by decide +kernel

example : ∃ r, Uniform.new 10 (f64 1.3) (f64 0.1) = .ok r ∧ ∀ a, r = .ok a → a.low = f64 0.1 ∧ a.high = f64 1.3 := by
  obtain ⟨r, h1, -, -, -, h⟩ := C03_new_float 10 (f64 1.3) (f64 0.1)
  exact ⟨r, h1, fun a ha => (h a ha).2.1 (by decide +kernel)⟩
example : exStep.high.val = FFmt.f64.rs (FFmt.f64.rs ((10 : Nat) * (f64 0.3).val) + (f64 0.1).val) := by
  obtain ⟨r, h1, -, -, -, h⟩ := C03_with_step_size_float_partial 10 (f64 0.1) (f64 0.3)
  rw [exStep_new] at h1; cases h1
  exact ((h exStep rfl).2 (by decide +kernel) (by decide +kernel) (by decide) (by decide +kernel)).2.1
example : exTen.index .nan = .ok (some 11) := (C04_uniform exTen (by decide)).1
example : UniformNoFlow.index ⟨exTen⟩ (.inf true) = .ok none := (C04_noflow ⟨exTen⟩ (by decide)).2.2
example : UniformCyclic.index ⟨⟨exTen⟩⟩ .nan = .ok none := (C04_cyclic ⟨⟨exTen⟩⟩ (by decide)).1
example : ∃ i j, exTen.index (f64 0.5) = .ok (some i) ∧ exTen.index (f64 0.6) = .ok (some j) ∧ i ≤ j ∧ i < 12 := by
  obtain ⟨i, h1, h2, -, -, h⟩ := (C05_uniform_new exTen_new (by decide +kernel) (by decide +kernel) (by decide) (by decide) (fun _ _ => by decide +kernel)).2 (f64 0.5)
  obtain ⟨j, h3, h4⟩ := h (f64 0.6) (by decide +kernel)
  exact ⟨i, j, h1, h3, h4, h2⟩
example : ∃ i, exStep.index (f64 0.05) = .ok (some i) ∧ i = 0 := by
  obtain ⟨i, h1, -, h3, -⟩ := (C05_with_step_size exStep_new (by decide +kernel) (by decide +kernel) (by decide) (by decide)).2 (f64 0.05)
  exact ⟨i, h1, h3.2 (by decide +kernel)⟩
example : LawfulAxis exTen 12 := C25_lawful_uniform_float_new exTen_new (by decide +kernel) (by decide +kernel) (by decide) (by decide) (fun _ _ => by decide +kernel)
example : LawfulAxis exStep 12 := C25_lawful_uniform_float_step exStep_new (by decide +kernel) (by decide +kernel) (by decide) (by decide)
example : ∃ s e : F64, exTen.bin 1 = .ok (some (.Bin s e)) ∧ POrd.eq s exTen.low = true := by
  obtain ⟨-, -, -, e, h1, -, -, h4⟩ := C47_float_bins exTen_new (by decide +kernel) (by decide +kernel) (by decide) (by decide) (by decide +kernel) (by decide +kernel)
  exact ⟨e 0, e 1, h1 0 (by decide), h4⟩
example : ∃ i, exTen.index (f64 0.5) = .ok (some i) ∧ 1 ≤ i := by
  obtain ⟨i, h1, h2, -⟩ := C06_within_rounding_partial exTen_new (by decide +kernel) (by decide +kernel) (by decide) (by decide) (by decide +kernel) (by decide +kernel) (f64 0.5) (by decide +kernel) (by decide +kernel)
  exact ⟨i, h1, h2⟩
example : ∃ i b, exQ4.index (f64 0.3) = .ok (some i) ∧ exQ4.bin i = .ok (some b) ∧ b.Covers (f64 0.3) :=
  C06_exact_partial (e := -2) (z := 0) exQ4_new (by decide +kernel) (by decide +kernel) (by decide +kernel) (by decide +kernel) (by decide) (by decide) (by decide) (by decide) (by decide) (by decide +kernel)
    (f64 0.3) (by decide +kernel) (.inl (by decide))
end
end NdHist.Examples
