import Verif.Examples.Rescale
import Verif.Props.ScaleFill
/-!
# Concrete cases of the theorems in `Props/Scale.lean` and `Props/ScaleFill.lean`
-/
namespace NdHist.Examples
open NdHist
section
attribute [local instance] dbg64 stdNew

/-- kilobytes and bytes: times 1024 -/
def kb (x : F64) : F64 := f64 (x.val * 1024)
theorem kb_scaled {x : F64} (h : x.isFin) (h' : (kb x).isFin) (hv : (kb x).val = x.val * pow2 10) (hs : (kb x).sgn = x.sgn) : x.Scaled 10 (kb x) :=
  (Flt.scaled_iff h h').mpr ⟨hs, hv⟩
theorem exKb0 : (f64 0.1).Scaled 10 (kb (f64 0.1)) := kb_scaled (by decide +kernel) (by decide +kernel) (by decide +kernel) (by decide +kernel)
theorem exKb1 : (f64 1.3).Scaled 10 (kb (f64 1.3)) := kb_scaled (by decide +kernel) (by decide +kernel) (by decide +kernel) (by decide +kernel)
theorem exKb2 : (f64 0.7).Scaled 10 (kb (f64 0.7)) := kb_scaled (by decide +kernel) (by decide +kernel) (by decide +kernel) (by decide +kernel)
theorem exKb3 : (f64 (-2.3)).Scaled 10 (kb (f64 (-2.3))) := kb_scaled (by decide +kernel) (by decide +kernel) (by decide +kernel) (by decide +kernel)

/-- seven bins from 0.1 to 1.3: neither the step nor the edges are exact -/
def exSeven : Uniform F64 := match Uniform.new 7 (f64 0.1) (f64 1.3) with | .ok (.ok a) => a | _ => ⟨0, f64 0, f64 0, f64 0⟩
theorem exSeven_new : Uniform.new 7 (f64 0.1) (f64 1.3) = .ok (.ok exSeven) := by decide +kernel
theorem exUnits : UnitsFit FFmt.f64 10 7 |(f64 1.3).val - (f64 0.1).val| := ⟨by decide +kernel, by decide +kernel, by decide +kernel, by decide +kernel, by decide +kernel⟩
def exSevenKb : Uniform F64 := match Uniform.new 7 (kb (f64 0.1)) (kb (f64 1.3)) with | .ok (.ok a) => a | _ => ⟨0, f64 0, f64 0, f64 0⟩
theorem exSevenKb_new : Uniform.new 7 (kb (f64 0.1)) (kb (f64 1.3)) = .ok (.ok exSevenKb) := by decide +kernel
theorem exSeven_same : SameInUnits 10 (fun _ _ => True) (Axis.index exSeven) (Axis.index exSevenKb) (Axis.numBins exSeven) (Axis.numBins exSevenKb) (Axis.bin exSeven) (Axis.bin exSevenKb) := by
  obtain ⟨a', h, g⟩ := C85_uniform exKb0 exKb1 (by decide +kernel) (by decide +kernel) exUnits exSeven_new
  rw [exSevenKb_new] at h; cases h; exact g
example : exSevenKb.index (kb (f64 0.7)) = exSeven.index (f64 0.7) ∧ exSeven.index (f64 0.7) = .ok (some 4) := ⟨exSeven_same.index _ _ exKb2 trivial, by decide +kernel⟩
example : ∃ a', UniformNoFlow.new 7 (kb (f64 0.1)) (kb (f64 1.3)) = .ok (.ok a') ∧ SameInUnits 10 (fun _ _ => True) (Axis.index (UniformNoFlow.mk exSeven)) (Axis.index a') (Axis.numBins (UniformNoFlow.mk exSeven))
    (Axis.numBins a') (Axis.bin (UniformNoFlow.mk exSeven)) (Axis.bin a') :=
  C85_uniform_noflow exKb0 exKb1 (by decide +kernel) (by decide +kernel) exUnits (by decide +kernel)
example : ∃ a', UniformCyclic.new 7 (kb (f64 0.1)) (kb (f64 1.3)) = .ok (.ok a') ∧
    SameInUnits 10 (NoOverflow (UniformCyclic.mk (UniformNoFlow.mk exSeven)).low a'.low) (Axis.index (UniformCyclic.mk (UniformNoFlow.mk exSeven))) (Axis.index a') (Axis.numBins (UniformCyclic.mk (UniformNoFlow.mk exSeven)))
    (Axis.numBins a') (Axis.bin (UniformCyclic.mk (UniformNoFlow.mk exSeven))) (Axis.bin a') :=
  C85_uniform_cyclic exKb0 exKb1 (by decide +kernel) (by decide +kernel) exUnits ⟨by decide +kernel, by decide +kernel, by decide +kernel, by decide +kernel⟩ (by decide +kernel)
example : NoOverflow (f64 0.1) (kb (f64 0.1)) (f64 (-2.3)) (kb (f64 (-2.3))) := fun _ => ⟨by decide +kernel, by decide +kernel⟩

/-- seven bins of width 0.7 from 0.1 -/
def exStep7 : Uniform F64 := match Uniform.withStepSize 7 (f64 0.1) (f64 0.7) with | .ok (.ok a) => a | _ => ⟨0, f64 0, f64 0, f64 0⟩
theorem exStep7_new : Uniform.withStepSize 7 (f64 0.1) (f64 0.7) = .ok (.ok exStep7) := by decide +kernel
theorem exUnits' : UnitsFit FFmt.f64 10 7 (exStep7.high.val - exStep7.low.val) := ⟨by decide +kernel, by decide +kernel, by decide +kernel, by decide +kernel, by decide +kernel⟩
example := C85_uniform_step exKb0 exKb2 (by decide +kernel) (by decide +kernel) (by decide +kernel) (by decide +kernel) exStep7_new (by decide +kernel) (by decide +kernel) exUnits'
example := C85_uniform_noflow_step (a := ⟨exStep7⟩) exKb0 exKb2 (by decide +kernel) (by decide +kernel) (by decide +kernel) (by decide +kernel) (by decide +kernel) (by decide +kernel) (by decide +kernel) exUnits'
example := C85_uniform_cyclic_step (a := ⟨⟨exStep7⟩⟩) exKb0 exKb2 (by decide +kernel) (by decide +kernel) (by decide +kernel) (by decide +kernel) (by decide +kernel) (by decide +kernel) (by decide +kernel) exUnits'
  ⟨by decide +kernel, by decide +kernel, by decide +kernel, by decide +kernel⟩
example : (match Uniform.withStepSize 7 (kb (f64 0.1)) (kb (f64 0.7)) with | .ok (.ok a) => decide (a.low.isFin ∧ a.high.isFin) | _ => false) = true := by decide +kernel

/-- unequal bins -/
def exEdgesKb : List F64 := [f64 1.3, f64 0.1, f64 0.7]
theorem exEdgesKb_scaled : List.Forall₂ (Flt.Scaled 10) exEdgesKb (exEdgesKb.map kb) := .cons exKb1 (.cons exKb0 (.cons exKb2 .nil))
example := C85_variable (a := ⟨[f64 0.1, f64 0.7, f64 1.3]⟩) exEdgesKb_scaled (by decide +kernel)
example := C85_variable_noflow (a := ⟨⟨[f64 0.1, f64 0.7, f64 1.3]⟩⟩) exEdgesKb_scaled (by decide +kernel)
example := C85_variable_cyclic (a := ⟨⟨⟨[f64 0.1, f64 0.7, f64 1.3]⟩⟩⟩) exEdgesKb_scaled (by
  intro e he; simp only [exEdgesKb, List.mem_cons, List.not_mem_nil, or_false] at he
  rcases he with rfl | rfl | rfl <;> decide +kernel) (by
  intro e he; simp only [exEdgesKb, List.mem_cons, List.not_mem_nil, or_false] at he
  rcases he with rfl | rfl | rfl <;> exact ⟨by decide +kernel, by decide +kernel⟩) (by decide +kernel)

/-! histograms -/
theorem exSeven_lawful : LawfulAxis exSeven 9 :=
  C25_lawful_uniform_float_new exSeven_new (by decide +kernel) (by decide +kernel) (by decide +kernel) (by decide +kernel) (fun _ _ => by decide +kernel)
theorem exSevenKb_lawful : LawfulAxis exSevenKb 9 :=
  C25_lawful_uniform_float_new exSevenKb_new (by decide +kernel) (by decide +kernel) (by decide +kernel) (by decide +kernel) (fun _ _ => by decide +kernel)
def exSizes : List (Axis.Coordinate (Uniform F64) × F64) := [(f64 0.7, f64 1.3), (f64 (-2.3), f64 0.1), (f64 0.7, f64 (-2.3))]
def exSizesKb : List (Axis.Coordinate (Uniform F64) × F64) := [(kb (f64 0.7), kb (f64 1.3)), (kb (f64 (-2.3)), kb (f64 0.1)), (kb (f64 0.7), kb (f64 (-2.3)))]
theorem exSizes_same : List.Forall₂ (SameFill 10 exSeven exSevenKb) exSizes exSizesKb :=
  .cons ⟨exSeven_same.index _ _ exKb2 trivial, exKb1⟩ (.cons ⟨exSeven_same.index _ _ exKb3 trivial, exKb0⟩ (.cons ⟨exSeven_same.index _ _ exKb2 trivial, exKb3⟩ .nil))
/-- sums of sizes in kilobytes and bytes -/
example (i : ℕ) := C85_weights (h := ⟨exSeven, List.replicate 9 (Flt.zero false)⟩) (h' := ⟨exSevenKb, List.replicate 9 (Flt.zero false)⟩) exSeven_lawful exSevenKb_lawful (by decide +kernel) (by decide +kernel)
  exSizes_same i
example (i : ℕ) := C85_weights_sparse exSizes_same i
/-- 1.3 - 2.3 is rounded in the same way in both units -/
example : ((VecHistogram.mk exSeven (List.replicate 9 (Flt.zero false : F64))).callAllCaught (exSizes.map fun f => .fillWith f.1 f.2)).valueAtIndex 4 = some (f64 ((f64 1.3).val - (f64 2.3).val)) ∧
    ((VecHistogram.mk exSevenKb (List.replicate 9 (Flt.zero false : F64))).callAllCaught (exSizesKb.map fun f => .fillWith f.1 f.2)).valueAtIndex 4 = some (kb (f64 ((f64 1.3).val - (f64 2.3).val))) := by
  decide +kernel
theorem exSizes_sq : List.Forall₂ (fun f f' => SameFill 10 exSeven exSevenKb f f' ∧ SquareFits 10 f.2) exSizes exSizesKb :=
  .cons ⟨⟨exSeven_same.index _ _ exKb2 trivial, exKb1⟩, .inr ⟨by decide +kernel, by decide +kernel⟩⟩ (.cons ⟨⟨exSeven_same.index _ _ exKb3 trivial, exKb0⟩, .inr ⟨by decide +kernel, by decide +kernel⟩⟩
    (.cons ⟨⟨exSeven_same.index _ _ exKb2 trivial, exKb3⟩, .inr ⟨by decide +kernel, by decide +kernel⟩⟩ .nil))
example (i : ℕ) := C85_weighted_sum (h := ⟨exSeven, List.replicate 9 ⟨Flt.zero false, Flt.zero false⟩⟩) (h' := ⟨exSevenKb, List.replicate 9 ⟨Flt.zero false, Flt.zero false⟩⟩) exSeven_lawful exSevenKb_lawful
  (by decide +kernel) (by decide +kernel) exSizes_sq i
example (i : ℕ) := C85_weighted_sum_sparse exSizes_sq i
example (i : ℕ) := C85_mean (C := MInt .u32) (h := ⟨exSeven, List.replicate 9 RDefault.dflt⟩) (h' := ⟨exSevenKb, List.replicate 9 RDefault.dflt⟩) exSeven_lawful exSevenKb_lawful (by decide +kernel) (by decide +kernel)
  exSizes_same i
/-- the mean in the fourth bin -/
example : (match ((VecHistogram.mk exSeven (List.replicate 9 (RDefault.dflt : Mean F64 F64 (MInt .u32)))).callAllCaught (exSizes.map fun f => .fillWith f.1 f.2)).valueAtIndex 4 with
    | some m => m.get | none => .ok .nan) = .ok (f64 ((f64 ((f64 1.3).val - (f64 2.3).val)).val / 2)) := by decide +kernel
def exVals : List (Axis.Coordinate (Uniform F64) × F64 × F64) := [(f64 0.7, f64 1.3, f64 0.7), (f64 0.7, f64 0.1, f64 1.3)]
def exValsKb : List (Axis.Coordinate (Uniform F64) × F64 × F64) := [(kb (f64 0.7), f64 1.3, kb (f64 0.7)), (kb (f64 0.7), f64 0.1, kb (f64 1.3))]
example (i : ℕ) := C85_weighted_mean (k := 10) (C := MInt .u32) (h := ⟨exSeven, List.replicate 9 RDefault.dflt⟩) (h' := ⟨exSevenKb, List.replicate 9 RDefault.dflt⟩) exSeven_lawful exSevenKb_lawful (by decide +kernel)
  (by decide +kernel) (fills := exVals) (fills' := exValsKb)
  (.cons ⟨exSeven_same.index _ _ exKb2 trivial, rfl, exKb2, .inr ⟨by decide +kernel, by decide +kernel⟩⟩ (.cons ⟨exSeven_same.index _ _ exKb2 trivial, rfl, exKb1, .inr ⟨by decide +kernel, by decide +kernel⟩⟩ .nil)) i
def exSizesK : List (Axis.Coordinate (Uniform F64) × F64) := [(f64 0.7, kb (f64 1.3)), (f64 (-2.3), kb (f64 0.1)), (f64 0.7, kb (f64 (-2.3)))]
theorem exSizesK_scaled : List.Forall₂ (fun (f f' : Axis.Coordinate (Uniform F64) × F64) => f'.1 = f.1 ∧ f.2.Scaled 10 f'.2) exSizes exSizesK := by
  unfold exSizes exSizesK
  refine .cons ⟨?_, exKb1⟩ (.cons ⟨?_, exKb0⟩ (.cons ⟨?_, exKb3⟩ .nil)) <;> rfl
/-- the same three fills with 1024 times the weight, or the histogram times 1024 -/
example := C85_scalar (k := 10) (h := ⟨exSeven, List.replicate 9 (Flt.zero false)⟩) exSeven_lawful (by decide +kernel) (fills := exSizes)
  (fills' := exSizesK) exSizesK_scaled (c := f64 1024) (by decide +kernel) (by decide +kernel)
/-- any bin values, only the unit of the coordinates changed -/
theorem exCounts_same : List.Forall₂ (fun (call : Call (MInt .i32) (Axis.Coordinate (Uniform F64))) (call' : Call (MInt .i32) (Axis.Coordinate (Uniform F64))) =>
      Axis.index exSevenKb call'.coord = Axis.index exSeven call.coord ∧ call'.on = call.on)
    [.fill (f64 0.7), .fill (f64 (-2.3))] [.fill (kb (f64 0.7)), .fill (kb (f64 (-2.3)))] :=
  .cons ⟨exSeven_same.index _ _ exKb2 trivial, rfl⟩ (.cons ⟨exSeven_same.index _ _ exKb3 trivial, rfl⟩ .nil)
example (i : ℕ) := C85_dense (h := ⟨exSeven, List.replicate 9 (.lit 0 : MInt .i32)⟩) (h' := ⟨exSevenKb, List.replicate 9 (.lit 0 : MInt .i32)⟩) exSeven_lawful exSevenKb_lawful (by decide +kernel)
  (by decide +kernel) exCounts_same i
example (i : ℕ) := C85_sparse exCounts_same i
/-- two dimensions: sizes in kilobytes, and a category -/
def exTwoDim : Tup [⟨Uniform F64, inferInstance⟩, ⟨Category String, inferInstance⟩] := (exSeven, Category.new ["a", "b"], ())
def exTwoDimKb : Tup [⟨Uniform F64, inferInstance⟩, ⟨Category String, inferInstance⟩] := (exSevenKb, Category.new ["a", "b"], ())
example : ∃ a', AxesTuple.fromTuple exTwoDimKb = .ok a' ∧ Axis.numBins a' = Axis.numBins (AxesTuple.mk exTwoDim [9, 27]) ∧
    Axis.index a' (kb (f64 0.7), "b", ()) = Axis.index (AxesTuple.mk exTwoDim [9, 27]) (f64 0.7, "b", ()) := by
  obtain ⟨a', h1, h2, h3⟩ := C85_tuple (t := exTwoDim) (t' := exTwoDimKb) (a := ⟨exTwoDim, [9, 27]⟩) ⟨exSeven_same.numBins, rfl, trivial⟩
    (by unfold AxesTuple.fromTuple; rw [show Tup.numBinsList exTwoDim = .ok [9, 3] by decide +kernel]; rfl)
  exact ⟨a', h1, h2, h3 _ _ ⟨exSeven_same.index _ _ exKb2 trivial, rfl, trivial⟩⟩
end
end NdHist.Examples
