import Verif.Props.NearStep
import Verif.Examples.CyclicNear
import Verif.Examples.Content
/-!
# Concrete cases of the theorems in `Props/Near.lean` and `Props/NearStep.lean`
-/
namespace NdHist.Examples
open NdHist
section
attribute [local instance] dbg64 stdNew

/-- ten bins over [0, 0.7) -/
def exRough : Uniform F64 := ⟨10, f64 0, f64 0.7, Flt.div (f64 0.7) (f64 10)⟩
theorem exRough_new : Uniform.new 10 (f64 0) (f64 0.7) = .ok (.ok exRough) := by decide +kernel
/-- the doubt about it, which is tiny -/
def exDoubt : ℚ := 17 * pow2 (-(FFmt.f64.p : ℤ)) * (|(f64 0).val| + |(f64 0.7).val|)
example : exDoubt < 1 / 10 ^ 14 := by decide +kernel
def notNan (c : F64) : Prop := c ≠ .nan
instance : DecidablePred notNan := fun c => inferInstanceAs (Decidable (c ≠ .nan))
theorem exRough_rough : RoughAxis exRough 12 (BinInterval.Inside exDoubt) (BinInterval.Near exDoubt) notNan :=
  C78_uniform exRough_new (by decide +kernel) (by decide +kernel) (by decide) (by decide) (by decide +kernel) (by decide +kernel) (by decide +kernel)
/-- 0.15 is inside the third bin beyond doubt -/
theorem exInside : BinInterval.Inside exDoubt (.Bin (exRough.fedge 2) (exRough.fedge 3)) (f64 0.15) := by
  refine ⟨?_, ?_, ?_⟩ <;> decide +kernel
example : RoughAxis (UniformNoFlow.mk exRough) 10 (BinInterval.Inside exDoubt) (BinInterval.Near exDoubt) notNan := C78_uniform_noflow (u := exRough) exRough_rough

def exRStep : Uniform F64 := ⟨10, f64 0, Flt.mul (f64 10) (f64 0.1), f64 0.1⟩
theorem exRStep_new : Uniform.withStepSize 10 (f64 0) (f64 0.1) = .ok (.ok exRStep) := by decide +kernel
def exRStepDoubt : ℚ := 19 * pow2 (-(FFmt.f64.p : ℤ)) * (|(f64 0).val| + |exRStep.high.val|)
theorem exRStep_rough : RoughAxis exRStep 12 (BinInterval.Inside exRStepDoubt) (BinInterval.Near exRStepDoubt) notNan :=
  C78_uniform_step exRStep_new (by decide +kernel) (by decide +kernel) (by decide +kernel) (by decide) (by decide) (by decide +kernel) (by decide +kernel) (by decide +kernel)

abbrev exRange : ℚ := exTenth.high.val - exTenth.low.val
abbrev exSeam : ℚ → ℚ := seamError FFmt.f64 22 exTenth.low.val exTenth.high.val
def exTurnDom (c : F64) : Prop := c.isFin ∧ |c.val - exTenth.low.val| ≤ FFmt.f64.maxFin
theorem exTenth_rough : RoughAxis exTenth 10 (BinInterval.InsideTurns (F := FFmt.f64) exRange exSeam) (BinInterval.NearTurns exRange exSeam) exTurnDom :=
  C78_uniform_cyclic exTenth_new (by decide +kernel) (by decide +kernel) (by decide) (by decide) (by decide +kernel) (by decide +kernel) (by decide +kernel)

example := C78_variable_cyclic (a := exVar) (edges := [f64 0.3, f64 0.1, f64 0.7]) (by decide +kernel) (by decide) (by decide +kernel) (by decide +kernel) (f64 0.1) (f64 0.7)
    (by decide +kernel) (by decide +kernel) (by decide +kernel)

theorem exUni_rough : RoughAxis exUni 12 (BinInterval.Covers (T := MInt .i32)) BinInterval.Covers (fun _ => True) := C78_exact exUni_faithful

/-! Histograms over one axis -/
example := C78_tuple1 exRStep_rough (a := ⟨exRStep, [12]⟩) rfl

def exRoughHist {V : Type} [RDefault V] : VecHistogram (Uniform F64) V := ⟨exRough, List.replicate 12 RDefault.dflt⟩
theorem exRoughHist_new {V : Type} [RDefault V] : VecHistogram.new exRough = .ok (exRoughHist : VecHistogram (Uniform F64) V) := rfl
/-- the coordinate 0.15 and its weight are in the third bin, though its edges are computed with rounding -/
example : ∃ (items : List _) (counted : F64 → Prop) (it : _), (exRoughHist.callAllCaught [.fillWith (f64 0.15) (f64 2), .fill (f64 0.5)]).iter = .ok items ∧ items[3]? = some it ∧ counted (f64 0.15) ∧
    it.value = filledWith ([.fillWith (f64 0.15) (f64 2), .fill (f64 0.5)].filter fun call : Call F64 F64 => open Classical in decide (counted call.coord)) RDefault.dflt := by
  obtain ⟨items, h1, h2, h3⟩ := C78_dense exRough_rough (exRoughHist_new (V := F64)) [.fillWith (f64 0.15) (f64 2), .fill (f64 0.5)] (by
    intro call hc; rcases List.mem_cons.1 hc with rfl | hc <;> [decide +kernel; (rcases List.mem_singleton.1 hc with rfl; decide +kernel)])
  obtain ⟨k1, k2, counted, k3, -, k4⟩ := h3 3 _ (List.getElem?_eq_getElem (by omega))
  refine ⟨items, counted, _, h1, List.getElem?_eq_getElem (by omega), k3 (.fillWith (f64 0.15) (f64 2)) (by simp) ?_, k4⟩
  have hb : Axis.bin exRough 3 = .ok (some (.Bin (exRough.fedge 2) (exRough.fedge 3))) := show exRough.bin 3 = _ by decide +kernel
  rw [hb] at k2
  injection k2 with k2; injection k2 with k2
  rw [← k2]; exact exInside
example := fun o => C78_sparse (V := F64) exRough_rough [.fill (f64 0.15)] (by intro call hc; rcases List.mem_singleton.1 hc with rfl; decide +kernel) o
/-- two coordinates are inside the third bin, -1 is not near it, and 0.14 is at its edge -/
example := C78_count_int exRough_rough (exRoughHist_new (V := MInt .i32)) [f64 0.15, f64 0.16, f64 0.14, f64 (-1)] (by decide +kernel) (by decide)
example := C78_count_float exRough_rough (exRoughHist_new (V := F64)) [f64 0.15, f64 0.16, f64 0.14, f64 (-1)] (by decide +kernel) (by decide)

/-! A rough, a cyclic and an exact axis -/
abbrev exTR : AxTy := ⟨Uniform F64, inferInstance⟩
abbrev exTY : AxTy := ⟨UniformCyclic F64, inferInstance⟩
def exRoughItem : Tup [exTR, exTY, exTU] := (exRStep, exTenth, exUni, ())
def exRoughAxes : AxesTuple exTR exTY [exTU] := ⟨exRoughItem, [12, 120, 1440]⟩
abbrev exInsides : TupCovers [exTR, exTY, exTU] :=
  (BinInterval.Inside (F := FFmt.f64) exRStepDoubt, BinInterval.InsideTurns (F := FFmt.f64) exRange exSeam, BinInterval.Covers (T := MInt .i32), ())
abbrev exNears : TupCovers [exTR, exTY, exTU] :=
  (BinInterval.Near (F := FFmt.f64) exRStepDoubt, BinInterval.NearTurns (F := FFmt.f64) exRange exSeam, BinInterval.Covers (T := MInt .i32), ())
abbrev exDoms : TupDom [exTR, exTY, exTU] := (notNan, exTurnDom, fun _ => True, ())
theorem exRoughItem_rough : TupRough exRoughItem [12, 10, 12] exInsides exNears exDoms :=
  ⟨12, [10, 12], rfl, exRStep_rough, 10, [12], rfl, exTenth_rough, 12, [], rfl, exUni_rough, rfl⟩
theorem exRoughAxes_new : AxesTuple.fromTuple exRoughItem = .ok exRoughAxes := rfl
theorem exRoughAxes_rough : RoughAxis exRoughAxes 1440 (CoversAll exInsides) (CoversAll exNears) (InDom exDoms) :=
  C78_tuple exRoughItem_rough (by decide) (by decide) exRoughAxes_new
example (o) := C78_sparse (V := MInt .u8) exRoughAxes_rough [.fill ((f64 0.55, f64 (-123456.7), .lit 7, ()) : Coords [exTR, exTY, exTU])]
  (by intro call hc; rcases List.mem_singleton.1 hc with rfl; exact ⟨by decide +kernel, by constructor <;> decide +kernel, trivial, trivial⟩) o
end
end NdHist.Examples
