import Verif.Examples.Axes
import Verif.Examples.Merge
import Verif.Props.Macros
import Verif.Props.Project
import Verif.Props.EqualAxes
/-!
# Concrete cases of the theorems in `Props/Content.lean`, `EqualAxes.lean`, `Project.lean` and `Macros.lean`

`exUni` is `Uniform::<i32>::with_step_size(10, 0, 5)`, `exPair` the product with two categories.
-/
namespace NdHist.Examples
open NdHist
section
attribute [local instance] dbg64 stdNew

/-! ## Contents -/

def exUniNew : VecHistogram (Uniform (MInt .i32)) (MInt .u8) := ⟨exUni, List.replicate 12 (.lit 0)⟩
theorem exUniNew_new : VecHistogram.new exUni = .ok exUniNew := rfl
/-- three fills: 7 and 5 in [5, 10), 60 in the overflow bin -/
def exFills : List (Call (MInt .u8) (MInt .i32)) := [.fill (.lit 7), .fill (.lit 60), .fillWith (.lit 5) (MInt.lit 9 : MInt .u8)]

example : ∃ items, (exUniNew.callAllCaught exFills).iter = .ok items ∧ items.length = 12 := by
  obtain ⟨items, h1, h2, -⟩ := C51_dense exUni_faithful exUniNew_new exFills (fun _ _ => trivial)
  exact ⟨items, h1, h2⟩
/-- the sparse histogram contains the bin [5, 10) -/
example (o : ((HashHistogram.new exUni : HashHistogram _ (MInt .u8)).callAllCaught exFills).values.Order) :
    ∃ items, ((HashHistogram.new exUni : HashHistogram _ (MInt .u8)).callAllCaught exFills).iter o = .ok items ∧
      ∃ it ∈ items, it.index = 2 ∧ it.bin = .Bin (.lit 5) (.lit 10) := by
  obtain ⟨items, h1, -, -, h4⟩ := C51_sparse exUni_faithful exFills (fun _ _ => trivial) o
  exact ⟨items, h1, h4 2 (.Bin (.lit 5) (.lit 10)) (by decide) (by rfl) ⟨_, List.mem_cons_self, by decide, by decide⟩⟩
/-- a coordinate that was never filled reads the value of its bin -/
example : ∃ v, (exUniNew.callAllCaught exFills).value (MInt.lit 8 : MInt .i32) = .ok (some v) :=
  ⟨_, (C51_value exUni_faithful exUniNew_new exFills (fun _ _ => trivial) (MInt.lit 8 : MInt .i32) trivial).1 2 (.Bin (.lit 5) (.lit 10)) (by decide) (by rfl) ⟨by decide, by decide⟩⟩
example : ∃ a, AxesTuple1.fromTuple exUni = .ok a ∧ FaithfulAxis a 12 (BinInterval.Covers (T := MInt .i32)) (fun _ => True) :=
  ⟨_, rfl, C51_tuple1 exUni_faithful rfl⟩
example : FaithfulAxis exU 5 (BinInterval.Covers (T := MInt .i32)) (fun _ => True) := C51_uniform_int exU_new (fun h => absurd h (by decide)) (by decide) (by decide)
example : FaithfulAxis (UniformNoFlow.mk exUni) 10 (BinInterval.Covers (T := MInt .i32)) (fun _ => True) := C51_uniform_noflow exUni_faithful
example : FaithfulAxis exV 4 (BinInterval.Covers (T := MInt .i32)) (fun c : MInt .i32 => POrd.eq c c = true) := C51_variable exV_new (by decide) exE_distinct
example : FaithfulAxis exVN 2 (BinInterval.Covers (T := MInt .i32)) (fun _ => True) := C51_variable_noflow exVN_new (by decide) exE_distinct
example : FaithfulAxis (Category.new ["a", "b"]) 3 (SingleValueBinInterval.Covers ["a", "b"]) (fun _ => True) := C51_category _ (by decide) (by decide)
example : FaithfulAxis exVC 2 (BinInterval.CoversTurns (τ := .i32) 4) (fun c : MInt .i32 => IntTy.min .i32 ≤ c.val - 1 ∧ c.val - 1 ≤ IntTy.max .i32) := by
  obtain ⟨lo, hi, h1, h2, -, h4⟩ := C51_variable_cyclic_int exVC_new (by decide) (by decide)
  cases h1; cases h2
  exact h4 (by decide)
example : ∃ h' items, exUniNew.callAll ([MInt.lit 7, .lit 60, .lit 5].map .fill) = (h', none) ∧ h'.iter = .ok items ∧ items.length = 12 := by
  obtain ⟨h', items, h1, h2, h3, -⟩ := C52_count_int exUni_faithful exUniNew_new [.lit 7, .lit 60, .lit 5] (fun _ _ => trivial) (by decide)
  exact ⟨h', items, h1, h2, h3⟩
def exUniF : VecHistogram (Uniform (MInt .i32)) F64 := ⟨exUni, List.replicate 12 RDefault.dflt⟩
example : ∃ h' items, exUniF.callAll ([MInt.lit 7, .lit 60, .lit 5].map .fill) = (h', none) ∧ h'.iter = .ok items ∧
    ∀ (i : Nat) (it : Item (BinInterval (MInt .i32)) F64), items[i]? = some it → it.value.isFin := by
  obtain ⟨h', items, h1, h2, -, h4⟩ := C52_count_float (F := .f64) exUni_faithful (h := exUniF) rfl [MInt.lit 7, .lit 60, .lit 5] (fun _ _ => trivial)
  exact ⟨h', items, h1, h2, fun i it hi => (h4 i it hi).2.2.1⟩

/-! ## Equal axes -/

/-- the axes of [0, 4) and [-0, 4), equal but not the same -/
def exF : Uniform F64 := ⟨4, f64 0, f64 4, f64 1⟩
def exF' : Uniform F64 := ⟨4, Flt.neg (f64 0), f64 4, f64 1⟩
theorem exF_eq : PEq.peq exF exF' = true := by decide +kernel
example : exF ≠ exF' := by decide +kernel
example : SameAxis exF exF' BinInterval.Same := C53_uniform exF_eq
example : SameAxis (UniformCyclic.mk (UniformNoFlow.mk exF)) (UniformCyclic.mk (UniformNoFlow.mk exF')) BinInterval.Same := C53_uniform_cyclic exF_eq
def exFV : Variable F64 := ⟨[f64 0, f64 4]⟩
def exFV' : Variable F64 := ⟨[Flt.neg (f64 0), f64 4]⟩
theorem exFV_eq : PEq.peq exFV exFV' = true := by decide +kernel
example : SameAxis exFV exFV' BinInterval.Same := C53_variable exFV_eq
example : SameAxis (VariableNoFlow.mk exFV) (VariableNoFlow.mk exFV') BinInterval.Same := C53_variable_noflow exFV_eq
example : SameAxis (VariableCyclic.mk (VariableNoFlow.mk exFV)) (VariableCyclic.mk (VariableNoFlow.mk exFV')) BinInterval.Same := C53_variable_cyclic exFV_eq
example : SameAxis (Category.new ["a"]) (Category.new ["a"]) (fun b b' => b = b') := C53_category.1 (by decide)
example : SameAxis (AxesTuple1.mk exF [6]) (AxesTuple1.mk exF' [6]) BinInterval.Same := C53_tuple1 C53_uniform (by decide +kernel)
section
attribute [local instance] numPEq
example : exS.beq exS = true ∧ SameOutcome (SameOption fun v w => PEq.peq v w = true) (exS.value "b") (exS.value "b") :=
  ⟨by decide, C53_equal_sparse exS_ok exS_ok (fun _ => C53_category.2 (by decide)) (by decide) "b"⟩
end
/-- 0 - 0 and 9 - 4 -/
def exD4 : VecHistogram (CategoryNoFlow String) (MInt .u8) := ⟨exAxis, [.lit 0, .lit 9]⟩
example : ∃ m, exD4.opBorrow .sub exD2 = .ok (.ok m) ∧ ∃ z, ROps.op .sub (MInt.lit 9 : MInt .u8) (.lit 4) = .ok z ∧ m.value "b" = .ok (some z) := by
  refine ⟨⟨exAxis, [.lit 0, .lit 5]⟩, rfl, ?_⟩
  obtain ⟨y, z, h1, h2, h3⟩ := (C53_operation_dense .sub (l := exD4) (r := exD2) (m := ⟨exAxis, [.lit 0, .lit 5]⟩) ⟨exAxis_lawful, rfl⟩ exD2_ok
    (fun _ => C53_category.2 (by decide)) rfl "b").1 (.lit 9) (by decide)
  rw [show exD2.value "b" = .ok (some (.lit 4)) by decide] at h1
  cases h1
  exact ⟨z, h2, h3⟩
example : ∃ m, exL.opBorrow .add exS exKeysLS = .ok (.ok m) ∧ ∃ z, m.value "b" = .ok z ∧ HashHistogram.merged .add none (some (MInt.lit 7 : MInt .u8)) = .ok z := by
  obtain ⟨m, hm⟩ : ∃ m, exL.opBorrow .add exS exKeysLS = .ok (.ok m) := ⟨_, rfl⟩
  refine ⟨m, hm, ?_⟩
  exact (C53_operation_sparse .add exL_ok exS_ok (fun _ => C53_category.2 (by decide)) exKeysLS hm "b").1 none (some (.lit 7)) (by decide) (by decide)

/-! ## Projections -/

abbrev exTU : AxTy := ⟨Uniform (MInt .i32), inferInstance⟩
abbrev exTC : AxTy := ⟨CategoryNoFlow String, inferInstance⟩
def exPairItem : Tup [exTU, exTC] := (exUni, exAxis, ())
theorem exPair_new : AxesTuple.fromTuple exPairItem = .ok exPair := rfl
theorem exPair_lawful : TupLawful exPairItem [12, 2] := ⟨12, [2], rfl, exUni_faithful.lawful, 2, [], rfl, exAxis_lawful, rfl⟩
theorem exPair_pos : ∀ n ∈ [12, 2], 0 < n := by decide
theorem exPair_fit : [12, 2].prod < usizeSize := by decide
/-- the axes exchanged -/
def exSwap : AxesTuple exTC exTU [] := ⟨(exAxis, exUni, ()), [2, 24]⟩
def exSel : List (Fin 2) := [1, 0]
/-- two coordinates in [5, 10) x "a", one in [5, 10) x "b", one not covered -/
def exCoords : List (Coords [exTU, exTC]) := [(.lit 7, "a", ()), (.lit 5, "a", ()), (.lit 9, "b", ())]
def exPairNew : VecHistogram (AxesTuple exTU exTC []) (MInt .u8) := ⟨exPair, List.replicate 24 (.lit 0)⟩
def exSwapNew : VecHistogram (AxesTuple exTC exTU []) (MInt .u8) := ⟨exSwap, List.replicate 24 (.lit 0)⟩
def exMargNew : VecHistogram (AxesTuple1 (Uniform (MInt .i32))) (MInt .u8) := ⟨⟨exUni, [12]⟩, List.replicate 12 (.lit 0)⟩

abbrev exK₀ : Fin [exTU, exTC].length := 0
abbrev exK₁ : Fin [exTU, exTC].length := 1
example : ∃ b, exPair.bin 14 = .ok (some b) ∧ exSwap.bin (selectBin [12, 2] [(1 : Fin 2), 0] 14) = .ok (some (b.select [exK₁, exK₀])) :=
  ⟨_, rfl, (C61_select_bins (t₀ := exTU) (t₁ := exTC) (ts := []) (k₀ := exK₁) (k₁ := exK₀) (σ := []) exPair_lawful exPair_pos exPair_fit exPair_new (by decide) (a' := exSwap) rfl (N := 14) (by decide) rfl).2⟩
/-- counts: the histogram of the exchanged axes, cell ("a", [5, 10)) -/
example : ∃ v', (exSwapNew.callAllCaught ((callsCovered exPair (exCoords.map .fill)).map (Call.mapCoord fun c => c.select [exK₁, exK₀]))).valueAtIndex 4 = some v' ∧
    v'.val = ∑ N ∈ (Finset.range 24).filter (fun N => selectBin [12, 2] [(1 : Fin 2), 0] N = 4), ((exPairNew.callAllCaught (exCoords.map .fill)).valueAtIndex N).elim 0 MInt.val :=
  C61_select_dense (t₀ := exTU) (t₁ := exTC) (ts := []) (k₀ := exK₁) (k₁ := exK₀) (σ := []) exPair_lawful exPair_pos exPair_fit exPair_new (by decide) (a' := exSwap) rfl
    (h := exPairNew) (h' := exSwapNew) rfl rfl (exCoords.map .fill) MInt.val (fun _ => 1) (fun l hl => additive_count exCoords (by decide) l hl) (j := 4) (by decide)
example : (((HashHistogram.new exSwap : HashHistogram _ (MInt .u8)).callAllCaught ((callsCovered exPair (exCoords.map .fill)).map (Call.mapCoord fun c => c.select [exK₁, exK₀]))).valueAtIndex 4).elim 0 MInt.val =
    ∑ N ∈ (Finset.range 24).filter (fun N => selectBin [12, 2] [(1 : Fin 2), 0] N = 4), (((HashHistogram.new exPair : HashHistogram _ (MInt .u8)).callAllCaught (exCoords.map .fill)).valueAtIndex N).elim 0 MInt.val :=
  C61_select_sparse (t₀ := exTU) (t₁ := exTC) (ts := []) (k₀ := exK₁) (k₁ := exK₀) (σ := []) exPair_lawful exPair_pos exPair_fit exPair_new (by decide) (a' := exSwap) rfl
    (exCoords.map .fill) MInt.val (fun _ => 1) (fun l hl => additive_count exCoords (by decide) l hl) 4
/-- the first axis alone -/
example : ∃ v', (exMargNew.callAllCaught ((callsCovered exPair (exCoords.map .fill)).map (Call.mapCoord fun c => c.nth exK₀))).valueAtIndex 2 = some v' ∧
    v'.val = ∑ N ∈ (Finset.range 24).filter (fun N => alongAxis [12, 2] 0 N = 2), ((exPairNew.callAllCaught (exCoords.map .fill)).valueAtIndex N).elim 0 MInt.val :=
  (C61_marginal (t₀ := exTU) (t₁ := exTC) (ts := []) exPair_lawful exPair_pos exPair_fit exPair_new exK₀ (a' := ⟨exUni, [12]⟩) rfl
    (h := exPairNew) (h' := exMargNew) rfl rfl (exCoords.map .fill) MInt.val (fun _ => 1) (fun l hl => additive_count exCoords (by decide) l hl)).2 2 (by decide)
theorem exCoords_covered : ∀ c ∈ exCoords, ∃ N, exPair.index c = .ok (some N) := by
  intro c hc
  obtain rfl | hc := List.mem_cons.1 hc
  · exact ⟨2, by decide +kernel⟩
  obtain rfl | hc := List.mem_cons.1 hc
  · exact ⟨2, by decide +kernel⟩
  obtain rfl | hc := List.mem_cons.1 hc
  · exact ⟨14, by decide +kernel⟩
  cases hc
example : ∃ v', (exMargNew.callAllCaught (exCoords.map fun c => .fill (c.nth exK₀))).valueAtIndex 2 = some v' ∧
    v'.val = ∑ N ∈ (Finset.range 24).filter (fun N => alongAxis [12, 2] 0 N = 2), ((exPairNew.callAllCaught (exCoords.map .fill)).valueAtIndex N).elim 0 MInt.val :=
  C61_marginal_count (t₀ := exTU) (t₁ := exTC) (ts := []) exPair_lawful exPair_pos exPair_fit exPair_new exK₀ (a' := ⟨exUni, [12]⟩) rfl
    (h := exPairNew) (h' := exMargNew) rfl rfl exCoords exCoords_covered (by decide) (by decide)
/-- weighted sums of rationals -/
example := letI := exactNum ℚ; additive_weighted [("a", (1 / 2 : ℚ)), ("b", 3)] [Call.fillWith (V := WeightedSum ℚ) "b" (3 : ℚ)] ((List.Sublist.refl _).cons _)

/-! ## The macros -/

abbrev exCov : TupCovers [exTU, exTC] := (BinInterval.Covers (T := MInt .i32), SingleValueBinInterval.Covers ["a", "b"], ())
abbrev exDom : TupDom [exTU, exTC] := (fun _ => True, fun _ => True, ())
theorem exPair_faithful : TupFaithful exPairItem [12, 2] exCov exDom :=
  ⟨12, [2], rfl, exUni_faithful, 2, [], rfl, C51_category_noflow ["a", "b"] (by decide) (by decide), rfl⟩
example : ∃ h : VecHistogram (AxesTuple1 (Uniform (MInt .i32))) (MInt .u8), ndhistogram1 (MInt .u8) exUni = .ok h ∧ Axis.numBins h.axes = .ok 12 := by
  obtain ⟨h, h1, h2, -⟩ := C62_one_axis exUni_faithful exFills (fun _ _ => trivial)
  exact ⟨h, h1, h2⟩
example : ∃ h : HashHistogram (AxesTuple1 (Uniform (MInt .i32))) (MInt .u8), sparsehistogram1 (MInt .u8) exUni = .ok h := by
  obtain ⟨h, h1, -⟩ := C62_one_axis_sparse exUni_faithful exFills (fun _ _ => trivial)
  exact ⟨h, h1⟩
example : ∃ h : VecHistogram (AxesTuple exTU exTC []) (MInt .u8), ndhistogram (MInt .u8) exPairItem = .ok h ∧ Axis.numBins h.axes = .ok 24 ∧ Axis.numDim h.axes = 2 := by
  obtain ⟨h, h1, h2, h3, -⟩ := C62_axes exPair_faithful exPair_pos exPair_fit (exCoords.map .fill : List (Call (MInt .u8) _)) (fun _ _ => ⟨trivial, trivial, trivial⟩)
  exact ⟨h, h1, h2, h3⟩
example : ∃ h : HashHistogram (AxesTuple exTU exTC []) (MInt .u8), sparsehistogram (MInt .u8) exPairItem = .ok h := by
  obtain ⟨h, h1, -⟩ := C62_axes_sparse exPair_faithful exPair_pos exPair_fit (exCoords.map .fill : List (Call (MInt .u8) _)) (fun _ _ => ⟨trivial, trivial, trivial⟩)
  exact ⟨h, h1⟩
example : ∃ p, ndhistogram (MInt .u8) exBig = .error p := (C62_too_many_cells (V := MInt .u8) rfl exBig_lawful (by decide)).1.2 (by decide)

end
end NdHist.Examples
