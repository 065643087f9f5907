import Verif.Props.ProfileHist
import Verif.Lemmas.Std
/-!
# Concrete cases of C63: 64-bit debug and release builds
-/
namespace NdHist.Examples
open NdHist

/-- what agreement means when the debug build returns -/
theorem Builds.release_ok {α : Type} {d r : Res α} (h : Builds Eq d r) {x : α} (hd : d = .ok x) : r = .ok x := by
  subst hd; obtain ⟨y, rfl, rfl⟩ := h; rfl
theorem BuildsUpd.release_ok {σ : Type} {d r : σ × Option Panic} (h : BuildsUpd Eq d r) {x : σ} (hd : d = (x, none)) : r = (x, none) := by
  subst hd
  rcases h with h | ⟨h, h'⟩
  · exact absurd h (by simp)
  · exact Prod.ext h.symm h'

abbrev D : Cfg := debugBuild 64 (by decide)
abbrev R : Cfg := releaseBuild 64 (by decide)
abbrev I32 := MInt .i32
abbrev U8 := MInt .u8
example : NumBuilds 64 (by decide) I32 (@MInt.instRNum .i32 D) (@MInt.instRNum .i32 R) := C63_integers .i32
example : NumBuilds 64 (by decide) F64 (@Flt.instRNum _ D) (@Flt.instRNum _ R) := C63_floats _
theorem i32B : NumBuilds 64 (by decide) I32 (@MInt.instRNum .i32 D) (@MInt.instRNum .i32 R) := C63_integers .i32
theorem u8B : NumBuilds 64 (by decide) U8 (@MInt.instRNum .u8 D) (@MInt.instRNum .u8 R) := C63_integers .u8
theorem f64B : NumBuilds 64 (by decide) F64 (@Flt.instRNum _ D) (@Flt.instRNum _ R) := C63_floats _

/-- the axis `Uniform::with_step_size(3, 0, 2)` of `i32` -/
def pAx : Uniform I32 := ⟨3, .lit 0, .lit 6, .lit 2⟩
/-- the axis `Uniform::with_step_size(3, -2^31, 2)`: coordinates above `-1` overflow in `index` unless they are beyond the axis -/
def pLow : Uniform I32 := ⟨3, .lit (-2147483648), .lit (-2147483642), .lit 2⟩

/-! the axes: results of the debug build carry over to the release build -/
example : @Uniform.withStepSize I32 R _ 3 (.lit 0) (.lit 2) = .ok (.ok pAx) := Builds.release_ok (C63_uniform_with_step_size i32B 3 (.lit 0) (.lit 2)) (by decide +kernel)
example : @Uniform.new F64 R _ 2 (f64 0) (f64 1) = @Uniform.new F64 D _ 2 (f64 0) (f64 1) := by
  have h := C63_uniform_new f64B 2 (f64 0) (f64 1)
  cases hd : @Uniform.new F64 D _ 2 (f64 0) (f64 1) with
  | ok x => exact Builds.release_ok h hd
  | error p => exact absurd hd (by unfold Uniform.new; dsimp [RNum.sub, RNum.div, RNum.ofUsize]; split_ifs <;> simp [pure, Except.pure, bind, Except.bind] <;> split <;> simp)
/-- The converse fails: a debug build that panics with overflow says nothing about the release build. -/
example : @Uniform.withStepSize U8 D _ 200 (.lit 0) (.lit 2) = .error .overflow ∧
    @Uniform.withStepSize U8 R _ 200 (.lit 0) (.lit 2) = .ok (.ok ⟨200, .lit 0, .lit 144, .lit 2⟩) := by decide +kernel
example : @Uniform.index I32 R _ pAx (.lit 3) = .ok (some 2) := Builds.release_ok ((C63_uniform i32B).index rfl HEq.rfl) (by decide +kernel : @Uniform.index I32 D _ pAx (.lit 3) = .ok (some 2))
example : @Uniform.bin I32 R _ pAx 2 = .ok (some (.new (.lit 2) (.lit 4))) := by
  have h := (C63_uniform i32B).bin (a := pAx) 2 rfl
  rw [show @Axis.bin _ D (@Uniform.instAxis I32 D _) pAx 2 = .ok (some (.new (.lit 2) (.lit 4))) from (by decide +kernel : @Uniform.bin I32 D _ pAx 2 = .ok (some (.new (.lit 2) (.lit 4))))] at h
  obtain ⟨y, hy, h⟩ := h
  cases y with
  | none => exact h.elim
  | some y => exact hy.trans (by rw [eq_of_heq h])
example : @UniformNoFlow.withStepSize I32 R _ 3 (.lit 0) (.lit 2) = .ok (.ok ⟨pAx⟩) := Builds.release_ok (C63_uniform_noflow_with_step_size i32B 3 (.lit 0) (.lit 2)) (by decide +kernel)
example : @UniformNoFlow.new I32 R _ 3 (.lit 0) (.lit 6) = .ok (.ok ⟨pAx⟩) := Builds.release_ok (C63_uniform_noflow_new i32B 3 (.lit 0) (.lit 6)) (by decide +kernel)
example : @UniformNoFlow.index I32 R _ ⟨pAx⟩ (.lit 3) = .ok (some 1) :=
  Builds.release_ok ((C63_uniform_noflow i32B).index rfl HEq.rfl) (by decide +kernel : @UniformNoFlow.index I32 D _ ⟨pAx⟩ (.lit 3) = .ok (some 1))
example : @UniformCyclic.withStepSize I32 R _ 3 (.lit 0) (.lit 2) = .ok (.ok ⟨⟨pAx⟩⟩) := Builds.release_ok (C63_uniform_cyclic_with_step_size i32B 3 (.lit 0) (.lit 2)) (by decide +kernel)
example : @UniformCyclic.new I32 R _ 3 (.lit 0) (.lit 6) = .ok (.ok ⟨⟨pAx⟩⟩) := Builds.release_ok (C63_uniform_cyclic_new i32B 3 (.lit 0) (.lit 6)) (by decide +kernel)
example : @UniformCyclic.index I32 R _ ⟨⟨pAx⟩⟩ (.lit (-1)) = .ok (some 2) :=
  Builds.release_ok ((C63_uniform_cyclic i32B).index rfl HEq.rfl) (by decide +kernel : @UniformCyclic.index I32 D _ ⟨⟨pAx⟩⟩ (.lit (-1)) = .ok (some 2))
section
attribute [local instance] stdNew
example : @Variable.index I32 R (@RNum.toPOrd _ D _) _ ⟨[.lit 0, .lit 5, .lit 7]⟩ (.lit 6) = .ok (some 2) :=
  Builds.release_ok ((@C63_variable 64 (by decide) I32 _ (@RNum.toPOrd _ D _)).index rfl HEq.rfl) (by decide +kernel : @Variable.index I32 D (@RNum.toPOrd _ D _) _ ⟨[.lit 0, .lit 5, .lit 7]⟩ (.lit 6) = .ok (some 2))
example : @VariableNoFlow.index I32 R (@RNum.toPOrd _ D _) _ ⟨⟨[.lit 0, .lit 5, .lit 7]⟩⟩ (.lit 6) = .ok (some 1) :=
  Builds.release_ok ((@C63_variable_noflow 64 (by decide) I32 _ (@RNum.toPOrd _ D _)).index rfl HEq.rfl)
    (by decide +kernel : @VariableNoFlow.index I32 D (@RNum.toPOrd _ D _) _ ⟨⟨[.lit 0, .lit 5, .lit 7]⟩⟩ (.lit 6) = .ok (some 1))
example : @VariableCyclic.index I32 R _ _ ⟨⟨⟨[.lit 0, .lit 5, .lit 7]⟩⟩⟩ (.lit 13) = .ok (some 1) :=
  Builds.release_ok ((C63_variable_cyclic i32B).index rfl HEq.rfl) (by decide +kernel : @VariableCyclic.index I32 D _ _ ⟨⟨⟨[.lit 0, .lit 5, .lit 7]⟩⟩⟩ (.lit 13) = .ok (some 1))
end
example : @Category.numBins String R (Category.new ["a", "b"]) = .ok 3 :=
  Builds.release_ok ((C63_category (b := 64) (hb := by decide)).numBins rfl) (by decide +kernel : @Category.numBins String D (Category.new ["a", "b"]) = .ok 3)
example : @CategoryNoFlow.index String _ R (CategoryNoFlow.new ["a", "b"]) "b" = .ok (some 1) :=
  Builds.release_ok ((C63_category_noflow (b := 64) (hb := by decide)).index rfl HEq.rfl) (by decide +kernel : @CategoryNoFlow.index String _ D (CategoryNoFlow.new ["a", "b"]) "b" = .ok (some 1))
example : @Axis.indices _ R (@Uniform.instAxis I32 R _) pAx = .ok [0, 1, 2, 3, 4] :=
  Builds.release_ok (C63_indices (C63_uniform i32B) rfl) (by decide +kernel : @Axis.indices _ D (@Uniform.instAxis I32 D _) pAx = .ok [0, 1, 2, 3, 4])

/-! a two-dimensional histogram: `Uniform<i32>` and `CategoryNoFlow<String>` -/
def pCat : CategoryNoFlow String := CategoryNoFlow.new ["a", "b"]
abbrev tD0 : @AxTy D := @AxTy.mk D (Uniform I32) (@Uniform.instAxis I32 D _)
abbrev tR0 : @AxTy R := @AxTy.mk R (Uniform I32) (@Uniform.instAxis I32 R _)
abbrev tD1 : @AxTy D := @AxTy.mk D (CategoryNoFlow String) (@CategoryNoFlow.instAxis String _ D)
abbrev tR1 : @AxTy R := @AxTy.mk R (CategoryNoFlow String) (@CategoryNoFlow.instAxis String _ R)
abbrev pS : TwinAxes 64 (by decide) [tD0, tD1] [tR0, tR1] := .cons (.equal _ _) (.cons (.equal _ _) .nil)
theorem pS_agree : pS.Agree := ⟨C63_uniform i32B, C63_category_noflow, trivial⟩
def pTupD : @Tup D [tD0, tD1] := (pAx, pCat, ())
def pTupR : @Tup R [tR0, tR1] := (pAx, pCat, ())
theorem pTup : pS.tup pTupD pTupR := ⟨rfl, rfl, trivial⟩
def pD : @AxesTuple D tD0 tD1 [] := @AxesTuple.mk D _ _ _ pTupD [5, 10]
def pR : @AxesTuple R tR0 tR1 [] := @AxesTuple.mk R _ _ _ pTupR [5, 10]
theorem pDR : pS.axesTuple pD pR := ⟨pTup, rfl⟩
def pcD : @Coords D [tD0, tD1] := ((.lit 3 : I32), "b", ())
def pcR : @Coords R [tR0, tR1] := ((.lit 3 : I32), "b", ())
theorem pc : pS.coords pcD pcR := ⟨HEq.rfl, HEq.rfl, trivial⟩
example : @AxesTuple.fromTuple R tR0 tR1 [] pTupR = .ok pR := by
  have h := C63_from_tuple pS_agree pTup
  rw [show @AxesTuple.fromTuple D tD0 tD1 [] pTupD = .ok pD from rfl] at h
  obtain ⟨⟨y, sh⟩, hy, ⟨h1, h2, -⟩, rfl⟩ := h
  obtain ⟨y1, y2, ⟨⟩⟩ := y
  cases h1; cases h2; exact hy
example : @AxesTuple.index R tR0 tR1 [] pR pcR = .ok (some 7) :=
  Builds.release_ok ((C63_tuple pS_agree).index (c := pcD) (c' := pcR) pDR pc) (by rfl : @AxesTuple.index D tD0 tD1 [] pD pcD = .ok (some 7))
example : @Axis.index _ R (@AxesTuple1.instAxis _ R (@Uniform.instAxis I32 R _)) ⟨pAx, [5]⟩ (.lit 3 : I32) = .ok (some 2) :=
  Builds.release_ok ((C63_tuple1 (C63_uniform i32B)).index (a := ⟨pAx, [5]⟩) ⟨rfl, rfl⟩ HEq.rfl)
    (by decide +kernel : @Uniform.index I32 D _ pAx (.lit 3) = .ok (some 2))
abbrev pU : TwinAxis 64 (by decide) (Uniform I32) (Uniform I32) (@Uniform.instAxis I32 D _) (@Uniform.instAxis I32 R _) := .equal _ _
example : Builds pU.tuple1.axis (@AxesTuple1.fromTuple _ D (@Uniform.instAxis I32 D _) pAx) (@AxesTuple1.fromTuple _ R (@Uniform.instAxis I32 R _) pAx) :=
  C63_from_tuple1 (C63_uniform i32B) rfl
example : Builds (List.Forall₂ pS.tuple.interval) (@Axis.bins _ D (@AxesTuple.instAxis D tD0 tD1 []) pD) (@Axis.bins _ R (@AxesTuple.instAxis R tR0 tR1 []) pR) :=
  C63_bins (C63_tuple pS_agree) pDR
example : Builds (List.Forall₂ fun x y => x.1 = y.1 ∧ pS.tuple.interval x.2 y.2) (@Axis.iter _ D (@AxesTuple.instAxis D tD0 tD1 []) pD)
    (@Axis.iter _ R (@AxesTuple.instAxis R tR0 tR1 []) pR) :=
  C63_axis_iter (C63_tuple pS_agree) pDR

/-! bin values -/
example : (@instFill U8 R _).fill (.lit 3) = (.lit 4, none) :=
  BuildsUpd.release_ok (C63_fill_number u8B (.lit 3)) (by decide +kernel : (@instFill U8 D _).fill (.lit 3) = (.lit 4, none))
/-- where the builds differ -/
example : (@instFill U8 D _).fill (.lit 255) = (.lit 255, some .overflow) ∧ (@instFill U8 R _).fill (.lit 255) = (.lit 0, none) := by decide +kernel
example : (@instFillWith U8 R _).fillWith (.lit 5) (.lit 3) = (.lit 8, none) :=
  BuildsUpd.release_ok (C63_fill_with_number u8B (.lit 5) (.lit 3)) (by decide +kernel : (@instFillWith U8 D _).fillWith (.lit 5) (.lit 3) = (.lit 8, none))
example : (@WeightedSum.instFillWithOfRNum U8 U8 R _ (@instFillWith U8 R _)).fillWith (.lit 5) ⟨.lit 3, .lit 9⟩ = (⟨.lit 8, .lit 34⟩, none) :=
  BuildsUpd.release_ok (C63_fill_with_weighted_sum u8B (C63_fill_with_number u8B) (.lit 5) ⟨.lit 3, .lit 9⟩) (by decide +kernel)
example : (@Mean.instFillWith U8 F64 U8 R _ _).fillWith (.lit 5) ⟨.lit 3, .lit 9, .lit 1⟩ = (⟨.lit 8, .lit 34, .lit 2⟩, none) :=
  BuildsUpd.release_ok (C63_fill_with_mean u8B u8B (.lit 5) ⟨.lit 3, .lit 9, .lit 1⟩) (by decide +kernel)
example : (@WeightedMean.instFillWithWeighted U8 U8 F64 U8 R _ _ _ (@instRMulByOfRNum U8 R _)).fillWithWeighted (.lit 5) (.lit 2) ⟨.lit 3, .lit 9, .lit 1, .lit 1, .lit 1⟩ =
    (⟨.lit 13, .lit 59, .lit 3, .lit 5, .lit 2⟩, none) :=
  BuildsUpd.release_ok (C63_fill_with_weighted_mean u8B u8B u8B (m := @instRMulByOfRNum U8 D _) (fun x w => u8B.mul x w) (.lit 5) (.lit 2) ⟨.lit 3, .lit 9, .lit 1, .lit 1, .lit 1⟩)
    (by decide +kernel)
example : (@instROpsOfRNum U8 R _).op .sub (.lit 9) (.lit 3) = .ok (.lit 6) := Builds.release_ok ((C63_ops u8B).op .sub (.lit 9) (.lit 3)) (by decide +kernel)
example : (@instRDefault U8 R _).dflt = .lit 0 := (C63_default u8B).symm
example : (@Sum.instFill U8 (@instFill U8 R _)).fill ⟨.lit 3⟩ = (⟨.lit 4⟩, none) :=
  BuildsUpd.release_ok (C63_fill_sum (C63_fill_number u8B) ⟨.lit 3⟩) (by decide +kernel)
example : (@Sum.instFillWith U8 U8 (@instFillWith U8 R _)).fillWith (.lit 5) ⟨.lit 3⟩ = (⟨.lit 8⟩, none) :=
  BuildsUpd.release_ok (C63_fill_with_sum (C63_fill_with_number u8B) (.lit 5) ⟨.lit 3⟩) (by decide +kernel)
example : (@WeightedSum.instFill U8 (@instFill U8 R _)).fill ⟨.lit 3, .lit 4⟩ = (⟨.lit 4, .lit 5⟩, none) :=
  BuildsUpd.release_ok (C63_fill_weighted_sum (C63_fill_number u8B) ⟨.lit 3, .lit 4⟩) (by decide +kernel)
section
/-- the mean of 1 and 3 -/
def pM : Mean F64 F64 F64 := ⟨f64 4, f64 10, f64 2⟩
def pW : WeightedMean F64 F64 F64 F64 := ⟨f64 4, f64 10, f64 2, f64 2, f64 2⟩
example : @Mean.mean F64 F64 F64 R _ _ _ pM = .ok (f64 2) := Builds.release_ok (C63_mean f64B pM) (by decide +kernel)
example : @Mean.varianceOfSamples F64 F64 F64 R _ _ _ _ pM = .ok (f64 1) := Builds.release_ok (C63_mean_variance_of_samples f64B pM) (by decide +kernel)
example : @Mean.varianceOfMean F64 F64 F64 R _ _ _ _ pM = .ok (f64 (1/2)) := Builds.release_ok (C63_mean_variance_of_mean f64B pM) (by decide +kernel)
example : @WeightedMean.mean F64 F64 F64 F64 R _ _ _ pW = .ok (f64 2) := Builds.release_ok (C63_weighted_mean f64B pW) (by decide +kernel)
example : @WeightedMean.varianceOfSamples F64 F64 F64 F64 R _ _ _ pW = .ok (f64 1) := Builds.release_ok (C63_weighted_mean_variance_of_samples f64B pW) (by decide +kernel)
example : @WeightedMean.varianceOfMean F64 F64 F64 F64 R _ _ _ pW = .ok (f64 (1/2)) := Builds.release_ok (C63_weighted_mean_variance_of_mean f64B pW) (by decide +kernel)
end

/-! histograms -/
abbrev pT := pS.tuple
theorem pT_agree : pT.Agree := C63_tuple pS_agree
abbrev AD := @AxesTuple D tD0 tD1 []
abbrev AR := @AxesTuple R tR0 tR1 []
/-- ten bins; bin 7 is the one of `(3, "b")` -/
def pvs : List U8 := [.lit 0, .lit 1, .lit 2, .lit 3, .lit 4, .lit 5, .lit 6, .lit 254, .lit 8, .lit 9]
def hD : VecHistogram AD U8 := ⟨pD, pvs⟩
def hR : VecHistogram AR U8 := ⟨pR, pvs⟩
theorem hDR : pT.vec hD hR := ⟨pDR, rfl⟩
def gD : HashHistogram AD U8 := ⟨pD, ⟨[(7, .lit 254), (0, .lit 1)]⟩⟩
def gR : HashHistogram AR U8 := ⟨pR, ⟨[(7, .lit 254), (0, .lit 1)]⟩⟩
theorem gDR : pT.hash gD gR := ⟨pDR, rfl⟩
def goD : gD.values.Order := ⟨gD.values.entries.reverse, List.reverse_perm _⟩
def goR : gR.values.Order := ⟨gR.values.entries.reverse, List.reverse_perm _⟩
def kD : Call U8 (@Axis.Coordinate AD D (@AxesTuple.instAxis D tD0 tD1 [])) := @Call.fill _ _ (@instFill U8 D _) pcD
def kR : Call U8 (@Axis.Coordinate AR R (@AxesTuple.instAxis R tR0 tR1 [])) := @Call.fill _ _ (@instFill U8 R _) pcR
theorem kDR : pT.call kD kR := ⟨pc, C63_fill_number u8B⟩

example : @VecHistogram.value AR U8 R _ hR pcR = .ok (some (.lit 254)) :=
  Builds.release_ok (C63_vec_value pT_agree (c := pcD) (c' := pcR) hDR pc) (by rfl : @VecHistogram.value AD U8 D _ hD pcD = .ok (some (.lit 254)))
example : Builds pT.vec (@VecHistogram.new AD U8 D _ (@instRDefault U8 D _) pD) (@VecHistogram.new AR U8 R _ (@instRDefault U8 R _) pR) := C63_vec_new pT_agree (C63_default u8B) pDR
example : Builds (BothExcept pT.vec) (@VecHistogram.fromVec AD U8 D _ pD pvs) (@VecHistogram.fromVec AR U8 R _ pR pvs) := C63_vec_from_vec pT_agree pDR pvs
example : Builds (List.Forall₂ pT.item) (@VecHistogram.iter AD U8 D _ hD) (@VecHistogram.iter AR U8 R _ hR) := C63_vec_iter pT_agree hDR
example : Builds (BothOption (BuildsUpd pT.vec)) (@VecHistogram.valueMut AD U8 D _ hD pcD (@addAssign U8 D _ (.lit 1))) (@VecHistogram.valueMut AR U8 R _ hR pcR (@addAssign U8 R _ (.lit 1))) :=
  C63_vec_value_mut pT_agree (C63_fill_with_number u8B (.lit 1)) (c := pcD) (c' := pcR) hDR pc
/-- one fill: the bin ends at 255 in both builds; a second fill overflows and the builds differ -/
example : (@VecHistogram.call AR U8 R _ hR kR).1.values[7]? = some (.lit 255) := by
  rcases C63_vec_call pT_agree hDR kDR with h | ⟨⟨-, h⟩, -⟩
  · exact absurd h (by decide +kernel)
  · rw [← h]; rfl
example : BuildsUpd pT.vec (@VecHistogram.callAll AD U8 D _ hD [kD, kD]) (@VecHistogram.callAll AR U8 R _ hR [kR, kR]) := C63_vec_program pT_agree (.cons kDR (.cons kDR .nil)) hDR
example : (@VecHistogram.callAll AD U8 D _ hD [kD, kD]).2 = some .overflow ∧ (@VecHistogram.callAll AR U8 R _ hR [kR, kR]).2 = none := by decide +kernel
example : (@VecHistogram.callAll AR U8 R _ hR [kR]).2 = none := by
  rcases C63_vec_program pT_agree (.cons kDR .nil) hDR with h | ⟨-, h⟩
  · exact absurd h (by decide +kernel)
  · exact h.trans (by decide +kernel)
example : BuildsUpd pT.vec (hD.valuesMut (@addAssign U8 D _ (.lit 1))) (hR.valuesMut (@addAssign U8 R _ (.lit 1))) := C63_vec_values_mut (C63_fill_with_number u8B (.lit 1)) hDR
example : BuildsUpd pT.vec (@VecHistogram.iterMut AD U8 D _ hD fun _ _ => @addAssign U8 D _ (.lit 1)) (@VecHistogram.iterMut AR U8 R _ hR fun _ _ => @addAssign U8 R _ (.lit 1)) :=
  C63_vec_iter_mut pT_agree (fun _ _ _ _ => C63_fill_with_number u8B (.lit 1)) hDR

section
abbrev i32Eq : PEq (Uniform I32) := @instPEqUniform I32 (@RNum.toPOrd _ D _)
abbrev strEq : PEq (CategoryNoFlow String) := inferInstance
abbrev eD : PEq AD := @instPEqAxesTupleOfTupPEqConsAxTy D tD0 tD1 [] (@instTupPEqConsAxTyOfPEqA D tD0 [tD1] i32Eq (@instTupPEqConsAxTyOfPEqA D tD1 [] strEq (@instTupPEqNilAxTy D)))
abbrev eR : PEq AR := @instPEqAxesTupleOfTupPEqConsAxTy R tR0 tR1 [] (@instTupPEqConsAxTyOfPEqA R tR0 [tR1] i32Eq (@instTupPEqConsAxTyOfPEqA R tR1 [] strEq (@instTupPEqNilAxTy R)))
theorem exEqs : pT.Eqs eD eR := C63_tuple_eq (tupEq_cons (C63_axis_eq i32Eq) (tupEq_cons (C63_axis_eq strEq) tupEq_nil))
example : pU.tuple1.Eqs (@instPEqAxesTuple1 _ i32Eq) (@instPEqAxesTuple1 _ i32Eq) := C63_tuple1_eq (C63_axis_eq i32Eq)
example : Builds (BothExcept pT.vec) (@VecHistogram.opBorrow AD U8 eD (@instROpsOfRNum U8 D _) .add hD hD) (@VecHistogram.opBorrow AR U8 eR (@instROpsOfRNum U8 R _) .add hR hR) :=
  C63_vec_op_borrow exEqs (C63_ops u8B) .add hDR hDR
example : Builds pT.vec (@VecHistogram.opScalar AD U8 (@instROpsOfRNum U8 D _) .mul hD (.lit 2)) (@VecHistogram.opScalar AR U8 (@instROpsOfRNum U8 R _) .mul hR (.lit 2)) :=
  C63_vec_op_scalar (C63_ops u8B) .mul hDR (.lit 2)
example : Builds (BothExcept pT.vec) (@VecHistogram.opOwned AD U8 eD (@instROpsOfRNum U8 D _) .sub hD hD) (@VecHistogram.opOwned AR U8 eR (@instROpsOfRNum U8 R _) .sub hR hR) :=
  C63_vec_op_owned exEqs (C63_ops u8B) .sub hDR hDR
/-- `h -= &h` is zero everywhere in the release build, because it is in the debug build -/
example : (@VecHistogram.opAssign AR U8 eR (@instROpsOfRNum U8 R _) .sub hR hR).1.values = List.replicate 10 (.lit 0) := by
  rcases C63_vec_op_assign exEqs (C63_ops u8B) .sub hDR hDR with h | ⟨⟨-, h⟩, -⟩
  · exact absurd h (by decide +kernel)
  · rw [← h]; decide +kernel

example : pT.hash (HashHistogram.new pD : HashHistogram AD U8) (HashHistogram.new pR) := C63_hash_new pDR
example : Builds (BothExcept pT.hash) (@HashHistogram.fromMap AD U8 D _ pD gD.values) (@HashHistogram.fromMap AR U8 R _ pR gD.values) := C63_hash_from_map pT_agree pDR gD.values
example : @HashHistogram.value AR U8 R _ gR pcR = .ok (some (.lit 254)) :=
  Builds.release_ok (C63_hash_value pT_agree (c := pcD) (c' := pcR) gDR pc) (by rfl : @HashHistogram.value AD U8 D _ gD pcD = .ok (some (.lit 254)))
example : Builds (List.Forall₂ pT.item) (@HashHistogram.iter AD U8 D _ gD goD) (@HashHistogram.iter AR U8 R _ gR goR) := C63_hash_iter pT_agree gDR goD goR rfl
example : Builds (BothOption (BuildsUpd pT.hash)) (@HashHistogram.valueMut AD U8 D _ gD pcD (@addAssign U8 D _ (.lit 1))) (@HashHistogram.valueMut AR U8 R _ gR pcR (@addAssign U8 R _ (.lit 1))) :=
  C63_hash_value_mut pT_agree (C63_fill_with_number u8B (.lit 1)) (c := pcD) (c' := pcR) gDR pc
example : (@HashHistogram.call AR U8 R _ (@instRDefault U8 R _) gR kR).1.values.get 7 = some (.lit 255) := by
  rcases C63_hash_call pT_agree (C63_default u8B) gDR kDR with h | ⟨⟨-, h⟩, -⟩
  · exact absurd h (by decide +kernel)
  · rw [← h]; rfl
example : BuildsUpd pT.hash (@HashHistogram.callAll AD U8 D _ (@instRDefault U8 D _) gD [kD, kD]) (@HashHistogram.callAll AR U8 R _ (@instRDefault U8 R _) gR [kR, kR]) :=
  C63_hash_program pT_agree (C63_default u8B) (.cons kDR (.cons kDR .nil)) gDR
example : BuildsUpd pT.hash (gD.valuesMut goD (@addAssign U8 D _ (.lit 1))) (gR.valuesMut goR (@addAssign U8 R _ (.lit 1))) :=
  C63_hash_values_mut (C63_fill_with_number u8B (.lit 1)) gDR goD goR rfl
example : BuildsUpd pT.hash (@HashHistogram.iterMut AD U8 D _ gD goD fun _ _ => @addAssign U8 D _ (.lit 1)) (@HashHistogram.iterMut AR U8 R _ gR goR fun _ _ => @addAssign U8 R _ (.lit 1)) :=
  C63_hash_iter_mut pT_agree (fun _ _ _ _ => C63_fill_with_number u8B (.lit 1)) gDR goD goR rfl
def gkD : HashHistogram.KeyOrder gD gD := ⟨[0, 7], by decide, by intro k; simp [gD, HMap.keys]; omega⟩
def gkR : HashHistogram.KeyOrder gR gR := ⟨[0, 7], by decide, by intro k; simp [gR, HMap.keys]; omega⟩
example : Builds (BothExcept pT.hash) (@HashHistogram.opBorrow AD U8 eD (@instROpsOfRNum U8 D _) (@instRDefault U8 D _) .add gD gD gkD)
    (@HashHistogram.opBorrow AR U8 eR (@instROpsOfRNum U8 R _) (@instRDefault U8 R _) .add gR gR gkR) :=
  C63_hash_op_borrow exEqs (C63_ops u8B) (C63_default u8B) .add gDR gDR gkD gkR rfl
example : Builds (BothExcept pT.hash) (@HashHistogram.opOwned AD U8 eD (@instROpsOfRNum U8 D _) (@instRDefault U8 D _) .sub gD gD goD)
    (@HashHistogram.opOwned AR U8 eR (@instROpsOfRNum U8 R _) (@instRDefault U8 R _) .sub gR gR goR) :=
  C63_hash_op_owned exEqs (C63_ops u8B) (C63_default u8B) .sub gDR gDR goD goR rfl
example : BuildsUpd pT.hash (@HashHistogram.opAssign AD U8 eD (@instROpsOfRNum U8 D _) (@instRDefault U8 D _) .sub gD gD goD)
    (@HashHistogram.opAssign AR U8 eR (@instROpsOfRNum U8 R _) (@instRDefault U8 R _) .sub gR gR goR) :=
  C63_hash_op_assign exEqs (C63_ops u8B) (C63_default u8B) .sub gDR gDR goD goR rfl
end

example : Builds pU.tuple1.vec (@ndhistogram1 D _ _ U8 (@instRDefault U8 D _) pAx) (@ndhistogram1 R _ _ U8 (@instRDefault U8 R _) pAx) :=
  C63_ndhistogram1 (C63_uniform i32B) (C63_default u8B) rfl
example : Builds pT.vec (@ndhistogram D tD0 tD1 [] U8 (@instRDefault U8 D _) pTupD) (@ndhistogram R tR0 tR1 [] U8 (@instRDefault U8 R _) pTupR) :=
  C63_ndhistogram pS_agree (C63_default u8B) pTup
example : Builds pT.hash (@sparsehistogram D tD0 tD1 [] U8 pTupD) (@sparsehistogram R tR0 tR1 [] U8 pTupR) := C63_sparsehistogram pS_agree pTup
end NdHist.Examples
