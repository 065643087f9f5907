import Verif.Props.Refill
import Verif.Examples.Near
/-!
# Concrete cases of the theorems in `Props/Refill.lean`
-/
namespace NdHist.Examples
open NdHist
section
attribute [local instance] dbg64 stdNew

theorem exRough_centre : Addresses exRough 12 (centre (F := FFmt.f64)) :=
  C103_centre_uniform exRough_new (by decide +kernel) (by decide +kernel) (by decide) (by decide) (by decide +kernel) (by decide +kernel) (by decide +kernel)
/-- its third bin, whose centre is 0.175 (in floats) -/
theorem exRough_bin3 : Axis.bin exRough 3 = .ok (some (.Bin (exRough.fedge 2) (exRough.fedge 3))) := show exRough.bin 3 = _ by decide +kernel
example : Axis.index exRough (Flt.div (Flt.add (exRough.fedge 2) (exRough.fedge 3)) (Flt.ofRat 2)) = .ok (some 3) :=
  exRough_centre 3 _ _ (by decide) exRough_bin3 rfl
example : Addresses exRStep 12 (centre (F := FFmt.f64)) :=
  C103_centre_uniform_step exRStep_new (by decide +kernel) (by decide +kernel) (by decide +kernel) (by decide) (by decide) (by decide +kernel) (by decide +kernel) (by decide +kernel)
example : Addresses exTenth 10 (centre (F := FFmt.f64)) :=
  C103_centre_cyclic exTenth_new (by decide +kernel) (by decide +kernel) (by decide) (by decide) (by decide +kernel) (by decide +kernel) (by decide +kernel)
theorem exRough_lawful : LawfulAxis exRough 12 := by obtain ⟨_, h, -⟩ := exRough_rough; exact h.lawful
example : Addresses (UniformNoFlow.mk exRough) 10 (centre (F := FFmt.f64)) := C103_noflow (u := exRough) exRough_lawful exRough_centre

example : ∃ a : Variable F64, Variable.new [f64 0.3, f64 0.1, f64 0.7] = .ok (.ok a) ∧ Addresses a 4 (startOf (T := F64)) :=
  ⟨⟨[f64 0.1, f64 0.3, f64 0.7]⟩, by decide +kernel, C103_start_variable (edges := [f64 0.3, f64 0.1, f64 0.7]) (by decide +kernel) (by decide) (by decide +kernel)⟩
theorem exUni_start : Addresses exUni 12 (startOf (T := MInt .i32)) :=
  C103_start_uniform_int (num := 10) (low := .lit 0) (step := .lit 5) (by decide) (by decide) (by decide) (by decide)
theorem exCatAddr : Addresses (Category.new ["a", "b"]) 3 categoryOf := C103_category ["a", "b"] (by decide) (by decide)
/-- nothing but the underflow bin, by the number one below its end -/
def exBelow : BinInterval F64 → Option F64
  | .Underflow stop => some (Flt.sub stop (f64 1))
  | _ => none
example : Addresses exRough 12 exBelow := C103_inside exRough_rough (by
  intro i b c hi hb hc
  cases b with
  | Underflow stop =>
    cases hc
    have h0 : i = 0 := by
      by_contra h
      obtain ⟨h1, h2, -, ed, eb, -⟩ := C47_float_bins exRough_new (by decide +kernel) (by decide +kernel) (by decide) (by decide) (by decide +kernel) (by decide +kernel)
      have hb : exRough.bin i = _ := hb
      by_cases h11 : i = 11
      · subst h11; rw [h2] at hb; cases hb
      · obtain ⟨k, rfl⟩ : ∃ k, i = k + 1 := ⟨i - 1, by omega⟩
        rw [eb k (by omega)] at hb; cases hb
    subst h0
    have hb : exRough.bin 0 = _ := hb
    have : exRough.bin 0 = .ok (some (.Underflow (f64 0))) := by decide +kernel
    rw [this] at hb; cases hb
    exact ⟨by decide +kernel, show POrd.lt (Flt.sub (f64 0) (f64 1)) (f64 0) = true by decide +kernel⟩
  | Overflow _ => cases hc
  | Bin _ _ => cases hc)

/-! Two axes: integers in steps of five, and two categories with overflow -/
abbrev exRA : AxTy := ⟨Uniform (MInt .i32), inferInstance⟩
abbrev exRB : AxTy := ⟨Category String, inferInstance⟩
def exPicks : TupPick [exRA, exRB] := (startOf (T := MInt .i32), categoryOf, ())
def exRItem : Tup [exRA, exRB] := (exUni, Category.new ["a", "b"], ())
theorem exPicks_ok : TupAddresses exRItem [12, 3] exPicks := ⟨12, [3], rfl, exUni_start, 3, [], rfl, exCatAddr, rfl⟩
example : ∃ a, AxesTuple.fromTuple exRItem = .ok a ∧ Addresses a 36 (pickAll exPicks) := by
  have hl : TupLawful exRItem [12, 3] := ⟨12, [3], rfl, exUni_faithful.lawful, 3, [], rfl, C25_lawful_category ["a", "b"] (by decide), rfl⟩
  obtain ⟨a, ha, -⟩ := C20_construct hl (by decide) (by decide)
  exact ⟨a, ha, C103_tuple exPicks_ok hl (by decide) (by decide) ha⟩
/-- the bin from 5 to 10 of category "b" is addressed by (5, "b"); the overflow bin of the categories is not -/
example : pickAll exPicks ((BinInterval.Bin (.lit 5) (.lit 10), SingleValueBinInterval.Bin "b", ()) : BinInterval (MInt .i32) × SingleValueBinInterval String × Unit) =
    some (((.lit 5 : MInt .i32), "b", ()) : MInt .i32 × String × Unit) := rfl
example : pickAll exPicks ((BinInterval.Bin (.lit 5) (.lit 10), .Overflow, ()) : BinInterval (MInt .i32) × SingleValueBinInterval String × Unit) = none := rfl

/-! Copies -/
def exSrc : VecHistogram (Uniform (MInt .i32)) (MInt .u8) := ⟨exUni, [.lit 9, .lit 1, .lit 2, .lit 3, .lit 0, .lit 0, .lit 255, .lit 0, .lit 0, .lit 0, .lit 4, .lit 7]⟩
theorem exSrc_ok : exSrc.Ok 12 := ⟨exUni_faithful.lawful, rfl⟩
example : exSrc.value (.lit 25 : MInt .i32) = .ok (some (.lit 255)) :=
  C103_value (h := exSrc) exUni_start (i := 6) (b := .Bin (.lit 25) (.lit 30)) (by decide) (by rfl) rfl
/-- everything is copied but the underflow bin, which has no start -/
example : ∃ items out, exSrc.iter = .ok items ∧ exUniNew.callAll (refill startOf items) = (out, none) ∧ out.valueAtIndex 6 = some (.lit 255) ∧ out.valueAtIndex 11 = some (.lit 7) ∧
    out.valueAtIndex 0 = some (.lit 0) := by
  obtain ⟨items, out, h1, h2, h3⟩ := C103_copy_int exSrc_ok exUni_start exUniNew_new
  exact ⟨items, out, h1, h2, h3 6 (.Bin (.lit 25) (.lit 30)) (by decide) (by rfl), h3 11 (.Overflow (.lit 50)) (by decide) (by rfl), h3 0 (.Underflow (.lit 0)) (by decide) (by rfl)⟩
/-- the copy may have values of another type, here `Sum<u8>` -/
example := C103_copy (V := Sum (MInt .u8)) (D := MInt .u8) exSrc_ok exUni_start (dst := ⟨exUni, List.replicate 12 ⟨.lit 0⟩⟩) rfl (fun v => by
  show (Upd.onField Sum.sum (fun _ x => ⟨x⟩) (FillWith.fillWith v) (⟨RDefault.dflt⟩ : Sum (MInt .u8))).2 = none
  simp only [Upd.onField]
  rw [MInt.fill_zero])
def exSrcF : VecHistogram (Uniform F64) F64 := ⟨exRough, [f64 1, f64 0.5, .nan, f64 2.5, .inf true, f64 0, Flt.zero true, f64 0, f64 0, f64 0, f64 0, f64 3]⟩
example : ∃ items out, exSrcF.iter = .ok items ∧ exRoughHist.callAll (refill centre items) = (out, none) ∧ out.valueAtIndex 3 = some (f64 2.5) ∧ out.valueAtIndex 6 = some (Flt.zero false) := by
  obtain ⟨items, out, h1, h2, h3⟩ := C103_copy_float (src := exSrcF) ⟨exRough_lawful, rfl⟩ exRough_centre (exRoughHist_new (V := F64))
  refine ⟨items, out, h1, h2, ?_, ?_⟩
  · rw [h3 3 _ (f64 2.5) (by decide) exRough_bin3 rfl]; decide +kernel
  · rw [h3 6 (.Bin (exRough.fedge 5) (exRough.fedge 6)) (Flt.zero true) (by decide) (show exRough.bin 6 = _ by decide +kernel) rfl]; decide +kernel
/-- overwriting an old histogram, of strings even -/
example : ∃ items out, VecHistogram.iter (⟨exUni, List.replicate 12 "new"⟩ : VecHistogram _ String) = .ok items ∧
    assignBins startOf items (⟨exUni, List.replicate 12 "old"⟩ : VecHistogram _ String) = some out ∧ out.valueAtIndex 3 = some "new" ∧ out.valueAtIndex 0 = some "old" := by
  obtain ⟨items, out, h1, h2, -, -, h3⟩ := C103_assign (src := (⟨exUni, List.replicate 12 "new"⟩ : VecHistogram _ String)) (dst := ⟨exUni, List.replicate 12 "old"⟩)
    ⟨exUni_faithful.lawful, rfl⟩ ⟨exUni_faithful.lawful, rfl⟩ rfl exUni_start
  exact ⟨items, out, h1, h2, h3 3 (.Bin (.lit 10) (.lit 15)) (by rfl) (by decide), h3 0 (.Underflow (.lit 0)) (by rfl) (by decide)⟩

def exSrcS : HashHistogram (Uniform (MInt .i32)) (MInt .u8) := ⟨exUni, ⟨[(6, .lit 255), (0, .lit 9), (2, .lit 2)]⟩⟩
theorem exSrcS_ok : exSrcS.Ok 12 := ⟨exUni_faithful.lawful, show List.Nodup [6, 0, 2] by decide, show ∀ i ∈ [6, 0, 2], i < 12 by decide⟩
example : exSrcS.value (.lit 25 : MInt .i32) = .ok (some (.lit 255)) :=
  C103_value_sparse (h := exSrcS) exUni_start (i := 6) (b := .Bin (.lit 25) (.lit 30)) (by decide) (by rfl) rfl
example (o : exSrcS.values.Order) : ∃ items out, exSrcS.iter o = .ok items ∧ (HashHistogram.new exUni : HashHistogram _ (MInt .u8)).callAll (refill startOf items) = (out, none) ∧
    out.valueAtIndex 6 = some (.lit 255) ∧ out.valueAtIndex 0 = none ∧ out.valueAtIndex 5 = none := by
  obtain ⟨items, out, h1, h2, -, -, h3, h4⟩ := C103_copy_sparse exSrcS_ok exUni_start o (fun v => by rw [MInt.fill_zero])
  refine ⟨items, out, h1, h2, ?_, h4 0 (.Underflow (.lit 0)) (.lit 9) (by rfl) (by rfl), h3 5 (by rfl)⟩
  have := h4 6 (.Bin (.lit 25) (.lit 30)) (.lit 255) (by rfl) (by rfl)
  rw [MInt.fill_zero] at this
  exact this
example (o : exSrcS.values.Order) : ∃ items out, exSrcS.iter o = .ok items ∧ exUniNew.callAll (refill startOf items) = (out, none) ∧
    out.valueAtIndex 0 = some (.lit 0) ∧ out.valueAtIndex 5 = some (.lit 0) := by
  obtain ⟨items, out, h1, h2, -, -, h3, h4⟩ := C103_copy_from_sparse exSrcS_ok exUni_start o exUniNew_new (fun v => by rw [MInt.fill_zero])
  exact ⟨items, out, h1, h2, h3 0 (.Underflow (.lit 0)) (.lit 9) (by rfl) (by rfl), h4 5 (by decide) (by rfl)⟩
end
end NdHist.Examples
