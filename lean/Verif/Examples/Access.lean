import Verif.Examples.Fill
/-!
# Concrete cases of the theorems in `Props/Access.lean`
-/
namespace NdHist.Examples
open NdHist
section
attribute [local instance] dbg64 numPEq

example : ∃ h, VecHistogram.fromVec exAxis [(MInt.lit 3 : MInt .u8), .lit 255] = .ok (.ok h) ∧ h.valueAtIndex 1 = some (MInt.lit 255) := by
  obtain ⟨h, h1, -, -, -, -, -, -, h8⟩ := (C37_from_vec exAxis_lawful [(MInt.lit 3 : MInt .u8), .lit 255]).1 rfl
  exact ⟨h, h1, h8 1⟩
example : VecHistogram.fromVec exAxis [(MInt.lit 3 : MInt .u8)] = .ok (.error (.AxisError .InvalidNumberOfBins)) :=
  (C37_from_vec exAxis_lawful [(MInt.lit 3 : MInt .u8)]).2 (by decide)
example : VecHistogram.fromVec exD.axes exD.intoVec = .ok (.ok exD) := C37_vec_round_trip exD_ok
example : ∃ h, HashHistogram.fromMap exAxis ⟨[(1, (MInt.lit 7 : MInt .u8))]⟩ = .ok (.ok h) ∧ h.valueAtIndex 1 = some (MInt.lit 7) := by
  obtain ⟨h, h1, -, -, -, -, h6⟩ := (C37_from_map exAxis_lawful ⟨[(1, (MInt.lit 7 : MInt .u8))]⟩ (by unfold HMap.NodupKeys; decide)).1
    (fun i v h => exS_ok.valid i ((HMap.get_isSome _ _).1 ⟨v, h⟩))
  exact ⟨h, h1, h6 1⟩
example : HashHistogram.fromMap exAxis ⟨[(2, (MInt.lit 7 : MInt .u8))]⟩ = .ok (.error (.AxisError .InvalidNumberOfBins)) :=
  (C37_from_map exAxis_lawful ⟨[(2, (MInt.lit 7 : MInt .u8))]⟩ (by unfold HMap.NodupKeys; decide)).2 ⟨2, _, rfl, by decide⟩
example : HashHistogram.fromMap exS.axes exS.intoMap = .ok (.ok exS) := C37_map_round_trip exS_ok

example : ∃ items, exD.iter = .ok items ∧ ∃ b, items[1]? = some ⟨1, b, MInt.lit 9⟩ := by
  obtain ⟨items, h1, -, h3, -⟩ := C38_iter exD_ok
  obtain ⟨b, v, h4, -, h6⟩ := h3 1 (by decide)
  cases h6
  exact ⟨items, h1, b, h4⟩
/-- a loop adding the bin number to each bin -/
example : (exD.iterMut fun i _ => addAssign (if i = 0 then MInt.lit 0 else MInt.lit 1)).1.valueAtIndex 1 = some (MInt.lit 10) :=
  ((C38_iter_mut exD_ok fun i _ => addAssign (if i = 0 then MInt.lit 0 else MInt.lit 1)).2.2.1 rfl 1 _ _ rfl rfl).2
/-- a loop that panics at bin 0 leaves bin 1 alone -/
example : ∃ k, (exD.iterMut fun _ _ => addAssign (MInt.lit 1)).1.valueAtIndex 1 = some (if 1 ≤ k then MInt.lit 10 else MInt.lit 9) := by
  obtain ⟨k, b, v, -, -, -, h⟩ := (C38_iter_mut exD_ok fun _ _ => addAssign (MInt.lit 1)).2.2.2 .overflow rfl
  exact ⟨k, h 1 _ _ rfl rfl⟩
example : (exD.valuesMut (addAssign (MInt.lit 0))).1.valueAtIndex 1 = some (MInt.lit 9) :=
  ((C38_values_mut exD_ok (addAssign (MInt.lit 0))).2.2.1 rfl 1 _ rfl).2
example : ∃ k, (exD.valuesMut (addAssign (MInt.lit 1))).1.valueAtIndex 1 = some (if 1 ≤ k then MInt.lit 10 else MInt.lit 9) := by
  obtain ⟨k, v, -, -, h⟩ := (C38_values_mut exD_ok (addAssign (MInt.lit 1))).2.2.2 .overflow rfl
  exact ⟨k, h 1 _ rfl⟩
example : ∃ h', exD.valueAtIndexMut 1 (addAssign (MInt.lit 1)) = some (h', none) ∧ h'.valueAtIndex 1 = some (MInt.lit 10) ∧
    h'.valueAtIndex 0 = some (MInt.lit 255) := by
  obtain ⟨h', h1, -, -, h4, h5⟩ := (C38_value_at_index_mut exD_ok 1 (addAssign (MInt.lit 1))).2 _ rfl
  exact ⟨h', h1, h4, h5 0 (by decide)⟩
example : exD.valueAtIndexMut 2 (addAssign (MInt.lit 1)) = none := (C38_value_at_index_mut exD_ok 2 _).1.2 (by decide)
example : exD.valueMut "b" (addAssign (MInt.lit 1)) = .ok (exD.valueAtIndexMut 1 (addAssign (MInt.lit 1))) := (C38_value_mut (h := exD) "b" _).1 1 rfl
example : exD.valueMut "zzz" (addAssign (MInt.lit 1)) = .ok none := (C38_value_mut (h := exD) "zzz" _).2.1 rfl
example : ∃ h', exS.valueAtIndexMut 1 (addAssign (MInt.lit 1)) = some (h', none) ∧ h'.valueAtIndex 1 = some (MInt.lit 8) ∧ h'.valueAtIndex 0 = none := by
  obtain ⟨h', h1, -, -, h4, h5⟩ := (C38_value_at_index_mut_sparse exS_ok 1 (addAssign (MInt.lit 1))).2 _ rfl
  exact ⟨h', h1, h4, h5 0 (by decide)⟩
example : exS.valueAtIndexMut 0 (addAssign (MInt.lit 1)) = none := (C38_value_at_index_mut_sparse exS_ok 0 _).1.2 rfl
example : (exS.iterMut ⟨_, List.Perm.refl _⟩ fun _ _ => addAssign (MInt.lit 1)).1.valueAtIndex 1 = some (MInt.lit 8) :=
  ((C38_iter_mut_sparse exS_ok ⟨_, List.Perm.refl _⟩ fun _ _ => addAssign (MInt.lit 1)).2.2.2 rfl).1 1 _ _ rfl rfl
example : (exS.valuesMut ⟨_, List.Perm.refl _⟩ (addAssign (MInt.lit 1))).1.valueAtIndex 1 = some (MInt.lit 8) :=
  (C38_values_mut_sparse exS_ok ⟨_, List.Perm.refl _⟩ (addAssign (MInt.lit 1))).2.2.2 rfl 1

/-- a sum that fits and one that does not -/
example : ∃ v', (exD.fillWith "b" (MInt.lit 100 : MInt .u8)).1.valueAtIndex 1 = some v' ∧ v'.val = 9 + 100 :=
  ((C43_int_fill exD_ok "b" (MInt.lit 100) (MInt.lit 9) rfl rfl).2.1 (by decide)).2
example : exD.fillWith "a" (MInt.lit 1 : MInt .u8) = (exD, some .overflow) :=
  ((C43_int_fill exD_ok "a" (MInt.lit 1) (MInt.lit 255) rfl rfl).2.2 (by decide)).1 rfl
example : ∃ one : MInt .u8, one.val = 1 ∧ exD.fill "a" = exD.fillWith "a" one := C43_int_unit_fill (h := exD) "a"

/-- histograms differing in bin 1 -/
example : ¬ exD.beq ⟨exAxis, [.lit 255, .lit 8]⟩ = true := fun h => by
  obtain ⟨v, w, h1, h2, h3⟩ := ((C45_dense exD_ok (h' := ⟨exAxis, [.lit 255, .lit 8]⟩) ⟨exAxis_lawful, rfl⟩).1 h).2 1 (by decide)
  cases h1; cases h2; exact absurd h3 (by decide)
example : exD.beq exD = true := (C45_dense exD_ok exD_ok).2 ⟨by decide, fun i hi => by
  rcases i with _ | _ | i
  · exact ⟨_, _, rfl, rfl, by decide⟩
  · exact ⟨_, _, rfl, rfl, by decide⟩
  · omega⟩
example : exD.beq ⟨exAxis, [.lit 255]⟩ = false := C45_dense_length (h := exD) (h' := ⟨exAxis, [.lit 255]⟩) (by decide)
/-- the same with a default value in bin 0 -/
def exS0 : HashHistogram (CategoryNoFlow String) (MInt .u8) := ⟨exAxis, ⟨[(1, .lit 7), (0, .lit 0)]⟩⟩
theorem exS0_ok : exS0.Ok 2 := ⟨exAxis_lawful, by unfold HMap.NodupKeys; decide, by decide⟩
/-- a bin with the default value is not a missing bin -/
example : ¬ exS.beq exS0 = true := fun h => ((C45_sparse exS_ok exS0_ok).1 h).2 0
end

section
attribute [local instance] rel64
/-- without overflow checks: 255 + 3 is stored as 2 (modulo 256) -/
example : ∃ v', (exD.fillWith "a" (MInt.lit 3 : MInt .u8)).1.valueAtIndex 0 = some v' ∧ (2 ^ 8 : Int) ∣ v'.val - (255 + 3) :=
  (((C43_int_fill (h := exD) (n := 2) ⟨C25_lawful_category_noflow ["a", "b"] (by decide), rfl⟩ "a" (MInt.lit 3) (MInt.lit 255) rfl rfl).2.2 (by decide)).2 rfl).2
end
end NdHist.Examples
