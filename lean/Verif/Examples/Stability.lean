import Verif.Props.Stability
import Verif.Examples.Stats
/-! # Examples: C108 -/
namespace NdHist.Examples
section
attribute [local instance] dbg64

/-- 7, 60, 5, 24, 25 with 24 replaced by 31, and 60 left out -/
def exChanged : List (MInt .i32) := [.lit 5, .lit 31, .lit 7, .lit 25]
theorem exDiffer : Differ exRebinCoords exChanged [.lit 7, .lit 5, .lit 25] [.lit 60, .lit 24] [.lit 31] := ⟨by decide, by decide⟩
-- the contents differ by 3 in all, and by no more than 3
example : ∑ i ∈ Finset.range 12, |content MInt.val (exUniNew.callAllCaught (exRebinCoords.map .fill)).valueAtIndex i - content MInt.val (exUniNew.callAllCaught (exChanged.map .fill)).valueAtIndex i| = 3 := by
  decide +kernel
example : ∑ i ∈ Finset.range 12, |content MInt.val (exUniNew.callAllCaught (exRebinCoords.map .fill)).valueAtIndex i - content MInt.val (exUniNew.callAllCaught (exChanged.map .fill)).valueAtIndex i| ≤ 3 :=
  (C108_counts exUni_monotone.lawful exUniNew_new exDiffer (by decide) (by decide)).1 _
-- bin 2, which holds 7 and 5, is the same
example : content MInt.val (exUniNew.callAllCaught (exRebinCoords.map .fill)).valueAtIndex 2 = content MInt.val (exUniNew.callAllCaught (exChanged.map .fill)).valueAtIndex 2 :=
  (C108_counts exUni_monotone.lawful exUniNew_new exDiffer (by decide) (by decide)).2.2 2 (by
    intro x hx
    simp only [List.cons_append, List.nil_append, List.mem_cons, List.not_mem_nil, or_false] at hx
    rcases hx with rfl | rfl | rfl <;> decide +kernel)
theorem exDifferCalls : Differ (exRebinCoords.map (Call.fill (V := MInt .u8))) (exChanged.map .fill) ([.lit 7, .lit 5, .lit 25].map .fill) ([.lit 60, .lit 24].map .fill) ([.lit 31].map .fill) :=
  ⟨by rw [← List.map_append]; exact exDiffer.left.map _, by rw [← List.map_append]; exact exDiffer.right.map _⟩
theorem exAdditive (l : List (Call (MInt .u8) (MInt .i32))) (hl : l.Sublist (exRebinCoords.map .fill) ∨ l.Sublist (exChanged.map .fill)) :
    MInt.val (filledWith l RDefault.dflt) = (l.map fun _ => (1 : ℤ)).sum := by
  rcases hl with hl | hl
  · exact additive_count exRebinCoords (by decide) l hl
  · exact additive_count exChanged (by decide) l hl
example := (C108_dense exUni_monotone.lawful exUniNew_new exDifferCalls MInt.val (fun _ => (1 : ℤ)) exAdditive).1 {2, 5}
example := (C108_sparse (a := exUni) exDifferCalls MInt.val (fun _ => (1 : ℤ)) exAdditive).1 {2, 5}

/-- every coordinate moved up (or left): 7 → 12, 60 → 60, 5 → 9, 24 → 26, 25 → 70 -/
def exUp : List (MInt .i32) := [.lit 12, .lit 60, .lit 9, .lit 26, .lit 70]
theorem exUp_all : List.Forall₂ (fun x y => True ∧ True ∧ exLe x y ∧ (∃ i, Axis.index exUni x = .ok (some i)) ∧ (∃ j, Axis.index exUni y = .ok (some j))) exRebinCoords exUp := by
  refine .cons ?_ (.cons ?_ (.cons ?_ (.cons ?_ (.cons ?_ .nil))))
  · exact ⟨trivial, trivial, by decide, ⟨2, by decide +kernel⟩, ⟨3, by decide +kernel⟩⟩
  · exact ⟨trivial, trivial, by decide, ⟨11, by decide +kernel⟩, ⟨11, by decide +kernel⟩⟩
  · exact ⟨trivial, trivial, by decide, ⟨2, by decide +kernel⟩, ⟨2, by decide +kernel⟩⟩
  · exact ⟨trivial, trivial, by decide, ⟨5, by decide +kernel⟩, ⟨6, by decide +kernel⟩⟩
  · exact ⟨trivial, trivial, by decide, ⟨6, by decide +kernel⟩, ⟨11, by decide +kernel⟩⟩
example (m : Nat) : cumulative MInt.val (exUniNew.callAllCaught (exUp.map .fill)).valueAtIndex m ≤ cumulative MInt.val (exUniNew.callAllCaught (exRebinCoords.map .fill)).valueAtIndex m :=
  (C108_moved_up_counts exUni_monotone exUniNew_new (by decide) exUp_all).1 m
-- below 25: two instead of three; the median moves from bin 5 to bin 6
example : cumulative MInt.val (exUniNew.callAllCaught (exUp.map .fill)).valueAtIndex 6 = 2 ∧ cumulative MInt.val (exUniNew.callAllCaught (exUp.map .fill)).valueAtIndex 7 = 3 := by decide +kernel
example : 5 ≤ 6 := (C108_moved_up_counts exUni_monotone exUniNew_new (by decide) exUp_all).2 2 5 6 (by decide +kernel) (by decide +kernel)
theorem exUpAdditive (l : List (Call (MInt .u8) (MInt .i32))) (hl : l.Sublist (exRebinCoords.map .fill) ∨ l.Sublist (exUp.map .fill)) :
    MInt.val (filledWith l RDefault.dflt) = (l.map fun _ => (1 : ℤ)).sum := by
  rcases hl with hl | hl
  · exact additive_count exRebinCoords (by decide) l hl
  · exact additive_count exUp (by decide) l hl
theorem exUpCalls : List.Forall₂ (fun x y : Call (MInt .u8) (MInt .i32) => True ∧ True ∧ exLe x.coord y.coord ∧ (∃ i, Axis.index exUni x.coord = .ok (some i)) ∧ (∃ j, Axis.index exUni y.coord = .ok (some j)) ∧ (1 : ℤ) = 1 ∧ (0 : ℤ) ≤ 1)
    (exRebinCoords.map .fill) (exUp.map .fill) :=
  List.forall₂_map_left_iff.2 (List.forall₂_map_right_iff.2 (exUp_all.imp fun _ _ h => ⟨h.1, h.2.1, h.2.2.1, h.2.2.2.1, h.2.2.2.2, rfl, zero_le_one⟩))
example := C108_moved_up exUni_monotone exUniNew_new MInt.val (fun _ => (1 : ℤ)) exUpAdditive exUpCalls 6
example := C108_moved_up_sparse exUni_monotone MInt.val (fun _ => (1 : ℤ)) exUpAdditive exUpCalls 6
end
end NdHist.Examples
