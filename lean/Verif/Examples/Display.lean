import Verif.Props.DisplayExact
import Verif.Examples.Rest
/-!
# Concrete cases of C68
-/
namespace NdHist.Examples
open NdHist
section
attribute [local instance] dbg64
local instance : Disp F64 := ⟨fun _ _ => "x"⟩
local instance : Disp String := ⟨fun _ s => s⟩
local instance : Disp (@Axis.Interval (CategoryNoFlow String) dbg64 _) := inferInstanceAs (Disp (SingleValueBinInterval String))

/-- a NaN hides what comes before it: the scale of 5, NaN, 1 is 1 -/
theorem exScale : IsScale [f64 5, .nan, f64 1] (f64 1) := .inr (.inr ⟨[f64 5, .nan], [], [], rfl, .inr ⟨[f64 5], rfl⟩, by decide +kernel, by simp, by simp⟩)
example : VecHistogram.displayScale [("a", f64 5), ("b", .nan), ("c", f64 1)] = f64 1 := (C68_scale _ _).2 exScale
theorem ex51 : ¬ NoBar (f64 5) (f64 1) := by
  rintro (h | h | h | ⟨s, h⟩ | h)
  · exact absurd h (by decide +kernel)
  · exact absurd h (by decide +kernel)
  · exact absurd h.2 (by decide +kernel)
  · cases s <;> exact absurd h (by decide +kernel)
  · exact absurd h (by decide +kernel)
theorem ex51' : ¬ EndlessBar (f64 5) (f64 1) := by
  rintro (⟨s, h⟩ | h)
  · cases s <;> exact absurd h (by decide +kernel)
  · exact absurd h.2 (by decide +kernel)
/-- so the first bar has 250 marks -/
example : RowIs 2 (f64 1) "a" (f64 5) (VecHistogram.displayRow 2 (f64 1) ("a", f64 5)) := C68_row (by decide) 2 (f64 1) "a" (f64 5)
theorem ex250 : barLength (f64 5) (f64 1) = 250 := by decide +kernel
example : VecHistogram.displayRow 2 (f64 1) ("a", f64 5) = .ok (rowText 2 "a" 250) := by
  rcases C68_row (by decide) 2 (f64 1) "a" (f64 5) with ⟨h, -⟩ | ⟨-, h, -⟩ | ⟨-, -, h, -⟩ | ⟨-, -, -, h⟩
  · exact absurd h ex51
  · exact absurd h ex51'
  · rw [ex250] at h; exact absurd h (by decide +kernel)
  · rw [ex250] at h; rw [h]; congr 1
example : 0 < (f64 5).val / (f64 1).val := (C68_length ex51 ex51').1
/-- zeros of both signs: the scale is the last of them -/
example : IsScale [f64 (-1), Flt.zero false, Flt.zero true] (Flt.zero true) :=
  .inr (.inr ⟨[], [f64 (-1), Flt.zero false], [], rfl, .inl rfl, by decide +kernel, by decide +kernel, by simp⟩)
/-- and then the bar of -1 is endless, so that printing panics -/
example : VecHistogram.display id (fun _ => true) none (⟨exAxis, [f64 (-1), Flt.zero true]⟩ : VecHistogram (CategoryNoFlow String) F64) = .error .capacityOverflow :=
  (C68_display (by decide) (n := 2) ⟨exAxis_lawful, rfl⟩ id none (m := Flt.zero true)
    (.inr (.inr ⟨[], [f64 (-1)], [], rfl, .inl rfl, by decide +kernel, by decide +kernel, by simp⟩))).2
    ⟨f64 (-1), by decide +kernel, by
      rintro (h | h | h | ⟨s, h⟩ | h)
      · exact absurd h (by decide +kernel)
      · exact absurd h (by decide +kernel)
      · exact absurd h.2 (by decide +kernel)
      · cases s <;> exact absurd h (by decide +kernel)
      · exact absurd h (by decide +kernel), .inl (.inr ⟨by decide +kernel, by decide +kernel⟩)⟩
/-- a histogram of whole numbers, all negative -/
def exWhole : VecHistogram (CategoryNoFlow String) (MInt .i32) := ⟨exAxis, [.lit (-3), .lit (-1)]⟩
def i32f (x : MInt .i32) : F64 := f64 (x.val : ℚ)
example : ∃ rows, exWhole.display i32f (fun _ => true) none = .ok ("VecHistogram1D(2 bins, sum=x)" :: rows, true) ∧ rows.length = 2 :=
  C68_whole_numbers rfl (h := exWhole) (n := 2) ⟨exAxis_lawful, rfl⟩ i32f none (fun x => x.val) (fun _ _ => rfl) (by decide)
def exWholeS : HashHistogram (CategoryNoFlow String) (MInt .i32) := ⟨exAxis, ⟨[(1, .lit (-3)), (0, .lit 5)]⟩⟩
example (o : exWholeS.values.Order) : HashHistogram.display i32f exWholeS.axes (exWholeS.valuesIter o) = .ok "HashHistogram1D(2 bins, sum=x)" :=
  C68_sparse_whole_numbers (h := exWholeS) (n := 2) ⟨exAxis_lawful, by unfold HMap.NodupKeys; decide, by decide⟩ i32f o (fun x => x.val) (fun _ _ => rfl) (by decide)
end
end NdHist.Examples
