import Verif.Props.HalfFill
import Verif.Examples.Fill
/-!
# Concrete cases of C64
-/
namespace NdHist.Examples
open NdHist
section
attribute [local instance] dbg64

theorem Stops.cast {σ : Type} {l : List (σ → Res σ)} {s : σ} {r r' : σ × Option Panic} (h : Stops l s r) (e : r = r') : Stops l s r' := e ▸ h

/-- a `WeightedSum<u8>` filled with weight 16: the sum of weights fits, the square does not -/
def hwS : WeightedSum (MInt .u8) := ⟨.lit 100, .lit 200⟩
/-- `get` includes the weight of the fill that panicked, `variance` does not. -/
example : FillWith.fillWith (MInt.lit 16 : MInt .u8) hwS = (⟨.lit 116, .lit 200⟩, some .overflow) := by decide +kernel
example : (FillWith.fillWith (MInt.lit 16 : MInt .u8) hwS).1.variance = hwS.variance :=
  (C64_unchanged (O := Unit) (C := MInt .u8) (p := .overflow) (MInt.lit 16 : MInt .u8) (MInt.lit 16 : MInt .u8)).2.2.2.2.1 hwS (by decide +kernel)
example : (Fill.fill (MInt.lit 255 : MInt .u8)).1 = MInt.lit 255 := by
  have h := (C64_number (MInt.lit 255 : MInt .u8) (MInt.lit 255)).1
  cases hf : (Fill.fill (MInt.lit 255 : MInt .u8)).2 with
  | none => exact absurd hf (by decide +kernel)
  | some p => exact Stops.keeps (fs := []) (φ := id) h hf (by simp)
example : (Fill.fill (⟨MInt.lit 255⟩ : Sum (MInt .u8))).1 = ⟨MInt.lit 255⟩ :=
  Stops.keeps (fs := []) (φ := id) (p := .overflow) (C64_sum (⟨MInt.lit 255⟩ : Sum (MInt .u8)) (MInt.lit 255)).1 (by decide +kernel) (by simp)
/-- the two assignments of `WeightedSum::fill_with(16)`: the first succeeds, the second panics -/
example : ∃ steps, Stops steps hwS (⟨.lit 116, .lit 200⟩, some .overflow) ∧ steps.length = 2 :=
  ⟨_, Stops.cast (C64_weighted_sum hwS (MInt.lit 16)).2 (by decide +kernel), rfl⟩
/-- a `Mean<u8, f64, u8>` whose sum of squares overflows -/
def hwM : Mean (MInt .u8) F64 (MInt .u8) := ⟨.lit 3, .lit 250, .lit 1⟩
example : FillWith.fillWith (MInt.lit 3 : MInt .u8) hwM = (⟨.lit 6, .lit 250, .lit 1⟩, some .overflow) := by decide +kernel
example : ∃ steps, Stops steps hwM (⟨.lit 6, .lit 250, .lit 1⟩, some .overflow) ∧ steps.length = 3 :=
  ⟨_, Stops.cast (C64_mean hwM (MInt.lit 3 : MInt .u8)) (by decide +kernel), rfl⟩
/-- 4 is lost, 2 and 1 are counted -/
example : (caught ([.lit 2, .lit 4, .lit 1].map fun d : MInt .u8 => FillWith.fillWith d) hwM).1.numSamples.val = 1 + 2 := by
  rw [C64_mean_samples rfl [.lit 2, .lit 4, .lit 1] hwM]; decide +kernel
def hwW : WeightedMean (MInt .u8) (MInt .u8) F64 (MInt .u8) := ⟨.lit 3, .lit 250, .lit 1, .lit 1, .lit 1⟩
example : ∃ steps, Stops steps hwW (⟨.lit 6, .lit 250, .lit 1, .lit 1, .lit 1⟩, some .overflow) ∧ steps.length = 5 :=
  ⟨_, Stops.cast (C64_weighted_mean hwW (MInt.lit 3) (MInt.lit 1)) (by decide +kernel), rfl⟩
example : (caught ([(.lit 2, .lit 1), (.lit 4, .lit 5), (.lit 1, .lit 1)].map fun d : MInt .u8 × MInt .u8 => FillWithWeighted.fillWithWeighted d.1 d.2) hwW).1.numSamples.val
    = 1 + 2 := by
  rw [C64_weighted_mean_samples rfl [(.lit 2, .lit 1), (.lit 4, .lit 5), (.lit 1, .lit 1)] hwW]; decide +kernel
/-- 200 is lost -/
example : (caught ([.lit 50, .lit 200, .lit 3].map fun d : MInt .u8 => FillWith.fillWith d) (MInt.lit 100 : MInt .u8)).1.val = 100 + (50 + 3) :=
  (C64_int_total rfl [.lit 50, .lit 200, .lit 3] (MInt.lit 100)).trans (by decide +kernel)
example : (caught ([.lit 50, .lit 200, .lit 3].map fun d : MInt .u8 => FillWith.fillWith d) (⟨MInt.lit 100⟩ : Sum (MInt .u8))).1.get.val = 100 + (50 + 3) :=
  (C64_sum_total rfl [.lit 50, .lit 200, .lit 3] ⟨MInt.lit 100⟩).trans (by decide +kernel)
/-- bin 1 of a dense histogram holds 9; 100 and 6 are added, 250 panics, "a" is another bin, "zzz" is no bin -/
def hwCs : List (String × MInt .u8) := [("b", .lit 100), ("a", .lit 1), ("b", .lit 250), ("zzz", .lit 7), ("b", .lit 6)]
example : ∃ v', (exD.caught (hwCs.map fun c => .fillWith c.1 c.2)).1.valueAtIndex 1 = some v' ∧ v'.val = 9 + (100 + 6) := by
  obtain ⟨-, -, v', h1, h2⟩ := C64_dense_total rfl exD_ok hwCs (i := 1) (v := .lit 9) rfl
  exact ⟨v', h1, h2.trans (by decide +kernel)⟩
example : heldBy (exS.caught (hwCs.map fun c => .fillWith c.1 c.2)).1 1 = 7 + (100 + 6) :=
  (C64_sparse_total rfl exS_ok hwCs 1).2.2.trans (by decide +kernel)
end
end NdHist.Examples
