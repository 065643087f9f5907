import Verif.Props.Stats
import Verif.Examples.Rebin
import Verif.Examples.Near
import Verif.Examples.Rest
/-!
# Concrete cases of the theorems in `Props/Stats.lean`

`exUni` has ten bins of width 5 from 0 to 50, and flow bins.
-/
namespace NdHist.Examples
open NdHist
section
attribute [local instance] dbg64 stdNew

theorem exUni_ascending : AscendingAxis exUni 12 (BinInterval.Covers (T := MInt .i32)) (fun _ => True) BinInterval.stop (fun c e => @POrd.lt (MInt .i32) _ c e = true) :=
  C89_uniform_int (num := 10) (low := .lit 0) (step := .lit 5) rfl (fun h => absurd h (by decide)) (by decide) (by decide)
example : AscendingAxis (UniformNoFlow.mk exUni) 10 (BinInterval.Covers (T := MInt .i32)) (fun _ => True) BinInterval.stop (fun c e => @POrd.lt (MInt .i32) _ c e = true) :=
  C89_uniform_noflow (u := exUni) exUni_ascending
example : AscendingAxis (AxesTuple1.mk exUni [12]) 12 (BinInterval.Covers (T := MInt .i32)) (fun _ => True) BinInterval.stop (fun c e => @POrd.lt (MInt .i32) _ c e = true) :=
  C89_tuple1 exUni_ascending rfl
example : AscendingAxis exFineV 6 (BinInterval.Covers (T := MInt .i32)) (fun c : MInt .i32 => POrd.eq c c = true) BinInterval.stop (fun c e => @POrd.lt (MInt .i32) _ c e = true) :=
  C89_variable exFineV_new (by decide) (by decide)
example : AscendingAxis (VariableNoFlow.mk exFineV) 4 (BinInterval.Covers (T := MInt .i32)) (fun _ => True) BinInterval.stop (fun c e => @POrd.lt (MInt .i32) _ c e = true) :=
  C89_variable_noflow (edges := exFine) (by decide +kernel) (by decide) (by decide)
example : AscendingAxis exGridTen 12 BinInterval.Covers (GridCoord 0 (f64 0) (f64 100)) BinInterval.stop (fun c e : F64 => POrd.lt c e = true) :=
  C89_uniform_float exTen_fits (by decide +kernel) (by decide +kernel) (by decide +kernel) (by decide +kernel) (by decide) exGridTen_new
theorem exRough_monotone : MonotoneAxis exRough 12 (fun _ => True) (fun c d : F64 => POrd.le c d = true) :=
  C89_monotone_float exRough_new (by decide +kernel) (by decide +kernel) (by decide) (by decide) (fun _ _ => by decide +kernel)
example : MonotoneAxis exStep 12 (fun _ => True) (fun c d : F64 => POrd.le c d = true) := C89_monotone_float_step exStep_new (by decide +kernel) (by decide +kernel) (by decide) (by decide)
example : MonotoneAxis (UniformNoFlow.mk exRough) 10 (fun _ => True) (fun c d : F64 => POrd.le c d = true) := C89_monotone_noflow (u := exRough) exRough_monotone

theorem exUni_bin5 : exUni.bin 5 = .ok (some (.Bin (.lit 20) (.lit 25))) := by decide +kernel
/-- below 25, the end of bin 5, there are three of the five coordinates 7, 60, 5, 24, 25 -/
example := C89_count_below exUni_ascending (h := exUniNew) exUniNew_new exRebinCoords (fun _ _ => trivial) (by decide) (i := 5) (e := .lit 25)
  (by decide) exUni_bin5 rfl
example : cumulative MInt.val (exUniNew.callAllCaught (exRebinCoords.map .fill)).valueAtIndex 6 = 3 := by decide +kernel
example := C89_cumulative (V := MInt .u8) exUni_ascending (h := exUniNew) exUniNew_new (exRebinCoords.map .fill) (by intro _ _; trivial) MInt.val (fun _ => (1 : ℤ))
  (additive_count exRebinCoords (by decide)) (i := 5) (e := .lit 25) (by decide) exUni_bin5 rfl
example := C89_cumulative_sparse (V := MInt .u8) exUni_ascending (exRebinCoords.map .fill) (by intro _ _; trivial) MInt.val (fun _ => (1 : ℤ))
  (additive_count exRebinCoords (by decide)) (i := 5) (e := .lit 25) (by decide) exUni_bin5 rfl

/-- in ascending order -/
def exSorted : List (MInt .i32) := [.lit 5, .lit 7, .lit 24, .lit 25, .lit 60]
open Classical in
theorem exSorted_perm : exSorted.Perm (exRebinCoords.filter fun c => ∃ j, Axis.index exUni c = .ok (some j)) := by
  rw [List.filter_eq_self.2]
  · decide
  · intro c hc
    simp only [decide_eq_true_eq]
    simp only [exRebinCoords, List.mem_cons, List.not_mem_nil, or_false] at hc
    rcases hc with rfl | rfl | rfl | rfl | rfl
    exacts [⟨2, by decide +kernel⟩, ⟨11, by decide +kernel⟩, ⟨2, by decide +kernel⟩, ⟨5, by decide +kernel⟩, ⟨6, by decide +kernel⟩]
def exLe (c d : MInt .i32) : Prop := @POrd.le (MInt .i32) _ c d = true
instance (c d : MInt .i32) : Decidable (exLe c d) := inferInstanceAs (Decidable (_ = true))
theorem exUni_monotone : MonotoneAxis exUni 12 (fun _ => True) exLe :=
  C89_monotone exUni_ascending fun _ _ _ h1 h2 => lt_of_le_of_lt' (T := MInt .i32) h1 h2
/-- the median is 24: the running totals before and after bin 5 are 2 and 3 -/
example : ∃ i, exUni.index (.lit 24) = .ok (some i) ∧ ∀ i', (cumulative MInt.val (exUniNew.callAllCaught (exRebinCoords.map .fill)).valueAtIndex i' ≤ (2 : ℕ) ∧
      ((2 : ℕ) : ℤ) < cumulative MInt.val (exUniNew.callAllCaught (exRebinCoords.map .fill)).valueAtIndex (i' + 1)) ↔ i' = i :=
  C89_quantile exUni_monotone exUniNew_new exRebinCoords exSorted (fun _ _ => trivial) (by decide) exSorted_perm (by decide) (k := 2) rfl
example : cumulative MInt.val (exUniNew.callAllCaught (exRebinCoords.map .fill)).valueAtIndex 5 = 2 ∧ exUni.index (.lit 24) = .ok (some 5) := by decide +kernel
example : ∃ i, exUni.index (.lit 24) = .ok (some i) ∧
    ∀ i', (cumulative MInt.val ((HashHistogram.new exUni : HashHistogram _ (MInt .u8)).callAllCaught (exRebinCoords.map .fill)).valueAtIndex i' ≤ (2 : ℕ) ∧
      ((2 : ℕ) : ℤ) < cumulative MInt.val ((HashHistogram.new exUni : HashHistogram _ (MInt .u8)).callAllCaught (exRebinCoords.map .fill)).valueAtIndex (i' + 1)) ↔ i' = i :=
  C89_quantile_sparse exUni_monotone exRebinCoords exSorted (fun _ _ => trivial) (by decide) exSorted_perm (by decide) (k := 2) rfl
example : ∃ i b, i < 12 ∧ Axis.bin exUni i = .ok (some b) ∧ BinInterval.Covers (T := MInt .i32) b (.lit 24) ∧
    ∀ i', (cumulative MInt.val (exUniNew.callAllCaught (exRebinCoords.map .fill)).valueAtIndex i' ≤ (2 : ℕ) ∧
      ((2 : ℕ) : ℤ) < cumulative MInt.val (exUniNew.callAllCaught (exRebinCoords.map .fill)).valueAtIndex (i' + 1)) ↔ i' = i :=
  C89_quantile_bin (le := exLe) exUni_ascending (fun _ _ _ h1 h2 => lt_of_le_of_lt' (T := MInt .i32) h1 h2) exUniNew_new exRebinCoords exSorted (fun _ _ => trivial) (by decide) exSorted_perm
    (by decide) (k := 2) rfl

/-- a float axis with rounding: of 0.15, 0.65, 0.05 the smallest -/
def exRoughNew : VecHistogram (Uniform F64) (MInt .u8) := ⟨exRough, List.replicate 12 (.lit 0)⟩
example : ∃ i b, i < 12 ∧ Axis.bin exRough i = .ok (some b) ∧ BinInterval.Near exDoubt b (f64 0.05) ∧
    ∀ i', (cumulative MInt.val (exRoughNew.callAllCaught ([f64 0.15, f64 0.65, f64 0.05].map .fill)).valueAtIndex i' ≤ (0 : ℕ) ∧
      ((0 : ℕ) : ℤ) < cumulative MInt.val (exRoughNew.callAllCaught ([f64 0.15, f64 0.65, f64 0.05].map .fill)).valueAtIndex (i' + 1)) ↔ i' = i := by
  refine C89_quantile_near (dom := notNan) (le := fun c d : F64 => POrd.le c d = true) exRough_rough ⟨exRough_monotone.lawful, fun c d i j _ _ => exRough_monotone.mono c d i j trivial trivial⟩ (h := exRoughNew)
    (by decide +kernel) [f64 0.15, f64 0.65, f64 0.05] [f64 0.05, f64 0.15, f64 0.65] (by decide +kernel) (by decide) ?_ (by decide +kernel) (k := 0) rfl
  rw [List.filter_eq_self.2]
  · exact List.perm_append_comm (l₁ := [f64 0.05]) (l₂ := [f64 0.15, f64 0.65])
  · intro c hc
    simp only [decide_eq_true_eq]
    simp only [List.mem_cons, List.not_mem_nil, or_false] at hc
    rcases hc with rfl | rfl | rfl
    exacts [⟨3, by decide +kernel⟩, ⟨10, by decide +kernel⟩, ⟨1, by decide +kernel⟩]

/-- the bins that are not flow bins, and their edges -/
def exInner : BinInterval (MInt .i32) → Prop | .Bin s e => e.val - s.val ≤ 5 | _ => False
def exLo : BinInterval (MInt .i32) → ℚ | .Bin s _ => s.val | _ => 0
def exHi : BinInterval (MInt .i32) → ℚ | .Bin _ e => e.val | _ => 0
theorem exEdges : ∀ (b : BinInterval (MInt .i32)) (c : MInt .i32), exInner b → True → BinInterval.Covers (T := MInt .i32) b c → exLo b ≤ c.val ∧ (c.val : ℚ) ≤ exHi b := by
  intro b c hb _ hc
  cases b with
  | Bin s e =>
    obtain ⟨h1, h2⟩ : @POrd.le (MInt .i32) _ s c = true ∧ @POrd.lt (MInt .i32) _ c e = true := hc
    rw [MInt.le_iff, decide_eq_true_eq] at h1
    rw [MInt.lt_iff, decide_eq_true_eq] at h2
    exact ⟨by simpa [exLo] using h1, by simpa [exHi] using h2.le⟩
  | _ => cases hb
/-- the four coordinates 7, 5, 24, 25 within the bounds have the sum 61; bins 2, 5 and 6 hold 2, 1 and 1 entries, so it is estimated between 65 - 20 and 65 -/
example := C89_sum exUni_ascending.faithful exUniNew_new exRebinCoords (fun _ _ => trivial) (by decide) exInner (fun c : MInt .i32 => (c.val : ℚ)) exLo exHi exEdges
example := C89_mean exUni_ascending.faithful exUniNew_new exRebinCoords (fun _ _ => trivial) (by decide) exInner (fun c : MInt .i32 => (c.val : ℚ)) exLo exHi exEdges 5 (by
  intro b hb
  cases b with
  | Bin s e =>
    have : e.val - s.val ≤ 5 := hb
    show (e.val : ℚ) - s.val ≤ 5
    exact_mod_cast this
  | _ => cases hb)
end
end NdHist.Examples
