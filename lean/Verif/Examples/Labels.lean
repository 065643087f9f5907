import Verif.Props.Labels
import Verif.Examples.Variable
/-!
# Concrete cases of the theorems in `Props/Labels.lean`
-/
namespace NdHist.Examples
open NdHist
section
attribute [local instance] dbg64 stdNew

/-- numbers in unary, with a sign -/
local instance exUnary {τ : IntTy} : Disp (MInt τ) :=
  ⟨fun _ x => String.ofList ((if x.val < 0 then '-' else '+') :: List.replicate x.val.natAbs '1')⟩

theorem exUnary_plain {τ : IntTy} (p : Option Nat) : PlainText (MInt τ) p where
  inj a b h := by
    have h := congrArg String.toList h
    simp only [Disp.fmt, String.toList_ofList] at h
    obtain ⟨h1, h2⟩ := List.cons_eq_cons.mp h
    have h2 := congrArg List.length h2
    simp only [List.length_replicate] at h2
    apply MInt.ext
    by_cases ha : a.val < 0 <;> by_cases hb : b.val < 0 <;> simp [ha, hb] at h1 <;> omega
  noComma a := by
    simp only [Disp.fmt, String.toList_ofList, List.mem_cons, List.mem_replicate, not_or]
    refine ⟨by split <;> decide, by simp⟩

local instance dispStringEx : Disp String := ⟨fun _ s => s⟩

example : Disp.fmt none (BinInterval.Bin (.lit 1) (.lit 3) : BinInterval (MInt .i32)) ≠ Disp.fmt none (.Overflow (.lit 1) : BinInterval (MInt .i32)) := by
  rw [Ne, C70_bin_interval (exUnary_plain none)]
  rintro (h | ⟨s, e, h, -⟩)
  · simp at h
  · have := congrArg String.toList h
    simp only [Disp.fmt, String.toList_ofList] at this
    obtain ⟨h1, -⟩ := List.cons_eq_cons.mp this
    revert h1; split <;> decide
example : Disp.fmt (some 3) (SingleValueBinInterval.Bin "a") ≠ Disp.fmt (some 3) (SingleValueBinInterval.Bin "b") := by
  rw [Ne, C70_single_value (fun _ _ h => h)]
  simp
example : Disp.fmt none (.Underflow (.lit 1) : BinInterval (MInt .i32)) ≠ Disp.fmt none (.Bin (.lit 3) (.lit 5) : BinInterval (MInt .i32)) := by
  rw [Ne, C70_variable (exUnary_plain none) exV_new (by decide) exE_distinct (i := 0) (j := 2) (by rfl) (by rfl)]
  decide
example : Disp.fmt none (.Overflow (.lit 25) : BinInterval (MInt .i32)) ≠ Disp.fmt none (.Bin (.lit 20) (.lit 25) : BinInterval (MInt .i32)) := by
  rw [Ne, C70_uniform_int (exUnary_plain none) (num := 3) (low := .lit 10) (step := .lit 5) (a := ⟨3, .lit 10, .lit 25, .lit 5⟩)
    (by decide) (by decide) (fun _ => by decide) (by decide) (i := 4) (j := 3) (by decide) (by decide)]
  decide
example : Disp.fmt none (SingleValueBinInterval.Bin "a") ≠ Disp.fmt none (SingleValueBinInterval.Overflow : SingleValueBinInterval String) := by
  rw [Ne, C70_category (fun _ _ h => h) (values := ["a", "b"]) (by decide) (by decide) (by decide) (i := 0) (j := 2) (by decide) (by decide)]
  decide
example : (Error.ofAxisError .InvalidStepSize).text ≠ (Error.ofAxisError .InvalidAxisRange).text := by
  rw [Ne, C70_errors.2.2.1]
  decide
end
end NdHist.Examples
