import Verif.Props.LabelsInt
import Verif.Examples.Variable
/-!
# Concrete cases of the theorems in `Props/LabelsInt.lean`
-/
namespace NdHist.Examples
open NdHist
section
attribute [local instance] MInt.decimal

example : Disp.fmt none (BinInterval.Bin (.lit (-1)) (.lit 30) : BinInterval (MInt .i32)) = "[-1, 30)" := by decide +kernel
example : Disp.fmt (some 2) (BinInterval.Underflow (.lit 7) : BinInterval (MInt .i32)) = "(-inf, 7)" := by decide +kernel
example : Disp.fmt none (BinInterval.Bin (.lit 1) (.lit 3) : BinInterval (MInt .i32)) ≠ Disp.fmt none (.Overflow (.lit 1) : BinInterval (MInt .i32)) := by
  rw [Ne, C70_bin_interval_int]
  simp
/-- so the labels of an integer axis are unique: no assumption on the text is left -/
example {τ : IntTy} (p : Option Nat) := C70_bin_interval (C70_decimal (τ := τ) p).1
end
end NdHist.Examples
