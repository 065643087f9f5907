import Verif.Props.AccessSparse
import Verif.Examples.Access
/-!
# Concrete cases of the theorems in `Props/AccessSparse.lean`
-/
namespace NdHist.Examples
open NdHist
section
attribute [local instance] dbg64
/-- a stored bin, a missing bin, and an overflow -/
example : ∃ v', (exS.fillWith "b" (MInt.lit 100 : MInt .u8)).1.valueAtIndex 1 = some v' ∧ v'.val = 7 + 100 :=
  ((C43_int_fill_sparse exS_ok "b" (MInt.lit 100) (i := 1) rfl).2.2.1 (by decide)).2
example : ∃ v', (exS.fillWith "a" (MInt.lit 100 : MInt .u8)).1.valueAtIndex 0 = some v' ∧ v'.val = 0 + 100 :=
  ((C43_int_fill_sparse exS_ok "a" (MInt.lit 100) (i := 0) rfl).2.2.1 (by decide)).2
example : (exS.fillWith "b" (MInt.lit 250 : MInt .u8)).2 = some .overflow :=
  (((C43_int_fill_sparse exS_ok "b" (MInt.lit 250) (i := 1) rfl).2.2.2 (by decide)).1 rfl).1
end
end NdHist.Examples
