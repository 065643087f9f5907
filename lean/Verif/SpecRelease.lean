import Verif.Model.Num
/-!
# Specification vocabulary: arithmetic without overflow checks

Used in the statements of C69 and nowhere in the model of the code.
-/
namespace NdHist

/-- `m` is the value of the integer type with the same residue as the mathematical integer `n`: it differs from `n` by a
multiple of the number of values of the type. (`C69_residue` shows that every integer has exactly one.) -/
def IntTy.Residue (τ : IntTy) (n : Int) (m : MInt τ) : Prop := ∃ t : Int, m.val = n + t * 2 ^ τ.bits

end NdHist
