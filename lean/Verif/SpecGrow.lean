import Verif.SpecArith
/-!
# Specification vocabulary: expressions whose result grows with their histograms
-/
namespace NdHist
namespace HExpr

/-- only the operators `ops` occur, and numbers with the property `P` -/
def Only {V : Type} (ops : Op → Prop) (P : V → Prop) : HExpr V → Prop
  | var _ => True
  | op o l r => ops o ∧ l.Only ops P ∧ r.Only ops P
  | scalar o e x => ops o ∧ P x ∧ e.Only ops P
end HExpr

/-- `+` and `*` -/
def Op.AddMul (o : Op) : Prop := o = .add ∨ o = .mul
/-- only `+` -/
def Op.Add (o : Op) : Prop := o = .add
end NdHist
