import Verif.Model.Hist
import Verif.Lemmas.Float
/-!
# Specification vocabulary: expressions with histograms
-/
namespace NdHist

/-- An expression of a client's program with histograms as variables (by number): `&a op &b` and `&a op &x` for a value `x`. -/
inductive HExpr (V : Type) where
  | var (j : Nat)
  | op (o : Op) (l r : HExpr V)
  | scalar (o : Op) (e : HExpr V) (x : V)

namespace HExpr

/-- without division -/
def NoDiv {V : Type} : HExpr V → Prop
  | var _ => True
  | op o l r => o ≠ .div ∧ l.NoDiv ∧ r.NoDiv
  | scalar o e _ => o ≠ .div ∧ e.NoDiv

/-- the numbers of the variables that occur -/
def Uses {V : Type} (j : Nat) : HExpr V → Prop
  | var k => k = j
  | op _ l r => l.Uses j ∨ r.Uses j
  | scalar _ e _ => e.Uses j

/-- The program that computes the expression, dense. -/
def eval {A V : Type} [Cfg] [Axis A] [PEq A] [ROps V] (hs : Nat → VecHistogram A V) : HExpr V → Res (Except BinaryOperationError (VecHistogram A V))
  | var j => .ok (.ok (hs j))
  | op o l r => do
    match (← l.eval hs), (← r.eval hs) with
    | .ok a, .ok b => a.opBorrow o b
    | .error e, _ => .ok (.error e)
    | _, .error e => .ok (.error e)
  | scalar o e x => do
    match (← e.eval hs) with
    | .ok a => do return .ok (← a.opScalar o x)
    | .error e => .ok (.error e)

/-- The program that computes the expression, sparse, if it neither panics nor returns an error, with any order of the hash maps. -/
inductive EvalSparse {A V : Type} [Cfg] [Axis A] [PEq A] [ROps V] [RDefault V] (hs : Nat → HashHistogram A V) : HExpr V → HashHistogram A V → Prop
  | var (j : Nat) : EvalSparse hs (.var j) (hs j)
  | op {o : Op} {l r : HExpr V} {a b m : HashHistogram A V} (ko : HashHistogram.KeyOrder a b) : EvalSparse hs l a → EvalSparse hs r b →
      a.opBorrow o b ko = .ok (.ok m) → EvalSparse hs (.op o l r) m

/-- The expression with single values for the histograms, as the operators of the value type compute it. -/
def value {V : Type} [ROps V] (x : Nat → V) : HExpr V → Res V
  | var j => .ok (x j)
  | op o l r => do ROps.op o (← l.value x) (← r.value x)
  | scalar o e c => do ROps.op o (← e.value x) c

/-- `+`, `-`, `*` of a ring; division is given separately -/
def ringOp {R : Type} [Add R] [Sub R] [Mul R] (d : R → R → R) : Op → R → R → R
  | .add => (· + ·)
  | .sub => (· - ·)
  | .mul => (· * ·)
  | .div => d

/-- The expression as school arithmetic in the integers (with division rounding towards 0). -/
def inInt {τ : IntTy} (x : Nat → ℤ) : HExpr (MInt τ) → ℤ
  | var j => x j
  | op o l r => ringOp Int.tdiv o (l.inInt x) (r.inInt x)
  | scalar o e c => ringOp Int.tdiv o (e.inInt x) c.val

/-- The result of every operation in the expression is a value of the type, and there is no division by 0. -/
def Fits {τ : IntTy} (x : Nat → ℤ) : HExpr (MInt τ) → Prop
  | var _ => True
  | op o l r => l.Fits x ∧ r.Fits x ∧ (o = .div → r.inInt x ≠ 0) ∧ τ.min ≤ (op o l r).inInt x ∧ (op o l r).inInt x ≤ τ.max
  | scalar o e c => e.Fits x ∧ (o = .div → c.val ≠ 0) ∧ τ.min ≤ (scalar o e c).inInt x ∧ (scalar o e c).inInt x ≤ τ.max

/-- The expression as school arithmetic in the rational numbers. -/
def inRat {F : FFmt} (x : Nat → ℚ) : HExpr (Flt F) → ℚ
  | var j => x j
  | op o l r => ringOp (· / ·) o (l.inRat x) (r.inRat x)
  | scalar o e c => ringOp (· / ·) o (e.inRat x) c.val

/-- The result of every operation in the expression is a float, and there is no division by 0. -/
def Exact {F : FFmt} (x : Nat → ℚ) : HExpr (Flt F) → Prop
  | var _ => True
  | op o l r => l.Exact x ∧ r.Exact x ∧ (o = .div → r.inRat x ≠ 0) ∧ ∃ z : Flt F, z.isFin ∧ z.val = (op o l r).inRat x
  | scalar o e c => e.Exact x ∧ c.isFin ∧ (o = .div → c.val ≠ 0) ∧ ∃ z : Flt F, z.isFin ∧ z.val = (scalar o e c).inRat x

end HExpr
end NdHist
