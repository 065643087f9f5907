import Verif.Lemmas.Float
import Verif.Model.Display
/-!
# Specification vocabulary: the bars of a printed histogram
-/
namespace NdHist

/-- The value `m` to which a full bar of 50 marks belongs when the values `vs` are shown: the largest of the values after the last NaN (of equal ones, such as the zeros, the last);
NaN if the last value is NaN; infinity if there are none. -/
def IsScale [Cfg] (vs : List F64) (m : F64) : Prop :=
  (vs = [] ∧ m = .inf false) ∨ (∃ pre, vs = pre ++ [.nan] ∧ m = .nan) ∨
  ∃ pre before after, vs = pre ++ (before ++ m :: after) ∧ (pre = [] ∨ ∃ pre', pre = pre' ++ [.nan]) ∧ m ≠ .nan ∧
    (∀ x ∈ before, POrd.le x m = true) ∧ ∀ x ∈ after, POrd.lt x m = true

/-- the sign bit -/
def Flt.isNeg {F : FFmt} : Flt F → Bool
  | .nan => false
  | .inf s => s
  | .fin s _ _ => s

/-- plus or minus zero -/
def Flt.isZero {F : FFmt} (x : Flt F) : Prop := x.isFin ∧ x.val = 0

/-- no marks at all: NaN, zero, infinite scale, or the value has not the sign of the scale -/
def NoBar (v m : F64) : Prop := v = .nan ∨ m = .nan ∨ v.isZero ∨ (∃ s, m = .inf s) ∨ v.isNeg ≠ m.isNeg

/-- an infinitely long bar: an infinite value, or the scale is a zero -/
def EndlessBar (v m : F64) : Prop := (∃ s, v = .inf s) ∨ m.isZero

/-- the length of the bar in all other cases, rounded twice -/
def barLength (v m : F64) : ℚ := FFmt.f64.rs (50 * FFmt.f64.rs (v.val / m.val))

/-- right-aligned in `w` columns: blanks before the text, if it is shorter than that -/
def alignRight (w : Nat) (s : String) : String := String.ofList (List.replicate (w - s.length) ' ') ++ s

/-- a row: the bin, right-aligned in 16 columns, and `k` marks -/
def rowText {B : Type} [Disp B] (prec : Nat) (b : B) (k : Nat) : String :=
  "\n" ++ alignRight 16 (Disp.fmt (some prec) b) ++ " | " ++ String.ofList (List.replicate k '#')

/-- `r` is the row for bin `b` with value `v`, or the panic of `"#".repeat` if the bar does not fit into memory. -/
def RowIs [Cfg] {B : Type} [Disp B] (prec : Nat) (m : F64) (b : B) (v : F64) (r : Res String) : Prop :=
  (NoBar v m ∧ r = .ok (rowText prec b 0)) ∨
  (¬ NoBar v m ∧ EndlessBar v m ∧ r = .error .capacityOverflow) ∨
  (¬ NoBar v m ∧ ¬ EndlessBar v m ∧ (usizeSize / 2 : Nat) ≤ barLength v m ∧ r = .error .capacityOverflow) ∨
  (¬ NoBar v m ∧ ¬ EndlessBar v m ∧ barLength v m < (usizeSize / 2 : Nat) ∧ r = .ok (rowText prec b ⌊barLength v m⌋.toNat))

/-- the bar for `v` is too long to be printed -/
def TooLong [Cfg] (v m : F64) : Prop := ¬ NoBar v m ∧ (EndlessBar v m ∨ (usizeSize / 2 : Nat) ≤ barLength v m)

/-! ## Axes with numbers for coordinates -/

/-- one of the six kinds -/
inductive NumericAxis (T : Type) where
  | uniform (a : Uniform T)
  | uniformNoFlow (a : UniformNoFlow T)
  | uniformCyclic (a : UniformCyclic T)
  | variable (a : Variable T)
  | variableNoFlow (a : VariableNoFlow T)
  | variableCyclic (a : VariableCyclic T)

namespace NumericAxis
variable {T : Type}
/-- what `{}` prints -/
def text [Cfg] [Disp T] [RNum T] : NumericAxis T → Res String
  | uniform a => .ok a.display
  | uniformNoFlow a => a.display
  | uniformCyclic a => a.display
  | .variable a => a.display
  | variableNoFlow a => a.display
  | variableCyclic a => a.display
/-- the edges of a variable axis -/
def edges : NumericAxis T → List T
  | .variable a => a.binEdges
  | variableNoFlow a => a.axis.binEdges
  | variableCyclic a => a.axis.axis.binEdges
  | _ => []
/-- the number of bins without flow bins -/
def bins : NumericAxis T → Nat
  | uniform a => a.num
  | uniformNoFlow a => a.axis.num
  | uniformCyclic a => a.axis.axis.num
  | a => a.edges.length - 1
/-- the lower end -/
def low : NumericAxis T → Option T
  | uniform a => some a.low
  | uniformNoFlow a => some a.axis.low
  | uniformCyclic a => some a.axis.axis.low
  | a => a.edges.head?
/-- the upper end -/
def high : NumericAxis T → Option T
  | uniform a => some a.high
  | uniformNoFlow a => some a.axis.high
  | uniformCyclic a => some a.axis.axis.high
  | a => a.edges.getLast?
/-- the name of the type -/
def cls : NumericAxis T → String
  | uniform _ => "Uniform"
  | uniformNoFlow _ => "UniformNoFlow"
  | uniformCyclic _ => "UniformCyclic"
  | .variable _ => "Variable"
  | variableNoFlow _ => "VariableNoFlow"
  | variableCyclic _ => "VariableCyclic"
/-- the number of bins with flow bins fits `usize` -/
def Fits [Cfg] (a : NumericAxis T) : Prop := a.bins + 2 < usizeSize
end NumericAxis
end NdHist
