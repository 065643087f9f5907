import Verif.Model.Float
/-!
# Specification: reading a decimal number
-/
namespace NdHist

/-- the value of a decimal numeral: the digits before the point, and those after it as a fraction -/
def readDecimal (l : List Char) : ℚ :=
  let a := l.takeWhile (· ≠ '.')
  let b := (l.dropWhile (· ≠ '.')).drop 1
  (Nat.ofDigitChars 10 a 0 : ℚ) + (Nat.ofDigitChars 10 b 0 : ℚ) / 10 ^ b.length

theorem readDecimal_nonneg (l : List Char) : 0 ≤ readDecimal l := by unfold readDecimal; positivity

/-- `str::parse` for floats: the number nearest to the decimal, with its sign, or one of the special values (`str::parse` reads exponents and other spellings as well; they are not needed here) -/
def readFloat {F : FFmt} (s : String) : Flt F :=
  match s.toList with
  | ['N', 'a', 'N'] => .nan
  | ['i', 'n', 'f'] => .inf false
  | ['-', 'i', 'n', 'f'] => .inf true
  | '-' :: l => Flt.round true (readDecimal l) (readDecimal_nonneg l)
  | l => Flt.round false (readDecimal l) (readDecimal_nonneg l)

/-- the value of an integer in decimal -/
def readInt : List Char → ℤ
  | '-' :: l => -(Nat.ofDigitChars 10 l 0 : ℤ)
  | l => (Nat.ofDigitChars 10 l 0 : ℤ)

/-- the value of a number with an exponent: the decimal before the `e` or `E`, times the power of ten after it -/
def readSci (l : List Char) : ℚ :=
  readDecimal (l.takeWhile fun c => c ≠ 'e' ∧ c ≠ 'E') * (10 : ℚ) ^ readInt ((l.dropWhile fun c => c ≠ 'e' ∧ c ≠ 'E').drop 1)

theorem readSci_nonneg (l : List Char) : 0 ≤ readSci l := mul_nonneg (readDecimal_nonneg _) (by positivity)

/-- `str::parse` for floats with an exponent -/
def readFloatExp {F : FFmt} (s : String) : Flt F :=
  match s.toList with
  | ['N', 'a', 'N'] => .nan
  | ['i', 'n', 'f'] => .inf false
  | ['-', 'i', 'n', 'f'] => .inf true
  | '-' :: l => Flt.round true (readSci l) (readSci_nonneg l)
  | l => Flt.round false (readSci l) (readSci_nonneg l)
end NdHist
