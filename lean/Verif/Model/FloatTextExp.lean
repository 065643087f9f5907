import Verif.Model.FloatText
import Mathlib.Data.Int.Log
/-!
# How std prints numbers with an exponent (`impl LowerExp, UpperExp`; core::fmt, not part of the repository)

`BinInterval` implements `LowerExp` and `UpperExp` by the same macro as `Display` (axis/bininterval/bininterval.rs:127-161), so its model is the instance of `Disp` for intervals with one of these for the ends.
`{:e}` prints one digit, the point and the other digits (no point if there are none), `e` and the exponent; `{:E}` prints `E` instead. Without a precision the digits are those of the shortest decimal that
rounds to the float, and those of an integer without its trailing zeros; `{:.ke}` prints `k + 1` digits, the nearest decimal, ties to the even one.
-/
namespace NdHist

/-- `e` or `E` -/
def expMark (upper : Bool) : Char := if upper then 'E' else 'e'

/-- an integer in decimal -/
def intChars (z : Int) : List Char := (if z < 0 then ['-'] else []) ++ Nat.toDigits 10 z.natAbs

/-- `n * 10^e`, one digit before the point and `k` after it: `n` has `k + 1` digits -/
def sciChars (upper : Bool) (n k : Nat) (e : Int) : List Char := decimalChars n k ++ expMark upper :: intChars (e + k)

/-- the digits of `n * 10^e`, as many as there are -/
def sciAll (upper : Bool) (n : Nat) (e : Int) : List Char := sciChars upper n ((Nat.toDigits 10 n).length - 1) e

/-- the `k + 1` leading digits of a positive number, rounded to nearest, ties to even, and their exponent; if they are rounded up to `10^(k+1)` the exponent is adjusted -/
def leadingDigits (k : Nat) (x : ℚ) : Nat × Int :=
  let e := Int.log 10 x - k
  let n := (rne (x / pow10 e)).toNat
  if n = 10 ^ (k + 1) then (10 ^ k, e + 1) else (n, e)

/-- `{:.ke}` of a magnitude -/
def sciPrec (upper : Bool) (k : Nat) (x : ℚ) : List Char :=
  if x = 0 then sciChars upper 0 k (-k) else sciChars upper (leadingDigits k x).1 k (leadingDigits k x).2

/-- `{:e}`, `{:E}`, `{:.ke}` and `{:.kE}` of a float -/
def Flt.expChars {F : FFmt} (upper : Bool) (p : Option Nat) : Flt F → List Char
  | .nan => ['N', 'a', 'N']
  | .inf s => (if s then ['-'] else []) ++ ['i', 'n', 'f']
  | .fin s m _ => (if s then ['-'] else []) ++ match p with
    | none => if m = 0 then sciAll upper 0 0 else sciAll upper (F.shortestDigits m).1 (F.shortestDigits m).2
    | some k => sciPrec upper k m

/-- `LowerExp` and `UpperExp` for f32, f64 -/
@[reducible] def Flt.expText {F : FFmt} (upper : Bool) : Disp (Flt F) := ⟨fun p x => String.ofList (x.expChars upper p)⟩

/-- an integer without its trailing zeros, and their number: at most `fuel` are looked for -/
def stripZeros : Nat → Nat → Nat × Nat
  | 0, n => (n, 0)
  | fuel + 1, n => if 10 ≤ n ∧ n % 10 = 0 then ((stripZeros fuel (n / 10)).1, (stripZeros fuel (n / 10)).2 + 1) else (n, 0)

/-- `{:e}`, `{:E}`, `{:.ke}` and `{:.kE}` of an integer -/
def MInt.expChars {τ : IntTy} (upper : Bool) (p : Option Nat) (x : MInt τ) : List Char :=
  (if x.val < 0 then ['-'] else []) ++ match p with
    | none => sciAll upper (stripZeros x.val.natAbs x.val.natAbs).1 (stripZeros x.val.natAbs x.val.natAbs).2
    | some k => sciPrec upper k x.val.natAbs

/-- `LowerExp` and `UpperExp` for integers -/
@[reducible] def MInt.expText {τ : IntTy} (upper : Bool) : Disp (MInt τ) := ⟨fun p x => String.ofList (x.expChars upper p)⟩
end NdHist
