import Verif.Model.Display
/-!
# How std prints floats (`impl Display for f32, f64`; core::fmt::float, not part of the repository)

`{:.k}` prints the decimal with `k` digits after the point that is nearest to the number (ties to the even one), `{}` the shortest decimal that rounds to the number. Neither uses an exponent.
Both print `NaN`, `inf` and `-inf`, and a minus sign for negative zero. The algorithms in std (Grisu and Dragon) are not modelled, only what they compute. (Before Rust 1.67 `{:.0}` printed `0.5` as `1`.)
-/
namespace NdHist

/-- `10^e` as a rational -/
def pow10 : Int → ℚ
  | .ofNat n => ((10 ^ n : Nat) : ℚ)
  | .negSucc n => mkRat 1 (10 ^ (n + 1))

/-- the digits of `m`, with zeros in front to make `k` -/
def paddedDigits (k m : Nat) : List Char := List.replicate (k - (Nat.toDigits 10 m).length) '0' ++ Nat.toDigits 10 m

/-- the decimal numeral of `n / 10^k` with `k` digits after the point (no point if `k = 0`) -/
def decimalChars (n k : Nat) : List Char :=
  Nat.toDigits 10 (n / 10 ^ k) ++ (if k = 0 then [] else '.' :: paddedDigits k (n % 10 ^ k))

namespace FFmt
variable (F : FFmt)

/-- the multiple of `10^e` next to `x` that rounds to `x`, if one does; the nearer one if both neighbours do, of two equally near ones the larger (as in core::num::flt2dec::strategy::dragon::format_shortest) -/
def digitsAt (x : ℚ) (e : Int) : Option Nat :=
  let y := x / pow10 e
  let f := ⌊y⌋.toNat
  let down := decide (F.rnd (f * pow10 e) = x)
  let up := decide (F.rnd ((f + 1 : Nat) * pow10 e) = x)
  if down && (!up || decide (y - f < 1 / 2)) then some f else if up then some (f + 1) else none

/-- look for the largest exponent: at most `n` steps down from `e`, then take the digits at the last exponent as they are -/
def digitsFrom (x : ℚ) : Nat → Int → Nat × Int
  | 0, e => (⌊x / pow10 e⌋.toNat, e)
  | n + 1, e => match F.digitsAt x e with
    | some d => (d, e)
    | none => digitsFrom x n (e - 1)

/-- decimals that are enough for every number of the format -/
def maxDecimals : Nat := (-F.qmin).toNat

/-- digits and exponent of the shortest decimal that rounds to the positive number `x` of the format -/
def shortestDigits (x : ℚ) : Nat × Int :=
  let top := (Nat.toDigits 10 ⌈2 * x⌉.toNat).length
  F.digitsFrom x (top + F.maxDecimals) top

/-- `{}` of a magnitude -/
def shortestChars (x : ℚ) : List Char :=
  if x = 0 then decimalChars 0 0
  else
    let (d, e) := F.shortestDigits x
    if 0 ≤ e then decimalChars (d * 10 ^ e.toNat) 0 else decimalChars d (-e).toNat
end FFmt

/-- `{}` and `{:.k}` of a float -/
def Flt.chars {F : FFmt} (p : Option Nat) : Flt F → List Char
  | .nan => ['N', 'a', 'N']
  | .inf s => (if s then ['-'] else []) ++ ['i', 'n', 'f']
  | .fin s m _ => (if s then ['-'] else []) ++ match p with
    | none => F.shortestChars m
    | some k => decimalChars (rne (m * 10 ^ k)).toNat k

/-- `Display for f32, f64` -/
@[reducible] def Flt.text {F : FFmt} : Disp (Flt F) := ⟨fun p x => String.ofList (x.chars p)⟩
end NdHist
