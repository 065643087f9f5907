import Verif.Model.FloatConv
/-!
# Square roots of floats

`num_traits::Float::sqrt` is `f64::sqrt`/`f32::sqrt`, the IEEE-754 operation. That what is computed here is the correctly rounded root is proved in Lemmas/FloatSqrt.lean.
-/
namespace NdHist

/-- integer square root, one binary digit at a time: `r` is the root found so far, a multiple of `2^i` -/
def isqrtLoop (N : Nat) : Nat → Nat → Nat
  | 0, r => r
  | i + 1, r => isqrtLoop N i (if (r + 2 ^ i) * (r + 2 ^ i) ≤ N then r + 2 ^ i else r)

/-- integer square root -/
def isqrt (N : Nat) : Nat := isqrtLoop N (N.log2 / 2 + 1) 0

namespace FFmt
variable (F : FFmt)

/-- `x²/(unit²)`, an integer, where the unit is half of the smallest subnormal -/
def sqrtInt (x : ℚ) : Nat := (x / pow2 (2 * (F.qmin - 1))).num.toNat

/-- a rational on the same side of every rounding boundary as the root of `x` -/
def sqrtArg (x : ℚ) : ℚ :=
  let r := isqrt (F.sqrtInt x)
  ((r : ℚ) + if r * r = F.sqrtInt x then 0 else 1 / 2) * pow2 (F.qmin - 1)

theorem sqrtArg_nonneg (x : ℚ) : 0 ≤ F.sqrtArg x := by
  unfold sqrtArg
  apply mul_nonneg _ (pow2_pos _).le
  split <;> positivity

end FFmt

namespace Flt
variable {F : FFmt}

/-- IEEE square root: NaN for negative numbers, zeros keep their sign -/
def sqrt : Flt F → Flt F
  | .nan => .nan
  | .inf s => if s then .nan else .inf false
  | .fin s m h => if m = 0 then .fin s m h else if s then .nan else round false (F.sqrtArg m) (F.sqrtArg_nonneg m)

/-- `Float::sqrt` used by value/sum.rs:40-46, value/weightedsum.rs:46-52, value/mean.rs:92-97 and 105-110, value/weightedmean.rs:100-105 and 113-118 -/
instance : RSqrt (Flt F) := ⟨sqrt⟩

end Flt
end NdHist
