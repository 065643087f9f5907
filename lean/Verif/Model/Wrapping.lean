import Verif.Model.Num
/-!
# `std::num::Wrapping` as a bin value or coordinate

Tests/test_fill_overflow.rs fills a histogram of `Wrapping<u32>`: the blanket `Fill`/`FillWith` implementations (histogram/fill.rs:17-54) and the operators of the histograms
apply to it as to the primitive numbers, with the operators of std and the casts of num-traits below.
-/
namespace NdHist

/-- `Wrapping<T>` for a primitive integer type `T` -/
structure WInt (τ : IntTy) where
  inner : MInt τ
deriving DecidableEq

namespace WInt
variable {τ : IntTy}

/-- the mathematical integer -/
def val (a : WInt τ) : Int := a.inner.val

/-- `+ - *` wrap around in every build; `wrapping_div` and `wrapping_rem` panic for a zero divisor only. Comparison, `zero`, `one` and the casts are those of the inner
integer. -/
instance [cfg : Cfg] : RNum (WInt τ) where
  pcmp a b := some (compare a.val b.val)
  zero := ⟨@RNum.zero (MInt τ) cfg _⟩
  one := ⟨@RNum.one (MInt τ) cfg _⟩
  add a b := .ok ⟨MInt.wrapping (a.val + b.val)⟩
  sub a b := .ok ⟨MInt.wrapping (a.val - b.val)⟩
  mul a b := .ok ⟨MInt.wrapping (a.val * b.val)⟩
  div a b := if b.val = 0 then .error .divZero else .ok ⟨MInt.wrapping (a.val.tdiv b.val)⟩
  rem a b := if b.val = 0 then .error .divZero else .ok ⟨MInt.wrapping (a.val.tmod b.val)⟩
  ofUsize n := (MInt.ofInt? (n : Int)).map .mk
  toUsize a := @RNum.toUsize (MInt τ) cfg _ a.inner

end WInt
end NdHist
