import Verif.Model.Basic
/-!
# The numeric traits used by the axes

`RNum` mirrors the bounds `PartialOrd + Num + NumCast + NumOps + Copy` of axis/uniform.rs:42,103,
axis/uniformcyclic.rs:57,97 and (without the casts) axis/variablecyclic.rs:64.
-/
namespace NdHist

/-- `PartialOrd` (its comparison operators are derived from `partial_cmp`). -/
class POrd (T : Type) where
  /-- `PartialOrd::partial_cmp` -/
  pcmp : T → T → Option Ordering

namespace POrd
variable {T : Type} [POrd T]
/-- `a < b` -/
def lt (a b : T) : Bool := pcmp a b == some .lt
/-- `a > b` -/
def gt (a b : T) : Bool := pcmp a b == some .gt
/-- `a <= b` -/
def le (a b : T) : Bool := pcmp a b == some .lt || pcmp a b == some .eq
/-- `a >= b` -/
def ge (a b : T) : Bool := pcmp a b == some .gt || pcmp a b == some .eq
/-- `a == b` (`PartialEq`; Rust requires it to agree with `partial_cmp`) -/
def eq (a b : T) : Bool := pcmp a b == some .eq
end POrd

/-- The arithmetic and conversion operations used by the crate on coordinates. -/
class RNum (T : Type) [Cfg] extends POrd T where
  /-- `T::zero()` -/
  zero : T
  /-- `T::one()` -/
  one : T
  add : T → T → Res T
  sub : T → T → Res T
  mul : T → T → Res T
  div : T → T → Res T
  rem : T → T → Res T
  /-- `<T as NumCast>::from(n : usize)` -/
  ofUsize : Nat → Option T
  /-- `ToPrimitive::to_usize` -/
  toUsize : T → Option Nat

/-! ## Machine integers -/

/-- A primitive integer type: width and signedness. -/
structure IntTy where
  signed : Bool
  bits : Nat
  bits_ge : 8 ≤ bits

namespace IntTy
/-- `T::MIN` -/
def min (τ : IntTy) : Int := if τ.signed then -(2 ^ (τ.bits - 1)) else 0
/-- `T::MAX` -/
def max (τ : IntTy) : Int := if τ.signed then 2 ^ (τ.bits - 1) - 1 else 2 ^ τ.bits - 1
@[reducible] def i8 : IntTy := ⟨true, 8, by decide⟩
@[reducible] def i32 : IntTy := ⟨true, 32, by decide⟩
@[reducible] def i64 : IntTy := ⟨true, 64, by decide⟩
@[reducible] def u8 : IntTy := ⟨false, 8, by decide⟩
@[reducible] def u32 : IntTy := ⟨false, 32, by decide⟩
@[reducible] def u64 : IntTy := ⟨false, 64, by decide⟩

theorem two_pow_bits (τ : IntTy) : (2 : Int) ^ τ.bits = 2 * 2 ^ (τ.bits - 1) := by
  have h := τ.bits_ge
  obtain ⟨k, hk⟩ : ∃ k, τ.bits = k + 1 := ⟨τ.bits - 1, by omega⟩
  rw [hk, Int.pow_succ, Nat.add_sub_cancel, Int.mul_comm]

theorem half_ge (τ : IntTy) : (128 : Int) ≤ 2 ^ (τ.bits - 1) := by
  have h := τ.bits_ge
  have h2 : (2 : Nat) ^ 7 ≤ 2 ^ (τ.bits - 1) := Nat.pow_le_pow_right (by decide) (by omega)
  have h3 : (((2 : Nat) ^ (τ.bits - 1) : Nat) : Int) = (2 : Int) ^ (τ.bits - 1) := by simp
  omega

theorem min_le_zero (τ : IntTy) : τ.min ≤ 0 := by
  have := τ.half_ge
  unfold min; split <;> omega

theorem max_ge (τ : IntTy) : 127 ≤ τ.max := by
  have := τ.half_ge; have := τ.two_pow_bits
  unfold max; split <;> omega

theorem size_eq (τ : IntTy) : τ.max - τ.min + 1 = 2 ^ τ.bits := by
  have := τ.half_ge; have := τ.two_pow_bits
  unfold max min; split <;> omega
end IntTy

/-- A value of the primitive integer type `τ`. -/
@[ext] structure MInt (τ : IntTy) where
  val : Int
  min_le : τ.min ≤ val
  le_max : val ≤ τ.max
deriving DecidableEq

namespace MInt
variable {τ : IntTy}

instance : Repr (MInt τ) := ⟨fun a _ => repr a.val⟩

/-- two's complement wrap-around of a mathematical integer -/
def wrapVal (τ : IntTy) (n : Int) : Int := (n - τ.min) % (2 ^ τ.bits) + τ.min

/-- value with the same low-order bits -/
def wrapping (n : Int) : MInt τ :=
  ⟨wrapVal τ n, by
    have := τ.size_eq; have := τ.min_le_zero; have := τ.max_ge
    have h := Int.emod_nonneg (n - τ.min) (b := 2 ^ τ.bits) (by omega)
    unfold wrapVal; omega, by
    have := τ.size_eq; have := τ.min_le_zero; have := τ.max_ge
    have h := Int.emod_lt_of_pos (n - τ.min) (b := 2 ^ τ.bits) (by omega)
    unfold wrapVal; omega⟩

/-- The result of `+ - *` whose mathematical result is `n`: exact if it fits, otherwise panic (checked
build) or wrap (unchecked build). -/
def arith [Cfg] (n : Int) : Res (MInt τ) :=
  if h : τ.min ≤ n ∧ n ≤ τ.max then .ok ⟨n, h.1, h.2⟩
  else if Cfg.checked then .error .overflow
  else .ok (wrapping n)

/-- The result of `/ %`: overflow (`MIN / -1`) panics in every profile. -/
def arithDiv (n : Int) : Res (MInt τ) :=
  if h : τ.min ≤ n ∧ n ≤ τ.max then .ok ⟨n, h.1, h.2⟩ else .error .overflow

/-- checked conversion from a mathematical integer -/
def ofInt? (n : Int) : Option (MInt τ) :=
  if h : τ.min ≤ n ∧ n ≤ τ.max then some ⟨n, h.1, h.2⟩ else none

/-- a literal -/
def lit (n : Int) (h : τ.min ≤ n ∧ n ≤ τ.max := by decide) : MInt τ := ⟨n, h.1, h.2⟩

/-- Primitive integers: operators of the Rust language, casts of the `num-traits` crate (not in the
repository; the cast succeeds exactly when the value is representable). `%` and `/` truncate toward zero;
`MIN % -1` panics like `MIN / -1`. -/
instance [Cfg] : RNum (MInt τ) where
  pcmp a b := some (compare a.val b.val)
  zero := ⟨0, τ.min_le_zero, by have := τ.max_ge; omega⟩
  one := ⟨1, by have := τ.min_le_zero; omega, by have := τ.max_ge; omega⟩
  add a b := arith (a.val + b.val)
  sub a b := arith (a.val - b.val)
  mul a b := arith (a.val * b.val)
  div a b := if b.val = 0 then .error .divZero else arithDiv (a.val.tdiv b.val)
  rem a b :=
    if b.val = 0 then .error .divZero
    else if a.val = τ.min ∧ b.val = -1 ∧ τ.signed then .error .overflow
    else arithDiv (a.val.tmod b.val)
  ofUsize n := ofInt? (n : Int)
  toUsize a := if 0 ≤ a.val ∧ a.val < usizeSize then some a.val.toNat else none

end MInt
end NdHist
