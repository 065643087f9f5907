/-!
# Panics, build profile and `usize` arithmetic

Everything in the Rust crate that may panic is modelled as a function into `Res`.
-/
namespace NdHist

/-- Why a Rust function panicked. -/
inductive Panic where
  /-- arithmetic overflow (`attempt to add with overflow`, ...) -/
  | overflow
  /-- integer division or remainder by zero -/
  | divZero
  /-- slice index out of bounds -/
  | indexOutOfBounds
  /-- `Option::expect` on `None` -/
  | expectNone
  /-- explicit `panic!` for incompatible axes
      (histogram/vechistogram.rs:307, histogram/hashhistogram.rs:381) -/
  | incompatibleAxes
  /-- `str::repeat` capacity overflow (used by `Display`) -/
  | capacityOverflow
  /-- std's sort may panic when the comparator is not a total order (Rust >= 1.81) -/
  | sortOrder
  /-- `unreachable!()` (histogram/hashhistogram.rs:278) -/
  | unreachableCode
deriving DecidableEq, Repr

/-- Result of running Rust code: a value, or a panic. -/
abbrev Res (α : Type) := Except Panic α

instance {α : Type} [DecidableEq α] : DecidableEq (Res α) := fun a b =>
  match a, b with
  | .ok x, .ok y => if h : x = y then isTrue (by rw [h]) else isFalse (by simpa using h)
  | .error x, .error y => if h : x = y then isTrue (by rw [h]) else isFalse (by simpa using h)
  | .ok _, .error _ => isFalse (by simp)
  | .error _, .ok _ => isFalse (by simp)

/-- Same for functions that themselves return a Rust `Result`. -/
instance {ε α : Type} [DecidableEq ε] [DecidableEq α] : DecidableEq (Except ε α) := fun a b =>
  match a, b with
  | .ok x, .ok y => if h : x = y then isTrue (by rw [h]) else isFalse (by simpa using h)
  | .error x, .error y => if h : x = y then isTrue (by rw [h]) else isFalse (by simpa using h)
  | .ok _, .error _ => isFalse (by simp)
  | .error _, .ok _ => isFalse (by simp)

/-- Build profile and platform. `checked = true` is a build with overflow checks (debug),
`checked = false` one without (release). `usize` has `usizeBits` bits; Rust guarantees at least 16. -/
class Cfg where
  usizeBits : Nat
  checked : Bool
  bits_ge : 16 ≤ usizeBits

/-- debug build on a 64-bit platform -/
@[reducible] def dbg64 : Cfg := ⟨64, true, by decide⟩
/-- release build on a 64-bit platform -/
@[reducible] def rel64 : Cfg := ⟨64, false, by decide⟩

/-- One more than `usize::MAX`. -/
def usizeSize [Cfg] : Nat := 2 ^ Cfg.usizeBits

/-- The result of a `usize` operation whose mathematical result is `n`
(Rust reference, "Overflow"): exact when it fits, otherwise a panic or wrap-around. -/
def uwrap [Cfg] (n : Nat) : Res Nat :=
  if n < usizeSize then .ok n
  else if Cfg.checked then .error .overflow
  else .ok (n % usizeSize)

/-- `a + b` on `usize` -/
def uadd [Cfg] (a b : Nat) : Res Nat := uwrap (a + b)
/-- `a * b` on `usize` -/
def umul [Cfg] (a b : Nat) : Res Nat := uwrap (a * b)
/-- `a - b` on `usize` (operands are `< usizeSize`) -/
def usub [Cfg] (a b : Nat) : Res Nat :=
  if b ≤ a then .ok (a - b)
  else if Cfg.checked then .error .overflow
  else .ok ((a + usizeSize - b) % usizeSize)
/-- `a % b` on `usize` -/
def urem (a b : Nat) : Res Nat := if b = 0 then .error .divZero else .ok (a % b)
/-- `a / b` on `usize` -/
def udiv (a b : Nat) : Res Nat := if b = 0 then .error .divZero else .ok (a / b)

/-- `Option::expect` -/
def expect {α : Type} : Option α → Res α
  | some a => .ok a
  | none => .error .expectNone

/-- slice indexing `v[i]` -/
def indexSlice {α : Type} (l : List α) (i : Nat) : Res α :=
  match l[i]? with
  | some a => .ok a
  | none => .error .indexOutOfBounds

/-- `AxisError` (error.rs:27-43) -/
inductive AxisError where
  | InvalidNumberOfBins
  | InvalidAxisRange
  | InvalidStepSize
  | InvalidNumberOfBinEdges
  | FailedToSortBinEdges
deriving DecidableEq, Repr

/-- `BinaryOperationError` (error.rs:22) -/
inductive BinaryOperationError where
  | mk
deriving DecidableEq, Repr

/-- `Error` (error.rs:8-15) -/
inductive Error where
  | BinaryOperationError (e : BinaryOperationError)
  | AxisError (e : AxisError)
deriving DecidableEq, Repr

end NdHist
