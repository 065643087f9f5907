import Verif.SpecRebin
import Verif.Lemmas.Float
/-!
# Specification vocabulary: coordinates in another type, with another origin or in other units
-/
namespace NdHist

/-- `f` keeps the order of the coordinates in `dom`. -/
def PreservesOrder {T T' : Type} [POrd T] [POrd T'] (f : T → T') (dom : T → Prop) : Prop := ∀ x y, dom x → dom y → POrd.pcmp (f x) (f y) = POrd.pcmp x y

/-- the rational number an integer or a finite float stands for -/
def MInt.Is {τ : IntTy} (c : MInt τ) (x : ℚ) : Prop := (c.val : ℚ) = x
def Flt.Is {F : FFmt} (c : Flt F) (x : ℚ) : Prop := c.isFin ∧ c.val = x

/-- the numbers in bin `i` of an axis with underflow, `num` bins of width `step` from `low`, and overflow -/
def evenBins (num : Nat) (low step : ℚ) (i : Nat) : Set ℚ :=
  if i = 0 then {x | x < low} else if i = num + 1 then {x | low + num * step ≤ x} else {x | low + (i - 1 : ℕ) * step ≤ x ∧ x < low + i * step}
/-- the same without the flow bins -/
def evenBinsNoFlow (low step : ℚ) (i : Nat) : Set ℚ := {x | low + i * step ≤ x ∧ x < low + (i + 1) * step}
/-- the same, repeating after `num` bins -/
def evenBinsTurns (num : Nat) (low step : ℚ) (i : Nat) : Set ℚ := {x | ∃ t : ℤ, low + i * step ≤ x + t * (num * step) ∧ x + t * (num * step) < low + (i + 1) * step}

/-- The axis has `n` bins, counts every coordinate (of `dom`) in the bin whose interval contains it, and the interval of bin `i` contains the numbers `S i`. -/
structure BinsAre [Cfg] {A : Type} [Axis A] (a : A) (n : Nat) (covers : Axis.Interval A → Axis.Coordinate A → Prop) (dom : Axis.Coordinate A → Prop) (is : Axis.Coordinate A → ℚ → Prop)
    (S : Nat → Set ℚ) : Prop where
  faithful : FaithfulAxis a n covers dom
  contains : ∀ i b, i < n → Axis.bin a i = .ok (some b) → ∀ c x, dom c → is c x → (covers b c ↔ x ∈ S i)
end NdHist
