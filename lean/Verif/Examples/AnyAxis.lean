import Verif.Props.AnyAxis
/-!
# Concrete cases of the theorems in `Props/AnyAxis.lean`

The user's axis `WildAxis`, with indices beyond its two bins, and one whose methods panic.
-/
namespace NdHist.Examples
open NdHist
section
attribute [local instance] dbg64

/-- an axis whose `index` panics for 7 and whose `bin` panics for 1 -/
structure MoodyAxis where
deriving DecidableEq
instance moodyAxis : Axis MoodyAxis where
  Coordinate := Nat
  Interval := Nat
  index _ c := if c = 7 then .error .divZero else .ok (if c = 8 then none else some c)
  numBins _ := .ok 3
  bin _ i := if i = 1 then .error .overflow else .ok (some i)

def exWild : VecHistogram WildAxis (MInt .u8) := ⟨⟨⟩, [.lit 0, .lit 0]⟩
theorem exWild_new : VecHistogram.new WildAxis.mk = .ok exWild := rfl
def exMoody : VecHistogram MoodyAxis (MInt .u8) := ⟨⟨⟩, [.lit 4, .lit 255, .lit 6]⟩
def exWildCalls : List (Call (MInt .u8) Nat) := [.fill (5 : Nat), .fill (1 : Nat), .fill (5 : Nat), .fill (1 : Nat), .fill (0 : Nat)]

example : ∃ h : VecHistogram MoodyAxis (MInt .u8), VecHistogram.new MoodyAxis.mk = .ok h ∧ h.valuesIter.length = 3 :=
  let ⟨h, h1, _, h2, _⟩ := (C102_new (V := MInt .u8) MoodyAxis.mk).2 3 rfl
  ⟨h, h1, h2⟩
/-- `index` panics -/
example : exMoody.call (.fill (7 : Nat)) = (exMoody, some .divZero) := (C102_call exMoody (.fill (7 : Nat))).2.2.1 _ rfl
/-- no bin -/
example : exMoody.call (.fill (8 : Nat)) = (exMoody, none) := (C102_call exMoody (.fill (8 : Nat))).2.2.2.1 rfl
/-- out of range -/
example : exMoody.call (.fill (9 : Nat)) = (exMoody, none) := (C102_call exMoody (.fill (9 : Nat))).2.2.2.2.1 9 rfl (by decide)
/-- in range: the fill itself overflows, the other values stay -/
example : (exMoody.call (.fill (1 : Nat))).2 = some .overflow ∧ (exMoody.call (.fill (1 : Nat))).1.valueAtIndex 2 = some (.lit 6) :=
  let h := (C102_call exMoody (.fill (1 : Nat))).2.2.2.2.2 1 _ rfl rfl
  ⟨h.1, h.2.2 2 (by decide)⟩
example : ((HashHistogram.new MoodyAxis.mk : HashHistogram MoodyAxis (MInt .u8)).call (.fill (9 : Nat))).1.valueAtIndex 9 = some (.lit 1) :=
  ((C102_call_sparse (HashHistogram.new MoodyAxis.mk) (.fill (9 : Nat))).2.2.2 9 rfl).2.1
/-- the history 5, 1, 5, 1, 0: dense has 1 and 2; sparse has also 2 at 5 -/
example : (exWild.callAllCaught exWildCalls).valueAtIndex 1 = some (.lit 2) ∧ (exWild.callAllCaught exWildCalls).valueAtIndex 5 = none ∧
    ((HashHistogram.new WildAxis.mk).callAllCaught exWildCalls).valueAtIndex 5 = some (.lit 2 : MInt .u8) :=
  ⟨((C102_history exWild_new exWildCalls 1).2.1 (by decide)).1, (C102_history exWild_new exWildCalls 5).2.2.1 (by decide),
    (C102_history exWild_new exWildCalls 5).2.2.2.2 (by decide)⟩
example : exMoody.value (2 : Nat) = .ok (some (.lit 6)) ∧ exMoody.value (7 : Nat) = .error .divZero :=
  ⟨(C102_value exMoody (HashHistogram.new MoodyAxis.mk) (2 : Nat)).2.2.1 2 rfl, ((C102_value exMoody (HashHistogram.new MoodyAxis.mk) (7 : Nat)).1 _).2 rfl⟩
/-- the iteration panics at bin 1 -/
example : Axis.iter MoodyAxis.mk = .error .overflow :=
  (((C102_axis_iter MoodyAxis.mk).2 3 rfl).2.2 .overflow).2 ⟨1, by decide, fun j hj => ⟨j, by
    have : j = 0 := by omega
    subst this; rfl⟩, .inl rfl⟩
example : exMoody.iter = .error .overflow := ((C102_iter exMoody rfl).1 _).2 rfl
example : ∃ items, exWild.iter = .ok items ∧ items.length = 2 :=
  let ⟨items, h1, h2, _⟩ := (C102_iter exWild rfl).2 [(0, (0 : Nat)), (1, (1 : Nat))] rfl
  ⟨items, h1, h2⟩
/-- a sparse histogram of the contract-breaking axis can be iterated before the fill at 5 -/
def exWildS : HashHistogram WildAxis (MInt .u8) := ((HashHistogram.new WildAxis.mk).callAllCaught [.fill (1 : Nat)])
example (o : exWildS.values.Order) : ∃ items, exWildS.iter o = .ok items :=
  (C102_iter_sparse exWildS o).2 fun i v hv => by
    have : i ∈ exWildS.values.keys := (HMap.get_isSome _ _).1 ⟨v, hv⟩
    have : i = 1 := List.mem_singleton.1 (show i ∈ [1] from this)
    subst this; exact ⟨(1 : Nat), rfl⟩
/-- a loop that stores 10: 0 is reached, at bin 1 the axis panics, 2 is not reached -/
example : (exMoody.iterMut fun _ _ _ => ((MInt.lit 10 : MInt .u8), none)).2 ≠ none := by
  intro hc
  obtain ⟨h1, -⟩ := ((((C102_iter_mut exMoody fun _ _ _ => ((MInt.lit 10 : MInt .u8), none)).2.2.2 3 rfl).1).1 hc)
  obtain ⟨b, hb, -⟩ := h1 1 (.lit 255) (by decide) rfl
  cases hb
example : (exMoody.iterMut fun _ _ _ => ((MInt.lit 10 : MInt .u8), none)) = (⟨⟨⟩, [.lit 10, .lit 255, .lit 6]⟩, some .overflow) := by decide +kernel
/-- one value only (as after deserializing): all bins with values are fine, but the loop looks at bin 1 as well -/
example : ((⟨⟨⟩, [.lit 4]⟩ : VecHistogram MoodyAxis (MInt .u8)).iterMut fun _ _ v => (v, none)).2 = some .overflow := by decide +kernel
/-- the axis of the first example is fine -/
example : (exWild.iterMut fun _ _ v => (v, none)).2 = none :=
  (((C102_iter_mut exWild fun _ _ v => (v, none)).2.2.2 2 rfl).1).2 ⟨fun i _ hi _ => ⟨(i : Nat), congrArg Except.ok (if_pos hi), rfl⟩, fun h => absurd h (by decide)⟩
end
end NdHist.Examples
