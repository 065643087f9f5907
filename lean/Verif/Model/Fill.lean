import Verif.Model.Num
/-!
# Filling bin values (histogram/fill.rs, value/*.rs)
-/
namespace NdHist
open RNum

/-- The effect of running code on a place of type `σ` through `&mut`: the new content, and the panic if the
code panicked (the content then is what it was at the moment of the panic). -/
abbrev Upd (σ : Type) := σ → σ × Option Panic

namespace Upd
/-- an update that stores the result of a computation, unless the computation panics -/
def store {σ : Type} (r : σ → Res σ) : Upd σ := fun s =>
  match r s with
  | .ok s' => (s', none)
  | .error p => (s, some p)

/-- sequential composition `f; g` -/
def andThen {σ : Type} (f g : Upd σ) : Upd σ := fun s =>
  match f s with
  | (s', none) => g s'
  | (s', some p) => (s', some p)

/-- run an update on a field -/
def onField {σ τ : Type} (get : σ → τ) (set : σ → τ → σ) (f : Upd τ) : Upd σ := fun s =>
  let r := f (get s)
  (set s r.1, r.2)

/-- evaluate an expression, then use its value; a panic leaves the place unchanged -/
def withVal {σ α : Type} (r : Res α) (f : α → Upd σ) : Upd σ := fun s =>
  match r with
  | .ok a => f a s
  | .error p => (s, some p)
end Upd

/-- `Default` -/
class RDefault (V : Type) where
  dflt : V

/-- `trait Fill` (histogram/fill.rs:11-15) -/
class Fill (V : Type) where
  fill : Upd V

/-- `trait FillWith<D>` (histogram/fill.rs:30-34) -/
class FillWith (V D : Type) where
  fillWith : D → Upd V

/-- `trait FillWithWeighted<D, W>` (histogram/fill.rs:60-63) -/
class FillWithWeighted (V D W : Type) where
  fillWithWeighted : D → W → Upd V

section
variable {T : Type} [Cfg] [RNum T]

/-- `+=` on numbers (for primitive integers an overflow panics before the place is written) -/
def addAssign (d : T) : Upd T := Upd.store fun s => add s d

/-- the numeric types' `Default` is zero -/
instance : RDefault T := ⟨zero⟩

/-- blanket `Fill for T: One + AddAssign` (histogram/fill.rs:17-22) -/
instance : Fill T := ⟨addAssign one⟩

/-- blanket `FillWith<D> for D`, `FillWith<&D> for D` (histogram/fill.rs:36-54) -/
instance : FillWith T T := ⟨addAssign⟩
end

/-! ## Sum (value/sum.rs) -/

/-- value/sum.rs:11-13. The accessor `sum()` (value/sum.rs:30-32) is the field. -/
structure Sum (T : Type) where
  sum : T
deriving DecidableEq

namespace Sum
variable {T : Type}
/-- derived `Default` (value/sum.rs:9) -/
instance [RDefault T] : RDefault (Sum T) := ⟨⟨RDefault.dflt⟩⟩
/-- value/sum.rs:17-22 -/
def new [RDefault T] : Sum T := RDefault.dflt
/-- value/sum.rs:25-27 -/
def get (s : Sum T) : T := s.sum
/-- value/sum.rs:35-37 -/
def variance (s : Sum T) : T := s.sum
/-- value/sum.rs:49-54 -/
instance [Fill T] : Fill (Sum T) :=
  ⟨Upd.onField Sum.sum (fun _ x => ⟨x⟩) Fill.fill⟩
/-- value/sum.rs:56-65 -/
instance {W : Type} [FillWith T W] : FillWith (Sum T) W :=
  ⟨fun w => Upd.onField Sum.sum (fun _ x => ⟨x⟩) (FillWith.fillWith w)⟩
end Sum

/-! ## WeightedSum (value/weightedsum.rs) -/

/-- value/weightedsum.rs:15-18 -/
structure WeightedSum (T : Type) where
  sumw : T
  sumw2 : T
deriving DecidableEq

namespace WeightedSum
variable {T : Type}
/-- derived `Default` (value/weightedsum.rs:13) -/
instance [RDefault T] : RDefault (WeightedSum T) := ⟨⟨RDefault.dflt, RDefault.dflt⟩⟩
/-- value/weightedsum.rs:22-27 -/
def new [RDefault T] : WeightedSum T := RDefault.dflt
/-- value/weightedsum.rs:30-37 -/
def get (s : WeightedSum T) : T := s.sumw
/-- value/weightedsum.rs:41-43 -/
def variance (s : WeightedSum T) : T := s.sumw2
/-- value/weightedsum.rs:55-61 -/
instance [Fill T] : Fill (WeightedSum T) :=
  ⟨Upd.andThen
    (Upd.onField WeightedSum.sumw (fun s x => { s with sumw := x }) Fill.fill)
    (Upd.onField WeightedSum.sumw2 (fun s x => { s with sumw2 := x }) Fill.fill)⟩
/-- value/weightedsum.rs:63-73 -/
instance {W : Type} [Cfg] [RNum W] [FillWith T W] : FillWith (WeightedSum T) W :=
  ⟨fun w => Upd.andThen
    (Upd.onField WeightedSum.sumw (fun s x => { s with sumw := x }) (FillWith.fillWith w))
    (Upd.withVal (mul w w) fun ww =>
      Upd.onField WeightedSum.sumw2 (fun s x => { s with sumw2 := x }) (FillWith.fillWith ww))⟩
end WeightedSum

/-! ## Conversions and functions used by the means -/

/-- `From<A> for B` -/
class RFrom (A B : Type) where
  conv : A → B

/-- `num_traits::Signed::abs` (may overflow for integers) -/
class RAbs (O : Type) where
  abs : O → Res O

/-- `num_traits::Float::sqrt` -/
class RSqrt (O : Type) where
  sqrt : O → O

/-- `T: Mul<W, Output = T>` -/
class RMulBy (T W : Type) where
  mulBy : T → W → Res T

instance {T : Type} [Cfg] [RNum T] : RMulBy T T := ⟨mul⟩

/-! ## Standard deviations of the sums -/

/-- value/sum.rs:40-46 -/
def Sum.standardDeviation {T : Type} (O : Type) [RFrom T O] [RSqrt O] (s : Sum T) : O :=
  RSqrt.sqrt (RFrom.conv s.variance)

/-- value/weightedsum.rs:46-52 -/
def WeightedSum.standardDeviation {T : Type} (O : Type) [RFrom T O] [RSqrt O] (s : WeightedSum T) : O :=
  RSqrt.sqrt (RFrom.conv s.variance)

/-! ## Mean (value/mean.rs) -/

/-- value/mean.rs:41-46 (the phantom field is dropped, `O` stays a parameter) -/
structure Mean (T O C : Type) where
  sumw : T
  sumw2 : T
  count : C
deriving DecidableEq

namespace Mean
variable {T O C : Type}
/-- derived `Default` (value/mean.rs:39) -/
instance [RDefault T] [RDefault C] : RDefault (Mean T O C) :=
  ⟨⟨RDefault.dflt, RDefault.dflt, RDefault.dflt⟩⟩

section
variable [Cfg] [RNum T] [RNum C]
/-- value/mean.rs:113-124 -/
instance : FillWith (Mean T O C) T :=
  ⟨fun data => Upd.andThen
    (Upd.onField Mean.sumw (fun s x => { s with sumw := x }) (addAssign data)) <|
    Upd.andThen
    (Upd.withVal (mul data data) fun d2 =>
      Upd.onField Mean.sumw2 (fun s x => { s with sumw2 := x }) (addAssign d2))
    (Upd.onField Mean.count (fun s x => { s with count := x }) (addAssign one))⟩
end

/-- `Mean::new` (value/mean.rs:58-66): fill one after another, stopping at a panic. -/
def new [FillWith (Mean T O C) T] [RDefault (Mean T O C)] (values : List T) : Mean T O C × Option Panic :=
  (values.foldl (fun f d => Upd.andThen f (FillWith.fillWith d)) (fun s => (s, none))) RDefault.dflt

section
variable [Cfg] [RNum O] [RFrom T O] [RFrom C O] [RAbs O]

/-- value/mean.rs:74-76 -/
def mean (m : Mean T O C) : Res O := div (RFrom.conv m.sumw) (RFrom.conv m.count : O)
/-- value/mean.rs:69-71 -/
def get (m : Mean T O C) : Res O := m.mean
/-- value/mean.rs:79-81 -/
def numSamples (m : Mean T O C) : C := m.count
/-- value/mean.rs:84-89 -/
def varianceOfSamples (m : Mean T O C) : Res O := do
  let mean ← m.mean
  let mean2 ← mul mean mean
  let avgsum2 ← div (RFrom.conv m.sumw2) (RFrom.conv m.count : O)
  let d ← sub avgsum2 mean2
  RAbs.abs d
/-- value/mean.rs:100-102 -/
def varianceOfMean (m : Mean T O C) : Res O := do
  let v ← m.varianceOfSamples
  div v (RFrom.conv m.count : O)
/-- value/mean.rs:92-97 -/
def standardDeviationOfSamples [RSqrt O] (m : Mean T O C) : Res O := do
  let v ← m.varianceOfSamples
  return RSqrt.sqrt v
/-- value/mean.rs:105-110 -/
def standardErrorOfMean [RSqrt O] (m : Mean T O C) : Res O := do
  let v ← m.varianceOfMean
  return RSqrt.sqrt v
end
end Mean

/-! ## WeightedMean (value/weightedmean.rs) -/

/-- value/weightedmean.rs:42-49 (the phantom field is dropped) -/
structure WeightedMean (T W O C : Type) where
  sumwt : T
  sumwt2 : T
  sumw : W
  sumw2 : W
  count : C
deriving DecidableEq

namespace WeightedMean
variable {T W O C : Type}
/-- derived `Default` (value/weightedmean.rs:40) -/
instance [RDefault T] [RDefault W] [RDefault C] : RDefault (WeightedMean T W O C) :=
  ⟨⟨RDefault.dflt, RDefault.dflt, RDefault.dflt, RDefault.dflt, RDefault.dflt⟩⟩

section
variable [Cfg] [RNum T] [RNum W] [RNum C] [RMulBy T W]
/-- value/weightedmean.rs:121-135 -/
instance : FillWithWeighted (WeightedMean T W O C) T W :=
  ⟨fun value weight =>
    Upd.andThen (Upd.withVal (RMulBy.mulBy value weight) fun x =>
      Upd.onField WeightedMean.sumwt (fun s x => { s with sumwt := x }) (addAssign x)) <|
    Upd.andThen (Upd.withVal (do let v2 ← mul value value; RMulBy.mulBy v2 weight) fun x =>
      Upd.onField WeightedMean.sumwt2 (fun s x => { s with sumwt2 := x }) (addAssign x)) <|
    Upd.andThen
      (Upd.onField WeightedMean.sumw (fun s x => { s with sumw := x }) (addAssign weight)) <|
    Upd.andThen (Upd.withVal (mul weight weight) fun x =>
      Upd.onField WeightedMean.sumw2 (fun s x => { s with sumw2 := x }) (addAssign x))
    (Upd.onField WeightedMean.count (fun s x => { s with count := x }) (addAssign one))⟩
end

/-- `WeightedMean::new` (value/weightedmean.rs:62-72) -/
def new [FillWithWeighted (WeightedMean T W O C) T W] [RDefault (WeightedMean T W O C)]
    (values : List (T × W)) : WeightedMean T W O C × Option Panic :=
  (values.foldl (fun f d => Upd.andThen f (FillWithWeighted.fillWithWeighted d.1 d.2)) (fun s => (s, none)))
    RDefault.dflt

section
variable [Cfg] [RNum O] [RFrom T O] [RFrom W O]

/-- value/weightedmean.rs:80-82 -/
def mean (m : WeightedMean T W O C) : Res O := div (RFrom.conv m.sumwt) (RFrom.conv m.sumw : O)
/-- value/weightedmean.rs:75-77 -/
def get (m : WeightedMean T W O C) : Res O := m.mean
/-- value/weightedmean.rs:85-87 -/
def numSamples (m : WeightedMean T W O C) : C := m.count
/-- value/weightedmean.rs:90-97 -/
def varianceOfSamples (m : WeightedMean T W O C) : Res O := do
  let mu ← m.mean
  let mu2 ← mul mu mu
  let two ← add (one : O) one
  let x ← mul two (RFrom.conv m.sumwt)
  let y ← mul x mu
  let z ← sub (RFrom.conv m.sumwt2) y
  let q ← div z (RFrom.conv m.sumw)
  add mu2 q
/-- value/weightedmean.rs:108-110 -/
def varianceOfMean (m : WeightedMean T W O C) : Res O := do
  let v ← m.varianceOfSamples
  let x ← mul v (RFrom.conv m.sumw2)
  let y ← mul (RFrom.conv m.sumw) (RFrom.conv m.sumw)
  div x y
/-- value/weightedmean.rs:100-105 -/
def standardDeviationOfSamples [RSqrt O] (m : WeightedMean T W O C) : Res O := do
  let v ← m.varianceOfSamples
  return RSqrt.sqrt v
/-- value/weightedmean.rs:113-118 -/
def standardErrorOfMean [RSqrt O] (m : WeightedMean T W O C) : Res O := do
  let v ← m.varianceOfMean
  return RSqrt.sqrt v
end
end WeightedMean
end NdHist
