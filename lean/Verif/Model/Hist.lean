import Verif.Model.Fill
import Verif.Model.Axis
import Verif.Model.Std
/-!
# Histograms (histogram/histogram.rs, histogram/vechistogram.rs, histogram/hashhistogram.rs)
-/
namespace NdHist

/-- `PartialEq` -/
class PEq (A : Type) where
  peq : A → A → Bool

/-- `struct Item` (histogram/histogram.rs:103-110) -/
structure Item (B V : Type) where
  index : Nat
  bin : B
  value : V
deriving DecidableEq

/-! ## Operators on values -/

/-- the four operators for which the crate implements histogram arithmetic
(vechistogram.rs:196-199, 224-227, 272-275, 318-321; hashhistogram.rs:291-294, 342-345, 392-395) -/
inductive Op where
  | add | sub | mul | div
deriving DecidableEq, Repr

/-- `V: Add + Sub + Mul + Div` by reference, and the corresponding `*Assign` traits. -/
class ROps (V : Type) where
  op : Op → V → V → Res V
  /-- `*l op= r` -/
  opAssign : Op → V → Upd V

/-- numbers -/
instance {T : Type} [Cfg] [RNum T] : ROps T where
  op
    | .add => RNum.add
    | .sub => RNum.sub
    | .mul => RNum.mul
    | .div => RNum.div
  opAssign
    | .add => fun r => Upd.store fun l => RNum.add l r
    | .sub => fun r => Upd.store fun l => RNum.sub l r
    | .mul => fun r => Upd.store fun l => RNum.mul l r
    | .div => fun r => Upd.store fun l => RNum.div l r

/-! ## `for` loops over mutable places -/

/-- Run `f i` on the `i`-th element, one after another, stopping at the first panic. -/
def updEach {V : Type} (f : Nat → Upd V) : Nat → List V → List V × Option Panic
  | _, [] => ([], none)
  | i, v :: vs =>
    match f i v with
    | (v', some p) => (v' :: vs, some p)
    | (v', none) =>
      let r := updEach f (i + 1) vs
      (v' :: r.1, r.2)

/-- Update the element at a position that exists (a write through `&mut`). -/
def updAt {V : Type} (f : Upd V) : Nat → List V → List V × Option Panic
  | _, [] => ([], none)
  | 0, v :: vs => let r := f v; (r.1 :: vs, r.2)
  | i + 1, v :: vs => let r := updAt f i vs; (v :: r.1, r.2)

/-- `l.iter_mut().zip(r.iter()).for_each(|(l, r)| *l op= r)` -/
def zipUpd {V : Type} (f : V → Upd V) : List V → List V → List V × Option Panic
  | [], _ => ([], none)
  | l, [] => (l, none)
  | l :: ls, r :: rs =>
    match f r l with
    | (l', some p) => (l' :: ls, some p)
    | (l', none) =>
      let x := zipUpd f ls rs
      (l' :: x.1, x.2)

/-- `l.iter().zip(r.iter()).map(|(l, r)| l op r).collect()` -/
def zipRes {V : Type} (f : V → V → Res V) : List V → List V → Res (List V)
  | [], _ => return []
  | _, [] => return []
  | l :: ls, r :: rs => do
    let x ← f l r
    let xs ← zipRes f ls rs
    return x :: xs

/-! ## VecHistogram -/

/-- `struct VecHistogram` (histogram/vechistogram.rs:16-19). `axes()` is the field. -/
structure VecHistogram (A V : Type) where
  axes : A
  values : List V
deriving DecidableEq

namespace VecHistogram
variable {A V : Type} [Cfg] [Axis A]

/-- vechistogram.rs:24-30. Allocation failure is not modelled. -/
def new [RDefault V] (axes : A) : Res (VecHistogram A V) := do
  let size ← Axis.numBins axes
  return { axes, values := List.replicate size RDefault.dflt }

/-- vechistogram.rs:34-37 -/
def value (h : VecHistogram A V) (c : Axis.Coordinate A) : Res (Option V) := do
  match ← Axis.index h.axes c with
  | none => return none
  | some index => return h.values[index]?

/-- vechistogram.rs:44-46 -/
def valueAtIndex (h : VecHistogram A V) (index : Nat) : Option V := h.values[index]?

/-- vechistogram.rs:48-50 -/
def valuesIter (h : VecHistogram A V) : List V := h.values

/-- vechistogram.rs:52-62, collected; also `into_iter` of `&hist` -/
def iter (h : VecHistogram A V) : Res (List (Item (Axis.Interval A) V)) := do
  let it ← Axis.iter h.axes
  it.mapM fun (index, bin) => do
    let value ← expect (h.valueAtIndex index)
    return { index, bin, value }

/-- vechistogram.rs:64-66, followed by the update `f` through the returned reference; `none` if there is
no such bin. -/
def valueAtIndexMut (h : VecHistogram A V) (index : Nat) (f : Upd V) :
    Option (VecHistogram A V × Option Panic) :=
  match h.values[index]? with
  | none => none
  | some _ => let r := updAt f index h.values; some ({ h with values := r.1 }, r.2)

/-- `Histogram::value_mut` (histogram/histogram.rs:48-51), followed by `f` through the reference. The outer
`Res` is a panic of `axes.index`. -/
def valueMut (h : VecHistogram A V) (c : Axis.Coordinate A) (f : Upd V) :
    Res (Option (VecHistogram A V × Option Panic)) := do
  match ← Axis.index h.axes c with
  | none => return none
  | some index => return h.valueAtIndexMut index f

/-- vechistogram.rs:68-70 with loop body `f` -/
def valuesMut (h : VecHistogram A V) (f : Upd V) : VecHistogram A V × Option Panic :=
  let r := updEach (fun _ => f) 0 h.values
  ({ h with values := r.1 }, r.2)

/-- vechistogram.rs:72-79: if there are fewer values than bins (a deserialized histogram), `zip` advances the axes' iterator once
more, so evaluates one more `bin`, before it finds that no value is left. -/
def iterMutTail (h : VecHistogram A V) (n : Nat) : Option Panic :=
  if h.values.length < n then
    match Axis.bin h.axes h.values.length with
    | .error p => some p
    | .ok none => some .expectNone
    | .ok (some _) => none
  else none

/-- vechistogram.rs:72-79 (also `into_iter` of `&mut hist`) with loop body `f index bin`: `zip` of the axes' iterator with the values. -/
def iterMut (h : VecHistogram A V) (f : Nat → Axis.Interval A → Upd V) :
    VecHistogram A V × Option Panic :=
  match Axis.numBins h.axes with
  | .error p => (h, some p)
  | .ok n =>
    let body : Nat → Upd V := fun i v =>
      match Axis.bin h.axes i with
      | .error p => (v, some p)
      | .ok none => (v, some .expectNone)
      | .ok (some b) => f i b v
    let r := updEach body 0 (h.values.take n)
    ({ h with values := r.1 ++ h.values.drop n }, r.2.or (h.iterMutTail n))

/-- `Histogram::fill` (histogram/histogram.rs:62-69): `if let Some(value) = self.value_mut(coordinate)
{ value.fill() }` -/
def fill [Fill V] (h : VecHistogram A V) (c : Axis.Coordinate A) : VecHistogram A V × Option Panic :=
  match h.valueMut c Fill.fill with
  | .error p => (h, some p)
  | .ok none => (h, none)
  | .ok (some r) => r

/-- `Histogram::fill_with` (histogram/histogram.rs:75-83) -/
def fillWith {D : Type} [FillWith V D] (h : VecHistogram A V) (c : Axis.Coordinate A) (data : D) :
    VecHistogram A V × Option Panic :=
  match h.valueMut c (FillWith.fillWith data) with
  | .error p => (h, some p)
  | .ok none => (h, none)
  | .ok (some r) => r

/-- `Histogram::fill_with_weighted` (histogram/histogram.rs:89-97) -/
def fillWithWeighted {D W : Type} [FillWithWeighted V D W] (h : VecHistogram A V)
    (c : Axis.Coordinate A) (data : D) (weight : W) : VecHistogram A V × Option Panic :=
  match h.valueMut c (FillWithWeighted.fillWithWeighted data weight) with
  | .error p => (h, some p)
  | .ok none => (h, none)
  | .ok (some r) => r

/-- `&h1 op &h2` (vechistogram.rs:177-191) -/
def opBorrow [PEq A] [ROps V] (o : Op) (l r : VecHistogram A V) :
    Res (Except BinaryOperationError (VecHistogram A V)) := do
  if PEq.peq l.axes r.axes = false then
    return .error .mk
  let values ← zipRes (ROps.op o) l.values r.values
  return .ok { axes := l.axes, values }

/-- `&h op &x` (vechistogram.rs:209-219) -/
def opScalar [ROps V] (o : Op) (l : VecHistogram A V) (x : V) : Res (VecHistogram A V) := do
  let values ← l.values.mapM fun v => ROps.op o v x
  return { axes := l.axes, values }

/-- `h1 op &h2` (vechistogram.rs:258-267) -/
def opOwned [PEq A] [ROps V] (o : Op) (l r : VecHistogram A V) :
    Res (Except BinaryOperationError (VecHistogram A V)) :=
  if PEq.peq l.axes r.axes = false then
    .ok (.error .mk)
  else
    let x := zipUpd (ROps.opAssign o) l.values r.values
    match x.2 with
    | some p => .error p
    | none => .ok (.ok { l with values := x.1 })

/-- `h1 op= &h2` (vechistogram.rs:305-313) -/
def opAssign [PEq A] [ROps V] (o : Op) (l r : VecHistogram A V) : VecHistogram A V × Option Panic :=
  if PEq.peq l.axes r.axes = false then
    (l, some .incompatibleAxes)
  else
    let x := zipUpd (ROps.opAssign o) l.values r.values
    ({ l with values := x.1 }, x.2)

/-- vechistogram.rs:352-361 -/
def fromVec (axes : A) (values : List V) : Res (Except Error (VecHistogram A V)) := do
  let n ← Axis.numBins axes
  if n = values.length then
    return .ok { axes, values }
  else
    return .error (.AxisError .InvalidNumberOfBins)

/-- vechistogram.rs:364-366 -/
def asVec (h : VecHistogram A V) : List V := h.values
/-- vechistogram.rs:369-371 -/
def asSlice (h : VecHistogram A V) : List V := h.values
/-- `From<VecHistogram> for Vec` (vechistogram.rs:441-445) -/
def intoVec (h : VecHistogram A V) : List V := h.values

/-- derived `PartialEq` (vechistogram.rs:14) -/
def beq [PEq A] [PEq V] (h h' : VecHistogram A V) : Bool :=
  PEq.peq h.axes h'.axes && (h.values.length == h'.values.length &&
    (h.values.zip h'.values).all fun vw => PEq.peq vw.1 vw.2)

end VecHistogram

/-! ## HashHistogram -/

/-- `struct HashHistogram` (histogram/hashhistogram.rs:58-61). The hasher is not modelled: it only
influences iteration order, which is an argument of each iterating operation. `axes()` (histogram/hashhistogram.rs:105-107) is the field. -/
structure HashHistogram (A V : Type) where
  axes : A
  values : HMap Nat V

namespace HashHistogram
variable {A V : Type} [Cfg] [Axis A]

/-- hashhistogram.rs:85-90 and 95-100 -/
def new (axes : A) : HashHistogram A V := { axes, values := HMap.empty }

/-- hashhistogram.rs:109-111 -/
def valueAtIndex (h : HashHistogram A V) (index : Nat) : Option V := h.values.get index

/-- `Histogram::value` (histogram/histogram.rs:32-35) -/
def value (h : HashHistogram A V) (c : Axis.Coordinate A) : Res (Option V) := do
  match ← Axis.index h.axes c with
  | none => return none
  | some index => return h.valueAtIndex index

/-- hashhistogram.rs:113-115 -/
def valuesIter (h : HashHistogram A V) (o : h.values.Order) : List V := o.list.map (·.2)

/-- hashhistogram.rs:117-128, collected; also `into_iter` of `&hist` (hashhistogram.rs:185-196) -/
def iter (h : HashHistogram A V) (o : h.values.Order) : Res (List (Item (Axis.Interval A) V)) :=
  o.list.mapM fun (index, value) => do
    let b ← Axis.bin h.axes index
    let bin ← expect b
    return { index, bin, value }

/-- hashhistogram.rs:130-132, followed by the update `f` through the returned reference -/
def valueAtIndexMut (h : HashHistogram A V) (index : Nat) (f : Upd V) :
    Option (HashHistogram A V × Option Panic) :=
  match h.values.get index with
  | none => none
  | some v => let r := f v; some ({ h with values := h.values.insert index r.1 }, r.2)

/-- `Histogram::value_mut` (histogram/histogram.rs:48-51), followed by `f` -/
def valueMut (h : HashHistogram A V) (c : Axis.Coordinate A) (f : Upd V) :
    Res (Option (HashHistogram A V × Option Panic)) := do
  match ← Axis.index h.axes c with
  | none => return none
  | some index => return h.valueAtIndexMut index f

/-- a loop over mutable references to the values, in the order of `keys` -/
def updKeys (f : Nat → Upd V) : List Nat → HMap Nat V → HMap Nat V × Option Panic
  | [], m => (m, none)
  | k :: ks, m =>
    match m.get k with
    | none => updKeys f ks m
    | some v =>
      match f k v with
      | (v', some p) => (m.insert k v', some p)
      | (v', none) => updKeys f ks (m.insert k v')

/-- hashhistogram.rs:134-136 with loop body `f` -/
def valuesMut (h : HashHistogram A V) (o : h.values.Order) (f : Upd V) :
    HashHistogram A V × Option Panic :=
  let r := updKeys (fun _ => f) (o.list.map (·.1)) h.values
  ({ h with values := r.1 }, r.2)

/-- hashhistogram.rs:138-149 (also `into_iter` of `&mut hist`, hashhistogram.rs:198-209) with loop body `f index bin` -/
def iterMut (h : HashHistogram A V) (o : h.values.Order) (f : Nat → Axis.Interval A → Upd V) :
    HashHistogram A V × Option Panic :=
  let body : Nat → Upd V := fun i v =>
    match Axis.bin h.axes i with
    | .error p => (v, some p)
    | .ok none => (v, some .expectNone)
    | .ok (some b) => f i b v
  let r := updKeys body (o.list.map (·.1)) h.values
  ({ h with values := r.1 }, r.2)

/-- `self.values.entry(index).or_default()` followed by an update: the entry is created even if the update
panics. -/
def entryUpd [RDefault V] (m : HMap Nat V) (index : Nat) (f : Upd V) : HMap Nat V × Option Panic :=
  let v := (m.get index).getD RDefault.dflt
  let r := f v
  (m.insert index r.1, r.2)

/-- hashhistogram.rs:152-159 -/
def fill [RDefault V] [Fill V] (h : HashHistogram A V) (c : Axis.Coordinate A) :
    HashHistogram A V × Option Panic :=
  match Axis.index h.axes c with
  | .error p => (h, some p)
  | .ok none => (h, none)
  | .ok (some index) => let r := entryUpd h.values index Fill.fill; ({ h with values := r.1 }, r.2)

/-- hashhistogram.rs:162-169 -/
def fillWith {D : Type} [RDefault V] [FillWith V D] (h : HashHistogram A V) (c : Axis.Coordinate A)
    (data : D) : HashHistogram A V × Option Panic :=
  match Axis.index h.axes c with
  | .error p => (h, some p)
  | .ok none => (h, none)
  | .ok (some index) =>
    let r := entryUpd h.values index (FillWith.fillWith data); ({ h with values := r.1 }, r.2)

/-- hashhistogram.rs:172-182 -/
def fillWithWeighted {D W : Type} [RDefault V] [FillWithWeighted V D W] (h : HashHistogram A V)
    (c : Axis.Coordinate A) (data : D) (weight : W) : HashHistogram A V × Option Panic :=
  match Axis.index h.axes c with
  | .error p => (h, some p)
  | .ok none => (h, none)
  | .ok (some index) =>
    let r := entryUpd h.values index (FillWithWeighted.fillWithWeighted data weight)
    ({ h with values := r.1 }, r.2)

/-- One possible order of the `HashSet` of keys built at hashhistogram.rs:270. -/
structure KeyOrder (l r : HashHistogram A V) where
  list : List Nat
  nodup : list.Nodup
  mem_iff : ∀ k, k ∈ list ↔ k ∈ l.values.keys ∨ k ∈ r.values.keys

/-- `&h1 op &h2` (hashhistogram.rs:266-286) -/
def opBorrow [PEq A] [ROps V] [RDefault V] (o : Op) (l r : HashHistogram A V) (ord : KeyOrder l r) :
    Res (Except BinaryOperationError (HashHistogram A V)) := do
  if PEq.peq l.axes r.axes = false then
    return .error .mk
  let entries ← ord.list.mapM fun index => do
    let newvalue ←
      match l.values.get index, r.values.get index with
      | some left, some right => ROps.op o left right
      | none, some right => ROps.op o RDefault.dflt right
      | some left, none => ROps.op o left RDefault.dflt
      | none, none => throw .unreachableCode
    return (index, newvalue)
  return .ok { axes := l.axes, values := HMap.collect entries }

/-- `for (index, rhs_value) in rhs.values.iter() { *self.values.entry(*index).or_default() op= rhs_value }`
(hashhistogram.rs:332-335 and 383-386) -/
def mergeLoop [ROps V] [RDefault V] (o : Op) : List (Nat × V) → HMap Nat V → HMap Nat V × Option Panic
  | [], m => (m, none)
  | (index, rhs) :: rest, m =>
    match entryUpd m index (ROps.opAssign o rhs) with
    | (m', some p) => (m', some p)
    | (m', none) => mergeLoop o rest m'

/-- `h1 op &h2` (hashhistogram.rs:328-337) -/
def opOwned [PEq A] [ROps V] [RDefault V] (o : Op) (l r : HashHistogram A V) (ord : r.values.Order) :
    Res (Except BinaryOperationError (HashHistogram A V)) :=
  if PEq.peq l.axes r.axes = false then
    .ok (.error .mk)
  else
    let x := mergeLoop o ord.list l.values
    match x.2 with
    | some p => .error p
    | none => .ok (.ok { l with values := x.1 })

/-- `h1 op= &h2` (hashhistogram.rs:379-387) -/
def opAssign [PEq A] [ROps V] [RDefault V] (o : Op) (l r : HashHistogram A V) (ord : r.values.Order) :
    HashHistogram A V × Option Panic :=
  if PEq.peq l.axes r.axes = false then
    (l, some .incompatibleAxes)
  else
    let x := mergeLoop o ord.list l.values
    ({ l with values := x.1 }, x.2)

/-- hashhistogram.rs:407-416: `values.keys().all(|it| *it < axes.num_bins())`; for an empty map
`num_bins` is not evaluated. -/
def fromMap (axes : A) (values : HMap Nat V) : Res (Except Error (HashHistogram A V)) := do
  let all ← if values.entries.isEmpty then pure true else do
    let n ← Axis.numBins axes
    pure (values.keys.all fun k => decide (k < n))
  if all then
    return .ok { axes, values }
  else
    return .error (.AxisError .InvalidNumberOfBins)

/-- hashhistogram.rs:419-421 -/
def asMap (h : HashHistogram A V) : HMap Nat V := h.values
/-- `From<HashHistogram> for HashMap` (hashhistogram.rs:493-497) -/
def intoMap (h : HashHistogram A V) : HMap Nat V := h.values

/-- `PartialEq` (hashhistogram.rs:77-79) -/
def beq [PEq A] [PEq V] (h h' : HashHistogram A V) : Bool :=
  PEq.peq h.axes h'.axes && HMap.beq PEq.peq h.values h'.values

end HashHistogram
end NdHist
