import Verif.SpecEqual
import Verif.Model.Parallel
/-!
# Specification vocabulary: histograms obtained through the API

All ways the public API offers of making a histogram or changing it, in any order and any number. Closures given to the API are arbitrary (`Upd V`); a call that
panics may be caught and the histogram used afterwards, so the state a call leaves behind is reachable whether or not the call panicked. Not included: `Default`
(C48) and `Deserialize` (C50), which can produce inconsistent histograms.
-/
namespace NdHist
variable {A V : Type} [Cfg] [Axis A]

/-- `Reach P axes h`: `h` was obtained from the axes by calls of the API. `P`: the axes the program makes histograms of, e.g. those returned by the
constructors. -/
inductive VecHistogram.Reach [PEq A] [ROps V] [RDefault V] (P : A → Prop) : A → VecHistogram A V → Prop
  | new {axes h} : P axes → VecHistogram.new axes = .ok h → Reach P axes h
  | fromVec {axes vs h} : P axes → VecHistogram.fromVec axes vs = .ok (.ok h) → Reach P axes h
  /-- `fill`, `fill_with`, `fill_with_weighted` -/
  | fill {axes h} (call : Call V (Axis.Coordinate A)) : Reach P axes h → Reach P axes (h.call call).1
  | valueMut {axes h c f r} : Reach P axes h → h.valueMut c f = .ok (some r) → Reach P axes r.1
  | valueAtIndexMut {axes h i f r} : Reach P axes h → h.valueAtIndexMut i f = some r → Reach P axes r.1
  | valuesMut {axes h} (f : Upd V) : Reach P axes h → Reach P axes (h.valuesMut f).1
  | iterMut {axes h} (f : Nat → Axis.Interval A → Upd V) : Reach P axes h → Reach P axes (h.iterMut f).1
  | parIterMut {axes h} (body : Nat → Axis.Interval A → List (Upd V)) (sched : List Nat) : Reach P axes h → Reach P axes (h.parIterMut body sched).1
  | parValuesMut {axes h} (body : Nat → List (Upd V)) (sched : List Nat) : Reach P axes h → Reach P axes (h.parValuesMut body sched).1
  /-- `&l op &r` -/
  | opBorrow {axes axes' o l r m} : Reach P axes l → Reach P axes' r → l.opBorrow o r = .ok (.ok m) → Reach P axes m
  /-- `l op &r` -/
  | opOwned {axes axes' o l r m} : Reach P axes l → Reach P axes' r → l.opOwned o r = .ok (.ok m) → Reach P axes m
  /-- `l op= &r`, also when it panics -/
  | opAssign {axes axes' l r} (o : Op) : Reach P axes l → Reach P axes' r → Reach P axes (l.opAssign o r).1
  /-- `&l op &x` -/
  | opScalar {axes o l x m} : Reach P axes l → l.opScalar o x = .ok m → Reach P axes m

/-- The same for sparse histograms. `HashMap`s iterate in any order. -/
inductive HashHistogram.Reach [PEq A] [ROps V] [RDefault V] (P : A → Prop) : A → HashHistogram A V → Prop
  | new {axes} : P axes → Reach P axes (HashHistogram.new axes)
  | fromMap {axes m h} : P axes → m.NodupKeys → HashHistogram.fromMap axes m = .ok (.ok h) → Reach P axes h
  | fill {axes h} (call : Call V (Axis.Coordinate A)) : Reach P axes h → Reach P axes (h.call call).1
  | valueMut {axes h c f r} : Reach P axes h → h.valueMut c f = .ok (some r) → Reach P axes r.1
  | valueAtIndexMut {axes h i f r} : Reach P axes h → h.valueAtIndexMut i f = some r → Reach P axes r.1
  | valuesMut {axes h} (o : h.values.Order) (f : Upd V) : Reach P axes h → Reach P axes (h.valuesMut o f).1
  | iterMut {axes h} (o : h.values.Order) (f : Nat → Axis.Interval A → Upd V) : Reach P axes h → Reach P axes (h.iterMut o f).1
  | parIterMut {axes h} (body : Nat → Axis.Interval A → List (Upd V)) (sched : List Nat) : Reach P axes h → Reach P axes (h.parIterMut body sched).1
  | parValuesMut {axes h} (body : List (Upd V)) (sched : List Nat) : Reach P axes h → Reach P axes (h.parValuesMut body sched).1
  | opBorrow {axes axes' o l r m} (ko : KeyOrder l r) : Reach P axes l → Reach P axes' r → l.opBorrow o r ko = .ok (.ok m) → Reach P axes m
  | opOwned {axes axes' o l r m} (ro : r.values.Order) : Reach P axes l → Reach P axes' r → l.opOwned o r ro = .ok (.ok m) → Reach P axes m
  | opAssign {axes axes' l r} (o : Op) (ro : r.values.Order) : Reach P axes l → Reach P axes' r → Reach P axes (l.opAssign o r ro).1

end NdHist
