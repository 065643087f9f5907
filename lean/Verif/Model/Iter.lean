import Verif.Model.Hist
/-!
# The iterators, one `next()` at a time

`Axis::indices/iter/bins` and the `iter/iter_mut/values/values_mut` of histograms return boxed iterators built from std's `Range`, slice and map iterators, `Map` and
`Zip`. Elsewhere in the model an iterator is the list it yields; here it is a state machine, so that taking only some items, breaking out of a loop, and
continuing after a caught panic can be expressed. Theorems C67 relate the two.
-/
namespace NdHist

/-- An iterator with state `σ`: what `next()` returns (or its panic) and the state left behind, and `size_hint()` (lower and upper bound are the same number for all
iterators used here). -/
structure LIter (σ α : Type) where
  next : σ → Res (Option α) × σ
  hint : σ → Nat

namespace LIter
/-- `Range<usize>` (std): the next number and the end -/
def range : LIter (Nat × Nat) Nat where
  next s := if s.1 < s.2 then (.ok (some s.1), (s.1 + 1, s.2)) else (.ok none, s)
  hint s := s.2 - s.1

/-- Iterators over a slice or the entries of a `HashMap` (std): what is left -/
def list {α : Type} : LIter (List α) α where
  next
    | [] => (.ok none, [])
    | x :: xs => (.ok (some x), xs)
  hint s := s.length

/-- `Iterator::map` (std): the inner iterator has advanced when the closure panics -/
def map {σ α β : Type} (f : α → Res β) (it : LIter σ α) : LIter σ β where
  next s :=
    match it.next s with
    | (.error p, s') => (.error p, s')
    | (.ok none, s') => (.ok none, s')
    | (.ok (some x), s') => (f x >>= fun y => .ok (some y), s')
  hint := it.hint

/-- `Iterator::zip` (std): first the left iterator advances, then, unless it panicked or ended, the right one -/
def zip {σ τ α β : Type} (a : LIter σ α) (b : LIter τ β) : LIter (σ × τ) (α × β) where
  next s :=
    match a.next s.1 with
    | (.error p, s') => (.error p, (s', s.2))
    | (.ok none, s') => (.ok none, (s', s.2))
    | (.ok (some x), s') =>
      match b.next s.2 with
      | (.error p, t') => (.error p, (s', t'))
      | (.ok none, t') => (.ok none, (s', t'))
      | (.ok (some y), t') => (.ok (some (x, y)), (s', t'))
  hint s := min (a.hint s.1) (b.hint s.2)

variable {σ α : Type}

/-- `k` calls of `next()`, catching panics: the results, and the state afterwards -/
def pull (it : LIter σ α) : Nat → σ → List (Res (Option α)) × σ
  | 0, s => ([], s)
  | k + 1, s => let r := pull it k (it.next s).2; ((it.next s).1 :: r.1, r.2)

/-- `collect()`; `fuel` bounds the number of calls -/
def collect (it : LIter σ α) : Nat → σ → Res (List α)
  | 0, _ => .ok []
  | fuel + 1, s =>
    match it.next s with
    | (.error p, _) => .error p
    | (.ok none, _) => .ok []
    | (.ok (some x), s') => do
      let xs ← collect it fuel s'
      return x :: xs

end LIter

/-- How the body of a loop ends: normally (or `continue`), with `break` (or `return`), or with a panic -/
inductive Flow where
  | next
  | stop
  | panic (p : Panic)
deriving DecidableEq, Repr

/-- `for x in it { body }`; `τ` is the data the body changes, `fuel` bounds the number of rounds -/
def LIter.forLoop {σ α τ : Type} (it : LIter σ α) (body : α → τ → τ × Flow) : Nat → σ → τ → τ × Option Panic
  | 0, _, t => (t, none)
  | fuel + 1, s, t =>
    match it.next s with
    | (.error p, _) => (t, some p)
    | (.ok none, _) => (t, none)
    | (.ok (some x), s') =>
      match body x t with
      | (t', .next) => forLoop it body fuel s' t'
      | (t', .stop) => (t', none)
      | (t', .panic p) => (t', some p)

namespace Axis
variable [Cfg] {A : Type} [Axis A]

/-- `Axis::indices` (axis/mod.rs:103-105): the iterator `0..num_bins()`; `iter` and `bins` start in the same way -/
def start (a : A) : Res (Nat × Nat) := do
  let n ← numBins a
  return (0, n)

/-- `Axis::iter` (axis/mod.rs:108-116) -/
def iterL (a : A) : LIter (Nat × Nat) (Nat × Interval A) :=
  LIter.range.map fun it => do
    let b ← bin a it
    let b ← expect b
    return (it, b)

/-- `Axis::bins` (axis/mod.rs:119-124) -/
def binsL (a : A) : LIter (Nat × Nat) (Interval A) :=
  LIter.range.map fun it => do
    let b ← bin a it
    expect b
end Axis

namespace VecHistogram
variable [Cfg] {A V : Type} [Axis A]
/-- vechistogram.rs:52-62; starts as `Axis.start` -/
def iterL (h : VecHistogram A V) : LIter (Nat × Nat) (Item (Axis.Interval A) V) :=
  (Axis.iterL h.axes).map fun (index, bin) => do
    let value ← expect (h.valueAtIndex index)
    return { index, bin, value }

/-- vechistogram.rs:72-79. `iter_mut` over the values is an iterator over references; here over the positions `0, 1, …` of the values in the vector. -/
def iterMutL (h : VecHistogram A V) : LIter ((Nat × Nat) × List Nat) (Item (Axis.Interval A) Nat) :=
  ((Axis.iterL h.axes).zip LIter.list).map fun ((index, bin), value) => .ok { index, bin, value }
/-- where `iter_mut` starts -/
def startMut (h : VecHistogram A V) : Res ((Nat × Nat) × List Nat) := do
  let s ← Axis.start h.axes
  return (s, List.range h.values.length)

/-- a change through the reference to the value at a position -/
def setSlot (f : V → V × Flow) (slot : Nat) (h : VecHistogram A V) : VecHistogram A V × Flow :=
  match h.values[slot]? with
  | none => (h, .next)
  | some v => ({ h with values := h.values.set slot (f v).1 }, (f v).2)

/-- `for item in h.iter_mut() { … }` -/
def loopMut (h : VecHistogram A V) (fuel : Nat) (f : Nat → Axis.Interval A → V → V × Flow) : VecHistogram A V × Option Panic :=
  match h.startMut with
  | .error p => (h, some p)
  | .ok s => h.iterMutL.forLoop (fun item => setSlot (f item.index item.bin) item.value) fuel s h

/-- `for value in h.values_mut() { … }` (vechistogram.rs:68-70) -/
def loopValuesMut (h : VecHistogram A V) (fuel : Nat) (f : V → V × Flow) : VecHistogram A V × Option Panic :=
  LIter.list.forLoop (fun slot => setSlot f slot) fuel (List.range h.values.length) h
end VecHistogram

namespace HashHistogram
variable [Cfg] {A V : Type} [Axis A]
/-- hashhistogram.rs:117-128; starts with the entries in the order in which the map yields them -/
def iterL (h : HashHistogram A V) : LIter (List (Nat × V)) (Item (Axis.Interval A) V) :=
  LIter.list.map fun (index, value) => do
    let b ← Axis.bin h.axes index
    let bin ← expect b
    return { index, bin, value }

/-- hashhistogram.rs:138-149; a reference into the map is represented by the key -/
def iterMutL (h : HashHistogram A V) : LIter (List Nat) (Item (Axis.Interval A) Nat) :=
  LIter.list.map fun index => do
    let b ← Axis.bin h.axes index
    let bin ← expect b
    return { index, bin, value := index }

/-- a change through the reference to the value of a key -/
def setKey (f : V → V × Flow) (key : Nat) (h : HashHistogram A V) : HashHistogram A V × Flow :=
  match h.values.get key with
  | none => (h, .next)
  | some v => ({ h with values := h.values.insert key (f v).1 }, (f v).2)

/-- `for item in h.iter_mut() { … }` -/
def loopMut (h : HashHistogram A V) (o : h.values.Order) (fuel : Nat) (f : Nat → Axis.Interval A → V → V × Flow) : HashHistogram A V × Option Panic :=
  h.iterMutL.forLoop (fun item => setKey (f item.index item.bin) item.value) fuel (o.list.map (·.1)) h

/-- `for value in h.values_mut() { … }` (hashhistogram.rs:134-136) -/
def loopValuesMut (h : HashHistogram A V) (o : h.values.Order) (fuel : Nat) (f : V → V × Flow) : HashHistogram A V × Option Panic :=
  LIter.list.forLoop (fun key => setKey f key) fuel (o.list.map (·.1)) h
end HashHistogram
end NdHist
