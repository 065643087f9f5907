import Verif.Model.Hist
/-!
# Parallel iteration (feature `rayon`; histogram/vechistogram.rs:373-438, histogram/hashhistogram.rs:423-490)

`rayon` is not in the repository. It runs the closure once for each item, on any threads, in any order and
interleaved in any way; each item owns a `&mut` to a different bin value. An item's work is modelled as a list of atomic steps on its
bin, a schedule as the list of items whose next step runs. If a closure panics, rayon may or may not run the remaining
items before it resumes the panic: an incomplete schedule.
-/
namespace NdHist

/-- one item in flight: the bin value it owns, what remains to be done, and the panic that ended it -/
structure Task (V : Type) where
  place : V
  todo : List (Upd V)
  panic : Option Panic

namespace Task
variable {V : Type}
/-- run the next step of the task, if any; a panic ends the task -/
def step : Task V → Task V
  | ⟨v, [], p⟩ => ⟨v, [], p⟩
  | ⟨v, s :: ss, p⟩ =>
    match s v with
    | (v', none) => ⟨v', ss, p⟩
    | (v', some q) => ⟨v', [], some q⟩
end Task

/-- run a schedule: each entry is the number of the task that makes its next step -/
def runSchedule {V : Type} : List Nat → List (Task V) → List (Task V)
  | [], ts => ts
  | i :: sched, ts => runSchedule sched (ts.modify i Task.step)

/-- the schedule ran every task to its end -/
def AllDone {V : Type} (ts : List (Task V)) : Prop := ∀ t ∈ ts, t.todo = []

namespace VecHistogram
variable {A V : Type} [Cfg] [Axis A]

/-- The item's own work before the user's closure: `bin: axes.bin(i).expect(..)`
(vechistogram.rs:431-435), then the steps of the closure. -/
def itemWork (axes : A) (body : Nat → Axis.Interval A → List (Upd V)) (i : Nat) : List (Upd V) :=
  match Axis.bin axes i with
  | .error p => [fun v => (v, some p)]
  | .ok none => [fun v => (v, some .expectNone)]
  | .ok (some b) => body i b

/-- the tasks of `par_iter_mut().for_each(body)` (vechistogram.rs:421-437): one for each stored value, numbered with
`enumerate` -/
def parIterMutTasks (h : VecHistogram A V) (body : Nat → Axis.Interval A → List (Upd V)) : List (Task V) :=
  h.values.mapIdx fun i v => ⟨v, itemWork h.axes body i, none⟩

/-- `par_iter_mut().for_each(body)` under a schedule: the histogram and the panics that happened -/
def parIterMut (h : VecHistogram A V) (body : Nat → Axis.Interval A → List (Upd V)) (sched : List Nat) :
    VecHistogram A V × List (Option Panic) :=
  let ts := runSchedule sched (h.parIterMutTasks body)
  ({ h with values := ts.map (·.place) }, ts.map (·.panic))

/-- the tasks of `par_values_mut().for_each(body)` (vechistogram.rs:386-391); with `.enumerate()` the closure may know the
number of the value -/
def parValuesMutTasks (h : VecHistogram A V) (body : Nat → List (Upd V)) : List (Task V) :=
  h.values.mapIdx fun i v => ⟨v, body i, none⟩

/-- `par_values_mut().for_each(body)` under a schedule -/
def parValuesMut (h : VecHistogram A V) (body : Nat → List (Upd V)) (sched : List Nat) :
    VecHistogram A V × List (Option Panic) :=
  let ts := runSchedule sched (h.parValuesMutTasks body)
  ({ h with values := ts.map (·.place) }, ts.map (·.panic))

/-- `par_iter().collect()` (vechistogram.rs:396-416): an indexed parallel iterator, each item computed on its own -/
def parIter (h : VecHistogram A V) : List (Res (Item (Axis.Interval A) V)) :=
  h.values.mapIdx fun index value => do
    let b ← Axis.bin h.axes index
    let bin ← expect b
    return { index, bin, value }

/-- `par_values().collect()` (vechistogram.rs:376-381) -/
def parValues (h : VecHistogram A V) : List V := h.values
end VecHistogram

namespace HashHistogram
variable {A V : Type} [Cfg] [Axis A]

/-- the tasks of `par_iter_mut().for_each(body)` (hashhistogram.rs:471-489), one for each entry of the map -/
def parIterMutTasks (h : HashHistogram A V) (body : Nat → Axis.Interval A → List (Upd V)) : List (Task V) :=
  h.values.entries.map fun kv => ⟨kv.2, VecHistogram.itemWork h.axes body kv.1, none⟩

/-- `par_iter_mut().for_each(body)` under a schedule. The keys cannot change. -/
def parIterMut (h : HashHistogram A V) (body : Nat → Axis.Interval A → List (Upd V)) (sched : List Nat) :
    HashHistogram A V × List (Option Panic) :=
  let ts := runSchedule sched (h.parIterMutTasks body)
  ({ h with values := ⟨h.values.keys.zip (ts.map (·.place))⟩ }, ts.map (·.panic))

/-- `par_values_mut().for_each(body)` (hashhistogram.rs:439-444) under a schedule -/
def parValuesMut (h : HashHistogram A V) (body : List (Upd V)) (sched : List Nat) :
    HashHistogram A V × List (Option Panic) :=
  let ts := runSchedule sched (h.values.entries.map fun kv => ⟨kv.2, body, none⟩)
  ({ h with values := ⟨h.values.keys.zip (ts.map (·.place))⟩ }, ts.map (·.panic))

/-- `par_iter()` (hashhistogram.rs:450-466): the items, in whatever order the map yields its entries -/
def parIter (h : HashHistogram A V) (o : h.values.Order) : List (Res (Item (Axis.Interval A) V)) :=
  o.list.map fun kv => do
    let b ← Axis.bin h.axes kv.1
    let bin ← expect b
    return { index := kv.1, bin, value := kv.2 }
end HashHistogram
end NdHist
