import Verif.Model.Hist
/-!
# Sequences of calls on a histogram

What a program using the crate does to a histogram: calls of `fill`, `fill_with` and `fill_with_weighted`
(histogram/histogram.rs:62-97).
-/
namespace NdHist

/-- One call of a filling method. Every combination of coordinate and data for which the value type implements the
corresponding trait is a call, so a history may mix calls of all three kinds and data of several types. -/
inductive Call (V C : Type) : Type 1 where
  | fill [Fill V] (c : C)
  | fillWith {D : Type} [FillWith V D] (c : C) (data : D)
  | fillWithWeighted {D W : Type} [FillWithWeighted V D W] (c : C) (data : D) (weight : W)

namespace Call
variable {V C : Type}
/-- the coordinate passed -/
def coord : Call V C → C
  | @fill _ _ _ c => c
  | @fillWith _ _ _ _ c _ => c
  | @fillWithWeighted _ _ _ _ _ c _ _ => c

/-- what the bin value's own implementation of the trait does (histogram/fill.rs) -/
def on : Call V C → Upd V
  | @fill _ _ _ _ => Fill.fill
  | @fillWith _ _ _ _ _ d => FillWith.fillWith d
  | @fillWithWeighted _ _ _ _ _ _ d w => FillWithWeighted.fillWithWeighted d w
end Call

namespace VecHistogram
variable {A V : Type} [Cfg] [Axis A]

/-- make the call on a dense histogram -/
def call (h : VecHistogram A V) : Call V (Axis.Coordinate A) → VecHistogram A V × Option Panic
  | @Call.fill _ _ _ c => h.fill c
  | @Call.fillWith _ _ _ _ c d => h.fillWith c d
  | @Call.fillWithWeighted _ _ _ _ _ c d w => h.fillWithWeighted c d w

/-- a program that stops at the first panic -/
def callAll (h : VecHistogram A V) : List (Call V (Axis.Coordinate A)) → VecHistogram A V × Option Panic
  | [] => (h, none)
  | c :: cs =>
    match h.call c with
    | (h', some p) => (h', some p)
    | (h', none) => callAll h' cs

/-- a program that catches every panic and goes on -/
def callAllCaught (h : VecHistogram A V) (calls : List (Call V (Axis.Coordinate A))) : VecHistogram A V :=
  calls.foldl (fun h c => (h.call c).1) h
end VecHistogram

namespace HashHistogram
variable {A V : Type} [Cfg] [Axis A] [RDefault V]

/-- make the call on a sparse histogram -/
def call (h : HashHistogram A V) : Call V (Axis.Coordinate A) → HashHistogram A V × Option Panic
  | @Call.fill _ _ _ c => h.fill c
  | @Call.fillWith _ _ _ _ c d => h.fillWith c d
  | @Call.fillWithWeighted _ _ _ _ _ c d w => h.fillWithWeighted c d w

/-- a program that stops at the first panic -/
def callAll (h : HashHistogram A V) : List (Call V (Axis.Coordinate A)) → HashHistogram A V × Option Panic
  | [] => (h, none)
  | c :: cs =>
    match h.call c with
    | (h', some p) => (h', some p)
    | (h', none) => callAll h' cs

/-- a program that catches every panic and goes on -/
def callAllCaught (h : HashHistogram A V) (calls : List (Call V (Axis.Coordinate A))) : HashHistogram A V :=
  calls.foldl (fun h c => (h.call c).1) h
end HashHistogram
end NdHist
