import Mathlib.Data.List.Sort
import Verif.SpecProg
import Verif.Model.Parallel
/-!
# Specification vocabulary: programs with sparse histograms, and the hasher

`HashHistogram` has a type parameter `S`, the hasher (hashhistogram.rs:18-40, 95-100). The hasher, its seed, and the insertions and removals made before determine in which
order a `HashMap` yields its entries. The programs below may do anything with sparse histograms that does not ask for the order itself: what they read of an iteration they
sort, or add up with an operation for which the order does not matter.
-/
namespace NdHist

/-- Two sparse histograms that hold the same: equal axes, and equal values under the same bin numbers. (`NodupKeys`: a `HashMap` has no key twice.) -/
structure SameHist {A V : Type} (h h' : HashHistogram A V) : Prop where
  axes : h.axes = h'.axes
  nodup : h.values.NodupKeys
  nodup' : h'.values.NodupKeys
  value : ∀ i, h.valueAtIndex i = h'.valueAtIndex i

/-- Histogram variables are numbered. `R`: type of the result. Each constructor is one statement and the rest of the program. -/
inductive SparseProg (A V R : Type) [Cfg] [Axis A] : Type 1 where
  /-- end of the program -/
  | done (r : R)
  /-- `x = HashHistogram::new(axes)` or `with_hasher(axes, ..)` -/
  | new (x : Nat) (axes : A) (k : SparseProg A V R)
  /-- `match HashHistogram::from_map(axes, HashMap::from_iter(l)) { Ok(h) => x = h, Err(e) => .. }`, in a `catch_unwind` -/
  | fromMap (x : Nat) (axes : A) (l : List (Nat × V)) (k : Res (Except Error Unit) → SparseProg A V R)
  /-- `x.fill(&c)`, `x.fill_with(&c, d)`, `x.fill_with_weighted(&c, d, w)`, in a `catch_unwind` -/
  | call (x : Nat) (c : Call V (Axis.Coordinate A)) (k : Option Panic → SparseProg A V R)
  /-- `x.value(&c)`, in a `catch_unwind` -/
  | value (x : Nat) (c : Axis.Coordinate A) (k : Res (Option V) → SparseProg A V R)
  /-- `x.value_at_index(i)` -/
  | valueAt (x : Nat) (i : Nat) (k : Option V → SparseProg A V R)
  /-- `x.value_mut(&c).map(f)`, in a `catch_unwind` -/
  | valueMut (x : Nat) (c : Axis.Coordinate A) (f : Upd V) (k : Res (Option (Option Panic)) → SparseProg A V R)
  /-- `x.value_at_index_mut(i).map(f)`, in a `catch_unwind` -/
  | valueAtMut (x : Nat) (i : Nat) (f : Upd V) (k : Option (Option Panic) → SparseProg A V R)
  /-- `for v in x.values_mut() { f(v) }` -/
  | forValues (x : Nat) (f : Upd V) (k : SparseProg A V R)
  /-- `for item in x.iter_mut() { f(item.index, item.bin, item.value) }` -/
  | forEach (x : Nat) (f : Nat → Axis.Interval A → Upd V) (k : SparseProg A V R)
  /-- `let mut l: Vec<_> = x.iter().collect(); l.sort_by_key(|item| item.index)` -/
  | items (x : Nat) (k : List (Item (Axis.Interval A) V) → SparseProg A V R)
  /-- `x.values().fold(b, f)` where `f` may be applied to the values in any order -/
  | fold (x : Nat) (β : Type) (b : β) (f : β → V → β) (comm : ∀ b v w, f (f b v) w = f (f b w) v) (k : β → SparseProg A V R)
  /-- `x.as_map().len()` -/
  | len (x : Nat) (k : Nat → SparseProg A V R)
  /-- `x == y` -/
  | eq (x y : Nat) (k : Bool → SparseProg A V R)
  /-- `y = x.clone()` -/
  | clone (x y : Nat) (k : SparseProg A V R)
  /-- `match &x op &y { Ok(h) => z = h, Err(_) => .. }` -/
  | borrow (o : Op) (x y z : Nat) (k : Bool → SparseProg A V R)
  /-- the same with `x.clone() op &y` -/
  | owned (o : Op) (x y z : Nat) (k : Bool → SparseProg A V R)
  /-- `x op= &y` -/
  | assign (o : Op) (x y : Nat) (k : SparseProg A V R)

namespace SparseProg
variable {A V R : Type} [Cfg] [Axis A]
open HistProg (set MapOrders)

/-- Run the program with the orders `w 0, w 1, …` of the maps at its statements: the final content of the variables and the result, or the panic that ended the program. -/
def run [PEq A] [PEq V] [ROps V] [RDefault V] : SparseProg A V R → (Nat → MapOrders A V) → (Nat → HashHistogram A V) →
    Res ((Nat → HashHistogram A V) × R)
  | .done r, _, env => .ok (env, r)
  | .new x axes k, w, env => run k (fun i => w (i + 1)) (set env x (HashHistogram.new axes))
  | .fromMap x axes l k, w, env =>
    match HashHistogram.fromMap axes (HMap.collect l) with
    | .error p => run (k (.error p)) (fun i => w (i + 1)) env
    | .ok (.error e) => run (k (.ok (.error e))) (fun i => w (i + 1)) env
    | .ok (.ok h) => run (k (.ok (.ok ()))) (fun i => w (i + 1)) (set env x h)
  | .call x c k, w, env => let r := (env x).call c; run (k r.2) (fun i => w (i + 1)) (set env x r.1)
  | .value x c k, w, env => run (k ((env x).value c)) (fun i => w (i + 1)) env
  | .valueAt x i k, w, env => run (k ((env x).valueAtIndex i)) (fun i => w (i + 1)) env
  | .valueMut x c f k, w, env =>
    match (env x).valueMut c f with
    | .error p => run (k (.error p)) (fun i => w (i + 1)) env
    | .ok none => run (k (.ok none)) (fun i => w (i + 1)) env
    | .ok (some r) => run (k (.ok (some r.2))) (fun i => w (i + 1)) (set env x r.1)
  | .valueAtMut x i f k, w, env =>
    match (env x).valueAtIndexMut i f with
    | none => run (k none) (fun i => w (i + 1)) env
    | some r => run (k (some r.2)) (fun i => w (i + 1)) (set env x r.1)
  | .forValues x f k, w, env =>
    match (env x).valuesMut ((w 0).map _) f with
    | (h, none) => run k (fun i => w (i + 1)) (set env x h)
    | (_, some p) => .error p
  | .forEach x f k, w, env =>
    match (env x).iterMut ((w 0).map _) f with
    | (h, none) => run k (fun i => w (i + 1)) (set env x h)
    | (_, some p) => .error p
  | .items x k, w, env =>
    match (env x).iter ((w 0).map _) with
    | .ok l => run (k (l.insertionSort fun a b => a.index ≤ b.index)) (fun i => w (i + 1)) env
    | .error p => .error p
  | .fold x _ b f _ k, w, env => run (k (((env x).valuesIter ((w 0).map _)).foldl f b)) (fun i => w (i + 1)) env
  | .len x k, w, env => run (k (env x).asMap.len) (fun i => w (i + 1)) env
  | .eq x y k, w, env => run (k ((env x).beq (env y))) (fun i => w (i + 1)) env
  | .clone x y k, w, env => run k (fun i => w (i + 1)) (set env y (env x))
  | .borrow o x y z k, w, env =>
    match (env x).opBorrow o (env y) ((w 0).keys _ _) with
    | .error p => .error p
    | .ok (.error _) => run (k false) (fun i => w (i + 1)) env
    | .ok (.ok h) => run (k true) (fun i => w (i + 1)) (set env z h)
  | .owned o x y z k, w, env =>
    match (env x).opOwned o (env y) ((w 0).map _) with
    | .error p => .error p
    | .ok (.error _) => run (k false) (fun i => w (i + 1)) env
    | .ok (.ok h) => run (k true) (fun i => w (i + 1)) (set env z h)
  | .assign o x y k, w, env =>
    match (env x).opAssign o (env y) ((w 0).map _) with
    | (h, none) => run k (fun i => w (i + 1)) (set env x h)
    | (_, some p) => .error p

/-- Two runs end in the same way: with the same result and variables that hold the same, or both with a panic. -/
def SameEnd : Res ((Nat → HashHistogram A V) × R) → Res ((Nat → HashHistogram A V) × R) → Prop
  | .ok (env, r), .ok (env', r') => r = r' ∧ ∀ x, SameHist (env x) (env' x)
  | .error _, .error _ => True
  | _, _ => False
end SparseProg
end NdHist
