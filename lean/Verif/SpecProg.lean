import Verif.SpecEqual
import Verif.SpecHist
/-!
# Specification vocabulary: programs that use histograms

Programs with any number of histogram variables, written once and run with dense or with sparse histograms. What a program does next
may depend on everything it has read so far (the continuations `k`), and it ends with a result computed from that.
-/
namespace NdHist

/-- Histogram variables are numbered. `R`: type of the result. Each constructor is one statement and the rest of the program. -/
inductive HistProg (A V R : Type) [Cfg] [Axis A] : Type 1 where
  /-- end of the program -/
  | done (r : R)
  /-- `x.fill(&c)`, `x.fill_with(&c, d)`, `x.fill_with_weighted(&c, d, w)`, in a `catch_unwind` -/
  | call (x : Nat) (c : Call V (Axis.Coordinate A)) (k : Option Panic → HistProg A V R)
  /-- `x.value(&c).cloned().unwrap_or_default()`, in a `catch_unwind` -/
  | value (x : Nat) (c : Axis.Coordinate A) (k : Res V → HistProg A V R)
  /-- `x.value_at_index(i).cloned().unwrap_or_default()` -/
  | valueAt (x : Nat) (i : Nat) (k : V → HistProg A V R)
  /-- `if let Some(v) = x.value_mut(&c) { f(v) }`, in a `catch_unwind` -/
  | valueMut (x : Nat) (c : Axis.Coordinate A) (f : Upd V) (k : Option Panic → HistProg A V R)
  /-- `for item in x.iter_mut() { f(item.index, item.bin, item.value) }` -/
  | forEach (x : Nat) (f : Nat → Axis.Interval A → Upd V) (k : HistProg A V R)
  /-- `y = x.clone()` -/
  | clone (x y : Nat) (k : HistProg A V R)
  /-- `let r = &x op &y; if let Ok(h) = r { z = h }`; the rest may depend on `r.is_ok()` -/
  | borrow (o : Op) (x y z : Nat) (k : Bool → HistProg A V R)
  /-- the same with `x.clone() op &y` -/
  | owned (o : Op) (x y z : Nat) (k : Bool → HistProg A V R)
  /-- `x op= &y` -/
  | assign (o : Op) (x y : Nat) (k : HistProg A V R)

namespace HistProg
variable {A V R : Type} [Cfg] [Axis A]

/-- assignment to a variable -/
def set {H : Type} (env : Nat → H) (x : Nat) (h : H) : Nat → H := fun y => if y = x then h else env y

/-- Run with dense histograms: the final content of the variables and the result, or the panic that ended the program. -/
def runDense [PEq A] [ROps V] [RDefault V] : HistProg A V R → (Nat → VecHistogram A V) → Res ((Nat → VecHistogram A V) × R)
  | .done r, env => .ok (env, r)
  | .call x c k, env => let r := (env x).call c; runDense (k r.2) (set env x r.1)
  | .value x c k, env => runDense (k (((env x).value c).map (·.getD RDefault.dflt))) env
  | .valueAt x i k, env => runDense (k (((env x).valueAtIndex i).getD RDefault.dflt)) env
  | .valueMut x c f k, env =>
    match (env x).valueMut c f with
    | .error p => runDense (k (some p)) env
    | .ok none => runDense (k none) env
    | .ok (some r) => runDense (k r.2) (set env x r.1)
  | .forEach x f k, env =>
    match (env x).iterMut f with
    | (h, none) => runDense k (set env x h)
    | (_, some p) => .error p
  | .clone x y k, env => runDense k (set env y (env x))
  | .borrow o x y z k, env =>
    match (env x).opBorrow o (env y) with
    | .error p => .error p
    | .ok (.error _) => runDense (k false) env
    | .ok (.ok h) => runDense (k true) (set env z h)
  | .owned o x y z k, env =>
    match (env x).opOwned o (env y) with
    | .error p => .error p
    | .ok (.error _) => runDense (k false) env
    | .ok (.ok h) => runDense (k true) (set env z h)
  | .assign o x y k, env =>
    match (env x).opAssign o (env y) with
    | (h, none) => runDense k (set env x h)
    | (_, some p) => .error p

/-- the orders in which the hash maps happen to iterate at one statement -/
structure MapOrders (A V : Type) where
  map : ∀ m : HMap Nat V, m.Order
  keys : ∀ l r : HashHistogram A V, HashHistogram.KeyOrder l r

/-- The same program run with sparse histograms, with arbitrary orders `w 0, w 1, …` of the maps at its statements. -/
def runSparse [PEq A] [ROps V] [RDefault V] : HistProg A V R → (Nat → MapOrders A V) → (Nat → HashHistogram A V) →
    Res ((Nat → HashHistogram A V) × R)
  | .done r, _, env => .ok (env, r)
  | .call x c k, w, env => let r := (env x).call c; runSparse (k r.2) (fun i => w (i + 1)) (set env x r.1)
  | .value x c k, w, env => runSparse (k (((env x).value c).map (·.getD RDefault.dflt))) (fun i => w (i + 1)) env
  | .valueAt x i k, w, env => runSparse (k (((env x).valueAtIndex i).getD RDefault.dflt)) (fun i => w (i + 1)) env
  | .valueMut x c f k, w, env =>
    match (env x).valueMut c f with
    | .error p => runSparse (k (some p)) (fun i => w (i + 1)) env
    | .ok none => runSparse (k none) (fun i => w (i + 1)) env
    | .ok (some r) => runSparse (k r.2) (fun i => w (i + 1)) (set env x r.1)
  | .forEach x f k, w, env =>
    match (env x).iterMut ((w 0).map _) f with
    | (h, none) => runSparse k (fun i => w (i + 1)) (set env x h)
    | (_, some p) => .error p
  | .clone x y k, w, env => runSparse k (fun i => w (i + 1)) (set env y (env x))
  | .borrow o x y z k, w, env =>
    match (env x).opBorrow o (env y) ((w 0).keys _ _) with
    | .error p => .error p
    | .ok (.error _) => runSparse (k false) (fun i => w (i + 1)) env
    | .ok (.ok h) => runSparse (k true) (fun i => w (i + 1)) (set env z h)
  | .owned o x y z k, w, env =>
    match (env x).opOwned o (env y) ((w 0).map _) with
    | .error p => .error p
    | .ok (.error _) => runSparse (k false) (fun i => w (i + 1)) env
    | .ok (.ok h) => runSparse (k true) (fun i => w (i + 1)) (set env z h)
  | .assign o x y k, w, env =>
    match (env x).opAssign o (env y) ((w 0).map _) with
    | (h, none) => runSparse k (fun i => w (i + 1)) (set env x h)
    | (_, some p) => .error p

/-- The program keeps empty bins empty: loop bodies and closures do nothing to the default value; `&x op &y` maps two default values to
the default value; in the forms that reuse the left operand, the default value as right operand does nothing. `Q`: the values that occur
in bins, e.g. all of them, or all floats except negative zero; every statement makes such values of such values. -/
def KeepsEmpty [ROps V] [RDefault V] (Q : V → Prop) : HistProg A V R → Prop
  | .done _ => True
  | .call _ c k => (∀ v, Q v → Q (c.on v).1) ∧ ∀ r, KeepsEmpty Q (k r)
  | .value _ _ k => ∀ r, KeepsEmpty Q (k r)
  | .valueAt _ _ k => ∀ r, KeepsEmpty Q (k r)
  | .valueMut _ _ f k => f RDefault.dflt = (RDefault.dflt, none) ∧ (∀ v, Q v → Q (f v).1) ∧ ∀ r, KeepsEmpty Q (k r)
  | .forEach _ f k => (∀ i b, f i b RDefault.dflt = (RDefault.dflt, none)) ∧ (∀ i b v, Q v → Q (f i b v).1) ∧ KeepsEmpty Q k
  | .clone _ _ k => KeepsEmpty Q k
  | .borrow o _ _ _ k => ROps.op o RDefault.dflt (RDefault.dflt : V) = .ok RDefault.dflt ∧
    (∀ v v' z, Q v → Q v' → ROps.op o v v' = .ok z → Q z) ∧ ∀ r, KeepsEmpty Q (k r)
  | .owned o _ _ _ k => (∀ v : V, Q v → ROps.op o v RDefault.dflt = .ok v) ∧
    (∀ v v' z, Q v → Q v' → ROps.op o v v' = .ok z → Q z) ∧ ∀ r, KeepsEmpty Q (k r)
  | .assign o _ _ k => (∀ v : V, Q v → ROps.op o v RDefault.dflt = .ok v) ∧
    (∀ v v' z, Q v → Q v' → ROps.op o v v' = .ok z → Q z) ∧ KeepsEmpty Q k

end HistProg

/-- A dense and a sparse histogram with the same content: same axes, and every bin has in the dense histogram the value it has in the
sparse one, or the default value if the sparse one has no such bin. -/
structure SameContent {A V : Type} [Cfg] [Axis A] [RDefault V] (d : VecHistogram A V) (s : HashHistogram A V) : Prop where
  axes : d.axes = s.axes
  value : ∀ i v, d.valueAtIndex i = some v → (s.valueAtIndex i).getD RDefault.dflt = v

/-- Both are well formed, have the same content, axes in `P` and values in `Q`. -/
structure Alike {A V : Type} [Cfg] [Axis A] [RDefault V] (P : A → Prop) (Q : V → Prop) (d : VecHistogram A V) (s : HashHistogram A V) :
    Prop where
  known : P d.axes
  ok : ∃ n, d.Ok n ∧ s.Ok n
  same : SameContent d s
  vals : ∀ i v, d.valueAtIndex i = some v → Q v

end NdHist
