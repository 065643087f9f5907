import Verif.SpecProg
/-!
# Specification vocabulary: which panics a program can meet
-/
namespace NdHist

/-- an axis whose methods never panic: `n` bins, and every coordinate can be looked up -/
structure TotalAxis [Cfg] {A : Type} [Axis A] (a : A) (n : Nat) : Prop where
  lawful : LawfulAxis a n
  total : ∀ c, IndexTotal a c

namespace HistProg
variable {A V R : Type} [Cfg] [Axis A]

/-- the panic of a computation, if any -/
def panicOf {B : Type} : Res B → List Panic
  | .error p => [p]
  | .ok _ => []

/-- All panics that occur while the program runs with dense histograms, caught or not, in order. -/
def panicsDense [PEq A] [ROps V] [RDefault V] : HistProg A V R → (Nat → VecHistogram A V) → List Panic
  | .done _, _ => []
  | .call x c k, env => let r := (env x).call c; r.2.toList ++ panicsDense (k r.2) (set env x r.1)
  | .value x c k, env => panicOf ((env x).value c) ++ panicsDense (k (((env x).value c).map (·.getD RDefault.dflt))) env
  | .valueAt x i k, env => panicsDense (k (((env x).valueAtIndex i).getD RDefault.dflt)) env
  | .valueMut x c f k, env =>
    match (env x).valueMut c f with
    | .error p => p :: panicsDense (k (some p)) env
    | .ok none => panicsDense (k none) env
    | .ok (some r) => r.2.toList ++ panicsDense (k r.2) (set env x r.1)
  | .forEach x f k, env =>
    match (env x).iterMut f with
    | (h, none) => panicsDense k (set env x h)
    | (_, some p) => [p]
  | .clone x y k, env => panicsDense k (set env y (env x))
  | .borrow o x y z k, env =>
    match (env x).opBorrow o (env y) with
    | .error p => [p]
    | .ok (.error _) => panicsDense (k false) env
    | .ok (.ok h) => panicsDense (k true) (set env z h)
  | .owned o x y z k, env =>
    match (env x).opOwned o (env y) with
    | .error p => [p]
    | .ok (.error _) => panicsDense (k false) env
    | .ok (.ok h) => panicsDense (k true) (set env z h)
  | .assign o x y k, env =>
    match (env x).opAssign o (env y) with
    | (h, none) => panicsDense k (set env x h)
    | (_, some p) => [p]

/-- The same with sparse histograms. -/
def panicsSparse [PEq A] [ROps V] [RDefault V] : HistProg A V R → (Nat → MapOrders A V) → (Nat → HashHistogram A V) → List Panic
  | .done _, _, _ => []
  | .call x c k, w, env => let r := (env x).call c; r.2.toList ++ panicsSparse (k r.2) (fun i => w (i + 1)) (set env x r.1)
  | .value x c k, w, env => panicOf ((env x).value c) ++ panicsSparse (k (((env x).value c).map (·.getD RDefault.dflt))) (fun i => w (i + 1)) env
  | .valueAt x i k, w, env => panicsSparse (k (((env x).valueAtIndex i).getD RDefault.dflt)) (fun i => w (i + 1)) env
  | .valueMut x c f k, w, env =>
    match (env x).valueMut c f with
    | .error p => p :: panicsSparse (k (some p)) (fun i => w (i + 1)) env
    | .ok none => panicsSparse (k none) (fun i => w (i + 1)) env
    | .ok (some r) => r.2.toList ++ panicsSparse (k r.2) (fun i => w (i + 1)) (set env x r.1)
  | .forEach x f k, w, env =>
    match (env x).iterMut ((w 0).map _) f with
    | (h, none) => panicsSparse k (fun i => w (i + 1)) (set env x h)
    | (_, some p) => [p]
  | .clone x y k, w, env => panicsSparse k (fun i => w (i + 1)) (set env y (env x))
  | .borrow o x y z k, w, env =>
    match (env x).opBorrow o (env y) ((w 0).keys _ _) with
    | .error p => [p]
    | .ok (.error _) => panicsSparse (k false) (fun i => w (i + 1)) env
    | .ok (.ok h) => panicsSparse (k true) (fun i => w (i + 1)) (set env z h)
  | .owned o x y z k, w, env =>
    match (env x).opOwned o (env y) ((w 0).map _) with
    | .error p => [p]
    | .ok (.error _) => panicsSparse (k false) (fun i => w (i + 1)) env
    | .ok (.ok h) => panicsSparse (k true) (fun i => w (i + 1)) (set env z h)
  | .assign o x y k, w, env =>
    match (env x).opAssign o (env y) ((w 0).map _) with
    | (h, none) => panicsSparse k (fun i => w (i + 1)) (set env x h)
    | (_, some p) => [p]

/-- `E` are the panics that the program's own closures and the operations of the value type (filling a single value, `v op v'`, `v op= v'`) can end in. -/
def OwnPanics [ROps V] (E : Panic → Prop) : HistProg A V R → Prop
  | .done _ => True
  | .call _ c k => (∀ v p, (c.on v).2 = some p → E p) ∧ ∀ r, OwnPanics E (k r)
  | .value _ _ k => ∀ r, OwnPanics E (k r)
  | .valueAt _ _ k => ∀ r, OwnPanics E (k r)
  | .valueMut _ _ f k => (∀ v p, (f v).2 = some p → E p) ∧ ∀ r, OwnPanics E (k r)
  | .forEach _ f k => (∀ i b v p, (f i b v).2 = some p → E p) ∧ OwnPanics E k
  | .clone _ _ k => OwnPanics E k
  | .borrow o _ _ _ k => (∀ (v v' : V) p, ROps.op o v v' = .error p → E p) ∧ ∀ r, OwnPanics E (k r)
  | .owned o _ _ _ k => (∀ (v v' : V) p, (ROps.opAssign o v' v).2 = some p → E p) ∧ ∀ r, OwnPanics E (k r)
  | .assign o _ _ k => (∀ (v v' : V) p, (ROps.opAssign o v' v).2 = some p → E p) ∧ OwnPanics E k

/-- The program uses the filling methods of numbers (`fill`, and `fill_with` a number), closures that do not panic, and the operators in `ops`. -/
def Numeric [RNum V] (ops : Op → Prop) : HistProg A V R → Prop
  | .done _ => True
  | .call _ c k => ((∃ x, c = .fill x) ∨ ∃ x, ∃ d : V, c = .fillWith x d) ∧ ∀ r, Numeric ops (k r)
  | .value _ _ k => ∀ r, Numeric ops (k r)
  | .valueAt _ _ k => ∀ r, Numeric ops (k r)
  | .valueMut _ _ f k => (∀ v, (f v).2 = none) ∧ ∀ r, Numeric ops (k r)
  | .forEach _ f k => (∀ i b v, (f i b v).2 = none) ∧ Numeric ops k
  | .clone _ _ k => Numeric ops k
  | .borrow o _ _ _ k => ops o ∧ ∀ r, Numeric ops (k r)
  | .owned o _ _ _ k => ops o ∧ ∀ r, Numeric ops (k r)
  | .assign o _ _ k => ops o ∧ Numeric ops k

end HistProg
end NdHist
