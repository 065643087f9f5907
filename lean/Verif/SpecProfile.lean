import Verif.Model.Axes
import Verif.Model.History
import Verif.Model.Iter
import Verif.Model.Display
/-!
# Specification vocabulary: the same program in a debug and in a release build

A Rust program is compiled with overflow checks (debug profile) or without them (release profile). The two builds run on the same platform, so `usize` has the
same width. The types of the crate are the same in both builds; only because the model's tuples of axes carry the code of their axes, a tuple of the one build is
a different Lean type than the tuple of the other, so "the same axes" and "the same coordinates" are relations that say: component by component equal.
-/
namespace NdHist

/-- build with overflow checks, `b`-bit platform -/
@[reducible] def debugBuild (b : Nat) (hb : 16 ≤ b) : Cfg := ⟨b, true, hb⟩
/-- build without overflow checks, `b`-bit platform -/
@[reducible] def releaseBuild (b : Nat) (hb : 16 ≤ b) : Cfg := ⟨b, false, hb⟩

/-- The outcome `d` in the debug build and the outcome `r` in the release build of the same computation: if the debug build returns, the release build returns
the same (`S`); if the debug build panics for another reason than overflow, so does the release build, for the same reason. -/
def Builds {α β : Type} (S : α → β → Prop) (d : Res α) (r : Res β) : Prop :=
  match d with
  | .ok x => ∃ y, r = .ok y ∧ S x y
  | .error p => p = .overflow ∨ r = .error p

/-- The same for code that changes a place: unless the debug build panics with overflow, the place ends up the same and so does the outcome. -/
def BuildsUpd {σ τ : Type} (S : σ → τ → Prop) (d : σ × Option Panic) (r : τ × Option Panic) : Prop :=
  d.2 = some .overflow ∨ (S d.1 r.1 ∧ r.2 = d.2)

/-- the same update in the two builds -/
def UpdBuilds {σ : Type} (f g : Upd σ) : Prop := ∀ v, BuildsUpd Eq (f v) (g v)

/-- both absent, or both present and related -/
def BothOption {α β : Type} (S : α → β → Prop) : Option α → Option β → Prop
  | none, none => True
  | some x, some y => S x y
  | _, _ => False

/-- Both the same error, or both a value and related. -/
def BothExcept {ε α β : Type} (S : α → β → Prop) : Except ε α → Except ε β → Prop
  | .error e, .error e' => e = e'
  | .ok x, .ok y => S x y
  | _, _ => False

section
variable {b : Nat} {hb : 16 ≤ b}

/-- A number type whose operators differ in the two builds at most by overflow. -/
structure NumBuilds (b : Nat) (hb : 16 ≤ b) (T : Type) (d : @RNum T (debugBuild b hb)) (r : @RNum T (releaseBuild b hb)) : Prop where
  cmp : d.toPOrd = r.toPOrd
  zero : d.zero = r.zero
  one : d.one = r.one
  add x y : Builds Eq (d.add x y) (r.add x y)
  sub x y : Builds Eq (d.sub x y) (r.sub x y)
  mul x y : Builds Eq (d.mul x y) (r.mul x y)
  div x y : Builds Eq (d.div x y) (r.div x y)
  rem x y : Builds Eq (d.rem x y) (r.rem x y)
  ofUsize n : d.ofUsize n = r.ofUsize n
  toUsize x : d.toUsize x = r.toUsize x

/-- An axis type in the two builds: which axes, coordinates and intervals are the same. -/
structure TwinAxis (b : Nat) (hb : 16 ≤ b) (A A' : Type) (d : @Axis A (debugBuild b hb)) (r : @Axis A' (releaseBuild b hb)) : Type where
  axis : A → A' → Prop
  coord : d.Coordinate → r.Coordinate → Prop
  interval : d.Interval → r.Interval → Prop

/-- For every axis but the tuples, "the same" is equality. (`HEq` is equality of values whose types are equal by computation.) -/
def TwinAxis.equal {A : Type} (d : @Axis A (debugBuild b hb)) (r : @Axis A (releaseBuild b hb)) : TwinAxis b hb A A d r := ⟨Eq, (HEq · ·), (HEq · ·)⟩

/-- All methods of the axis agree in the two builds. -/
structure TwinAxis.Agree {A A' : Type} {d : @Axis A (debugBuild b hb)} {r : @Axis A' (releaseBuild b hb)} (s : TwinAxis b hb A A' d r) : Prop where
  index {a a' c c'} : s.axis a a' → s.coord c c' → Builds Eq (d.index a c) (r.index a' c')
  numBins {a a'} : s.axis a a' → Builds Eq (d.numBins a) (r.numBins a')
  bin {a a'} (i : Nat) : s.axis a a' → Builds (BothOption s.interval) (d.bin a i) (r.bin a' i)
  numDim {a a'} : s.axis a a' → d.numDim a = r.numDim a'

/-- a list of axis types in the two builds -/
inductive TwinAxes (b : Nat) (hb : 16 ≤ b) : List (@AxTy (debugBuild b hb)) → List (@AxTy (releaseBuild b hb)) → Type 1
  | nil : TwinAxes b hb [] []
  | cons {t : @AxTy (debugBuild b hb)} {t' : @AxTy (releaseBuild b hb)} {ts ts'} :
    TwinAxis b hb (@AxTy.A (debugBuild b hb) t) (@AxTy.A (releaseBuild b hb) t') (@AxTy.inst (debugBuild b hb) t) (@AxTy.inst (releaseBuild b hb) t') → TwinAxes b hb ts ts' → TwinAxes b hb (t :: ts) (t' :: ts')

namespace TwinAxes
/-- the methods of each of the axes agree -/
def Agree : {ts : List (@AxTy (debugBuild b hb))} → {ts' : List (@AxTy (releaseBuild b hb))} → TwinAxes b hb ts ts' → Prop
  | [], [], .nil => True
  | _ :: _, _ :: _, .cons e es => e.Agree ∧ es.Agree

/-- tuples of axes that are the same, component by component -/
def tup : {ts : List (@AxTy (debugBuild b hb))} → {ts' : List (@AxTy (releaseBuild b hb))} → TwinAxes b hb ts ts' →
    @Tup (debugBuild b hb) ts → @Tup (releaseBuild b hb) ts' → Prop
  | [], [], .nil, _, _ => True
  | _ :: _, _ :: _, .cons e es, (a, as), (a', as') => e.axis a a' ∧ es.tup as as'

/-- tuples of coordinates that are the same, component by component -/
def coords : {ts : List (@AxTy (debugBuild b hb))} → {ts' : List (@AxTy (releaseBuild b hb))} → TwinAxes b hb ts ts' →
    @Coords (debugBuild b hb) ts → @Coords (releaseBuild b hb) ts' → Prop
  | [], [], .nil, _, _ => True
  | _ :: _, _ :: _, .cons e es, (a, as), (a', as') => e.coord a a' ∧ es.coords as as'

/-- tuples of intervals that are the same, component by component -/
def intervals : {ts : List (@AxTy (debugBuild b hb))} → {ts' : List (@AxTy (releaseBuild b hb))} → TwinAxes b hb ts ts' →
    @Intervals (debugBuild b hb) ts → @Intervals (releaseBuild b hb) ts' → Prop
  | [], [], .nil, _, _ => True
  | _ :: _, _ :: _, .cons e es, (a, as), (a', as') => e.interval a a' ∧ es.intervals as as'
end TwinAxes

/-- `AxesTuple`s of the same axes, with the same shape -/
def TwinAxes.axesTuple {t₀ t₁ ts t₀' t₁' ts'} (e : TwinAxes b hb (t₀ :: t₁ :: ts) (t₀' :: t₁' :: ts'))
    (a : @AxesTuple (debugBuild b hb) t₀ t₁ ts) (a' : @AxesTuple (releaseBuild b hb) t₀' t₁' ts') : Prop :=
  e.tup (@AxesTuple.axes (debugBuild b hb) t₀ t₁ ts a) (@AxesTuple.axes (releaseBuild b hb) t₀' t₁' ts' a') ∧
    @AxesTuple.shape (debugBuild b hb) t₀ t₁ ts a = @AxesTuple.shape (releaseBuild b hb) t₀' t₁' ts' a'

/-- two and more axes in a tuple -/
def TwinAxes.tuple {t₀ t₁ ts t₀' t₁' ts'} (s : TwinAxes b hb (t₀ :: t₁ :: ts) (t₀' :: t₁' :: ts')) :
    TwinAxis b hb (@AxesTuple (debugBuild b hb) t₀ t₁ ts) (@AxesTuple (releaseBuild b hb) t₀' t₁' ts') (@AxesTuple.instAxis (debugBuild b hb) t₀ t₁ ts)
      (@AxesTuple.instAxis (releaseBuild b hb) t₀' t₁' ts') :=
  ⟨s.axesTuple, s.coords, s.intervals⟩

variable {A A' V : Type} {d : @Axis A (debugBuild b hb)} {r : @Axis A' (releaseBuild b hb)}

/-- one axis in a tuple -/
def TwinAxis.tuple1 (s : TwinAxis b hb A A' d r) :
    TwinAxis b hb (AxesTuple1 A) (AxesTuple1 A') (@AxesTuple1.instAxis A (debugBuild b hb) d) (@AxesTuple1.instAxis A' (releaseBuild b hb) r) :=
  ⟨fun a a' => s.axis a.axis a'.axis ∧ a.shape = a'.shape, s.coord, s.interval⟩

/-- dense histograms with the same axes and equal values -/
def TwinAxis.vec (e : TwinAxis b hb A A' d r) (h : VecHistogram A V) (h' : VecHistogram A' V) : Prop :=
  e.axis h.axes h'.axes ∧ h.values = h'.values

/-- sparse histograms with the same axes and equal contents -/
def TwinAxis.hash (e : TwinAxis b hb A A' d r) (h : HashHistogram A V) (h' : HashHistogram A' V) : Prop :=
  e.axis h.axes h'.axes ∧ h.values = h'.values

/-- items with the same bin number, the same interval and equal values -/
def TwinAxis.item (e : TwinAxis b hb A A' d r) (x : Item d.Interval V) (x' : Item r.Interval V) : Prop :=
  x.index = x'.index ∧ e.interval x.bin x'.bin ∧ x.value = x'.value

/-- The same filling call in the two builds: the same coordinate, and the bin value's own code differs at most by overflow. -/
def TwinAxis.call (e : TwinAxis b hb A A' d r) (k : Call V d.Coordinate) (k' : Call V r.Coordinate) : Prop :=
  e.coord k.coord k'.coord ∧ UpdBuilds k.on k'.on

/-- The operators of the bin values differ at most by overflow. -/
structure OpsBuilds (V : Type) (d r : ROps V) : Prop where
  op o x y : Builds Eq (d.op o x y) (r.op o x y)
  opAssign o x : UpdBuilds (d.opAssign o x) (r.opAssign o x)

/-- `==` of the axes gives the same answer. -/
def TwinAxis.Eqs (e : TwinAxis b hb A A' d r) (p : PEq A) (p' : PEq A') : Prop :=
  ∀ a₁ a₁' a₂ a₂', e.axis a₁ a₁' → e.axis a₂ a₂' → p.peq a₁ a₂ = p'.peq a₁' a₂'

/-- The text of the intervals is the same. -/
def TwinAxis.Texts (e : TwinAxis b hb A A' d r) (p : Disp d.Interval) (p' : Disp r.Interval) : Prop :=
  ∀ k x x', e.interval x x' → p.fmt k x = p'.fmt k x'

end

/-! ## Iterators and loops -/

/-- One call of `next()`: unless the debug build panics with overflow, the outcome is the same and the iterator is left in the same state. -/
def LIter.NextBuilds {σ α β : Type} (S : α → β → Prop) (it : LIter σ α) (it' : LIter σ β) (s : σ) : Prop :=
  (it.next s).1 = .error .overflow ∨ (Builds (BothOption S) (it.next s).1 (it'.next s).1 ∧ (it.next s).2 = (it'.next s).2)

/-- The same iterator in the two builds. -/
def LIter.Same {σ α β : Type} (S : α → β → Prop) (it : LIter σ α) (it' : LIter σ β) : Prop :=
  (∀ s, it.NextBuilds S it' s) ∧ it.hint = it'.hint

/-- The same loop body in the two builds: unless the debug build panics with overflow, it leaves the same and goes on, breaks or panics in the same way. -/
def BodyBuilds {σ τ : Type} (S : σ → τ → Prop) (d : σ × Flow) (r : τ × Flow) : Prop :=
  d.2 = .panic .overflow ∨ (S d.1 r.1 ∧ r.2 = d.2)

/-- The keys of a sparse histogram are not changed in parallel; entry by entry the values are the same, except where the debug build panics with overflow. -/
def EntriesBuild {V : Type} (o : HMap Nat V × List (Option Panic)) (o' : HMap Nat V × List (Option Panic)) : Prop :=
  List.Forall₂ (fun (x x' : (Nat × V) × Option Panic) => x.1.1 = x'.1.1 ∧ BuildsUpd Eq (x.1.2, x.2) (x'.1.2, x'.2)) (o.1.entries.zip o.2) (o'.1.entries.zip o'.2)

end NdHist
