import Verif.Model.Eq
import Verif.Model.Float
/-!
# Serialization (feature `serde`)

The crate only has `#[derive(Serialize, Deserialize)]`. The model is at the level of serde's data model for a self-describing format (such as JSON): a
serialized value is a tree of numbers, strings, sequences and maps. How a format writes such a tree as text is not modelled (for instance
JSON cannot represent NaN and infinities).
-/
namespace NdHist

/-- serde's data model, as far as the crate's types need it -/
inductive SVal where
  | unit
  | int (n : Int)
  | f64 (x : F64)
  | str (s : String)
  | seq (l : List SVal)
  | map (l : List (SVal × SVal))

/-- `Serialize` and `Deserialize` of a type. `ser x v`: the value `x` may be written as `v`; maps are written in their unspecified iteration
order, so there may be many such `v`. `de` returns `none` for an error. -/
class Serde (T : Type) where
  ser : T → SVal → Prop
  de : SVal → Option T

namespace SVal
/-- is this map key the name of the field? -/
def isKey (name : String) : SVal → Bool
  | .str s => s == name
  | _ => false

/-- is this map key a string? -/
def isStr : SVal → Bool
  | .str _ => true
  | _ => false
end SVal

/-- One field in the code generated by `derive(Deserialize)` for a struct given as a map: a missing field, and a field that occurs twice, are errors; entries
with other names are ignored. (Keys that are not strings: `derive` would also accept field numbers; modelled as errors, see `structMap`.) -/
def fieldDe {T : Type} (name : String) (de : SVal → Option T) (l : List (SVal × SVal)) : Option T :=
  match l.filter (fun kv => kv.1.isKey name) with
  | [kv] => de kv.2
  | _ => none

/-- the entries of a struct given as a map -/
def structMap : SVal → Option (List (SVal × SVal))
  | .map l => if l.all (fun kv => kv.1.isStr) then some l else none
  | _ => none

/-! ## std types -/

/-- `usize` -/
def usizeSer (n : Nat) (v : SVal) : Prop := v = .int n
/-- `usize`: numbers that do not fit are errors -/
def usizeDe [Cfg] : SVal → Option Nat
  | .int n => if 0 ≤ n ∧ n < usizeSize then some n.toNat else none
  | _ => none

/-- primitive integers -/
instance {τ : IntTy} : Serde (MInt τ) where
  ser x v := v = .int x.val
  de
    | .int n => MInt.ofInt? n
    | _ => none

/-- `f64`; an integer is accepted too -/
instance : Serde F64 where
  ser x v := v = .f64 x
  de
    | .f64 x => some x
    | .int n => some (Flt.ofRat n)
    | _ => none

/-- `String` and `&str` -/
instance : Serde String where
  ser x v := v = .str x
  de
    | .str s => some s
    | _ => none

/-- `Vec` -/
def vecSer {T : Type} (ser : T → SVal → Prop) (l : List T) (v : SVal) : Prop := ∃ vs, List.Forall₂ ser l vs ∧ v = .seq vs
def vecDe {T : Type} (de : SVal → Option T) : SVal → Option (List T)
  | .seq vs => vs.mapM de
  | _ => none

/-- `HashMap`: written in iteration order, read by inserting the entries one after another -/
def hmapSer {K V : Type} (serK : K → SVal → Prop) (serV : V → SVal → Prop) (m : HMap K V) (v : SVal) : Prop :=
  ∃ (o : m.Order) (kvs : List (SVal × SVal)), List.Forall₂ (fun e kv => serK e.1 kv.1 ∧ serV e.2 kv.2) o.list kvs ∧ v = .map kvs
def hmapDe {K V : Type} [DecidableEq K] (deK : SVal → Option K) (deV : SVal → Option V) : SVal → Option (HMap K V)
  | .map kvs => do
    let l ← kvs.mapM fun kv => do
      let k ← deK kv.1
      let v ← deV kv.2
      return (k, v)
    return HMap.collect l
  | _ => none

/-- `PhantomData`: a unit -/
def phantomSer (v : SVal) : Prop := v = .unit
def phantomDe : SVal → Option Unit
  | .unit => some ()
  | _ => none

/-! ## Axes -/
section
variable [Cfg] {T : Type} [Serde T]

/-- derived (axis/uniform.rs:32-38). Structs given as sequences are accepted, too. -/
instance : Serde (Uniform T) where
  ser a v := ∃ n lo hi st, usizeSer a.num n ∧ Serde.ser a.low lo ∧ Serde.ser a.high hi ∧ Serde.ser a.step st ∧
    v = .map [(.str "num", n), (.str "low", lo), (.str "high", hi), (.str "step", st)]
  de
    | .seq [n, lo, hi, st] => return ⟨← usizeDe n, ← Serde.de lo, ← Serde.de hi, ← Serde.de st⟩
    | v => do
      let l ← structMap v
      return ⟨← fieldDe "num" usizeDe l, ← fieldDe "low" Serde.de l, ← fieldDe "high" Serde.de l, ← fieldDe "step" Serde.de l⟩

/-- derived (axis/uniformnoflow.rs:29-32) -/
instance : Serde (UniformNoFlow T) where
  ser a v := ∃ x, Serde.ser a.axis x ∧ v = .map [(.str "axis", x)]
  de
    | .seq [x] => return ⟨← Serde.de x⟩
    | v => do
      let l ← structMap v
      return ⟨← fieldDe "axis" Serde.de l⟩

/-- derived with `serde(flatten)` (axis/uniformcyclic.rs:49-53): the entries of the inner axis are written in place of the field. A flattened struct is only
read from a map. -/
instance : Serde (UniformCyclic T) where
  ser a v := Serde.ser a.axis v
  de
    | .map l => return ⟨← Serde.de (.map l)⟩
    | _ => none

/-- derived (axis/variable.rs:34-37) -/
instance : Serde (Variable T) where
  ser a v := ∃ x, vecSer Serde.ser a.binEdges x ∧ v = .map [(.str "bin_edges", x)]
  de
    | .seq [x] => return ⟨← vecDe Serde.de x⟩
    | v => do
      let l ← structMap v
      return ⟨← fieldDe "bin_edges" (vecDe Serde.de) l⟩

/-- derived (axis/variablenoflow.rs:31-34) -/
instance : Serde (VariableNoFlow T) where
  ser a v := ∃ x, Serde.ser a.axis x ∧ v = .map [(.str "axis", x)]
  de
    | .seq [x] => return ⟨← Serde.de x⟩
    | v => do
      let l ← structMap v
      return ⟨← fieldDe "axis" Serde.de l⟩

/-- derived with `serde(flatten)` (axis/variablecyclic.rs:29-33) -/
instance : Serde (VariableCyclic T) where
  ser a v := Serde.ser a.axis v
  de
    | .map l => return ⟨← Serde.de (.map l)⟩
    | _ => none

/-- derived (axis/category.rs:28-35) -/
instance [DecidableEq T] : Serde (Category T) where
  ser a v := ∃ x y, hmapSer Serde.ser usizeSer a.mapTToIndex x ∧ hmapSer usizeSer Serde.ser a.mapIndexToT y ∧
    v = .map [(.str "map_t_to_index", x), (.str "map_index_to_t", y)]
  de
    | .seq [x, y] => return ⟨← hmapDe Serde.de usizeDe x, ← hmapDe usizeDe Serde.de y⟩
    | v => do
      let l ← structMap v
      return ⟨← fieldDe "map_t_to_index" (hmapDe Serde.de usizeDe) l, ← fieldDe "map_index_to_t" (hmapDe usizeDe Serde.de) l⟩

/-- derived (axis/categorynoflow.rs:20-26) -/
instance [DecidableEq T] : Serde (CategoryNoFlow T) where
  ser a v := ∃ x, Serde.ser a.axis x ∧ v = .map [(.str "axis", x)]
  de
    | .seq [x] => return ⟨← Serde.de x⟩
    | v => do
      let l ← structMap v
      return ⟨← fieldDe "axis" Serde.de l⟩
end

/-! ## Tuples of axes -/
section
variable [Cfg]

/-- a Rust tuple of axes: a sequence of exactly that length -/
class TupSerde (ts : List AxTy) where
  ser : Tup ts → List SVal → Prop
  de : List SVal → Option (Tup ts)

instance : TupSerde [] where
  ser _ vs := vs = []
  de
    | [] => some ()
    | _ => none

instance {t : AxTy} {ts : List AxTy} [Serde t.A] [TupSerde ts] : TupSerde (t :: ts) where
  ser a vs := ∃ v vs', Serde.ser a.1 v ∧ TupSerde.ser a.2 vs' ∧ vs = v :: vs'
  de
    | v :: vs => return (← Serde.de v, ← TupSerde.de vs)
    | [] => none

/-- reading a tuple -/
def tupDe {ts : List AxTy} [TupSerde ts] : SVal → Option (Tup ts)
  | .seq vs => TupSerde.de vs
  | _ => none

/-- derived (axes.rs:9-13), one axis: the tuple `(X,)` is a sequence of length one -/
instance {X : Type} [Serde X] : Serde (AxesTuple1 X) where
  ser a v := ∃ x s, Serde.ser a.axis x ∧ vecSer usizeSer a.shape s ∧ v = .map [(.str "axes", .seq [x]), (.str "shape", s)]
  de
    | .seq [.seq [x], s] => return ⟨← Serde.de x, ← vecDe usizeDe s⟩
    | v => do
      let l ← structMap v
      return ⟨← fieldDe "axes" (fun | .seq [x] => Serde.de x | _ => none) l, ← fieldDe "shape" (vecDe usizeDe) l⟩

/-- derived (axes.rs:9-13), two or more axes -/
instance {t₀ t₁ : AxTy} {ts : List AxTy} [TupSerde (t₀ :: t₁ :: ts)] : Serde (AxesTuple t₀ t₁ ts) where
  ser a v := ∃ x s, TupSerde.ser a.axes x ∧ vecSer usizeSer a.shape s ∧ v = .map [(.str "axes", .seq x), (.str "shape", s)]
  de
    | .seq [x, s] => return ⟨← tupDe x, ← vecDe usizeDe s⟩
    | v => do
      let l ← structMap v
      return ⟨← fieldDe "axes" tupDe l, ← fieldDe "shape" (vecDe usizeDe) l⟩
end

/-! ## Bin values -/
section
variable {T W O C : Type} [Serde T] [Serde W] [Serde C]

/-- derived (value/sum.rs:10-13) -/
instance : Serde (Sum T) where
  ser a v := ∃ x, Serde.ser a.sum x ∧ v = .map [(.str "sum", x)]
  de
    | .seq [x] => return ⟨← Serde.de x⟩
    | v => do
      let l ← structMap v
      return ⟨← fieldDe "sum" Serde.de l⟩

/-- derived (value/weightedsum.rs:14-18) -/
instance : Serde (WeightedSum T) where
  ser a v := ∃ x y, Serde.ser a.sumw x ∧ Serde.ser a.sumw2 y ∧ v = .map [(.str "sumw", x), (.str "sumw2", y)]
  de
    | .seq [x, y] => return ⟨← Serde.de x, ← Serde.de y⟩
    | v => do
      let l ← structMap v
      return ⟨← fieldDe "sumw" Serde.de l, ← fieldDe "sumw2" Serde.de l⟩

/-- derived (value/mean.rs:40-46), the phantom field included -/
instance : Serde (Mean T O C) where
  ser a v := ∃ x y c p, Serde.ser a.sumw x ∧ Serde.ser a.sumw2 y ∧ Serde.ser a.count c ∧ phantomSer p ∧
    v = .map [(.str "sumw", x), (.str "sumw2", y), (.str "count", c), (.str "phantom_output_type", p)]
  de
    | .seq [x, y, c, p] => do
      let _ ← phantomDe p
      return ⟨← Serde.de x, ← Serde.de y, ← Serde.de c⟩
    | v => do
      let l ← structMap v
      let _ ← fieldDe "phantom_output_type" phantomDe l
      return ⟨← fieldDe "sumw" Serde.de l, ← fieldDe "sumw2" Serde.de l, ← fieldDe "count" Serde.de l⟩

/-- derived (value/weightedmean.rs:41-49) -/
instance : Serde (WeightedMean T W O C) where
  ser a v := ∃ x y z w c p, Serde.ser a.sumwt x ∧ Serde.ser a.sumwt2 y ∧ Serde.ser a.sumw z ∧ Serde.ser a.sumw2 w ∧ Serde.ser a.count c ∧ phantomSer p ∧
    v = .map [(.str "sumwt", x), (.str "sumwt2", y), (.str "sumw", z), (.str "sumw2", w), (.str "count", c), (.str "phantom_output_type", p)]
  de
    | .seq [x, y, z, w, c, p] => do
      let _ ← phantomDe p
      return ⟨← Serde.de x, ← Serde.de y, ← Serde.de z, ← Serde.de w, ← Serde.de c⟩
    | v => do
      let l ← structMap v
      let _ ← fieldDe "phantom_output_type" phantomDe l
      return ⟨← fieldDe "sumwt" Serde.de l, ← fieldDe "sumwt2" Serde.de l, ← fieldDe "sumw" Serde.de l, ← fieldDe "sumw2" Serde.de l, ← fieldDe "count" Serde.de l⟩
end

/-! ## Histograms, items, errors -/
section
variable [Cfg] {A V : Type} [Serde A] [Serde V]

/-- derived (histogram/vechistogram.rs:15-19) -/
instance : Serde (VecHistogram A V) where
  ser h v := ∃ x y, Serde.ser h.axes x ∧ vecSer Serde.ser h.values y ∧ v = .map [(.str "axes", x), (.str "values", y)]
  de
    | .seq [x, y] => return ⟨← Serde.de x, ← vecDe Serde.de y⟩
    | v => do
      let l ← structMap v
      return ⟨← fieldDe "axes" Serde.de l, ← fieldDe "values" (vecDe Serde.de) l⟩

/-- derived (histogram/hashhistogram.rs:51-61) -/
instance : Serde (HashHistogram A V) where
  ser h v := ∃ x y, Serde.ser h.axes x ∧ hmapSer usizeSer Serde.ser h.values y ∧ v = .map [(.str "axes", x), (.str "values", y)]
  de
    | .seq [x, y] => return ⟨← Serde.de x, ← hmapDe usizeDe Serde.de y⟩
    | v => do
      let l ← structMap v
      return ⟨← fieldDe "axes" Serde.de l, ← fieldDe "values" (hmapDe usizeDe Serde.de) l⟩

/-- derived (histogram/histogram.rs:102-110) -/
instance : Serde (Item A V) where
  ser a v := ∃ i x y, usizeSer a.index i ∧ Serde.ser a.bin x ∧ Serde.ser a.value y ∧ v = .map [(.str "index", i), (.str "bin", x), (.str "value", y)]
  de
    | .seq [i, x, y] => return ⟨← usizeDe i, ← Serde.de x, ← Serde.de y⟩
    | v => do
      let l ← structMap v
      return ⟨← fieldDe "index" usizeDe l, ← fieldDe "bin" Serde.de l, ← fieldDe "value" Serde.de l⟩
end

/-- derived (error.rs:18-23): a unit struct -/
instance : Serde BinaryOperationError where
  ser _ v := v = .unit
  de
    | .unit => some .mk
    | _ => none

/-- the names of the variants (error.rs:27-43) -/
def AxisError.name : AxisError → String
  | .InvalidNumberOfBins => "InvalidNumberOfBins"
  | .InvalidAxisRange => "InvalidAxisRange"
  | .InvalidStepSize => "InvalidStepSize"
  | .InvalidNumberOfBinEdges => "InvalidNumberOfBinEdges"
  | .FailedToSortBinEdges => "FailedToSortBinEdges"

/-- derived (error.rs:26-43): the name of the variant -/
instance : Serde AxisError where
  ser e v := v = .str e.name
  de
    | .str s => [AxisError.InvalidNumberOfBins, .InvalidAxisRange, .InvalidStepSize, .InvalidNumberOfBinEdges, .FailedToSortBinEdges].find? (·.name == s)
    | _ => none

/-- derived (error.rs:7-15): externally tagged, a map with one entry -/
instance : Serde Error where
  ser
    | .BinaryOperationError e, v => ∃ x, Serde.ser e x ∧ v = .map [(.str "BinaryOperationError", x)]
    | .AxisError e, v => ∃ x, Serde.ser e x ∧ v = .map [(.str "AxisError", x)]
  de
    | .map [(.str n, x)] =>
      if n == "BinaryOperationError" then (Serde.de x).map .BinaryOperationError
      else if n == "AxisError" then (Serde.de x).map .AxisError
      else none
    | _ => none

end NdHist
