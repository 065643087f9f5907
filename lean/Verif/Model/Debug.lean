import Verif.Model.FloatTextExp
import Verif.Model.Hist
import Verif.Model.Axes
import Verif.Model.Uniform
import Verif.Model.Variable
import Verif.Model.Category
import Mathlib.Data.Nat.Digits.Defs
/-!
# `Debug` of the crate's types

`{:?}` and `{:#?}`. All but one of the impls are derived: they call std's `debug_struct` and `debug_tuple` (core::fmt::builders, not part of the repository) with the names in the code. Hash maps print their entries
in iteration order, so that the text is a relation: the texts that an object may print.
-/
namespace NdHist

/-- The style: `none` for `{:?}`, `some n` for `{:#?}` inside `n` braces or brackets (each indents by four columns) -/
abbrev DSty := Option Nat

/-- `Debug` of a type: the texts an object may print -/
class Dbg (B : Type) where
  text : DSty → B → List Char → Prop

namespace DSty
/-- four columns for each level -/
def indent (n : Nat) : List Char := List.replicate (4 * n) ' '
/-- the style of what is inside -/
def inner : DSty → DSty
  | none => none
  | some n => some (n + 1)
/-- before the first item; `pad` is what `{:?}` writes there -/
def lead (pad : List Char) : DSty → List Char
  | none => pad
  | some n => '\n' :: indent (n + 1)
/-- between two items -/
def sep : DSty → List Char
  | none => [',', ' ']
  | some n => ',' :: '\n' :: indent (n + 1)
/-- after the last item -/
def last (pad : List Char) : DSty → List Char
  | none => pad
  | some n => ',' :: '\n' :: indent n
end DSty

/-- items, given their texts: nothing at all if there are none -/
def dbgItems (st : DSty) (pad padEnd : List Char) : List (List Char) → List Char
  | [] => []
  | x :: xs => st.lead pad ++ x ++ xs.flatMap (fun y => st.sep ++ y) ++ st.last padEnd

/-- `name: text`, or `key: value` -/
def dbgEntry (k v : List Char) : List Char := k ++ ':' :: ' ' :: v

/-- `debug_struct` -/
def dbgStruct (st : DSty) (name : String) (fields : List (String × List Char)) : List Char :=
  name.toList ++ ' ' :: '{' :: dbgItems st [' '] [' '] (fields.map fun f => dbgEntry f.1.toList f.2) ++ ['}']

/-- tuples: `(a, b)`; of one component `(a,)` -/
def dbgTuple (st : DSty) (items : List (List Char)) : List Char :=
  '(' :: dbgItems st [] (if items.length = 1 then [','] else []) items ++ [')']

/-- `debug_list` -/
def dbgList (st : DSty) (items : List (List Char)) : List Char := '[' :: dbgItems st [] [] items ++ [']']

/-- `debug_map` -/
def dbgMap (st : DSty) (items : List (List Char)) : List Char := '{' :: dbgItems st [] [] items ++ ['}']

/-! ## std -/

/-- `usize` -/
instance : Dbg Nat := ⟨fun _ n s => s = Nat.toDigits 10 n⟩

/-- integers -/
instance {τ : IntTy} : Dbg (MInt τ) := ⟨fun _ x s => s = intChars x.val⟩

/-- whether `{:?}` of a float has an exponent (core::fmt::float, `already_rounded_value_should_use_exponential`): `(abs != 0.0 && abs < 1e-4) || abs >= 1e+16`; the two constants are floats of the same type -/
def Flt.dbgExp {F : FFmt} (m : ℚ) (hm : F.Rep m) : Bool :=
  let abs : Flt F := .fin false m hm
  (decide (m ≠ 0) && Flt.pcmp abs (.ofRat (1 / 10 ^ 4)) == some .lt) || (Flt.pcmp abs (.ofRat (10 ^ 16)) == some .gt || Flt.pcmp abs (.ofRat (10 ^ 16)) == some .eq)

/-- `{:?}` of a float (core::fmt::float, `float_to_general_debug`): with or without an exponent the shortest digits that round to the number; without one at least one digit after the point -/
def Flt.dbgChars {F : FFmt} : Flt F → List Char
  | .nan => ['N', 'a', 'N']
  | .inf s => (if s then ['-'] else []) ++ ['i', 'n', 'f']
  | .fin s m hm => (if s then ['-'] else []) ++
    if Flt.dbgExp m hm then sciAll false (F.shortestDigits m).1 (F.shortestDigits m).2
    else if m = 0 then decimalChars 0 1
    else if 0 ≤ (F.shortestDigits m).2 then decimalChars ((F.shortestDigits m).1 * 10 ^ (F.shortestDigits m).2.toNat * 10) 1
    else decimalChars (F.shortestDigits m).1 (-(F.shortestDigits m).2).toNat

instance {F : FFmt} : Dbg (Flt F) := ⟨fun _ x s => s = x.dbgChars⟩

/-- a number in hexadecimal; nothing for 0, which is not needed -/
def hexChars (n : Nat) : List Char := (Nat.digits 16 n).reverse.map Nat.digitChar

/-- `char::escape_debug` inside a string; which characters are printable is up to std's Unicode tables -/
def escapeDebug (printable : Char → Bool) (c : Char) : List Char :=
  if c = '\x00' then ['\\', '0']
  else if c = '\t' then ['\\', 't']
  else if c = '\r' then ['\\', 'r']
  else if c = '\n' then ['\\', 'n']
  else if c = '\\' then ['\\', '\\']
  else if c = '"' then ['\\', '"']
  else if printable c then [c]
  else '\\' :: 'u' :: '{' :: (hexChars c.toNat ++ ['}'])

/-- `String`, `&str` -/
@[reducible] def strDbg (printable : Char → Bool) : Dbg String := ⟨fun _ x s => s = '"' :: (x.toList.flatMap (escapeDebug printable) ++ ['"'])⟩

/-- `Vec<T>` -/
instance {T : Type} [Dbg T] : Dbg (List T) := ⟨fun st l s => ∃ ts, List.Forall₂ (Dbg.text st.inner) l ts ∧ s = dbgList st ts⟩

/-- `HashMap<K, V>`: the entries in some order -/
instance {K V : Type} [Dbg K] [Dbg V] : Dbg (HMap K V) := ⟨fun st m s =>
  ∃ (o : m.Order) (ts : List (List Char)), List.Forall₂ (fun e t => ∃ a b, Dbg.text st.inner e.1 a ∧ Dbg.text st.inner e.2 b ∧ t = dbgEntry a b) o.list ts ∧ s = dbgMap st ts⟩

/-- the name of a type, as printed by `PhantomData` -/
class TypeName (O : Type) where
  name : String

/-! ## Axes -/
section
variable {T : Type} [Dbg T]
/-- derived (axis/uniform.rs:31-38) -/
instance : Dbg (Uniform T) := ⟨fun st a s => ∃ l h d, Dbg.text st.inner a.low l ∧ Dbg.text st.inner a.high h ∧ Dbg.text st.inner a.step d ∧
  s = dbgStruct st "Uniform" [("num", Nat.toDigits 10 a.num), ("low", l), ("high", h), ("step", d)]⟩
/-- derived (axis/uniformnoflow.rs:28-32) -/
instance : Dbg (UniformNoFlow T) := ⟨fun st a s => ∃ t, Dbg.text st.inner a.axis t ∧ s = dbgStruct st "UniformNoFlow" [("axis", t)]⟩
/-- derived (axis/uniformcyclic.rs:48-53) -/
instance : Dbg (UniformCyclic T) := ⟨fun st a s => ∃ t, Dbg.text st.inner a.axis t ∧ s = dbgStruct st "UniformCyclic" [("axis", t)]⟩
/-- derived (axis/variable.rs:33-37) -/
instance : Dbg (Variable T) := ⟨fun st a s => ∃ t, Dbg.text st.inner a.binEdges t ∧ s = dbgStruct st "Variable" [("bin_edges", t)]⟩
/-- derived (axis/variablenoflow.rs:30-34) -/
instance : Dbg (VariableNoFlow T) := ⟨fun st a s => ∃ t, Dbg.text st.inner a.axis t ∧ s = dbgStruct st "VariableNoFlow" [("axis", t)]⟩
/-- derived (axis/variablecyclic.rs:28-33) -/
instance : Dbg (VariableCyclic T) := ⟨fun st a s => ∃ t, Dbg.text st.inner a.axis t ∧ s = dbgStruct st "VariableCyclic" [("axis", t)]⟩
/-- derived (axis/category.rs:27-35) -/
instance : Dbg (Category T) := ⟨fun st a s => ∃ t u, Dbg.text st.inner a.mapTToIndex t ∧ Dbg.text st.inner a.mapIndexToT u ∧
  s = dbgStruct st "Category" [("map_t_to_index", t), ("map_index_to_t", u)]⟩
/-- derived (axis/categorynoflow.rs:19-26) -/
instance : Dbg (CategoryNoFlow T) := ⟨fun st a s => ∃ t, Dbg.text st.inner a.axis t ∧ s = dbgStruct st "CategoryNoFlow" [("axis", t)]⟩

/-- derived (axis/bininterval/bininterval.rs:9-32) -/
instance : Dbg (BinInterval T) := ⟨fun st b s => match b with
  | .Underflow e => ∃ t, Dbg.text st.inner e t ∧ s = dbgStruct st "Underflow" [("end", t)]
  | .Overflow x => ∃ t, Dbg.text st.inner x t ∧ s = dbgStruct st "Overflow" [("start", t)]
  | .Bin x e => ∃ t u, Dbg.text st.inner x t ∧ Dbg.text st.inner e u ∧ s = dbgStruct st "Bin" [("start", t), ("end", u)]⟩
/-- derived (axis/bininterval/singlevaluebininterval.rs:7-16) -/
instance : Dbg (SingleValueBinInterval T) := ⟨fun st b s => match b with
  | .Overflow => s = "Overflow".toList
  | .Bin v => ∃ t, Dbg.text st.inner v t ∧ s = dbgStruct st "Bin" [("value", t)]⟩
end

/-- derived (axes.rs:8-13), one axis -/
instance {X : Type} [Dbg X] : Dbg (AxesTuple1 X) := ⟨fun st a s => ∃ t u, Dbg.text st.inner.inner a.axis t ∧ Dbg.text st.inner a.shape u ∧
  s = dbgStruct st "AxesTuple" [("axes", dbgTuple st.inner [t]), ("shape", u)]⟩

/-- each axis of a tuple has `Debug` -/
class TupDbg [Cfg] (ts : List AxTy) where
  texts : DSty → Tup ts → List (List Char) → Prop

instance [Cfg] : TupDbg [] := ⟨fun _ _ l => l = []⟩
instance [Cfg] {t : AxTy} {ts : List AxTy} [Dbg t.A] [TupDbg ts] : TupDbg (t :: ts) :=
  ⟨fun st a l => ∃ x xs, Dbg.text st a.1 x ∧ TupDbg.texts st a.2 xs ∧ l = x :: xs⟩

/-- derived (axes.rs:8-13) -/
instance [Cfg] {t₀ t₁ : AxTy} {ts : List AxTy} [TupDbg (t₀ :: t₁ :: ts)] : Dbg (AxesTuple t₀ t₁ ts) := ⟨fun st a s =>
  ∃ l u, TupDbg.texts st.inner.inner a.axes l ∧ Dbg.text st.inner a.shape u ∧ s = dbgStruct st "AxesTuple" [("axes", dbgTuple st.inner l), ("shape", u)]⟩

/-! ## Values and histograms -/
section
variable {T W O C : Type} [Dbg T] [Dbg W] [TypeName O] [Dbg C]
/-- derived (value/sum.rs:9-13) -/
instance : Dbg (Sum T) := ⟨fun st a s => ∃ t, Dbg.text st.inner a.sum t ∧ s = dbgStruct st "Sum" [("sum", t)]⟩
/-- derived (value/weightedsum.rs:13-18) -/
instance : Dbg (WeightedSum T) := ⟨fun st a s => ∃ t u, Dbg.text st.inner a.sumw t ∧ Dbg.text st.inner a.sumw2 u ∧ s = dbgStruct st "WeightedSum" [("sumw", t), ("sumw2", u)]⟩
/-- `PhantomData<O>` (core::marker) -/
def phantomText (O : Type) [TypeName O] : List Char := ("PhantomData<" ++ TypeName.name O ++ ">").toList
/-- derived (value/mean.rs:39-46) -/
instance : Dbg (Mean T O C) := ⟨fun st a s => ∃ t u c, Dbg.text st.inner a.sumw t ∧ Dbg.text st.inner a.sumw2 u ∧ Dbg.text st.inner a.count c ∧
  s = dbgStruct st "Mean" [("sumw", t), ("sumw2", u), ("count", c), ("phantom_output_type", phantomText O)]⟩
/-- derived (value/weightedmean.rs:40-49) -/
instance : Dbg (WeightedMean T W O C) := ⟨fun st a s => ∃ t u w v c, Dbg.text st.inner a.sumwt t ∧ Dbg.text st.inner a.sumwt2 u ∧ Dbg.text st.inner a.sumw w ∧ Dbg.text st.inner a.sumw2 v ∧
  Dbg.text st.inner a.count c ∧
  s = dbgStruct st "WeightedMean" [("sumwt", t), ("sumwt2", u), ("sumw", w), ("sumw2", v), ("count", c), ("phantom_output_type", phantomText O)]⟩
end

section
variable {A V : Type} [Dbg A] [Dbg V]
/-- derived (histogram/histogram.rs:101-110) -/
instance : Dbg (Item A V) := ⟨fun st a s => ∃ t u, Dbg.text st.inner a.bin t ∧ Dbg.text st.inner a.value u ∧
  s = dbgStruct st "Item" [("index", Nat.toDigits 10 a.index), ("bin", t), ("value", u)]⟩
/-- derived (histogram/vechistogram.rs:14-19) -/
instance : Dbg (VecHistogram A V) := ⟨fun st h s => ∃ t u, Dbg.text st.inner h.axes t ∧ Dbg.text st.inner h.values u ∧ s = dbgStruct st "VecHistogram" [("axes", t), ("values", u)]⟩
/-- derived (histogram/hashhistogram.rs:50-61); the hasher inside the map is not printed -/
instance : Dbg (HashHistogram A V) := ⟨fun st h s => ∃ t u, Dbg.text st.inner h.axes t ∧ Dbg.text st.inner h.values u ∧ s = dbgStruct st "HashHistogram" [("axes", t), ("values", u)]⟩
end

/-! ## Errors -/

/-- derived (error.rs:25-43) -/
def AxisError.dbg : AxisError → String
  | .InvalidNumberOfBins => "InvalidNumberOfBins"
  | .InvalidAxisRange => "InvalidAxisRange"
  | .InvalidStepSize => "InvalidStepSize"
  | .InvalidNumberOfBinEdges => "InvalidNumberOfBinEdges"
  | .FailedToSortBinEdges => "FailedToSortBinEdges"
instance : Dbg AxisError := ⟨fun _ e s => s = e.dbg.toList⟩
/-- derived (error.rs:17-22) -/
instance : Dbg BinaryOperationError := ⟨fun _ _ s => s = "BinaryOperationError".toList⟩
/-- derived (axis/bininterval/bininterval.rs:163-164) -/
instance : Dbg BinIntervalConversionError := ⟨fun _ _ s => s = "BinIntervalConversionError".toList⟩
/-- derived (error.rs:6-15): tuple variants -/
instance : Dbg Error := ⟨fun st e s => match e with
  | .BinaryOperationError e => ∃ t, Dbg.text st.inner e t ∧ s = "BinaryOperationError".toList ++ '(' :: dbgItems st [] [] [t] ++ [')']
  | .AxisError e => ∃ t, Dbg.text st.inner e t ∧ s = "AxisError".toList ++ '(' :: dbgItems st [] [] [t] ++ [')']⟩
end NdHist
