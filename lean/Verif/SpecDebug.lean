import Verif.Model.Debug
import Verif.SpecText
/-!
# What it means that a debug text identifies an object (C96)
-/
namespace NdHist

/-- the two objects may print the same text -/
def SameText {B : Type} [Dbg B] (st : DSty) (a b : B) : Prop := ∃ s, Dbg.text st a s ∧ Dbg.text st b s

/-- characters of numbers -/
def plainChar (c : Char) : Bool := c.isAlphanum || c == '.' || c == '-'

/-- a number ends here -/
def Ends (r : List Char) : Prop := ∀ c ∈ r.head?, plainChar c = false

/-- **Debug texts identify the objects of a type** up to `R`: every object has a text; objects that are the same have the same texts; and from the text, even if something that is not part of a number follows, it is known
which object it is and where its text ends. (No text is empty or begins with a closing bracket.) -/
structure DebugIdentifies (B : Type) [Dbg B] (R : B → B → Prop) : Prop where
  total : ∀ st (a : B), ∃ s, Dbg.text st a s
  resp : ∀ {st} {a b : B} {s}, R a b → Dbg.text st a s → Dbg.text st b s
  head : ∀ {st} {a : B} {s}, Dbg.text st a s → ∃ c l, s = c :: l ∧ c ≠ ']' ∧ c ≠ '}'
  cut : ∀ {st} {a b : B} {s t}, Dbg.text st a s → Dbg.text st b t → ∀ r r', Ends r → Ends r' → s ++ r = t ++ r' → R a b ∧ r = r'

/-- an object of the type has only one text -/
def DebugUnique (B : Type) [Dbg B] : Prop := ∀ {st} {a : B} {s t}, Dbg.text st a s → Dbg.text st a t → s = t

/-- the same entries -/
def HMap.SameEntries {K V : Type} (m m' : HMap K V) : Prop := m.entries.Perm m'.entries

/-- the same categories with the same numbers -/
def Category.SameMaps {T : Type} (a b : Category T) : Prop := a.mapTToIndex.SameEntries b.mapTToIndex ∧ a.mapIndexToT.SameEntries b.mapIndexToT

/-- debug texts identify each of the axes of a tuple -/
inductive TupIdentifies [Cfg] : (ts : List AxTy) → [TupDbg ts] → (Tup ts → Tup ts → Prop) → Prop
  | nil : TupIdentifies [] (fun _ _ => True)
  | cons {t : AxTy} {ts : List AxTy} [Dbg t.A] [TupDbg ts] {R : t.A → t.A → Prop} {S : Tup ts → Tup ts → Prop} :
      DebugIdentifies t.A R → TupIdentifies ts S → TupIdentifies (t :: ts) (fun a b => R a.1 b.1 ∧ S a.2 b.2)
end NdHist
