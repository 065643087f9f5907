import Verif.Model.Debug
/-!
# The layout of debug texts (C104)

`p` says whether the text is that of `{:#?}` (true) or `{:?}` (false).
-/
namespace NdHist

/-- `a` prints `s` with `{:#?}` (`p`) or `{:?}` -/
def Prints {B : Type} [Dbg B] (p : Bool) (a : B) (s : List Char) : Prop := Dbg.text (if p then some 0 else none) a s

/-- every line but the first moved to the right by `k` columns -/
def shift (k : Nat) (s : List Char) : List Char := s.flatMap fun c => if c = '\n' then '\n' :: List.replicate k ' ' else [c]

/-- the items between brackets, with `pad` inside the brackets if they stand on the same line. `{:?}`: separated by commas; `{:#?}`: each on lines of its own, four columns to the right, with a comma after it;
nothing if there are none -/
def bracketed (p : Bool) (pad : List Char) (items : List (List Char)) : List Char :=
  if items = [] then []
  else if p then '\n' :: items.flatMap fun x => "    ".toList ++ shift 4 x ++ ",\n".toList
  else pad ++ ", ".toList.intercalate items ++ pad

/-- a struct with named fields -/
def structText (p : Bool) (name : String) (fields : List (String × List Char)) : List Char :=
  name.toList ++ " {".toList ++ bracketed p [' '] (fields.map fun f => f.1.toList ++ ": ".toList ++ f.2) ++ "}".toList

/-- a tuple; one of a single component has a comma after it -/
def tupleText (p : Bool) (items : List (List Char)) : List Char :=
  "(".toList ++ bracketed p [] items ++ (if !p && items.length == 1 then [','] else []) ++ ")".toList

/-- a tuple variant with one component: `name(text)` -/
def variantText (p : Bool) (name : String) (item : List Char) : List Char := name.toList ++ "(".toList ++ bracketed p [] [item] ++ ")".toList

/-- **Texts do not depend on where they stand**: inside `n` braces or brackets an object prints with `{:#?}` what it prints by itself, moved to the right by `4 * n` columns. -/
def Nests (B : Type) [Dbg B] : Prop := ∀ (n : Nat) (a : B) (s : List Char), Dbg.text (some n) a s ↔ ∃ t, Prints true a t ∧ s = shift (4 * n) t

/-- the same of each of the axes of a tuple -/
def TupNests [Cfg] (ts : List AxTy) [TupDbg ts] : Prop := ∀ (n : Nat) (a : Tup ts) (l : List (List Char)),
  TupDbg.texts (some n) a l ↔ ∃ us, TupDbg.texts (some 0) a us ∧ l = us.map (shift (4 * n))
end NdHist
