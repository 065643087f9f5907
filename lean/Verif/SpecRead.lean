import Verif.Model.Serde
/-!
# Specification for C65: which serialized trees are read, and as what
-/
namespace NdHist

/-- the map has exactly one entry with this name, and its content is `x` -/
def HasField (l : List (SVal × SVal)) (name : String) (x : SVal) : Prop :=
  ∃ before after, l = before ++ (.str name, x) :: after ∧ ∀ kv ∈ before ++ after, kv.1 ≠ .str name

/-- the map has string keys only -/
def StringKeys (l : List (SVal × SVal)) : Prop := ∀ kv ∈ l, ∃ s, kv.1 = .str s

/-- the tree is a struct with these fields, whose contents are `xs`: a map with one entry for each (and possibly others) -/
def IsMapStruct (names : List String) (v : SVal) (xs : List SVal) : Prop := ∃ l, v = .map l ∧ StringKeys l ∧ List.Forall₂ (HasField l) names xs

/-- the tree is a struct with these fields, whose contents are `xs`: a map, or a sequence of exactly the contents in the order of the fields -/
def IsStruct (names : List String) (v : SVal) (xs : List SVal) : Prop :=
  (v = .seq xs ∧ xs.length = names.length) ∨ IsMapStruct names v xs

/-- the tree is a number that fits `usize` -/
def IsUsize [Cfg] (v : SVal) (n : Nat) : Prop := v = .int n ∧ n < usizeSize

/-- the tree is a sequence of what `P` accepts -/
def IsSeqOf {T : Type} (P : SVal → T → Prop) (v : SVal) (l : List T) : Prop := ∃ vs, v = .seq vs ∧ List.Forall₂ P vs l

/-- the tree is a map whose keys `P` and contents `Q` accept; if a key occurs more than once, its last content counts -/
def IsMapOf {K V : Type} [DecidableEq K] (P : SVal → K → Prop) (Q : SVal → V → Prop) (v : SVal) (m : HMap K V) : Prop :=
  ∃ kvs l, v = .map kvs ∧ List.Forall₂ (fun kv e => P kv.1 e.1 ∧ Q kv.2 e.2) kvs l ∧ m = HMap.collect l ∧
    ∀ k, m.get k = (l.reverse.find? (·.1 = k)).map (·.2)

/-- the tree is accepted as `x` -/
def Reads {T : Type} [Serde T] (v : SVal) (x : T) : Prop := Serde.de v = some x
end NdHist
