import Verif.Model.Hash
import Mathlib.Data.List.Forall2
/-!
# Specification vocabulary: the contract of `Hash`
-/
namespace NdHist

/-- Any hasher: a state, what each call does to it, and the 64 bits it finally gives. -/
structure Hasher where
  State : Type
  start : State
  write : State → HWrite → State
  finish : State → Nat

/-- the hash of `x`: start, feed `x`, finish -/
def Hasher.of (H : Hasher) {T : Type} (hash : T → List HWrite) (x : T) : Nat := H.finish ((hash x).foldl H.write H.start)

/-- What users of `Hash` rely on. `agrees` is the contract of the standard library, `k1 == k2 ⇒ hash(k1) == hash(k2)`, for every hasher.
`tells_apart`: different values feed different data, and no value feeds the beginning of what another one feeds (the standard library asks for this so that
compound types built from these do not collide): if two streams start with `a` and `b` and go on in any way, they differ unless `a == b` and the rest is the same. -/
structure HashContract {T : Type} (eq : T → T → Bool) (hash : T → List HWrite) : Prop where
  agrees : ∀ a b, eq a b = true → ∀ H : Hasher, H.of hash a = H.of hash b
  tells_apart : ∀ a b rest rest', hash a ++ rest = hash b ++ rest' → eq a b = true ∧ rest = rest'

/-- The same for the elements of a vector, whose length is fed before. -/
structure SliceContract {T : Type} (eq : T → T → Bool) (hashSlice : List T → List HWrite) : Prop where
  agrees : ∀ l l' : List T, List.Forall₂ (fun a b => eq a b = true) l l' → hashSlice l = hashSlice l'
  tells_apart : ∀ (l l' : List T) rest rest', l.length = l'.length → hashSlice l ++ rest = hashSlice l' ++ rest' →
    List.Forall₂ (fun a b => eq a b = true) l l' ∧ rest = rest'

end NdHist
