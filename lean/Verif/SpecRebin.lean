import Verif.SpecContent
import Verif.SpecProject
import Verif.Lemmas.Axes
/-!
# Specification vocabulary: coarser axes

An axis is coarser than another if each of its bins is the union of bins of the other.
-/
namespace NdHist
section
variable [Cfg] {A A' : Type} [Axis A] [Axis A']

/-- Both axes count a coordinate in the bin whose interval contains it, and bin `j` of `a'` contains exactly what the bins `i` of `a` with `m i = j` contain. (`same` is the coordinate as a
coordinate of `a'`, usually the same; `dom` are the coordinates considered.) -/
structure Coarser (a : A) (n : Nat) (covers : Axis.Interval A → Axis.Coordinate A → Prop) (a' : A') (n' : Nat) (covers' : Axis.Interval A' → Axis.Coordinate A' → Prop)
    (same : Axis.Coordinate A → Axis.Coordinate A') (dom : Axis.Coordinate A → Prop) (m : Nat → Nat) : Prop where
  fine : FaithfulAxis a n covers dom
  coarse : FaithfulAxis a' n' covers' (fun c' => ∃ c, dom c ∧ same c = c')
  into : ∀ i, i < n → m i < n'
  union : ∀ j b', j < n' → Axis.bin a' j = .ok (some b') → ∀ c, dom c →
    (covers' b' (same c) ↔ ∃ i b, i < n ∧ m i = j ∧ Axis.bin a i = .ok (some b) ∧ covers b c)

end

section
variable [Cfg]

/-- the numbers of cells of a grid of shape `ns'` obtained from the cells of a grid of shape `ns` by merging along each axis -/
def mergeCells (ns ns' : List Nat) (ms : List (Nat → Nat)) (N : Nat) : Nat := cellNumber 1 ns' (List.zipWith (· ·) ms (cellOf N ns))

/-- The number of coarse edges that are among the first `i` fine edges (in increasing order): those not above which there are at most `i` fine edges. -/
def mergeEdges {T : Type} [POrd T] (edges edges' : List T) (i : Nat) : Nat := edges'.countP fun e' => edges.countP (fun e => POrd.le e e') ≤ i

/-- the number of the new category to which category number `i` is renamed; the last number is that of the overflow bin -/
def mergeCategories {T T' : Type} [DecidableEq T'] (values : List T) (values' : List T') (f : T → T') (i : Nat) : Nat :=
  match values[i]? with
  | some v => values'.idxOf (f v)
  | none => values'.length

/-- axis by axis, a tuple of axes is coarser than another; `same` maps the coordinates component by component -/
def TupCoarser : {ts ts' : List AxTy} → Tup ts → List Nat → TupCovers ts → Tup ts' → List Nat → TupCovers ts' → (Coords ts → Coords ts') → TupDom ts → List (Nat → Nat) → Prop
  | [], [], _, ns, _, _, ns', _, _, _, ms => ns = [] ∧ ns' = [] ∧ ms = []
  | _ :: _, _ :: _, (a, as), ns, (cov, covs), (a', as'), ns', (cov', covs'), same, (dom, doms), ms =>
    ∃ n ns₁ n' ns₁' m ms₁ same₀ same₁, ns = n :: ns₁ ∧ ns' = n' :: ns₁' ∧ ms = m :: ms₁ ∧ (∀ c cs, same (c, cs) = (same₀ c, same₁ cs)) ∧
      Coarser a n cov a' n' cov' same₀ dom m ∧ TupCoarser as ns₁ covs as' ns₁' covs' same₁ doms ms₁
  | _, _, _, _, _, _, _, _, _, _, _ => False
end
end NdHist
