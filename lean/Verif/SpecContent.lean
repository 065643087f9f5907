import Verif.SpecHist
/-!
# Specification vocabulary: what a bin counts
-/
namespace NdHist

/-- Cyclic axes: the bin `[start, stop)` contains a representative of `c`, that is `c` moved by a whole number of turns of length `range`. -/
def BinInterval.CoversTurns {τ : IntTy} (range : Int) : BinInterval (MInt τ) → MInt τ → Prop
  | .Bin start stop, c => ∃ t : Int, start.val ≤ c.val + t * range ∧ c.val + t * range < stop.val
  | _, _ => False

/-- The bins the axis reports tell which coordinates they count. `covers b c`: the interval `b` contains the coordinate `c`; `dom`: the coordinates
the statement is about (e.g. all numbers but NaN). The axis has `n` bins, looking up a coordinate does not panic, and a coordinate is counted in a
bin exactly if the interval reported for this bin contains it. -/
structure FaithfulAxis [Cfg] {A : Type} [Axis A] (a : A) (n : Nat) (covers : Axis.Interval A → Axis.Coordinate A → Prop)
    (dom : Axis.Coordinate A → Prop) : Prop where
  lawful : LawfulAxis a n
  total : ∀ c, dom c → IndexTotal a c
  index_iff : ∀ c, dom c → ∀ i b, i < n → Axis.bin a i = .ok (some b) → (Axis.index a c = .ok (some i) ↔ covers b c)

section
variable [Cfg]

/-- for each axis of a tuple, which coordinates an interval contains -/
def TupCovers : List AxTy → Type
  | [] => Unit
  | t :: ts => (Axis.Interval t.A → Axis.Coordinate t.A → Prop) × TupCovers ts

/-- for each axis of a tuple, the coordinates considered -/
def TupDom : List AxTy → Type
  | [] => Unit
  | t :: ts => (Axis.Coordinate t.A → Prop) × TupDom ts

/-- a multi-dimensional bin contains the coordinate: each of its intervals contains the component -/
def CoversAll : {ts : List AxTy} → TupCovers ts → Intervals ts → Coords ts → Prop
  | [], _, _, _ => True
  | _ :: _, (cov, covs), (b, bs), (c, cs) => cov b c ∧ CoversAll covs bs cs

/-- each component of the coordinate is considered -/
def InDom : {ts : List AxTy} → TupDom ts → Coords ts → Prop
  | [], _, _ => True
  | _ :: _, (dom, doms), (c, cs) => dom c ∧ InDom doms cs

/-- each axis of the tuple is faithful; `ns` are the numbers of bins -/
def TupFaithful : {ts : List AxTy} → Tup ts → List Nat → TupCovers ts → TupDom ts → Prop
  | [], _, ns, _, _ => ns = []
  | _ :: _, (a, as), ns, (cov, covs), (dom, doms) =>
    ∃ n ns', ns = n :: ns' ∧ FaithfulAxis a n cov dom ∧ TupFaithful as ns' covs doms
end

end NdHist
