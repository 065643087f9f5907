import Verif.SpecRebin
/-!
# Specification vocabulary: an axis that has some of the bins of another
-/
namespace NdHist
section
variable [Cfg] {A A' : Type} [Axis A] [Axis A']

/-- The `n'` bins of `a'` are among the `n` bins of `a`, in the same order: bin `j` of `a'` is bin `place j` of `a`, it has the same interval and exactly the same coordinates are counted in it. Coordinates that
`a` counts in other bins, or nowhere, have no bin of `a'`. (`f` and `g` rewrite coordinates and intervals, where the types differ; `dom` are the coordinates considered.) -/
structure Within (a : A) (n : Nat) (a' : A') (n' : Nat) (f : Axis.Coordinate A → Axis.Coordinate A') (g : Axis.Interval A → Axis.Interval A') (dom : Axis.Coordinate A → Prop)
    (place : Nat → Nat) : Prop where
  lawful : LawfulAxis a n
  lawful' : LawfulAxis a' n'
  place_lt : ∀ j, j < n' → place j < n
  mono : ∀ i j, i < j → j < n' → place i < place j
  total : ∀ c, dom c → IndexTotal a c ∧ IndexTotal a' (f c)
  index : ∀ c, dom c → ∀ j, Axis.index a' (f c) = .ok (some j) ↔ j < n' ∧ Axis.index a c = .ok (some (place j))
  bin : ∀ j, j < n' → Axis.bin a' j = (Axis.bin a (place j)).map (Option.map g)

/-- the same, axis by axis -/
def TupWithin : {ts ts' : List AxTy} → Tup ts → List Nat → Tup ts' → List Nat → (Coords ts → Coords ts') → (Intervals ts → Intervals ts') → TupDom ts → List (Nat → Nat) → Prop
  | [], [], _, ns, _, ns', _, _, _, ps => ns = [] ∧ ns' = [] ∧ ps = []
  | _ :: _, _ :: _, (a, as), ns, (a', as'), ns', f, g, (dom, doms), ps =>
    ∃ n ns₁ n' ns₁' p ps₁ f₀ f₁ g₀ g₁, ns = n :: ns₁ ∧ ns' = n' :: ns₁' ∧ ps = p :: ps₁ ∧ (∀ c cs, f (c, cs) = (f₀ c, f₁ cs)) ∧ (∀ b bs, g (b, bs) = (g₀ b, g₁ bs)) ∧
      Within a n a' n' f₀ g₀ dom p ∧ TupWithin as ns₁ as' ns₁' f₁ g₁ doms ps₁
  | _, _, _, _, _, _, _, _, _, _ => False
end
end NdHist
