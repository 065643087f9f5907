import Verif.SpecHist
/-!
# Specification vocabulary: projections of multi-dimensional histograms
-/
namespace NdHist

/-- the same call with another coordinate -/
def Call.mapCoord {V C C' : Type} (f : C → C') : Call V C → Call V C'
  | @Call.fill _ _ _ c => .fill (f c)
  | @Call.fillWith _ _ _ _ c d => .fillWith (f c) d
  | @Call.fillWithWeighted _ _ _ _ _ c d w => .fillWithWeighted (f c) d w

/-- In a grid of shape `ns` whose cells are numbered with the first axis fastest, the position of cell `N` along axis `k`. -/
def alongAxis (ns : List Nat) (k N : Nat) : Nat := N / (ns.take k).prod % ns.getD k 1

/-- the number of the cell of the grid of the axes number `σ` (in this order) that cell `N` of the full grid lies over -/
def selectBin (ns : List Nat) {m : Nat} (σ : List (Fin m)) (N : Nat) : Nat :=
  cellNumber 1 (σ.map fun k : Fin _ => ns.getD k.1 1) (σ.map fun k : Fin _ => alongAxis ns k.1 N)

section
variable [Cfg]

/-- the `k`-th axis of a tuple -/
def Tup.nth : {ts : List AxTy} → (k : Fin ts.length) → Tup ts → (ts.get k).A
  | _ :: _, ⟨0, _⟩, (a, _) => a
  | _ :: _, ⟨k + 1, h⟩, (_, as) => Tup.nth ⟨k, Nat.lt_of_succ_lt_succ h⟩ as

/-- the `k`-th component of a coordinate -/
def Coords.nth : {ts : List AxTy} → (k : Fin ts.length) → Coords ts → Axis.Coordinate (ts.get k).A
  | _ :: _, ⟨0, _⟩, (c, _) => c
  | _ :: _, ⟨k + 1, h⟩, (_, cs) => Coords.nth ⟨k, Nat.lt_of_succ_lt_succ h⟩ cs

/-- the `k`-th component of a bin -/
def Intervals.nth : {ts : List AxTy} → (k : Fin ts.length) → Intervals ts → Axis.Interval (ts.get k).A
  | _ :: _, ⟨0, _⟩, (b, _) => b
  | _ :: _, ⟨k + 1, h⟩, (_, bs) => Intervals.nth ⟨k, Nat.lt_of_succ_lt_succ h⟩ bs

/-- the tuple of the axes number `σ` -/
def Tup.select {ts : List AxTy} (a : Tup ts) : (σ : List (Fin ts.length)) → Tup (σ.map ts.get)
  | [] => ()
  | k :: σ => (a.nth k, a.select σ)

/-- the components number `σ` of a coordinate -/
def Coords.select {ts : List AxTy} (c : Coords ts) : (σ : List (Fin ts.length)) → Coords (σ.map ts.get)
  | [] => ()
  | k :: σ => (c.nth k, c.select σ)

/-- the components number `σ` of a bin -/
def Intervals.select {ts : List AxTy} (b : Intervals ts) : (σ : List (Fin ts.length)) → Intervals (σ.map ts.get)
  | [] => ()
  | k :: σ => (b.nth k, b.select σ)
end
end NdHist
