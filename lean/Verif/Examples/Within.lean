import Verif.Props.Within
import Verif.Examples.UniformInt
import Verif.Examples.Variable
import Verif.Examples.Rest
/-! # Examples: C98 -/
namespace NdHist.Examples
section
attribute [local instance] dbg64 stdNew

/-- [10, 15), [15, 20), [20, 25) with and without flow bins -/
theorem exWinU : Within exU 5 (UniformNoFlow.mk exU) 3 id id (IndexTotal exU) (· + 1) := by
  obtain ⟨a', h1, h2⟩ := C98_uniform_step exU_new exU_lawful
  have : UniformNoFlow.withStepSize 3 (.lit 10) (.lit 5) = .ok (.ok (UniformNoFlow.mk exU)) := by decide
  rw [this] at h1; cases h1
  exact h2
example : ∃ a', VariableNoFlow.new exE = .ok (.ok a') ∧ Within exV 4 a' 2 id id (fun _ => True) (· + 1) := C98_variable exV_new (by decide)
-- floats: 0.1 to 1.3 in 10 steps, edges rounded
example : ∃ a', UniformNoFlow.new 10 (f64 0.1) (f64 1.3) = .ok (.ok a') ∧ Within exTen 12 a' 10 id id (IndexTotal exTen) (· + 1) := 
  C98_uniform exTen_new (C25_lawful_uniform_float_new exTen_new (by decide +kernel) (by decide +kernel) (by decide) (by decide) (fun _ _ => by decide +kernel))
example : Within (Category.new ["a", "b", "a"]) 4 (CategoryNoFlow.new ["a", "b", "a"]) 3 id id (fun _ => True) id := C98_category _ (by decide)
-- [15, 20), [20, 25)
theorem exWinZoom : Within exU 5 (UniformNoFlow.mk (⟨2, .lit 15, .lit 25, .lit 5⟩ : Uniform (MInt .i32))) 2 id id (fun _ => True) (fun j => 1 + j + 1) :=
  C98_zoom_uniform (low' := .lit 15) exU_new (by decide) (by decide) (by decide) (fun h => absurd h (by decide)) (by decide) (by decide)
example : Within (⟨[.lit 1, .lit 3, .lit 5, .lit 9]⟩ : Variable (MInt .i32)) 5 (VariableNoFlow.mk (⟨[.lit 3, .lit 5]⟩ : Variable (MInt .i32))) 1 id id (fun c : MInt .i32 => POrd.eq c c = true) (fun j => 1 + j + 1) :=
  C98_zoom_variable (T := MInt .i32) (pre := [MInt.lit 1]) (es := [MInt.lit 3, MInt.lit 5]) (post := [MInt.lit 9]) (by decide) (by decide) (by decide) (by decide)
-- the same from the reported bins
example : Within exV 4 exVN 2 id id (fun c : MInt .i32 => POrd.eq c c = true) (· + 1) :=
  C98_of_bins (C51_variable exV_new (by decide) exE_distinct) (C51_variable_noflow exVN_new (by decide) exE_distinct) (fun _ _ => trivial) (fun _ _ _ => Iff.rfl) (fun j hj => by have : j < 2 := hj; show j + 1 < 4; omega)
    (fun i j h _ => by show i + 1 < j + 1; omega) fun j hj => by
      have : j = 0 ∨ j = 1 := by have : j < 2 := hj; omega
      rcases this with rfl | rfl
      · exact ⟨_, rfl, rfl⟩
      · exact ⟨_, rfl, rfl⟩

-- two axes: the first without its flow bins, the second as it is
abbrev exWinT : List AxTy := [⟨Uniform (MInt .i32), inferInstance⟩, ⟨Category String, inferInstance⟩]
abbrev exWinT' : List AxTy := [⟨UniformNoFlow (MInt .i32), inferInstance⟩, ⟨Category String, inferInstance⟩]
def exWin : Tup exWinT := (exU, Category.new ["a", "b"], ())
def exWin' : Tup exWinT' := (UniformNoFlow.mk exU, Category.new ["a", "b"], ())
def exWinf : Coords exWinT → Coords exWinT' := fun c => c
def exWing : Intervals exWinT → Intervals exWinT' := fun b => b
def exWind : TupDom exWinT := (IndexTotal exU, IndexTotal (Category.new ["a", "b"]), ())
theorem exWin_within : TupWithin exWin [5, 3] exWin' [3, 3] exWinf exWing exWind [(· + 1), id] :=
  ⟨5, [3], 3, [3], _, _, id, id, id, id, rfl, rfl, rfl, fun _ _ => rfl, fun _ _ => rfl, exWinU, 3, [], 3, [], _, _, id, id, id, id, rfl, rfl, rfl, fun _ _ => rfl, fun _ _ => rfl,
    C98_refl (C25_lawful_category _ (by decide)), rfl, rfl, rfl⟩
def exWinA : AxesTuple ⟨Uniform (MInt .i32), inferInstance⟩ ⟨Category String, inferInstance⟩ [] := ⟨exWin, [5, 15]⟩
theorem exWin_tuple : ∃ a', AxesTuple.fromTuple exWin' = .ok a' ∧ Within exWinA 15 a' 9 exWinf exWing (InDom exWind) (mergeCells [3, 3] [5, 3] [(· + 1), id]) :=
  (C98_tuple exWin_within (by decide) (by decide) (by decide) (show AxesTuple.fromTuple exWin = .ok exWinA from rfl)).2
-- cells (0, 0), (1, 0), (2, 0), (0, 1) of the smaller grid are cells 1, 2, 3, 6 of the larger one
example : (List.range 9).map (mergeCells [3, 3] [5, 3] [(· + 1), id]) = [1, 2, 3, 6, 7, 8, 11, 12, 13] := by decide

-- contents
example (calls : List (Call (MInt .u8) (MInt .i32))) (hd : ∀ call ∈ calls, IndexTotal exU call.coord) : ∃ (h : VecHistogram (Uniform (MInt .i32)) (MInt .u8)) (h' : VecHistogram (UniformNoFlow (MInt .i32)) (MInt .u8)),
    VecHistogram.new exU = .ok h ∧ VecHistogram.new (UniformNoFlow.mk exU) = .ok h' ∧
    (∀ j, j < 3 → (h'.callAllCaught (calls.map (Call.mapCoord id))).valueAtIndex j = (h.callAllCaught calls).valueAtIndex (j + 1)) ∧
    ∃ items items', h.iter = .ok items ∧ h'.iter = .ok items' ∧ items'.length = 3 ∧ ∀ j, j < 3 → ∃ it, items[j + 1]? = some it ∧ items'[j]? = some ⟨j, it.bin, it.value⟩ := by
  obtain ⟨h, h', e1, e2, e3, e4, o1, o2, hv⟩ := C98_new (V := MInt .u8) exWinU
  have hs : Within h.axes 5 h'.axes 3 id id (IndexTotal exU) (· + 1) := by rw [e3, e4]; exact exWinU
  exact ⟨h, h', e1, e2, (C98_dense hs o1 o2 hv calls hd).1, (C98_dense_read hs o1 o2 hv).2⟩
theorem exWinOk {A : Type} [Axis A] {a : A} {n : Nat} (h : LawfulAxis a n) : (HashHistogram.new a : HashHistogram A (MInt .u8)).Ok n := ⟨h, List.nodup_nil, fun _ hi => nomatch hi⟩
example (calls : List (Call (MInt .u8) (MInt .i32))) (hd : ∀ call ∈ calls, IndexTotal exU call.coord) (j : Nat) (hj : j < 3) :
    ((HashHistogram.new (UniformNoFlow.mk exU) : HashHistogram _ (MInt .u8)).callAllCaught (calls.map (Call.mapCoord id))).valueAtIndex j
      = ((HashHistogram.new exU : HashHistogram _ (MInt .u8)).callAllCaught calls).valueAtIndex (j + 1) :=
  (C98_sparse (h := HashHistogram.new exU) (h' := HashHistogram.new (UniformNoFlow.mk exU)) exWinU (exWinOk exWinU.lawful) (exWinOk exWinU.lawful') (fun _ _ => rfl) calls hd).1 j hj
def exWinS : HashHistogram (Uniform (MInt .i32)) (MInt .u8) := ⟨exU, ⟨[(4, .lit 9), (2, .lit 7)]⟩⟩
def exWinS' : HashHistogram (UniformNoFlow (MInt .i32)) (MInt .u8) := ⟨⟨exU⟩, ⟨[(1, .lit 7)]⟩⟩
example (o : exWinS.values.Order) (o' : exWinS'.values.Order) : ∃ items items', exWinS.iter o = .ok items ∧ exWinS'.iter o' = .ok items' ∧
    ∀ j b v, (⟨j, b, v⟩ : Item (BinInterval (MInt .i32)) (MInt .u8)) ∈ items' ↔ j < 3 ∧ ∃ b₀, b₀ = b ∧ (⟨j + 1, b₀, v⟩ : Item (BinInterval (MInt .i32)) (MInt .u8)) ∈ items := by
  obtain ⟨items, items', h1, h2, -, -, h3⟩ := (C98_sparse_read (h := exWinS) (h' := exWinS') exWinU ⟨exU_lawful, by unfold HMap.NodupKeys; decide, by decide⟩ ⟨exWinU.lawful', by unfold HMap.NodupKeys; decide, by decide⟩ (by decide)).2 o o'
  exact ⟨items, items', h1, h2, h3⟩
-- 3 + 3 and the flow bins 1 + 1
def exWinD : VecHistogram (Uniform (MInt .i32)) (MInt .u8) := ⟨exU, [.lit 1, .lit 3, .lit 0, .lit 0, .lit 1]⟩
def exWinD' : VecHistogram (UniformNoFlow (MInt .i32)) (MInt .u8) := ⟨⟨exU⟩, [.lit 3, .lit 0, .lit 0]⟩
example : ∃ m', exWinD'.opBorrow .add exWinD' = .ok (.ok m') ∧ m'.valueAtIndex 0 = some (.lit 6) := by
  have hv : ∀ j, j < 3 → exWinD'.valueAtIndex j = exWinD.valueAtIndex (j + 1) := by decide
  obtain ⟨m', h1, h2⟩ := C98_binary .add (l := exWinD) (l' := exWinD') (m := ⟨exU, [.lit 2, .lit 6, .lit 0, .lit 0, .lit 2]⟩) exWinU ⟨exU_lawful, rfl⟩ ⟨exU_lawful, rfl⟩ ⟨exWinU.lawful', rfl⟩
    ⟨exWinU.lawful', rfl⟩ (by decide) (by decide) hv hv (by decide)
  exact ⟨m', h1, (h2 0 (by decide)).trans (by decide)⟩
end
end NdHist.Examples
