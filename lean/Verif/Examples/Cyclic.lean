import Verif.Examples.Rescale
import Verif.Props.Cyclic
/-!
# Concrete cases of the theorems in `Props/Cyclic.lean`
-/
namespace NdHist.Examples
open NdHist
section
attribute [local instance] dbg64 stdNew

/-- ten bins of width 5 that start at 15 instead of 0 -/
def exCyc15 : UniformCyclic (MInt .i32) := ⟨⟨⟨10, .lit 15, .lit 65, .lit 5⟩⟩⟩
theorem exCyc15_bins : BinsAre exCyc15 10 (BinInterval.CoversTurns (τ := .i32) ((10 : ℕ) * 5)) (fun c : MInt .i32 => IntTy.min .i32 ≤ c.val - 15 ∧ c.val - 15 ≤ IntTy.max .i32) MInt.Is
    (evenBinsTurns 10 (15 : ℤ) (5 : ℤ)) :=
  C84_int_cyclic (num := 10) (low := .lit 15) (step := .lit 5) rfl (fun h => absurd h (by decide)) (by decide) (by decide)
def exCycDom (c : MInt .i32) : Prop := -1000000 ≤ c.val ∧ c.val ≤ 1000000
theorem exCycDom_0 (c : MInt .i32) (h : exCycDom c) : IntTy.min .i32 ≤ c.val - 0 ∧ c.val - 0 ≤ IntTy.max .i32 := by
  obtain ⟨h1, h2⟩ := h; simp only [IntTy.min, IntTy.max, IntTy.i32]; norm_num; omega
theorem exCycDom_15 (c : MInt .i32) (h : exCycDom c) : IntTy.min .i32 ≤ c.val - 15 ∧ c.val - 15 ≤ IntTy.max .i32 := by
  obtain ⟨h1, h2⟩ := h; simp only [IntTy.min, IntTy.max, IntTy.i32]; norm_num; omega
theorem exCyc_round : Coarser exUniCyc 10 (BinInterval.CoversTurns (τ := .i32) ((10 : ℕ) * 5)) exCyc15 10 (BinInterval.CoversTurns (τ := .i32) ((10 : ℕ) * 5)) id exCycDom (roundBy 10 (-3)) ∧
    ∀ i j, i < 10 → j < 10 → roundBy 10 (-3) i = roundBy 10 (-3) j → i = j :=
  C100_uniform (s := 0) (by decide) (by norm_num) exCyc_bins exCyc15_bins fun (c : MInt .i32) h => ⟨exCycDom_0 c h, exCycDom_15 c h, c.val, 0, rfl, by show (c.val : ℚ) = _; norm_num⟩
example : exUniCyc.index (.lit 7 : MInt .i32) = .ok (some 1) ∧ exCyc15.index (.lit 7 : MInt .i32) = .ok (some 8) ∧ roundBy 10 (-3) 1 = 8 := by decide +kernel
/-- the same from the edges -/
example : Coarser exUniCyc 10 (BinInterval.CoversTurns (τ := .i32) ((10 : ℕ) * 5)) exCyc15 10 (BinInterval.CoversTurns (τ := .i32) ((10 : ℕ) * 5)) id exCycDom (roundBy 10 (-3)) :=
  (C100_round (E := fun i => ((0 : ℤ) : ℚ) + i * ((5 : ℤ) : ℚ)) (E' := fun i => ((15 : ℤ) : ℚ) + i * ((5 : ℤ) : ℚ)) (P := (10 : ℕ) * ((5 : ℤ) : ℚ)) (s := 0) (by decide) (fun i => by push_cast; ring)
    (fun i => by push_cast; ring) (turnBins_even 10 _ _ ▸ exCyc_bins) (turnBins_even 10 _ _ ▸ exCyc15_bins)
    fun (c : MInt .i32) h => ⟨exCycDom_0 c h, exCycDom_15 c h, c.val, 0, rfl, by show (c.val : ℚ) = _; norm_num⟩).1

def exCycH : VecHistogram (UniformCyclic (MInt .i32)) (MInt .u8) := ⟨exUniCyc, List.replicate 10 (.lit 0)⟩
def exCycH15 : VecHistogram (UniformCyclic (MInt .i32)) (MInt .u8) := ⟨exCyc15, List.replicate 10 (.lit 0)⟩
def exCycCalls : List (Call (MInt .u8) (MInt .i32)) := [.fill (.lit 7), .fillWith (.lit (-3)) (.lit 4 : MInt .u8), .fill (.lit 58)]
theorem exCycCalls_dom : ∀ call ∈ exCycCalls, exCycDom call.coord := by
  intro call h
  fin_cases h <;> exact ⟨by decide, by decide⟩
example : (exCycH15.callAllCaught (exCycCalls.map (Call.mapCoord id))).valuesIter = (exCycH.callAllCaught exCycCalls).valuesIter.rotate (roundBy 10 3 0) :=
  C100_values (a' := exCyc15) (d := -3) (by decide) exCyc_round.1 (by decide +kernel) (by decide +kernel) exCycCalls exCycCalls_dom
example : (exCycH.callAllCaught exCycCalls).valuesIter.map MInt.val = [0, 2, 0, 0, 0, 0, 0, 0, 0, 4] ∧ roundBy 10 3 0 = 3 ∧
    (exCycH15.callAllCaught (exCycCalls.map (Call.mapCoord id))).valuesIter.map MInt.val = [0, 0, 0, 0, 0, 0, 4, 0, 2, 0] := by decide +kernel

/-- four bins between the edges 0, 90, 180, 300 and 360 degrees, and between 90, 180, 300, 360 and 450 -/
def exRound (i : ℤ) : ℤ := 360 * (i / 4) + (if i % 4 = 0 then 0 else if i % 4 = 1 then 90 else if i % 4 = 2 then 180 else 300)
theorem exRound_mono (i : ℤ) : exRound i < exRound (i + 1) := by
  unfold exRound
  split_ifs <;> omega
theorem exRound_per (i : ℤ) : exRound (i + 4) = exRound i + 360 := by
  unfold exRound
  split_ifs <;> omega
def exVarCyc0 : VariableCyclic (MInt .i32) := ⟨⟨⟨[.lit 0, .lit 90, .lit 180, .lit 300, .lit 360]⟩⟩⟩
def exVarCyc90 : VariableCyclic (MInt .i32) := ⟨⟨⟨[.lit 90, .lit 180, .lit 300, .lit 360, .lit 450]⟩⟩⟩
theorem exVarCyc0_bins : BinsAre exVarCyc0 4 (BinInterval.CoversTurns (τ := .i32) 360) (fun c : MInt .i32 => IntTy.min .i32 ≤ c.val - 0 ∧ c.val - 0 ≤ IntTy.max .i32) MInt.Is (turnBins (fun i => (exRound i : ℚ)) (360 : ℤ)) :=
  C100_variable_int (n := 4) (E := exRound) (edges := [.lit 180, .lit 0, .lit 90, .lit 360, .lit 300]) (by decide +kernel) (by decide) exRound_mono (by decide +kernel) (by decide)
theorem exVarCyc90_bins : BinsAre exVarCyc90 4 (BinInterval.CoversTurns (τ := .i32) 360) (fun c : MInt .i32 => IntTy.min .i32 ≤ c.val - 90 ∧ c.val - 90 ≤ IntTy.max .i32) MInt.Is
    (turnBins (fun i => (exRound (i + 1) : ℚ)) (360 : ℤ)) :=
  C100_variable_int (n := 4) (E := fun i => exRound (i + 1)) (edges := exVarCyc90.axis.axis.binEdges) (by decide +kernel) (by decide) (fun i => exRound_mono (i + 1)) (by decide +kernel) (by decide)
theorem exCycDom_90 (c : MInt .i32) (h : exCycDom c) : IntTy.min .i32 ≤ c.val - 90 ∧ c.val - 90 ≤ IntTy.max .i32 := by
  obtain ⟨h1, h2⟩ := h; simp only [IntTy.min, IntTy.max, IntTy.i32]; norm_num; omega
example : Coarser exVarCyc0 4 (BinInterval.CoversTurns (τ := .i32) 360) exVarCyc90 4 (BinInterval.CoversTurns (τ := .i32) 360) id exCycDom (roundBy 4 (-1)) :=
  (C100_round (s := 0) (by decide) (fun i => by show ((exRound (i + 4) : ℤ) : ℚ) = _; rw [exRound_per]; push_cast; rfl) (fun i => by simp [sub_neg_eq_add]) exVarCyc0_bins exVarCyc90_bins
    fun (c : MInt .i32) h => ⟨exCycDom_0 c h, exCycDom_90 c h, c.val, 0, rfl, by show (c.val : ℚ) = _; norm_num⟩).1
example : exVarCyc0.index (.lit (-700) : MInt .i32) = .ok (some 0) ∧ exVarCyc90.index (.lit (-700) : MInt .i32) = .ok (some 3) := by decide +kernel

/-- the same with floats -/
def exVarCycF : VariableCyclic F64 := ⟨⟨⟨[f64 0, f64 90, f64 180, f64 300, f64 360]⟩⟩⟩
example : ∃ lo, exVarCycF.low = .ok lo ∧ lo.val = ((exRound 0 : ℤ) : ℚ) ∧
    BinsAre exVarCycF 4 (BinInterval.CoversTurnsF ((360 : ℕ) * pow2 0)) (GridTurns 0 lo) Flt.Is (turnBins (fun i => (exRound i : ℚ)) ((360 : ℕ) * pow2 0)) :=
  C100_variable_float (E := fun i => (exRound i : ℚ)) (z := 0) (edges := [f64 180, f64 0, f64 90, f64 360, f64 300]) (by decide +kernel) (by decide) (by decide +kernel) (fun i => by exact_mod_cast exRound_mono i) (by decide +kernel)
    (by decide) (by decide) (by decide +kernel) (by decide +kernel) (by decide) (by decide) (by decide)
example : exVarCycF.index (f64 (-700)) = .ok (some 0) ∧ exVarCycF.index (f64 3590) = .ok (some 3) := by decide +kernel

/-- degrees reduced to 0, ..., 49 and counted without a cyclic axis -/
def exReduce (c : MInt .i32) : MInt .i32 := ⟨c.val % 50, by simp only [IntTy.min, IntTy.i32]; norm_num; omega, by simp only [IntTy.max, IntTy.i32]; norm_num; omega⟩
example : Coarser exUniCyc 10 (BinInterval.CoversTurns (τ := .i32) ((10 : ℕ) * 5)) (UniformNoFlow.mk exUni) 10 (BinInterval.Covers (T := MInt .i32)) exReduce exCycDom id := by
  refine C100_reduce (E := fun i => ((0 : ℤ) : ℚ) + i * ((5 : ℤ) : ℚ)) (P := (10 : ℕ) * ((5 : ℤ) : ℚ)) (fun i => by push_cast; linarith) (fun i => by push_cast; ring) (turnBins_even 10 _ _ ▸ exCyc_bins)
    (edgeBins_even _ _ ▸ exNoFlow_bins) fun (c : MInt .i32) h => ⟨exCycDom_0 c h, trivial, c.val, -(c.val / 50), rfl, ?_⟩
  have e : (c.val : ℚ) + (-(c.val / 50) : ℤ) * ((10 : ℕ) * ((5 : ℤ) : ℚ)) = ((c.val % 50 : ℤ) : ℚ) := by
    have : c.val % 50 = c.val + -(c.val / 50) * 50 := by omega
    rw [this]; push_cast; ring
  rw [e]
  refine ⟨rfl, ?_, ?_⟩
  · have : 0 ≤ c.val % 50 := by omega
    simpa using this
  · have : c.val % 50 < 50 := by omega
    have : ((c.val % 50 : ℤ) : ℚ) < 50 := by exact_mod_cast this
    norm_num
    exact this

/-- calls whose coordinates are moved by whole turns -/
def exCycMoved : List (Call (MInt .u8) (MInt .i32)) := [.fill (.lit 507), .fillWith (.lit 47) (.lit 4 : MInt .u8), .fill (.lit (-492))]
theorem exCycMoved_same : List.Forall₂ (SameButCoord fun c c' => exCycDom c ∧ exCycDom c' ∧ InSameBins exUniCyc 10 (BinInterval.CoversTurns (τ := .i32) ((10 : ℕ) * 5)) c c') exCycCalls exCycMoved := by
  have t : ∀ (x y : MInt .i32) (k : ℤ), exCycDom x → exCycDom y → y.val = x.val + k * 50 → InSameBins exUniCyc 10 (BinInterval.CoversTurns (τ := .i32) ((10 : ℕ) * 5)) x y := by
    intro x y k hx hy he
    refine (C100_turns (c := x) (c' := y) (x := x.val) (t := k) (E := fun i => ((0 : ℤ) : ℚ) + i * ((5 : ℤ) : ℚ)) (P := (10 : ℕ) * ((5 : ℤ) : ℚ)) (turnBins_even 10 _ _ ▸ exCyc_bins) (exCycDom_0 x hx) (exCycDom_0 y hy)
      rfl ?_).1
    show (y.val : ℚ) = _
    rw [he]; push_cast; ring
  refine .cons ⟨rfl, ⟨by decide, by decide⟩, ⟨by decide, by decide⟩, t _ _ 10 ⟨by decide, by decide⟩ ⟨by decide, by decide⟩ (by decide)⟩ (.cons ⟨rfl, ⟨by decide, by decide⟩, ⟨by decide, by decide⟩,
    t _ _ 1 ⟨by decide, by decide⟩ ⟨by decide, by decide⟩ (by decide)⟩ (.cons ⟨rfl, ⟨by decide, by decide⟩, ⟨by decide, by decide⟩, t _ _ (-11) ⟨by decide, by decide⟩ ⟨by decide, by decide⟩ (by decide)⟩ .nil))
example : exCycH.callAll exCycCalls = exCycH.callAll exCycMoved ∧ exCycH.callAllCaught exCycCalls = exCycH.callAllCaught exCycMoved :=
  C100_same_bins (exCyc_bins.faithful.mono exCycDom_0) rfl exCycMoved_same
example : (HashHistogram.new exUniCyc).callAll exCycCalls = (HashHistogram.new exUniCyc).callAll exCycMoved ∧
    (HashHistogram.new exUniCyc).callAllCaught exCycCalls = (HashHistogram.new exUniCyc).callAllCaught exCycMoved :=
  C100_same_bins_sparse (exCyc_bins.faithful.mono exCycDom_0) rfl exCycMoved_same
end
end NdHist.Examples
