import Verif.Examples.Cyclic
import Verif.Props.Mirror
import Mathlib.Tactic.IntervalCases
/-!
# Concrete cases of the theorems in `Props/Mirror.lean`
-/
namespace NdHist.Examples
open NdHist
section
attribute [local instance] dbg64 stdNew

/-- ten bins of width 5 from -50 to 0, the mirror image of `exUni` -/
def exUniNeg : Uniform (MInt .i32) := ⟨10, .lit (-50), .lit 0, .lit 5⟩
theorem exUniNeg_bins : BinsAre exUniNeg 12 (BinInterval.Covers (T := MInt .i32)) (fun _ => True) MInt.Is (evenBins 10 ((-50 : ℤ) : ℚ) (5 : ℤ)) :=
  C84_int (num := 10) (low := .lit (-50)) (step := .lit 5) rfl (fun h => absurd h (by decide)) (by decide) (by decide)
/-- `!c`: -1 - c -/
def exNot (c : MInt .i32) : MInt .i32 :=
  ⟨0 - 1 - c.val, by have := c.le_max; simp only [IntTy.min, IntTy.max, IntTy.i32] at *; norm_num at *; omega, by have := c.min_le; simp only [IntTy.min, IntTy.max, IntTy.i32] at *; norm_num at *; omega⟩
theorem exNot_whole (c : MInt .i32) (_ : True) : True ∧ True ∧ ∃ x : ℤ, MInt.Is c x ∧ MInt.Is (exNot c) ((0 - 1 - x : ℤ) : ℚ) := ⟨trivial, trivial, c.val, rfl, rfl⟩
theorem exNot_mirror : Coarser exUni 12 (BinInterval.Covers (T := MInt .i32)) exUniNeg 12 (BinInterval.Covers (T := MInt .i32)) exNot (fun _ => True) (fun i => 10 + 1 - i) ∧
    ∀ i j, i < 12 → j < 12 → 10 + 1 - i = 10 + 1 - j → i = j :=
  C101_uniform_whole (num := 10) (low := 0) (low' := -50) (step := 5) (m := 0) (by decide) exUni_bins exUniNeg_bins fun (c : MInt .i32) _ => ⟨trivial, trivial, c.val, rfl, rfl⟩
example : exUni.index (.lit 20 : MInt .i32) = .ok (some 5) ∧ exUniNeg.index (exNot (.lit 20) : MInt .i32) = .ok (some 6) ∧ exUni.index (.lit 99 : MInt .i32) = .ok (some 11) ∧
    exUniNeg.index (exNot (.lit 99) : MInt .i32) = .ok (some 0) := by decide +kernel
def exUniH : VecHistogram (Uniform (MInt .i32)) (MInt .u8) := ⟨exUni, List.replicate 12 (.lit 0)⟩
def exUniNegH : VecHistogram (Uniform (MInt .i32)) (MInt .u8) := ⟨exUniNeg, List.replicate 12 (.lit 0)⟩
def exUniCalls : List (Call (MInt .u8) (MInt .i32)) := [.fill (.lit 7), .fill (.lit 9), .fillWith (.lit 20) (.lit 4 : MInt .u8), .fill (.lit 99)]
example : (exUniNegH.callAllCaught (exUniCalls.map (Call.mapCoord exNot))).valuesIter = (exUniH.callAllCaught exUniCalls).valuesIter.reverse :=
  C101_values (N := 12) (a' := exUniNeg) exNot_mirror.1 (by decide +kernel) (by decide +kernel) exUniCalls fun _ _ => trivial
example : (exUniH.callAllCaught exUniCalls).valuesIter.map MInt.val = [0, 0, 2, 0, 0, 4, 0, 0, 0, 0, 0, 1] := by decide +kernel

theorem exUni_flow : BinsAre exUni 12 (BinInterval.Covers (T := MInt .i32)) (fun _ => True) MInt.Is (flowBins (fun k => (((0 : ℤ) + k * 5 : ℤ) : ℚ)) 10) :=
  exUni_bins.congr fun i hi => by rw [flowBins_even]; exact flowBins_congr (fun k _ => by push_cast; rfl) hi
theorem exUniNeg_flow : BinsAre exUniNeg 12 (BinInterval.Covers (T := MInt .i32)) (fun _ => True) MInt.Is (flowBins (mirrorEdges (fun k => (((0 : ℤ) + k * 5 : ℤ) : ℚ)) 10 (0 : ℤ)) 10) :=
  exUniNeg_bins.congr fun i hi => by
    rw [flowBins_even]
    refine flowBins_congr (fun k hk => ?_) hi
    unfold mirrorEdges
    have : ((10 - k : ℕ) : ℤ) = 10 - k := by omega
    push_cast [this]
    ring
/-- `-c`, for coordinates other than `i32::MIN` -/
def exNeg (c : MInt .i32) : MInt .i32 := if h : c.val = -2147483648 then c else ⟨0 - c.val, by have := c.le_max; simp only [IntTy.min, IntTy.max, IntTy.i32] at *; norm_num at *; omega,
  by have := c.min_le; simp only [IntTy.min, IntTy.max, IntTy.i32] at *; norm_num at *; omega⟩
/-- `x` to `-x` for coordinates that are not multiples of 5 -/
def exOff (c : MInt .i32) : Prop := c.val % 5 ≠ 0 ∧ c.val ≠ -2147483648
theorem exNeg_is (c : MInt .i32) (h : c.val ≠ -2147483648) : MInt.Is (exNeg c) (((0 : ℤ) : ℚ) - c.val) := by
  unfold exNeg
  rw [dif_neg h]
  show ((0 - c.val : ℤ) : ℚ) = _
  push_cast; ring
example : Coarser exUni 12 (BinInterval.Covers (T := MInt .i32)) exUniNeg 12 (BinInterval.Covers (T := MInt .i32)) exNeg exOff (fun i => 10 + 1 - i) :=
  (C101_mirror (m := (0 : ℤ)) exUni_flow exUniNeg_flow fun (c : MInt .i32) h => ⟨trivial, trivial, c.val, rfl, exNeg_is c h.2, fun k _ he => h.1 (by
    have : c.val = 0 + k * 5 := by exact_mod_cast he
    omega)⟩).1
example : Coarser exUni 12 (BinInterval.Covers (T := MInt .i32)) exUniNeg 12 (BinInterval.Covers (T := MInt .i32)) exNeg exOff (fun i => 10 + 1 - i) :=
  (C101_uniform (num := 10) (m := (0 : ℤ)) (by norm_num) exUni_bins exUniNeg_bins fun (c : MInt .i32) h => ⟨trivial, trivial, c.val, rfl, exNeg_is c h.2, fun k _ he => h.1 (by
    have : c.val = 0 + k * 5 := by exact_mod_cast he
    omega)⟩).1
example : Coarser exUni 12 (BinInterval.Covers (T := MInt .i32)) exUniNeg 12 (BinInterval.Covers (T := MInt .i32)) exNot (fun _ => True) (fun i => 10 + 1 - i) := by
  have := C101_mirror_whole (E := fun k => (0 : ℤ) + k * 5) (m := 0) (same := exNot) (dom := fun _ => True) exUni_flow exUniNeg_flow exNot_whole
  exact this.1
example : Coarser exUni 12 (BinInterval.Covers (T := MInt .i32)) exUniNeg 12 (BinInterval.Covers (T := MInt .i32)) exNot (fun _ => True) (fun i => 10 + 1 - i) :=
  (C101_reversed exUni_flow exUniNeg_flow fun (c : MInt .i32) _ => ⟨trivial, trivial, c.val, (exNot c).val, rfl, rfl, fun k hk => by
    show _ ↔ _ < (((0 : ℤ) : ℚ) - (((0 : ℤ) + ((10 - (10 - k) : ℕ) : ℤ) * 5 : ℤ) : ℚ))
    rw [show 10 - (10 - k) = k by omega]
    show _ ↔ ((0 - 1 - c.val : ℤ) : ℚ) < _
    rw [← Int.cast_sub, Int.cast_lt, Int.cast_le]
    constructor <;> intro h <;> omega⟩).1
/-- 20 is an edge: mirrored it moves to the bin above the mirrored bin -/
example : Axis.index exUni (.lit 20 : MInt .i32) = .ok (some (4 + 1)) ∧ Axis.index exUniNeg (exNeg (.lit 20) : MInt .i32) = .ok (some (10 - 4 + 1)) :=
  C101_edge (same := exNeg) (c := (.lit 20 : MInt .i32)) (k := 4) (fun k => by push_cast; linarith) exUni_flow exUniNeg_flow (by decide) trivial trivial (by show (((20 : ℤ)) : ℚ) = _; norm_num)
    (by show (((-20 : ℤ)) : ℚ) = _; norm_num)

/-- without flow bins: edges 0, 1 and 10, mirrored 0, 9 and 10, floats and integers -/
def exLog (k : ℕ) : ℚ := if k = 0 then 0 else if k = 1 then 1 else 8 + k
theorem exLog_mono (i : ℕ) : exLog i < exLog (i + 1) := by
  unfold exLog
  rcases i with _ | _ | i
  · norm_num
  · norm_num
  · rw [if_neg (by omega), if_neg (by omega), if_neg (by omega), if_neg (by omega)]; push_cast; linarith
def exLogMir (k : ℕ) : ℚ := if k = 0 then 0 else 8 + k
theorem exLogMir_mono (i : ℕ) : exLogMir i < exLogMir (i + 1) := by
  unfold exLogMir
  rcases i with _ | i
  · norm_num
  · rw [if_neg (by omega), if_neg (by omega)]; push_cast; linarith
theorem exLogMir_mirror (k : ℕ) (hk : k ≤ 2) : exLogMir k = mirrorEdges exLog 2 10 k := by interval_cases k <;> decide +kernel
def exVarF : VariableNoFlow F64 := ⟨⟨[f64 0, f64 1, f64 10]⟩⟩
def exVarF' : VariableNoFlow F64 := ⟨⟨[f64 0, f64 9, f64 10]⟩⟩
theorem exVarF_bins : BinsAre exVarF 2 BinInterval.Covers (fun c : F64 => c.isFin) Flt.Is (plainBins exLog) :=
  (C101_variable_float (edges := [f64 10, f64 0, f64 1]) (by decide) exLog_mono (by decide +kernel) (by decide +kernel)).2 _ (by decide +kernel)
theorem exVarF'_bins : BinsAre exVarF' 2 BinInterval.Covers (fun c : F64 => c.isFin) Flt.Is (plainBins (mirrorEdges exLog 2 10)) :=
  ((C101_variable_float (edges := exVarF'.axis.binEdges) (by decide) exLogMir_mono (by decide +kernel) (by decide +kernel)).2 _ (by decide +kernel)).congr fun i hi => by
    unfold plainBins
    rw [exLogMir_mirror i (by omega), exLogMir_mirror (i + 1) (by omega)]
def exTenMinus (c : F64) : F64 := Flt.sub (f64 10) c
def exSomeF (c : F64) : Prop := c ∈ [f64 (1/2), f64 (-3), f64 7, f64 12]
theorem exSomeF_ok (c : F64) (h : exSomeF c) : c.isFin ∧ (exTenMinus c).isFin ∧ (exTenMinus c).val = 10 - c.val ∧ ∀ k, k ≤ 2 → c.val ≠ exLog k := by
  simp only [exSomeF, List.mem_cons, List.not_mem_nil, or_false] at h
  rcases h with rfl | rfl | rfl | rfl <;> decide +kernel
theorem exVarF_mirror : Coarser exVarF 2 BinInterval.Covers exVarF' 2 BinInterval.Covers exTenMinus exSomeF (fun i => 2 - 1 - i) ∧ ∀ i j, i < 2 → j < 2 → 2 - 1 - i = 2 - 1 - j → i = j :=
  C101_mirror_noflow exVarF_bins exVarF'_bins fun c h =>
    have ⟨h1, h2, h3, h4⟩ := exSomeF_ok c h
    ⟨h1, h2, c.val, ⟨h1, rfl⟩, ⟨h2, h3⟩, h4⟩
example : Coarser exVarF 2 BinInterval.Covers exVarF' 2 BinInterval.Covers exTenMinus exSomeF (fun i => 2 - 1 - i) :=
  (C101_reversed_noflow exVarF_bins exVarF'_bins fun c h => ⟨(exSomeF_ok c h).1, (exSomeF_ok c h).2.1, c.val, (exTenMinus c).val, ⟨(exSomeF_ok c h).1, rfl⟩, ⟨(exSomeF_ok c h).2.1, rfl⟩, by
    simp only [exSomeF, List.mem_cons, List.not_mem_nil, or_false] at h
    rcases h with rfl | rfl | rfl | rfl <;> decide +kernel⟩).1
example : exVarF.index (f64 7) = .ok (some 1) ∧ exVarF'.index (exTenMinus (f64 7)) = .ok (some 0) := by decide +kernel
def exVarI : VariableNoFlow (MInt .i32) := ⟨⟨[.lit 0, .lit 1, .lit 10]⟩⟩
def exVarI' : VariableNoFlow (MInt .i32) := ⟨⟨[.lit (-10), .lit (-1), .lit 0]⟩⟩
def exLogI (k : ℕ) : ℤ := if k = 0 then 0 else if k = 1 then 1 else 8 + k
theorem exVarI_bins : BinsAre exVarI 2 (BinInterval.Covers (T := MInt .i32)) (fun _ => True) MInt.Is (plainBins fun k => (exLogI k : ℚ)) :=
  ((C101_variable_int (edges := [.lit 10, .lit 0, .lit 1]) (by decide) exLog_mono (by decide +kernel)).2 _ (by decide +kernel)).congr fun i hi => by
    unfold plainBins
    interval_cases i <;> · have e0 : exLog 0 = (exLogI 0 : ℤ) := by decide +kernel
                           have e1 : exLog 1 = (exLogI 1 : ℤ) := by decide +kernel
                           have e2 : exLog 2 = (exLogI 2 : ℤ) := by decide +kernel
                           simp only [e0, e1, e2, zero_add, Nat.reduceAdd]
theorem exVarI'_bins : BinsAre exVarI' 2 (BinInterval.Covers (T := MInt .i32)) (fun _ => True) MInt.Is (plainBins (mirrorEdges (fun k => (exLogI k : ℚ)) 2 (0 : ℤ))) :=
  ((C101_variable_int (E := fun k => exLogMir k - 10) (edges := exVarI'.axis.binEdges) (by decide) (fun i => by have := exLogMir_mono i; linarith) (by decide +kernel)).2 _ (by decide +kernel)).congr fun i hi => by
    unfold plainBins
    have e0 : exLogMir 0 - 10 = mirrorEdges (fun k => (exLogI k : ℚ)) 2 (0 : ℤ) 0 := by decide +kernel
    have e1 : exLogMir 1 - 10 = mirrorEdges (fun k => (exLogI k : ℚ)) 2 (0 : ℤ) 1 := by decide +kernel
    have e2 : exLogMir 2 - 10 = mirrorEdges (fun k => (exLogI k : ℚ)) 2 (0 : ℤ) 2 := by decide +kernel
    interval_cases i <;> simp only [e0, e1, e2, zero_add, Nat.reduceAdd]
example : Coarser exVarI 2 (BinInterval.Covers (T := MInt .i32)) exVarI' 2 (BinInterval.Covers (T := MInt .i32)) exNot (fun _ => True) (fun i => 2 - 1 - i) := by
  have := C101_mirror_whole_noflow (E := exLogI) (m := 0) (same := exNot) (dom := fun _ => True) exVarI_bins exVarI'_bins exNot_whole
  exact this.1
example : exVarI.index (.lit 1 : MInt .i32) = .ok (some 1) ∧ exVarI'.index (exNot (.lit 1) : MInt .i32) = .ok (some 0) := by decide +kernel

/-- a cyclic axis and `-c` -/
example : Coarser exUniCyc 10 (BinInterval.CoversTurns (τ := .i32) ((10 : ℕ) * 5)) exUniCyc 10 (BinInterval.CoversTurns (τ := .i32) ((10 : ℕ) * 5)) exNeg (fun c => exCycDom c ∧ exOff c) (fun i => 10 - 1 - i) :=
  (C101_cyclic (E := fun i => ((0 : ℤ) : ℚ) + i * ((5 : ℤ) : ℚ)) (E' := fun i => ((0 : ℤ) : ℚ) + i * ((5 : ℤ) : ℚ)) (P := (10 : ℕ) * ((5 : ℤ) : ℚ)) (m := 50) (fun i => by push_cast; ring) (fun i => by push_cast; ring)
    (turnBins_even 10 _ _ ▸ exCyc_bins) (turnBins_even 10 _ _ ▸ exCyc_bins) fun (c : MInt .i32) h => ⟨exCycDom_0 c h.1, exCycDom_0 _ (by
      unfold exNeg
      rw [dif_neg h.2.2]
      obtain ⟨⟨h1, h2⟩, -⟩ := h
      exact ⟨by show -1000000 ≤ 0 - c.val; omega, by show 0 - c.val ≤ 1000000; omega⟩), c.val, -1, rfl, by
      have := exNeg_is c h.2.2
      unfold MInt.Is at this ⊢
      rw [this]; push_cast; ring, fun k he => h.2.1 (by
        have : c.val = 0 + k * 5 := by exact_mod_cast he
        omega)⟩).1
example : exUniCyc.index (.lit 7 : MInt .i32) = .ok (some 1) ∧ exUniCyc.index (exNeg (.lit 7) : MInt .i32) = .ok (some 8) := by decide +kernel
end
end NdHist.Examples
