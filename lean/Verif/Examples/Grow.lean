import Verif.Props.Grow
import Verif.Examples.Arith
/-!
# Concrete cases of the theorems in `Props/Grow.lean`
-/
namespace NdHist.Examples
open NdHist HExpr

section
variable {V : Type}
/-- variable 0 has the bins `a`, `b`, the others have `c`, `d` -/
def exGrowPair (a b c d : V) : Nat → VecHistogram (CategoryNoFlow String) V := fun j => if j = 0 then ⟨exAxis, [a, b]⟩ else ⟨exAxis, [c, d]⟩
theorem exGrowPair_axes (a b c d : V) (j : Nat) : (exGrowPair a b c d j).axes = exAxis := by
  unfold exGrowPair; by_cases h : j = 0 <;> simp [h]
/-- related bin by bin -/
theorem exGrowPair_le {le : V → V → Prop} {a b c d a' b' c' d' : V} (h1 : le a a') (h2 : le b b') (h3 : le c c') (h4 : le d d') (j i : Nat) (v v' : V)
    (hv : (exGrowPair a b c d j).valueAtIndex i = some v) (hv' : (exGrowPair a' b' c' d' j).valueAtIndex i = some v') : le v v' := by
  unfold exGrowPair at hv hv'
  by_cases h : j = 0
  · simp only [h, if_true] at hv hv'
    rcases i with _ | _ | i
    · cases hv; cases hv'; exact h1
    · cases hv; cases hv'; exact h2
    · cases hv
  · simp only [h, if_false] at hv hv'
    rcases i with _ | _ | i
    · cases hv; cases hv'; exact h3
    · cases hv; cases hv'; exact h4
    · cases hv
/-- variable 0 has bin 0, the others bin 1 -/
def exGrowPairSp (a b : V) : Nat → HashHistogram (CategoryNoFlow String) V := fun j => if j = 0 then ⟨exAxis, ⟨[(0, a)]⟩⟩ else ⟨exAxis, ⟨[(1, b)]⟩⟩
theorem exGrowPairSp_axes (a b : V) (j : Nat) : (exGrowPairSp a b j).axes = exAxis := by
  unfold exGrowPairSp; by_cases h : j = 0 <;> simp [h]
theorem exGrowPairSp_le [RDefault V] {le : V → V → Prop} {a b a' b' : V} (h0 : le RDefault.dflt RDefault.dflt) (h1 : le a a') (h2 : le b b') (j i : Nat) :
    le (((exGrowPairSp a b j).valueAtIndex i).getD RDefault.dflt) (((exGrowPairSp a' b' j).valueAtIndex i).getD RDefault.dflt) := by
  unfold exGrowPairSp
  by_cases h : j = 0
  · simp only [h, if_true]
    rcases i with _ | i
    · exact h1
    · have e : ∀ x : V, (HashHistogram.mk exAxis ⟨[(0, x)]⟩ : HashHistogram (CategoryNoFlow String) V).valueAtIndex (i + 1) = none := fun x => by simp [HashHistogram.valueAtIndex, HMap.get, HMap.find]
      rw [e, e]; exact h0
  · simp only [h, if_false]
    rcases i with _ | _ | i
    · exact h0
    · exact h2
    · have e : ∀ x : V, (HashHistogram.mk exAxis ⟨[(1, x)]⟩ : HashHistogram (CategoryNoFlow String) V).valueAtIndex (i + 1 + 1) = none := fun x => by simp [HashHistogram.valueAtIndex, HMap.get, HMap.find]
      rw [e, e]; exact h0
end

section
attribute [local instance] dbg64

theorem exGrowPair_ok {V : Type} (a b c d : V) (j : Nat) : (exGrowPair a b c d j).Ok 2 := by
  unfold exGrowPair; by_cases h : j = 0 <;> simp only [h] <;> exact ⟨exAxis_lawful, rfl⟩
theorem exGrowPairSp_ok {V : Type} (a b : V) (j : Nat) : (exGrowPairSp a b j).Ok 2 := by
  unfold exGrowPairSp; by_cases h : j = 0 <;> simp only [h] <;> exact ⟨exAxis_lawful, by unfold HMap.NodupKeys; simp [HMap.keys], by simp [HMap.keys]⟩

/-! ## Integers -/

/-- `(a + b) * 2` -/
def exGrowTwice : HExpr (MInt .u8) := .scalar .mul (.op .add (.var 0) (.var 1)) (.lit 2)
theorem exGrowTwice_only : exGrowTwice.Only Op.AddMul fun x => 0 ≤ x.val := ⟨.inr rfl, by decide, .inl rfl, trivial, trivial⟩
def exGrowHi : Nat → VecHistogram (CategoryNoFlow String) (MInt .u8) := exGrowPair (.lit 100) (.lit 3) (.lit 20) (.lit 4)
def exGrowLo : Nat → VecHistogram (CategoryNoFlow String) (MInt .u8) := exGrowPair (.lit 90) (.lit 3) (.lit 20) (.lit 0)
/-- the larger one returns `[240, 14]`, so the smaller one returns at most this: it is `[220, 6]` -/
example : ∃ m, exGrowTwice.eval exGrowLo = .ok (.ok m) := by
  obtain ⟨m, h, -⟩ := C111_int rfl (by decide) (exGrowPair_ok _ _ _ _) (exGrowPair_ok _ _ _ _) (exGrowPair_axes _ _ _ _) (exGrowPair_axes _ _ _ _) exGrowTwice_only (hs := exGrowLo) (hs' := exGrowHi)
    (fun j _ => exGrowPair_le (le := fun v v' : MInt .u8 => 0 ≤ v.val ∧ v.val ≤ v'.val) (by decide) (by decide) (by decide) (by decide) j) (m' := ⟨exAxis, [.lit 240, .lit 14]⟩) rfl
  exact ⟨m, h⟩
example : exGrowTwice.eval exGrowLo = .ok (.ok ⟨exAxis, [.lit 220, .lit 6]⟩) := rfl
example := C111_dense (le := intLe) (ops := Op.AddMul) (int_grows rfl) (by decide) (exGrowPair_ok _ _ _ _) (exGrowPair_ok _ _ _ _) (exGrowPair_axes _ _ _ _) (exGrowPair_axes _ _ _ _) (hs := exGrowLo) (hs' := exGrowHi)
  (e := exGrowTwice) ⟨.inr rfl, ⟨by decide, by decide⟩, .inl rfl, trivial, trivial⟩ (fun j _ => exGrowPair_le ⟨by decide, by decide⟩ ⟨by decide, by decide⟩ ⟨by decide, by decide⟩ ⟨by decide, by decide⟩ j)
  (m' := ⟨exAxis, [.lit 240, .lit 14]⟩) rfl

def exGrowPlus : HExpr (MInt .u8) := .op .add (.var 0) (.var 1)
/-- the larger sum is `[100, 20]`, the smaller `[90, 20]` -/
theorem exGrowPlus_hi : EvalSparse (exGrowPairSp (.lit 100) (.lit 20)) exGrowPlus ⟨exAxis, ⟨[(0, .lit 100), (1, .lit 20)]⟩⟩ :=
  .op (a := exGrowPairSp (.lit 100) (.lit 20) 0) (b := exGrowPairSp (.lit 100) (.lit 20) 1) ⟨[0, 1], by decide, fun k => by simp [HMap.keys, exGrowPairSp]⟩ (.var 0) (.var 1) rfl
example := C111_int_sparse (hs := exGrowPairSp (.lit 90 : MInt .u8) (.lit 20)) rfl (exGrowPairSp_ok _ _) (exGrowPairSp_ok _ _) (exGrowPairSp_axes _ _) (exGrowPairSp_axes _ _) (e := exGrowPlus) ⟨.inl rfl, trivial, trivial⟩
  (fun j _ => exGrowPairSp_le (le := fun v v' : MInt .u8 => 0 ≤ v.val ∧ v.val ≤ v'.val) ⟨by decide, by decide⟩ ⟨by decide, by decide⟩ ⟨by decide, by decide⟩ j) exGrowPlus_hi
/-- whatever the order of the hash maps, the smaller sum returns -/
example (ko : HashHistogram.KeyOrder (exGrowPairSp (.lit 90 : MInt .u8) (.lit 20) 0) (exGrowPairSp (.lit 90) (.lit 20) 1)) : ∃ m, (exGrowPairSp (.lit 90 : MInt .u8) (.lit 20) 0).opBorrow .add (exGrowPairSp (.lit 90) (.lit 20) 1) ko = .ok (.ok m) :=
  (C111_sparse (le := intLe) (ops := Op.AddMul) (int_grows rfl) op_zero_int (exGrowPairSp_ok (.lit 90) (.lit 20)) (exGrowPairSp_ok _ _) (exGrowPairSp_axes _ _) (exGrowPairSp_axes _ _) (e := exGrowPlus)
    ⟨by decide, trivial, trivial⟩ ⟨.inl rfl, trivial, trivial⟩ (fun j _ => exGrowPairSp_le ⟨by decide, by decide⟩ ⟨by decide, by decide⟩ ⟨by decide, by decide⟩ j) exGrowPlus_hi).2 (by decide) .add (.var 0) (.var 1) rfl _ _ (.var 0) (.var 1) ko
/-- a part of the sum -/
example := C111_parts_sparse (C110_int rfl .u8) rfl op_zero_int (exGrowPairSp_ok (.lit 100) (.lit 20)) (exGrowPairSp_axes _ _) (e := exGrowPlus) ⟨rfl, trivial, trivial⟩ (fun _ _ _ v _ => by
  have e : POrd.ge v (.lit 0 : MInt .u8) = true ↔ (0 : ℤ) ≤ v.val := by rw [MInt.ge_iff, decide_eq_true_iff]; exact Iff.rfl
  exact e.2 v.min_le) exGrowPlus_hi (j := 0) (.inl rfl) (i := 0) (v := .lit 100) rfl

/-! ## Floats -/

/-- `(a + b) * 0.1` -/
def exGrowTenth : HExpr F64 := .scalar .mul (.op .add (.var 0) (.var 1)) (f64 0.1)
theorem exGrowTenth_only : exGrowTenth.Only Op.AddMul fun x => x.isFin ∧ 0 ≤ x.val := ⟨.inr rfl, by decide +kernel, .inl rfl, trivial, trivial⟩
/-- the second bin of the larger histogram is infinite -/
def exGrowFHi : Nat → VecHistogram (CategoryNoFlow String) F64 := exGrowPair (f64 0.3) (Flt.inf false) (f64 0.7) (f64 0)
def exGrowFLo : Nat → VecHistogram (CategoryNoFlow String) F64 := exGrowPair (f64 0.2) (f64 5) (f64 0.7) (f64 0)
example := C111_float (by decide) (exGrowPair_ok _ _ _ _) (exGrowPair_ok _ _ _ _) (exGrowPair_axes _ _ _ _) (exGrowPair_axes _ _ _ _) exGrowTenth_only (hs := exGrowFLo) (hs' := exGrowFHi)
  (fun j _ => exGrowPair_le (le := fun v v' : F64 => v'.isFin → v.isFin ∧ 0 ≤ v.val ∧ v.val ≤ v'.val) (fun _ => by decide +kernel) (fun h => (show (Flt.inf false : F64).isFin → _ from fun h => False.elim h) h) (fun _ => by decide +kernel) (fun _ => by decide +kernel) j)
def exGrowFSum : HExpr F64 := .op .add (.var 0) (.var 1)
theorem exGrowFSum_hi : EvalSparse (exGrowPairSp (f64 0.3) (f64 0.7)) exGrowFSum ⟨exAxis, ⟨[(0, Flt.add (f64 0.3) (Flt.zero false)), (1, Flt.add (Flt.zero false) (f64 0.7))]⟩⟩ :=
  .op (a := exGrowPairSp (f64 0.3) (f64 0.7) 0) (b := exGrowPairSp (f64 0.3) (f64 0.7) 1) ⟨[0, 1], by decide, fun k => by simp [HMap.keys, exGrowPairSp]⟩ (.var 0) (.var 1) rfl
theorem exGrowFSum_lo : EvalSparse (exGrowPairSp (f64 0.2) (f64 0.7)) exGrowFSum ⟨exAxis, ⟨[(0, Flt.add (f64 0.2) (Flt.zero false)), (1, Flt.add (Flt.zero false) (f64 0.7))]⟩⟩ :=
  .op (a := exGrowPairSp (f64 0.2) (f64 0.7) 0) (b := exGrowPairSp (f64 0.2) (f64 0.7) 1) ⟨[0, 1], by decide, fun k => by simp [HMap.keys, exGrowPairSp]⟩ (.var 0) (.var 1) rfl
example := C111_float_sparse (exGrowPairSp_ok _ _) (exGrowPairSp_ok _ _) (exGrowPairSp_axes _ _) (exGrowPairSp_axes _ _) (e := exGrowFSum) ⟨.inl rfl, trivial, trivial⟩
  (fun j _ => exGrowPairSp_le (le := fun v v' : F64 => v'.isFin → v.isFin ∧ 0 ≤ v.val ∧ v.val ≤ v'.val) (fun _ => by decide +kernel) (fun _ => by decide +kernel) (fun _ => by decide +kernel) j) exGrowFSum_lo exGrowFSum_hi 0 (by decide +kernel)
/-- sums, with an infinite bin -/
example : ∃ m, exGrowFSum.eval exGrowFLo = .ok (.ok m) := by
  obtain ⟨m, h, -⟩ := C111_sum (C110_float .f64) (by decide) (exGrowPair_ok _ _ _ _) (exGrowPair_ok _ _ _ _) (exGrowPair_axes _ _ _ _) (exGrowPair_axes _ _ _ _) (e := exGrowFSum) ⟨rfl, trivial, trivial⟩ (hs := exGrowFLo) (hs' := exGrowFHi)
    (fun j _ => exGrowPair_le (le := fun v v' : F64 => POrd.ge v (RNum.zero : F64) = true ∧ POrd.ge v' v = true) (by decide +kernel) (by decide +kernel) (by decide +kernel) (by decide +kernel) j)
    (m' := ⟨exAxis, [Flt.add (f64 0.3) (f64 0.7), Flt.add (Flt.inf false) (f64 0)]⟩) rfl
  exact ⟨m, h⟩
example := C111_parts (C110_float .f64) (by decide) (exGrowPair_ok _ _ _ _) (exGrowPair_axes _ _ _ _) (e := exGrowFSum) ⟨rfl, trivial, trivial⟩ (hs := exGrowFHi)
  (fun j _ i v hv => exGrowPair_le (le := fun v _ : F64 => POrd.ge v (RNum.zero : F64) = true) (by decide +kernel) (by decide +kernel) (by decide +kernel) (by decide +kernel) j i v v hv hv)
  (m := ⟨exAxis, [Flt.add (f64 0.3) (f64 0.7), Flt.add (Flt.inf false) (f64 0)]⟩) rfl (j := 1) (.inr rfl) (i := 0) (v := f64 0.7) rfl
example := C111_counterexample_inf
example := C111_counterexample_wrap
end
end NdHist.Examples
