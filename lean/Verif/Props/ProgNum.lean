import Verif.Props.Prog
import Verif.Lemmas.Float
/-!
# C71 for integers and floats: which statements keep empty bins empty
-/
namespace NdHist

section
variable [Cfg] {τ : IntTy}

/-- **C71 (integers).** Addition and subtraction in every form, and multiplication by reference, meet the requirements of C71, for all
values. -/
theorem C71_int (o : Op) :
    (o = .add ∨ o = .sub → ∀ v : MInt τ, ROps.op o v RDefault.dflt = .ok v) ∧
    (o ≠ .div → ROps.op o RDefault.dflt (RDefault.dflt : MInt τ) = .ok RDefault.dflt) := by
  refine ⟨fun ho v => int_neutral o ho v, ?_⟩
  intro ho
  cases o with
  | add => exact int_neutral _ (.inl rfl) _
  | sub => exact int_neutral _ (.inr rfl) _
  | div => exact absurd rfl ho
  | mul =>
    show MInt.arith (0 * 0) = .ok _
    rw [MInt.arith, dif_pos ⟨(RDefault.dflt : MInt τ).min_le, (RDefault.dflt : MInt τ).le_max⟩]
    rfl
end

namespace Flt
variable {F : FFmt}

theorem ofRat_ne_negZero {r : ℚ} {n : ℤ} (hr : r = n * pow2 F.qmin) (h0 : r ≠ 0) : (ofRat r : Flt F) ≠ zero true := by
  intro h
  have hn : n ≠ 0 := by rintro rfl; simp at hr; exact h0 hr
  have hq := pow2_pos F.qmin
  have h1 : pow2 F.qmin ≤ |r| := by
    rw [hr, abs_mul, abs_of_pos hq]
    have : (1 : ℚ) ≤ |(n : ℚ)| := by exact_mod_cast Int.one_le_abs hn
    nlinarith
  have h2 : pow2 F.qmin ≤ F.rnd |r| := by
    have e : F.rs (pow2 F.qmin) = pow2 F.qmin := by
      rw [F.rs_nonneg hq.le]
      apply F.rnd_repU
      have := F.p_ge
      exact ⟨1, F.qmin, by simp, Nat.one_lt_two_pow (by omega), le_rfl⟩
    have := F.rs_mono h1
    rw [e, F.rs_nonneg (abs_nonneg r)] at this
    exact this
  unfold ofRat round at h
  split at h
  · simp only [zero, Flt.fin.injEq] at h
    rw [h.2] at h2
    exact absurd h2 (not_le.mpr hq)
  · simp [zero] at h

theorem sval_mult (s : Bool) {m : ℚ} (h : F.Rep m) : ∃ n : ℤ, sval s m = n * pow2 F.qmin := by
  obtain ⟨n, hn⟩ := h.repU.mult
  cases s
  · exact ⟨n, by simpa [sval] using hn⟩
  · exact ⟨-n, by simp [sval, hn]⟩

theorem add_ne_negZero {a b : Flt F} (ha : a ≠ zero true) : add a b ≠ zero true := by
  cases a with
  | nan => cases b <;> simp [add, zero]
  | inf s => cases b <;> simp only [add, zero] <;> (try split) <;> simp
  | fin s a h =>
    cases b with
    | nan => simp [add, zero]
    | inf t => simp [add, zero]
    | fin t b h' =>
      simp only [add]
      split
      · rename_i hr
        intro e
        simp only [zero, Flt.fin.injEq, Bool.and_eq_true, and_true] at e
        obtain ⟨rfl, rfl⟩ := e
        have := h.nonneg
        have := h'.nonneg
        simp only [sval, if_true] at hr
        have : a = 0 := by linarith
        subst this
        exact ha rfl
      · rename_i hr
        obtain ⟨n, hn⟩ := sval_mult s h
        obtain ⟨n', hn'⟩ := sval_mult t h'
        exact ofRat_ne_negZero (n := n + n') (by rw [hn, hn']; push_cast; ring) hr

theorem add_posZero {a : Flt F} (ha : a ≠ zero true) : add a (zero false) = a := by
  cases a with
  | nan => rfl
  | inf s => rfl
  | fin s a h =>
    simp only [add, zero]
    have e : sval s a + sval false 0 = sval s a := by simp [sval]
    simp only [e]
    split
    · rename_i hr
      have : a = 0 := by cases s <;> simp [sval] at hr <;> exact hr
      subst this
      cases s
      · rfl
      · exact absurd rfl ha
    · rename_i hr
      have h1 : |sval s a| = a := abs_sval s h.nonneg
      have h2 : decide (sval s a < 0) = s := by
        have := h.nonneg
        cases s <;> simp [sval] at hr ⊢
        · exact this
        · exact lt_of_le_of_ne this (Ne.symm hr)
      unfold ofRat round
      simp only [h1, h2]
      have hr' : F.rnd a = a := F.rnd_repU h.repU
      simp only [hr']
      rw [dif_pos h.le_maxFin]

theorem sub_posZero (a : Flt F) : sub a (zero false) = a := by
  cases a with
  | nan => rfl
  | inf s => rfl
  | fin s a h =>
    by_cases ha : (.fin s a h : Flt F) = zero true
    · rw [ha]; simp [sub, neg, zero, add, sval]
    · have e := add_posZero ha
      have e' : sub (.fin s a h) (zero false) = add (.fin s a h) (zero false) := by
        have h0 : sval s a = 0 → s = false := by
          intro h0
          have : a = 0 := by cases s <;> simp [sval] at h0 <;> exact h0
          subst this
          cases s
          · rfl
          · exact absurd rfl ha
        simp only [sub, neg, zero, add, Bool.not_false]
        have e1 : sval s a + sval true 0 = sval s a := by simp [sval]
        have e2 : sval s a + sval false 0 = sval s a := by simp [sval]
        simp only [e1, e2]
        split
        · rename_i hr; rw [h0 hr]; rfl
        · rfl
      rw [e', e]

end Flt

section
variable [Cfg] {F : FFmt}

/-- **C71 (floats).** No bin ever holds negative zero in a program that starts with new histograms and only fills, adds and subtracts; on
the other values (NaN and infinities included) addition and subtraction in every form, and multiplication by reference of empty bins, meet
the requirements of C71. -/
theorem C71_float (o : Op) :
    (RDefault.dflt : Flt F) ≠ .zero true ∧
    (o = .add ∨ o = .sub → ∀ v : Flt F, v ≠ .zero true → ROps.op o v RDefault.dflt = .ok v) ∧
    (o ≠ .div → ROps.op o RDefault.dflt (RDefault.dflt : Flt F) = .ok RDefault.dflt) ∧
    (o = .add ∨ o = .sub → ∀ v v' z : Flt F, v ≠ .zero true → ROps.op o v v' = .ok z → z ≠ .zero true) ∧
    (∀ v : Flt F, v ≠ .zero true → (Fill.fill v).1 ≠ .zero true) ∧
    (∀ d v : Flt F, v ≠ .zero true → (FillWith.fillWith d v).1 ≠ .zero true) := by
  refine ⟨?_, ?_, ?_, ?_, ?_, ?_⟩
  · simp [RDefault.dflt, RNum.zero, Flt.zero]
  · rintro (rfl | rfl) v hv
    · exact congrArg Except.ok (Flt.add_posZero hv)
    · exact congrArg Except.ok (Flt.sub_posZero v)
  · intro ho
    have h0 : (RDefault.dflt : Flt F) ≠ .zero true := by simp [RDefault.dflt, RNum.zero, Flt.zero]
    cases o with
    | add => exact congrArg Except.ok (Flt.add_posZero h0)
    | sub => exact congrArg Except.ok (Flt.sub_posZero _)
    | div => exact absurd rfl ho
    | mul =>
      refine congrArg Except.ok ?_
      show Flt.mul (Flt.zero false) (Flt.zero false) = Flt.zero false
      simp only [Flt.mul, Flt.zero, Flt.round, mul_zero, Bool.xor_false, F.rnd_zero]
      rw [dif_pos F.rep_zero.le_maxFin]
  · rintro (rfl | rfl) v v' z hv hz
    · cases hz; exact Flt.add_ne_negZero hv
    · cases hz; exact Flt.add_ne_negZero hv
  · intro v hv
    exact Flt.add_ne_negZero hv
  · intro d v hv
    exact Flt.add_ne_negZero hv
end

section
attribute [local instance] dbg64 numPEq

/-- a dense and a sparse histogram with the value 5 in the first of two bins -/
def exEqD : VecHistogram (CategoryNoFlow String) (MInt .i32) := ⟨exAxis, [.lit 5, .lit 0]⟩
/-- see `exEqD` -/
def exEqS : HashHistogram (CategoryNoFlow String) (MInt .i32) := ⟨exAxis, ⟨[(0, .lit 5)]⟩⟩

/-- What a program must not do (and `HistProg` cannot): compare sparse histograms with `==`. `&h - &h` equals the new histogram if `h` is
dense, but not if it is sparse, where the bin exists and holds zero. -/
theorem C71_counterexample_eq :
    SameContent exEqD exEqS ∧
    (exEqD.opBorrow .sub exEqD).map (fun r => r.map fun m => m.beq ⟨exAxis, [.lit 0, .lit 0]⟩) = .ok (.ok true) ∧
    (exEqS.opBorrow .sub exEqS ⟨[0], by decide, by intro k; simp [exEqS, HMap.keys]⟩).map (fun r => r.map fun m =>
      m.beq (HashHistogram.new exAxis)) = .ok (.ok false) := by
  refine ⟨⟨rfl, ?_⟩, by decide +kernel, by decide +kernel⟩
  intro i v h
  rcases i with _ | _ | i
  · simp [exEqD, VecHistogram.valueAtIndex] at h; subst h; decide
  · simp [exEqD, VecHistogram.valueAtIndex] at h; subst h; decide
  · simp [exEqD, VecHistogram.valueAtIndex] at h
end
end NdHist
