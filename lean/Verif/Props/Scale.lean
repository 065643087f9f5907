import Verif.Lemmas.FloatScale
import Verif.Props.FloatGrid
/-!
# C85: changing the unit by a power of two changes nothing
-/
namespace NdHist
variable [cfg : Cfg] {F : FFmt} {k : ℤ}

namespace Uniform
/-- the fields are in the ratio of the units -/
structure InUnits (k : ℤ) (a a' : Uniform (Flt F)) : Prop where
  num : a'.num = a.num
  low : a.low.Scaled k a'.low
  high : a.high.Scaled k a'.high
  step : a.step.Scaled k a'.step

theorem lt_scaled {x x' y y' : Flt F} (hx : x.Scaled k x') (hy : y.Scaled k y') : POrd.lt x' y' = POrd.lt x y := by
  unfold POrd.lt; rw [hx.pcmp hy]
theorem gt_scaled {x x' y y' : Flt F} (hx : x.Scaled k x') (hy : y.Scaled k y') : POrd.gt x' y' = POrd.gt x y := by
  unfold POrd.gt; rw [hx.pcmp hy]
theorem ge_scaled {x x' y y' : Flt F} (hx : x.Scaled k x') (hy : y.Scaled k y') : POrd.ge x' y' = POrd.ge x y := by
  unfold POrd.ge; rw [hx.pcmp hy]
theorem le_scaled {x x' y y' : Flt F} (hx : x.Scaled k x') (hy : y.Scaled k y') : POrd.le x' y' = POrd.le x y := by
  unfold POrd.le; rw [hx.pcmp hy]
theorem eq_scaled {x x' y y' : Flt F} (hx : x.Scaled k x') (hy : y.Scaled k y') : POrd.eq x' y' = POrd.eq x y := by
  unfold POrd.eq; rw [hx.pcmp hy]

theorem sub_fin {x y : Flt F} (hx : x.isFin) (hy : y.isFin) (h : |x.val - y.val| ≤ F.maxFin) : (Flt.sub x y).isFin := ((Flt.sub_rounds hx hy).fin_of h).1

theorem index_scaled {a a' : Uniform (Flt F)} (h : InUnits k a a') (hl : a.low.isFin) (hh : a.high.isFin) (hr : a.high.val - a.low.val ≤ F.maxFin)
    (hr' : (a.high.val - a.low.val) * pow2 k ≤ F.maxFin) {c c' : Flt F} (hc : c.Scaled k c') : index a' c' = index a c := by
  have h1 := lt_scaled hc h.low
  have h2 := ge_scaled hc h.high
  unfold index
  rw [h1, h2, h.num]
  split
  · rfl
  next n1 =>
  split
  · rfl
  next n2 =>
  have hs : Flt.div (Flt.sub c' a'.low) a'.step = Flt.div (Flt.sub c a.low) a.step := by
    cases hcc : c with
    | nan =>
      rw [hcc] at hc
      cases hcc' : c' with
      | nan => rfl
      | inf s => rw [hcc'] at hc; exact hc.elim
      | fin s m hm => rw [hcc'] at hc; exact hc.elim
    | inf s =>
      rw [hcc] at n1 n2
      cases hl' : a.low with
      | nan => rw [hl'] at hl; exact hl.elim
      | inf => rw [hl'] at hl; exact hl.elim
      | fin _ _ _ =>
        cases hh' : a.high with
        | nan => rw [hh'] at hh; exact hh.elim
        | inf => rw [hh'] at hh; exact hh.elim
        | fin _ _ _ =>
          rw [hl'] at n1; rw [hh'] at n2
          cases s
          · exact absurd rfl n2
          · exact absurd rfl n1
    | fin s m hm =>
      rw [← hcc]
      have fc : c.isFin := by rw [hcc]; trivial
      have fc' := hc.isFin_iff.mp fc
      have fl' := h.low.isFin_iff.mp hl
      rw [Flt.lt_fin fc hl] at n1
      rw [Flt.ge_fin fc hh] at n2
      simp only [decide_eq_true_eq, not_lt, not_le] at n1 n2
      have b1 : |c.val - a.low.val| ≤ F.maxFin := by rw [abs_of_nonneg (by linarith)]; linarith
      have b2 : |c'.val - a'.low.val| ≤ F.maxFin := by
        rw [hc.val_eq, h.low.val_eq, ← sub_mul, abs_of_nonneg (mul_nonneg (by linarith) (pow2_pos k).le)]
        refine le_trans (mul_le_mul_of_nonneg_right ?_ (pow2_pos k).le) hr'
        linarith
      exact Flt.Scaled.div_same (hc.sub h.low (sub_fin fc hl b1) (sub_fin fc' fl' b2)) h.step
  show (do let i ← uadd ((Flt.toUsize (Flt.div (Flt.sub c' a'.low) a'.step)).getD a.num) 1; return some i) = _
  rw [hs]; rfl

/-- what `edge` computes on floats -/
theorem edge_eq (a : Uniform (Flt F)) (i : ℕ) : edge a i =
    .ok (some (Flt.add a.low (Flt.div (Flt.mul (Flt.ofRat (i : ℚ)) (Flt.sub a.high a.low)) (Flt.ofRat (a.num : ℚ))))) := rfl

theorem isFin_of_div {x y : Flt F} (h : (Flt.div x y).isFin) (hy : y.isFin) : x.isFin := by
  cases x with
  | nan => exact h.elim
  | inf s =>
    cases y with
    | nan => exact hy.elim
    | inf t => exact hy.elim
    | fin t b hb => exact h.elim
  | fin s a ha => trivial

theorem nat_scaled (n : ℕ) : (Flt.ofRat (n : ℚ) : Flt F).Scaled 0 (Flt.ofRat (n : ℚ)) := Flt.Scaled.refl_zero _

/-- rounding keeps a lower bound `n` times the smallest normal number -/
theorem le_rs {n : ℕ} (hn : n ≤ 2 ^ F.p) {D : ℚ} (hD : n * pow2 F.emin ≤ D) : n * pow2 F.emin ≤ F.rs D := by
  have hrep : F.RepU (n * pow2 F.emin) := by
    rcases hn.lt_or_eq with hlt | heq
    · exact ⟨n, F.emin, rfl, hlt, by unfold FFmt.qmin; have := F.p_ge; omega⟩
    · refine ⟨1, F.emin + F.p, ?_, ?_, by unfold FFmt.qmin; have := F.p_ge; omega⟩
      · rw [heq, pow2_add, pow2_nat]; push_cast; ring
      · have := F.p_ge; exact Nat.one_lt_two_pow (by omega)
  have hn : (0 : ℚ) ≤ n * pow2 F.emin := mul_nonneg (by positivity) (pow2_pos _).le
  have := F.rs_mono hD
  rwa [F.rs_nonneg hn, F.rnd_repU hrep] at this

theorem edge_scaled {a a' : Uniform (Flt F)} (h : InUnits k a a') (hl : a.low.isFin) (hh : a.high.isFin) (hle : a.low.val ≤ a.high.val) (hn0 : a.num ≠ 0)
    (hf : UnitsFit F k a.num (a.high.val - a.low.val)) {i : ℕ} (hi : i ≤ a.num) :
    ∃ e e', edge a i = .ok (some e) ∧ edge a' i = .ok (some e') ∧ e.ScaledFin k e' := by
  refine ⟨_, _, edge_eq a i, edge_eq a' i, ?_⟩
  rw [h.num]
  have hl' := h.low.isFin_iff.mp hl
  have hh' := h.high.isFin_iff.mp hh
  have hp := pow2_pos k
  have D0 : 0 ≤ a.high.val - a.low.val := by linarith
  have ed : a'.high.val - a'.low.val = (a.high.val - a.low.val) * pow2 k := by rw [h.high.val_eq, h.low.val_eq]; ring
  have f1 : (Flt.sub a.high a.low).isFin := sub_fin hh hl (by rw [abs_of_nonneg D0]; exact hf.large)
  have f1' : (Flt.sub a'.high a'.low).isFin := sub_fin hh' hl' (by rw [ed, abs_of_nonneg (mul_nonneg D0 hp.le)]; exact hf.large')
  have s1 := h.high.sub h.low f1 f1'
  have R : ∀ D : ℚ, a.num * pow2 F.emin ≤ D → a.num * pow2 F.emin ≤ F.rs D := fun D hD => le_rs hf.count hD
  have v1 : a.num * pow2 F.emin ≤ (Flt.sub a.high a.low).val := by
    rw [(Flt.sub_rounds hh hl).of_isFin f1]; exact R _ hf.small
  have v1' : a.num * pow2 F.emin ≤ (Flt.sub a'.high a'.low).val := by
    rw [(Flt.sub_rounds hh' hl').of_isFin f1', ed]; exact R _ hf.small'
  obtain ⟨fn, vn⟩ := Flt.ofNat_spec (F := F) hf.count
  obtain ⟨fi, vi⟩ := Flt.ofNat_spec (F := F) (hi.trans hf.count)
  have hnpos : (1 : ℚ) ≤ a.num := by exact_mod_cast Nat.one_le_iff_ne_zero.mpr hn0
  have he := pow2_pos F.emin
  set rg := Flt.sub a.high a.low with hrg
  set rg' := Flt.sub a'.high a'.low with hrg'
  intro g g'
  obtain ⟨-, gq⟩ := Flt.isFin_of_add g
  obtain ⟨-, gq'⟩ := Flt.isFin_of_add g'
  have gp := isFin_of_div gq fn
  have gp' := isFin_of_div gq' fn
  have n0 : (Flt.ofRat (a.num : ℚ) : Flt F).val ≠ 0 := by rw [vn]; positivity
  -- product
  have bnd : ∀ r : ℚ, a.num * pow2 F.emin ≤ r → 0 < r := fun r hr => lt_of_lt_of_le (mul_pos (by linarith) he) hr
  have s2 : (Flt.mul (Flt.ofRat (i : ℚ)) rg).Scaled k (Flt.mul (Flt.ofRat (i : ℚ)) rg') := by
    have := (nat_scaled (F := F) i).mul s1 (by
      rcases Nat.eq_zero_or_pos i with rfl | hi0
      · left; rw [vi]; simp
      · right
        have hi1 : (1 : ℚ) ≤ i := by exact_mod_cast hi0
        rw [vi]
        constructor
        · rw [abs_of_nonneg (mul_nonneg (by positivity) (bnd _ v1).le)]; nlinarith [bnd _ v1]
        · rw [abs_of_nonneg (mul_nonneg (by positivity) (bnd _ v1').le)]; nlinarith [bnd _ v1']) gp gp'
    rwa [zero_add] at this
  have s3 : (Flt.div (Flt.mul (Flt.ofRat (i : ℚ)) rg) (Flt.ofRat (a.num : ℚ))).Scaled k (Flt.div (Flt.mul (Flt.ofRat (i : ℚ)) rg') (Flt.ofRat (a.num : ℚ))) := by
    have := s2.div (nat_scaled (F := F) a.num) gp fn n0 (by
      have pv : (Flt.mul (Flt.ofRat (i : ℚ)) rg).val = F.rs (i * rg.val) := by rw [(Flt.mul_rounds fi f1).of_isFin gp, vi]
      have pv' : (Flt.mul (Flt.ofRat (i : ℚ)) rg').val = F.rs (i * rg'.val) := by rw [(Flt.mul_rounds fi f1').of_isFin gp', vi]
      rcases Nat.eq_zero_or_pos i with rfl | hi0
      · left; rw [pv]; simp [F.rs_zero]
      · right
        have hi1 : (1 : ℚ) ≤ i := by exact_mod_cast hi0
        have Q : ∀ r : ℚ, a.num * pow2 F.emin ≤ r → pow2 F.emin ≤ |F.rs (i * r) / a.num| := by
          intro r hr
          have h1 : a.num * pow2 F.emin ≤ F.rs (i * r) := R _ (by nlinarith [bnd _ hr])
          rw [abs_of_nonneg (div_nonneg (by linarith [bnd _ h1]) (by linarith)), le_div_iff₀ (by linarith)]
          linarith
        rw [pv, pv', vn]
        exact ⟨Q _ v1, Q _ v1'⟩) gq gq'
    rwa [sub_zero] at this
  exact h.low.add s3 g g'

theorem bin_scaled {a a' : Uniform (Flt F)} (h : InUnits k a a') (hl : a.low.isFin) (hh : a.high.isFin) (hle : a.low.val ≤ a.high.val) (hn0 : a.num ≠ 0)
    (hf : UnitsFit F k a.num (a.high.val - a.low.val)) (i : ℕ) :
    (∃ b b', bin a i = .ok (some b) ∧ bin a' i = .ok (some b') ∧ b.ScaledFin k b') ∨ (bin a' i = bin a i ∧ ∀ b, bin a i ≠ .ok (some b)) := by
  by_cases h0 : i = 0
  · subst h0
    exact .inl ⟨_, _, rfl, rfl, fun _ _ => h.low⟩
  have hb : ∀ x : Uniform (Flt F), x.num = a.num → bin x i = (do
      let n1 ← uadd a.num 1
      if i = n1 then return some (.overflow x.high)
      else if i > n1 then return none
      match ← edge x (i - 1) with
      | none => return none
      | some start =>
        match ← edge x i with
        | none => return none
        | some stop => return some (.new start stop)) := by
    intro x hx; unfold bin; rw [if_neg h0, hx]; rfl
  rw [hb a rfl, hb a' h.num]
  cases hu : uadd a.num 1 with
  | error p => exact .inr ⟨rfl, fun b hc => by cases hc⟩
  | ok n1 =>
    simp only [bind, Except.bind]
    by_cases h1 : i = n1
    · rw [if_pos h1, if_pos h1]
      exact .inl ⟨_, _, rfl, rfl, fun _ _ => h.high⟩
    · rw [if_neg h1, if_neg h1]
      by_cases h2 : i > n1
      · rw [if_pos h2, if_pos h2]
        exact .inr ⟨rfl, fun b hc => by cases hc⟩
      · rw [if_neg h2, if_neg h2]
        have hn1 : n1 ≤ a.num + 1 := by
          unfold uadd uwrap at hu
          split at hu
          · cases hu; exact le_rfl
          · split at hu
            · cases hu
            · cases hu; exact Nat.mod_le _ _
        obtain ⟨s, s', e1, e2, e3⟩ := edge_scaled h hl hh hle hn0 hf (i := i - 1) (by omega)
        obtain ⟨t, t', d1, d2, d3⟩ := edge_scaled h hl hh hle hn0 hf (i := i) (by omega)
        rw [e1, e2, d1, d2]
        exact .inl ⟨_, _, rfl, rfl, e3, d3⟩

theorem sameInUnits {a a' : Uniform (Flt F)} (h : InUnits k a a') (hl : a.low.isFin) (hh : a.high.isFin) (hle : a.low.val ≤ a.high.val) (hn0 : a.num ≠ 0)
    (hf : UnitsFit F k a.num (a.high.val - a.low.val)) :
    SameInUnits k (fun _ _ => True) (Axis.index a) (Axis.index a') (Axis.numBins a) (Axis.numBins a') (Axis.bin a) (Axis.bin a') :=
  ⟨fun c c' hc _ => index_scaled h hl hh hf.large hf.large' hc, by show uadd a'.num 2 = uadd a.num 2; rw [h.num], bin_scaled h hl hh hle hn0 hf⟩
end Uniform

/-! ## Constructors -/
section
variable {num : ℕ} {low low' high high' step step' : Flt F}

theorem Flt.abs_val_scaled {x x' y y' : Flt F} (hx : x.Scaled k x') (hy : y.Scaled k y') : |x'.val - y'.val| = |x.val - y.val| * pow2 k := by
  rw [hx.val_eq, hy.val_eq, ← sub_mul, abs_mul, abs_of_pos (pow2_pos k)]

/-- what `Uniform::new` computes on floats -/
theorem Uniform.new_eq (num : ℕ) (low high : Flt F) : Uniform.new num low high =
    if num = 0 then .ok (.error .InvalidNumberOfBins) else if POrd.eq low high then .ok (.error .InvalidAxisRange)
    else if POrd.gt low high then .ok (.ok ⟨num, high, low, Flt.div (Flt.sub low high) (Flt.ofRat (num : ℚ))⟩)
    else .ok (.ok ⟨num, low, high, Flt.div (Flt.sub high low) (Flt.ofRat (num : ℚ))⟩) := by
  unfold Uniform.new
  split
  · rfl
  · split
    · rfl
    · cases POrd.gt low high <;> rfl

theorem step_scaled (hl : low.Scaled k low') (hh : high.Scaled k high') (fl : low.isFin) (fh : high.isFin) (hle : low.val ≤ high.val) (hn0 : num ≠ 0)
    (hf : UnitsFit F k num (high.val - low.val)) :
    (Flt.div (Flt.sub high low) (Flt.ofRat (num : ℚ))).Scaled k (Flt.div (Flt.sub high' low') (Flt.ofRat (num : ℚ))) := by
  have fl' := hl.isFin_iff.mp fl
  have fh' := hh.isFin_iff.mp fh
  have hp := pow2_pos k
  have D0 : 0 ≤ high.val - low.val := by linarith
  have ed : high'.val - low'.val = (high.val - low.val) * pow2 k := by rw [hh.val_eq, hl.val_eq]; ring
  have f1 : (Flt.sub high low).isFin := Uniform.sub_fin fh fl (by rw [abs_of_nonneg D0]; exact hf.large)
  have f1' : (Flt.sub high' low').isFin := Uniform.sub_fin fh' fl' (by rw [ed, abs_of_nonneg (mul_nonneg D0 hp.le)]; exact hf.large')
  have s1 := hh.sub hl f1 f1'
  obtain ⟨fn, vn⟩ := Flt.ofNat_spec (F := F) hf.count
  have hnpos : (1 : ℚ) ≤ num := by exact_mod_cast Nat.one_le_iff_ne_zero.mpr hn0
  have he := pow2_pos F.emin
  have R : ∀ D : ℚ, num * pow2 F.emin ≤ D → num * pow2 F.emin ≤ F.rs D := fun D hD => Uniform.le_rs hf.count hD
  have v1 : num * pow2 F.emin ≤ (Flt.sub high low).val := by rw [(Flt.sub_rounds fh fl).of_isFin f1]; exact R _ hf.small
  have v1' : num * pow2 F.emin ≤ (Flt.sub high' low').val := by rw [(Flt.sub_rounds fh' fl').of_isFin f1', ed]; exact R _ hf.small'
  have n0 : (Flt.ofRat (num : ℚ) : Flt F).val ≠ 0 := by rw [vn]; positivity
  have Q : ∀ r : ℚ, num * pow2 F.emin ≤ r → pow2 F.emin ≤ |r / num| := by
    intro r hr
    rw [abs_of_nonneg (div_nonneg (by nlinarith) (by linarith)), le_div_iff₀ (by linarith)]; linarith
  have fd : ∀ x : Flt F, x.isFin → (Flt.div x (Flt.ofRat (num : ℚ))).isFin := by
    intro x hx
    refine ((Flt.div_rounds hx fn n0).fin_of ?_).1
    rw [vn, abs_div, abs_of_pos (by linarith : (0 : ℚ) < num)]
    exact (div_le_self (abs_nonneg _) hnpos).trans (Flt.abs_val_le x)
  have := s1.div (Uniform.nat_scaled (F := F) num) f1 fn n0 (.inr ⟨by rw [vn]; exact Q _ v1, by rw [vn]; exact Q _ v1'⟩) (fd _ f1) (fd _ f1')
  rwa [sub_zero] at this

theorem Uniform.new_inUnits {a : Uniform (Flt F)} (hl : low.Scaled k low') (hh : high.Scaled k high') (fl : low.isFin) (fh : high.isFin) (hf : UnitsFit F k num |high.val - low.val|)
    (hnew : Uniform.new num low high = .ok (.ok a)) : ∃ a', Uniform.new num low' high' = .ok (.ok a') ∧ InUnits k a a' ∧ a.low.isFin ∧ a.high.isFin ∧ a.low.val ≤ a.high.val ∧ a.num ≠ 0 ∧
      UnitsFit F k a.num (a.high.val - a.low.val) := by
  rw [Uniform.new_eq] at hnew
  rw [Uniform.new_eq, eq_scaled hl hh, gt_scaled hl hh]
  by_cases hn0 : num = 0
  · rw [if_pos hn0] at hnew; cases hnew
  rw [if_neg hn0] at hnew ⊢
  split at hnew
  · cases hnew
  next h1 =>
  rw [if_neg h1]
  split at hnew
  · next h2 =>
    rw [if_pos h2]
    cases hnew
    rw [Flt.gt_fin fl fh, decide_eq_true_eq] at h2
    rw [abs_of_nonpos (by linarith), neg_sub] at hf
    exact ⟨_, rfl, ⟨rfl, hh, hl, step_scaled hh hl fh fl h2.le hn0 hf⟩, fh, fl, h2.le, hn0, hf⟩
  · next h2 =>
    rw [if_neg h2]
    cases hnew
    rw [Flt.gt_fin fl fh, decide_eq_true_eq, not_lt] at h2
    rw [abs_of_nonneg (by linarith)] at hf
    exact ⟨_, rfl, ⟨rfl, hl, hh, step_scaled hl hh fl fh h2 hn0 hf⟩, fl, fh, h2, hn0, hf⟩

/-- what `Uniform::with_step_size` computes on floats -/
theorem Uniform.withStepSize_eq (num : ℕ) (low step : Flt F) : Uniform.withStepSize num low step =
    if num = 0 then .ok (.error .InvalidNumberOfBins) else if POrd.le step (Flt.zero false) then .ok (.error .InvalidStepSize)
    else if POrd.gt low (Flt.add (Flt.mul (Flt.ofRat (num : ℚ)) step) low) then .ok (.ok ⟨num, Flt.add (Flt.mul (Flt.ofRat (num : ℚ)) step) low, low, step⟩)
    else .ok (.ok ⟨num, low, Flt.add (Flt.mul (Flt.ofRat (num : ℚ)) step) low, step⟩) := by
  unfold Uniform.withStepSize
  show (if num = 0 then _ else _) = _
  split
  · rfl
  · show (if POrd.le step (Flt.zero false) then _ else _) = _
    split
    · rfl
    · cases POrd.gt low (Flt.add (Flt.mul (Flt.ofRat (num : ℚ)) step) low) <;> rfl

theorem Uniform.withStepSize_inUnits {a a' : Uniform (Flt F)} (hl : low.Scaled k low') (hs : step.Scaled k step') (fl : low.isFin) (fs : step.isFin) (h1 : pow2 F.emin ≤ step.val)
    (h1' : pow2 F.emin ≤ step'.val) (hnum : num ≤ 2 ^ F.p) (hnew : Uniform.withStepSize num low step = .ok (.ok a)) (hnew' : Uniform.withStepSize num low' step' = .ok (.ok a')) (fh : a.high.isFin)
    (fh' : a'.high.isFin) (fa : a.low.isFin) (fa' : a'.low.isFin) : InUnits k a a' ∧ a.low.val ≤ a.high.val ∧ a.num = num ∧ num ≠ 0 := by
  rw [Uniform.withStepSize_eq] at hnew hnew'
  by_cases hn0 : num = 0
  · rw [if_pos hn0] at hnew; cases hnew
  rw [if_neg hn0] at hnew hnew'
  split at hnew
  · cases hnew
  split at hnew'
  · cases hnew'
  obtain ⟨fn, vn⟩ := Flt.ofNat_spec (F := F) hnum
  have hnpos : (1 : ℚ) ≤ num := by exact_mod_cast Nat.one_le_iff_ne_zero.mpr hn0
  have he := pow2_pos F.emin
  have key : (Flt.add (Flt.mul (Flt.ofRat (num : ℚ)) step) low).isFin → (Flt.add (Flt.mul (Flt.ofRat (num : ℚ)) step') low').isFin →
      (Flt.add (Flt.mul (Flt.ofRat (num : ℚ)) step) low).Scaled k (Flt.add (Flt.mul (Flt.ofRat (num : ℚ)) step') low') := by
    intro g g'
    have m := (Uniform.nat_scaled (F := F) num).mul hs (.inr ⟨by rw [vn, abs_of_nonneg (by nlinarith)]; nlinarith, by rw [vn, abs_of_nonneg (by nlinarith)]; nlinarith⟩)
      (Flt.isFin_of_add g).1 (Flt.isFin_of_add g').1
    rw [zero_add] at m
    exact m.add hl g g'
  split at hnew
  · next h2 =>
    cases hnew
    have g : (Flt.add (Flt.mul (Flt.ofRat (num : ℚ)) step) low).isFin := fa
    have g' : (Flt.add (Flt.mul (Flt.ofRat (num : ℚ)) step') low').isFin := by
      split at hnew' <;> cases hnew'
      · exact fa'
      · exact fh'
    have hk := key g g'
    have := gt_scaled hl hk
    rw [this, if_pos h2] at hnew'
    cases hnew'
    rw [Flt.gt_fin fl g, decide_eq_true_eq] at h2
    exact ⟨⟨rfl, hk, hl, hs⟩, h2.le, rfl, hn0⟩
  · next h2 =>
    cases hnew
    have g : (Flt.add (Flt.mul (Flt.ofRat (num : ℚ)) step) low).isFin := fh
    have g' : (Flt.add (Flt.mul (Flt.ofRat (num : ℚ)) step') low').isFin := by
      split at hnew' <;> cases hnew'
      · exact fa'
      · exact fh'
    have hk := key g g'
    have := gt_scaled hl hk
    rw [this, if_neg h2] at hnew'
    cases hnew'
    rw [Flt.gt_fin fl g, decide_eq_true_eq, not_lt] at h2
    exact ⟨⟨rfl, hl, hk, hs⟩, h2, rfl, hn0⟩
end

/-! ## Without flow bins -/
theorem UniformNoFlow.sameInUnits {dom : Flt F → Flt F → Prop} {a a' : UniformNoFlow (Flt F)}
    (h : SameInUnits k dom (Axis.index a.axis) (Axis.index a'.axis) (Axis.numBins a.axis) (Axis.numBins a'.axis) (Axis.bin a.axis) (Axis.bin a'.axis)) :
    SameInUnits k dom (Axis.index a) (Axis.index a') (Axis.numBins a) (Axis.numBins a') (Axis.bin a) (Axis.bin a') := by
  have hn : a'.axis.numBins = a.axis.numBins := h.numBins
  refine ⟨fun c c' hc hd => ?_, ?_, fun i => ?_⟩
  · have hi : a'.axis.index c' = a.axis.index c := h.index c c' hc hd
    show a'.index c' = a.index c
    unfold UniformNoFlow.index
    rw [hi, hn]
  · show a'.numBins = a.numBins
    unfold UniformNoFlow.numBins
    rw [hn]
  · show (∃ b b', a.bin i = _ ∧ a'.bin i = _ ∧ _) ∨ (a'.bin i = a.bin i ∧ ∀ b, a.bin i ≠ _)
    unfold UniformNoFlow.bin
    cases hu : uadd i 1 with
    | error p => exact .inr ⟨rfl, fun b hc => by cases hc⟩
    | ok i1 =>
      simp only [bind, Except.bind]
      rcases h.bin i1 with ⟨b, b', e1, e2, e3⟩ | ⟨e1, e2⟩
      · have e1 : a.axis.bin i1 = _ := e1
        have e2 : a'.axis.bin i1 = _ := e2
        rw [e1, e2]
        cases b <;> cases b' <;> try exact e3.elim
        · exact .inr ⟨rfl, fun b hc => by cases hc⟩
        · exact .inr ⟨rfl, fun b hc => by cases hc⟩
        · exact .inl ⟨_, _, rfl, rfl, e3⟩
      · have e1 : a'.axis.bin i1 = a.axis.bin i1 := e1
        have e2 : ∀ b, a.axis.bin i1 ≠ .ok (some b) := e2
        right
        rw [e1]
        refine ⟨rfl, fun b hc => ?_⟩
        cases hb : a.axis.bin i1 with
        | error p => rw [hb] at hc; cases hc
        | ok o =>
          cases o with
          | none => rw [hb] at hc; cases hc
          | some b => exact e2 b hb

/-! ## Wrapping around -/

theorem FFmt.bigger_le_maxFin (F : FFmt) : pow2 (F.emax - 1) + pow2 (F.emax - 2) ≤ F.maxFin := by
  have hp := F.p_ge
  have e1 : pow2 (F.emax - 1) = pow2 ((F.p : ℤ) - 2) * pow2 (F.emax - (F.p - 1)) := by rw [← pow2_add]; congr 1; omega
  have e2 : pow2 (F.emax - 2) ≤ pow2 (F.emax - 1) := pow2_le.mpr (by omega)
  have e3 : ((2 ^ F.p - 1 : ℤ) : ℚ) = 4 * pow2 ((F.p : ℤ) - 2) - 1 := by
    have : (F.p : ℤ) = ((F.p : ℤ) - 2) + 2 := by ring
    have h4 : ((2 ^ F.p : ℕ) : ℚ) = pow2 (F.p : ℤ) := (pow2_nat _).symm
    push_cast at h4 ⊢
    rw [h4]
    conv_lhs => rw [this, pow2_add]
    rw [show pow2 2 = 4 by rfl]; ring
  have h1 : 1 ≤ pow2 ((F.p : ℤ) - 2) := by rw [← pow2_zero]; exact pow2_le.mpr (by omega)
  have hq := pow2_pos (F.emax - (F.p - 1))
  unfold FFmt.maxFin
  rw [e3]
  calc pow2 (F.emax - 1) + pow2 (F.emax - 2) ≤ 2 * pow2 (F.emax - 1) := by linarith
    _ = (2 * pow2 ((F.p : ℤ) - 2)) * pow2 (F.emax - (F.p - 1)) := by rw [e1]; ring
    _ ≤ _ := by apply mul_le_mul_of_nonneg_right _ hq.le; linarith

/-- one computation of the wrap-around: everything is finite -/
theorem wrap_fin {lo hi c : Flt F} (fl : lo.isFin) (fh : hi.isFin) (fc : c.isFin) (hlt : lo.val < hi.val) (b1 : |lo.val| ≤ pow2 (F.emax - 2)) (b2 : |hi.val| ≤ pow2 (F.emax - 2))
    (hpos : 0 < F.rs (hi.val - lo.val)) (hc : |c.val - lo.val| ≤ F.maxFin) :
    (Flt.sub hi lo).isFin ∧ (Flt.sub c lo).isFin ∧ (Flt.rem (Flt.sub c lo) (Flt.sub hi lo)).isFin ∧
    (POrd.lt (Flt.rem (Flt.sub c lo) (Flt.sub hi lo)) (Flt.zero false) = true → (Flt.add (Flt.sub hi lo) (Flt.rem (Flt.sub c lo) (Flt.sub hi lo))).isFin) ∧
    (Flt.add (if POrd.lt (Flt.rem (Flt.sub c lo) (Flt.sub hi lo)) (Flt.zero false) = true then Flt.add (Flt.sub hi lo) (Flt.rem (Flt.sub c lo) (Flt.sub hi lo))
      else Flt.rem (Flt.sub c lo) (Flt.sub hi lo)) lo).isFin := by
  have hbig := F.bigger_le_maxFin
  have hp1 := pow2_pos (F.emax - 2)
  have e2 : pow2 (F.emax - 1) = 2 * pow2 (F.emax - 2) := by rw [← pow2_succ]; congr 1; ring
  have hD : |hi.val - lo.val| ≤ pow2 (F.emax - 1) := by rw [e2]; exact (abs_sub _ _).trans (by linarith)
  have f1 : (Flt.sub hi lo).isFin := Uniform.sub_fin fh fl (hD.trans (by linarith))
  have f2 : (Flt.sub c lo).isFin := Uniform.sub_fin fc fl hc
  have vr : (Flt.sub hi lo).val = F.rs (hi.val - lo.val) := (Flt.sub_rounds fh fl).of_isFin f1
  have vle : (Flt.sub hi lo).val ≤ pow2 (F.emax - 1) := by
    rw [vr]
    have h := F.rs_mono ((le_abs_self _).trans hD)
    have hr : F.RepU |pow2 (F.emax - 1)| := by
      rw [abs_of_pos (pow2_pos _)]
      exact ⟨1, F.emax - 1, by ring, Nat.one_lt_two_pow (by have := F.p_ge; omega), by unfold FFmt.qmin; have := F.p_ge; have := F.emin_le; have := F.emax_ge; omega⟩
    rwa [F.rs_of_rep hr] at h
  rw [← vr] at hpos
  generalize hrg : Flt.sub hi lo = rg at *
  generalize hd : Flt.sub c lo = d at *
  have f3 : (Flt.rem d rg).isFin ∧ |(Flt.rem d rg).val| ≤ rg.val := by
    cases d with
    | nan => exact f2.elim
    | inf => exact f2.elim
    | fin s a ha =>
      cases rg with
      | nan => exact f1.elim
      | inf => exact f1.elim
      | fin t b hb =>
        have b0 : b ≠ 0 := by rintro rfl; cases t <;> simp [Flt.val, Flt.sval] at hpos
        have tf : t = false := by
          cases t
          · rfl
          · simp only [Flt.val, Flt.sval, if_true] at hpos; linarith [hb.nonneg]
        subst tf
        obtain ⟨h, e⟩ := Flt.rem_exact (s := s) (t := false) (ha := ha) (hb := hb) b0
        rw [e]
        refine ⟨trivial, ?_⟩
        show |Flt.sval s _| ≤ b
        rw [Flt.abs_sval s h.nonneg]
        have hbp : 0 < b := lt_of_le_of_ne hb.nonneg (Ne.symm b0)
        have := Int.lt_floor_add_one (a / b)
        rw [div_lt_iff₀ hbp] at this
        nlinarith
  obtain ⟨f3, hle⟩ := f3
  generalize hr : Flt.rem d rg = r at *
  have fz : (Flt.zero false : Flt F).isFin := trivial
  have vz : (Flt.zero false : Flt F).val = 0 := by simp [Flt.zero, Flt.val, Flt.sval]
  have mx : rg.val ≤ F.maxFin := (le_abs_self _).trans (Flt.abs_val_le rg)
  have f4 : POrd.lt r (Flt.zero false) = true → (Flt.add rg r).isFin ∧ |(Flt.add rg r).val| ≤ rg.val := by
    intro h
    rw [Flt.lt_fin f3 fz, decide_eq_true_eq, vz] at h
    rw [abs_le] at hle
    obtain ⟨g1, g2⟩ := (Flt.add_rounds f1 f3).fin_of (by rw [abs_of_nonneg (by linarith)]; linarith)
    refine ⟨g1, ?_⟩
    rw [g2, abs_of_nonneg (F.rs_pos_le (by linarith))]
    have := F.rs_mono (show rg.val + r.val ≤ rg.val by linarith)
    rwa [Flt.rs_val] at this
  refine ⟨f1, f2, f3, fun h => (f4 h).1, ?_⟩
  have fin : ∀ z : Flt F, z.isFin → |z.val| ≤ rg.val → (Flt.add z lo).isFin := by
    intro z fz hz
    refine ((Flt.add_rounds fz fl).fin_of ((abs_add_le _ _).trans ?_)).1
    linarith
  split
  · next h => exact fin _ (f4 h).1 (f4 h).2
  · exact fin _ f3 hle

/-- what the wrap-around computes on floats -/
theorem wrapAround_eq (lo hi c : Flt F) : wrapAround lo hi c =
    .ok (Flt.add (if POrd.lt (Flt.rem (Flt.sub c lo) (Flt.sub hi lo)) (Flt.zero false) = true then Flt.add (Flt.sub hi lo) (Flt.rem (Flt.sub c lo) (Flt.sub hi lo))
      else Flt.rem (Flt.sub c lo) (Flt.sub hi lo)) lo) := by
  unfold wrapAround
  show (if POrd.lt (Flt.rem (Flt.sub c lo) (Flt.sub hi lo)) (Flt.zero false) = true then (.ok (Flt.add (Flt.add (Flt.sub hi lo) (Flt.rem (Flt.sub c lo) (Flt.sub hi lo))) lo) : Res (Flt F))
    else .ok (Flt.add (Flt.rem (Flt.sub c lo) (Flt.sub hi lo)) lo)) = _
  split <;> rfl

theorem rs_sub_pos {x y : Flt F} (h : x.val < y.val) : 0 < F.rs (y.val - x.val) := by
  obtain ⟨n, hn⟩ := Flt.sum_mult y (Flt.neg x)
  rw [Flt.neg_val, ← sub_eq_add_neg, abs_of_pos (by linarith)] at hn
  have hq := pow2_pos F.qmin
  have n1 : (1 : ℚ) ≤ n := by
    have : n ≠ 0 := by rintro rfl; simp at hn; linarith
    exact_mod_cast Nat.one_le_iff_ne_zero.mpr this
  have hle : pow2 F.qmin ≤ y.val - x.val := by rw [hn]; nlinarith
  have := F.rs_mono hle
  rw [F.rs_of_rep (by rw [abs_of_pos hq]; exact ⟨1, F.qmin, by ring, Nat.one_lt_two_pow (by have := F.p_ge; omega), le_rfl⟩)] at this
  linarith

theorem Flt.rem_zero_val {d rg : Flt F} (h : rg.isFin) (h0 : rg.val = 0) : Flt.rem d rg = .nan := by
  cases rg with
  | nan => exact h.elim
  | inf => exact h.elim
  | fin t b hb =>
    have : b = 0 := by cases t <;> simpa [Flt.val, Flt.sval] using h0
    subst this
    cases d <;> simp [Flt.rem]

theorem wrapAround_scaled {lo lo' hi hi' : Flt F} (hl : lo.Scaled k lo') (hh : hi.Scaled k hi') (fl : lo.isFin) (fh : hi.isFin) (hle : lo.val ≤ hi.val) (hb : CyclicFit F k lo.val hi.val)
    {c c' : Flt F} (hc : c.Scaled k c') (hd : NoOverflow lo lo' c c') :
    ∃ x x', wrapAround lo hi c = .ok x ∧ wrapAround lo' hi' c' = .ok x' ∧ x.Scaled k x' := by
  refine ⟨_, _, wrapAround_eq _ _ _, wrapAround_eq _ _ _, ?_⟩
  have fl' := hl.isFin_iff.mp fl
  have fh' := hh.isFin_iff.mp fh
  rcases hle.eq_or_lt with heq | hlt
  · -- all edges coincide: the remainder is not a number
    have z : ∀ {a b d : Flt F}, a.isFin → b.isFin → a.val = b.val → Flt.rem d (Flt.sub b a) = .nan := by
      intro a b d ha hb h
      obtain ⟨g1, g2⟩ := (Flt.sub_rounds hb ha).fin_of (by rw [h]; simpa using F.maxFin_pos.le)
      exact Flt.rem_zero_val g1 (by rw [g2, h, sub_self, F.rs_zero])
    rw [z fl fh heq, z fl' fh' (by rw [hl.val_eq, hh.val_eq, heq])]
    trivial
  cases hcc : c with
  | nan =>
    rw [hcc] at hc
    cases c' with
    | nan => trivial
    | inf => exact hc.elim
    | fin => exact hc.elim
  | inf s =>
    rw [hcc] at hc
    cases c' with
    | nan => exact hc.elim
    | fin => exact hc.elim
    | inf t =>
      cases lo with
      | nan => exact fl.elim
      | inf => exact fl.elim
      | fin =>
        cases lo' with
        | nan => exact hl.elim
        | inf => exact hl.elim
        | fin =>
          generalize Flt.sub hi _ = y
          generalize Flt.sub hi' _ = y'
          cases y <;> cases y' <;> trivial
  | fin s m hm =>
    have fc : c.isFin := by rw [hcc]; trivial
    rw [← hcc]
    have fc' := hc.isFin_iff.mp fc
    obtain ⟨d1, d2⟩ := hd fc
    obtain ⟨b1, b2, b3, b4⟩ := hb
    have hlt' : lo'.val < hi'.val := by rw [hl.val_eq, hh.val_eq]; exact mul_lt_mul_of_pos_right hlt (pow2_pos k)
    have A := wrap_fin fl fh fc hlt b1 b2 (rs_sub_pos hlt) d1
    have B := wrap_fin fl' fh' fc' hlt' (by rw [hl.val_eq, abs_mul, abs_of_pos (pow2_pos k)]; exact b3) (by rw [hh.val_eq, abs_mul, abs_of_pos (pow2_pos k)]; exact b4) (rs_sub_pos hlt') d2
    have s1 := hh.sub hl A.1 B.1
    have s2 := hc.sub hl A.2.1 B.2.1
    have s3 := s2.rem s1
    have e := Uniform.lt_scaled s3 (Flt.zero_scaled (F := F) (k := k) false)
    have A5 := A.2.2.2.2
    have B5 := B.2.2.2.2
    rw [e] at B5 ⊢
    by_cases hz : POrd.lt (Flt.rem (Flt.sub c lo) (Flt.sub hi lo)) (Flt.zero false) = true
    · rw [if_pos hz] at A5 B5 ⊢
      rw [if_pos hz]
      have s4 := s1.add s3 (A.2.2.2.1 hz) (B.2.2.2.1 (by rw [e]; exact hz))
      exact s4.add hl A5 B5
    · rw [if_neg hz] at A5 B5 ⊢
      rw [if_neg hz]
      exact s3.add hl A5 B5

/-! ## Variable bins -/
section
variable [StdLib]

theorem scaledList_getElem? {α β : Type} {R : α → β → Prop} {l : List α} {l' : List β} (h : List.Forall₂ R l l') (i : ℕ) :
    (l[i]? = none ∧ l'[i]? = none) ∨ ∃ x y, l[i]? = some x ∧ l'[i]? = some y ∧ R x y := by
  induction h generalizing i with
  | nil => exact .inl ⟨rfl, rfl⟩
  | cons hxy _ ih =>
    cases i with
    | zero => exact .inr ⟨_, _, rfl, rfl, hxy⟩
    | succ i => exact ih i

variable {edges edges' : List (Flt F)}

theorem Variable.sortCmp_scaled (h : List.Forall₂ (Flt.Scaled k) edges edges') : Variable.sortCmp edges' = Variable.sortCmp edges := by
  funext i j
  unfold Variable.sortCmp
  rcases scaledList_getElem? h i with ⟨e1, e2⟩ | ⟨x, y, e1, e2, e3⟩
  · rw [e1, e2]
  · rw [e1, e2]
    rcases scaledList_getElem? h j with ⟨d1, d2⟩ | ⟨u, v, d1, d2, d3⟩
    · rw [d1, d2]
    · rw [d1, d2]; simp only; rw [e3.pcmp d3]

theorem Variable.new_scaled (h : List.Forall₂ (Flt.Scaled k) edges edges') {a : Variable (Flt F)} (hnew : Variable.new edges = .ok (.ok a)) :
    ∃ a', Variable.new edges' = .ok (.ok a') ∧ List.Forall₂ (Flt.Scaled k) a.binEdges a'.binEdges := by
  have hlen := h.length_eq
  have hs := Variable.sortCmp_scaled h
  unfold Variable.new at hnew ⊢
  unfold Variable.sortBy at hnew ⊢
  rw [← hlen, hs]
  split at hnew
  · cases hnew
  next h2 =>
  rw [if_neg h2]
  cases hr : SortTree.run (fun i j => (Variable.sortCmp edges i j).1) (StdLib.sort.tree edges.length) with
  | none => simp only [hr] at hnew; cases hnew
  | some order =>
    simp only [hr] at hnew ⊢
    split at hnew
    · cases hnew
    next h3 =>
    rw [if_neg h3]
    cases hnew
    refine ⟨_, rfl, ?_⟩
    show List.Forall₂ _ (order.filterMap _) (order.filterMap _)
    clear hr h3
    induction order with
    | nil => exact .nil
    | cons i l ih =>
      simp only [List.filterMap_cons]
      rcases scaledList_getElem? h i with ⟨e1, e2⟩ | ⟨x, y, e1, e2, e3⟩
      · rw [e1, e2]; exact ih
      · rw [e1, e2]; exact .cons e3 ih

theorem Variable.index_scaled {a a' : Variable (Flt F)} (h : List.Forall₂ (Flt.Scaled k) a.binEdges a'.binEdges) {c c' : Flt F} (hc : c.Scaled k c') : a'.index c' = a.index c := by
  have : a'.probeCmp c' = a.probeCmp c := by
    funext i
    unfold Variable.probeCmp
    rcases scaledList_getElem? h i with ⟨e1, e2⟩ | ⟨x, y, e1, e2, e3⟩
    · rw [e1, e2]
    · rw [e1, e2]; simp only; rw [e3.pcmp hc]
  unfold Variable.index
  rw [this, h.length_eq]

theorem Variable.ends_scaled {a a' : Variable (Flt F)} (h : List.Forall₂ (Flt.Scaled k) a.binEdges a'.binEdges) :
    ((a.low = .error .expectNone ∧ a'.low = .error .expectNone) ∨ ∃ x y, a.low = .ok x ∧ a'.low = .ok y ∧ x.Scaled k y) ∧
    ((a.high = .error .expectNone ∧ a'.high = .error .expectNone) ∨ ∃ x y, a.high = .ok x ∧ a'.high = .ok y ∧ x.Scaled k y) := by
  unfold Variable.low Variable.high
  constructor
  · rw [List.head?_eq_getElem?, List.head?_eq_getElem?]
    rcases scaledList_getElem? h 0 with ⟨e1, e2⟩ | ⟨x, y, e1, e2, e3⟩
    · rw [e1, e2]; exact .inl ⟨rfl, rfl⟩
    · rw [e1, e2]; exact .inr ⟨x, y, rfl, rfl, e3⟩
  · rw [List.getLast?_eq_getElem?, List.getLast?_eq_getElem?, ← h.length_eq]
    rcases scaledList_getElem? h (a.binEdges.length - 1) with ⟨e1, e2⟩ | ⟨x, y, e1, e2, e3⟩
    · rw [e1, e2]; exact .inl ⟨rfl, rfl⟩
    · rw [e1, e2]; exact .inr ⟨x, y, rfl, rfl, e3⟩

theorem Variable.sameInUnits {a a' : Variable (Flt F)} (h : List.Forall₂ (Flt.Scaled k) a.binEdges a'.binEdges) :
    SameInUnits k (fun _ _ => True) (@Axis.index (Variable (Flt F)) cfg _ a) (@Axis.index (Variable (Flt F)) cfg _ a') (@Axis.numBins (Variable (Flt F)) cfg _ a) (@Axis.numBins (Variable (Flt F)) cfg _ a') (@Axis.bin (Variable (Flt F)) cfg _ a) (@Axis.bin (Variable (Flt F)) cfg _ a') := by
  refine ⟨fun c c' hc _ => Variable.index_scaled h hc, ?_, fun i => ?_⟩
  · show a'.numBins = a.numBins
    unfold Variable.numBins; rw [h.length_eq]
  · show (∃ b b', a.bin i = _ ∧ a'.bin i = _ ∧ _) ∨ (a'.bin i = a.bin i ∧ ∀ b, a.bin i ≠ _)
    unfold Variable.bin
    obtain ⟨hl, hh⟩ := Variable.ends_scaled h
    rw [← h.length_eq]
    split
    · rcases hl with ⟨e1, e2⟩ | ⟨x, y, e1, e2, e3⟩
      · rw [e1, e2]; exact .inr ⟨rfl, fun b hc => by cases hc⟩
      · rw [e1, e2]; exact .inl ⟨_, _, rfl, rfl, fun _ _ => e3⟩
    · split
      · rcases hh with ⟨e1, e2⟩ | ⟨x, y, e1, e2, e3⟩
        · rw [e1, e2]; exact .inr ⟨rfl, fun b hc => by cases hc⟩
        · rw [e1, e2]; exact .inl ⟨_, _, rfl, rfl, fun _ _ => e3⟩
      · split
        · unfold indexSlice
          rcases scaledList_getElem? h (i - 1) with ⟨e1, e2⟩ | ⟨x, y, e1, e2, e3⟩
          · rw [e1, e2]; exact .inr ⟨rfl, fun b hc => by cases hc⟩
          · rw [e1, e2]
            rcases scaledList_getElem? h i with ⟨d1, d2⟩ | ⟨u, v, d1, d2, d3⟩
            · rw [d1, d2]; exact .inr ⟨rfl, fun b hc => by cases hc⟩
            · rw [d1, d2]; exact .inl ⟨_, _, rfl, rfl, fun _ _ => e3, fun _ _ => d3⟩
        · exact .inr ⟨rfl, fun b hc => by cases hc⟩

theorem VariableNoFlow.sameInUnits {dom : Flt F → Flt F → Prop} {a a' : VariableNoFlow (Flt F)}
    (h : SameInUnits k dom (@Axis.index (Variable (Flt F)) cfg _ a.axis) (@Axis.index (Variable (Flt F)) cfg _ a'.axis) (@Axis.numBins (Variable (Flt F)) cfg _ a.axis) (@Axis.numBins (Variable (Flt F)) cfg _ a'.axis) (@Axis.bin (Variable (Flt F)) cfg _ a.axis) (@Axis.bin (Variable (Flt F)) cfg _ a'.axis)) :
    SameInUnits k dom (@Axis.index (VariableNoFlow (Flt F)) cfg _ a) (@Axis.index (VariableNoFlow (Flt F)) cfg _ a') (@Axis.numBins (VariableNoFlow (Flt F)) cfg _ a) (@Axis.numBins (VariableNoFlow (Flt F)) cfg _ a') (@Axis.bin (VariableNoFlow (Flt F)) cfg _ a) (@Axis.bin (VariableNoFlow (Flt F)) cfg _ a') := by
  have hn : a'.axis.numBins = a.axis.numBins := h.numBins
  refine ⟨fun c c' hc hd => ?_, ?_, fun i => ?_⟩
  · have hi : a'.axis.index c' = a.axis.index c := h.index c c' hc hd
    show a'.index c' = a.index c
    unfold VariableNoFlow.index
    rw [hi, hn]
  · show a'.numBins = a.numBins
    unfold VariableNoFlow.numBins
    rw [hn]
  · show (∃ b b', a.bin i = _ ∧ a'.bin i = _ ∧ _) ∨ (a'.bin i = a.bin i ∧ ∀ b, a.bin i ≠ _)
    unfold VariableNoFlow.bin
    cases hu : uadd i 1 with
    | error p => exact .inr ⟨rfl, fun b hc => by cases hc⟩
    | ok i1 =>
      simp only [bind, Except.bind]
      rcases h.bin i1 with ⟨b, b', e1, e2, e3⟩ | ⟨e1, e2⟩
      · have e1 : a.axis.bin i1 = _ := e1
        have e2 : a'.axis.bin i1 = _ := e2
        rw [e1, e2]
        cases b <;> cases b' <;> try exact e3.elim
        · exact .inr ⟨rfl, fun b hc => by cases hc⟩
        · exact .inr ⟨rfl, fun b hc => by cases hc⟩
        · exact .inl ⟨_, _, rfl, rfl, e3⟩
      · have e1 : a'.axis.bin i1 = a.axis.bin i1 := e1
        have e2 : ∀ b, a.axis.bin i1 ≠ .ok (some b) := e2
        right
        rw [e1]
        refine ⟨rfl, fun b hc => ?_⟩
        cases hb : a.axis.bin i1 with
        | error p => rw [hb] at hc; cases hc
        | ok o =>
          cases o with
          | none => rw [hb] at hc; cases hc
          | some b => exact e2 b hb
end

/-! ## Cyclic axes -/
theorem UniformCyclic.sameInUnits {a a' : UniformCyclic (Flt F)} (h : Uniform.InUnits k a.axis.axis a'.axis.axis) (hl : a.axis.axis.low.isFin) (hh : a.axis.axis.high.isFin)
    (hle : a.axis.axis.low.val ≤ a.axis.axis.high.val) (hn0 : a.axis.axis.num ≠ 0) (hf : UnitsFit F k a.axis.axis.num (a.axis.axis.high.val - a.axis.axis.low.val))
    (hb : CyclicFit F k a.axis.axis.low.val a.axis.axis.high.val) :
    SameInUnits k (NoOverflow a.low a'.low) (Axis.index a) (Axis.index a') (Axis.numBins a) (Axis.numBins a') (Axis.bin a) (Axis.bin a') := by
  have g := UniformNoFlow.sameInUnits (Uniform.sameInUnits h hl hh hle hn0 hf)
  refine ⟨fun c c' hc hd => ?_, g.numBins, g.bin⟩
  obtain ⟨x, x', e1, e2, e3⟩ := wrapAround_scaled h.low h.high hl hh hle hb hc hd
  show (do let x ← wrapAround a'.axis.axis.low a'.axis.axis.high c'; a'.axis.index x) = (do let x ← wrapAround a.axis.axis.low a.axis.axis.high c; a.axis.index x)
  rw [e1, e2]
  exact g.index x x' e3 trivial

section
variable [StdLib]

theorem VariableCyclic.sameInUnits {a a' : VariableCyclic (Flt F)} (h : List.Forall₂ (Flt.Scaled k) a.axis.axis.binEdges a'.axis.axis.binEdges)
    {lo hi lo' hi' : Flt F} (el : a.low = .ok lo) (eh : a.high = .ok hi) (el' : a'.low = .ok lo') (eh' : a'.high = .ok hi') (hl : lo.isFin) (hh : hi.isFin) (hle : lo.val ≤ hi.val)
    (hb : CyclicFit F k lo.val hi.val) :
    SameInUnits k (NoOverflow lo lo') (Axis.index a) (Axis.index a') (Axis.numBins a) (Axis.numBins a') (Axis.bin a) (Axis.bin a') := by
  have g := VariableNoFlow.sameInUnits (Variable.sameInUnits h)
  refine ⟨fun c c' hc hd => ?_, g.numBins, g.bin⟩
  obtain ⟨q1, q2⟩ := Variable.ends_scaled h
  have sl : lo.Scaled k lo' := by
    rcases q1 with ⟨e1, -⟩ | ⟨x, y, e1, e2, e3⟩
    · rw [show a.axis.axis.low = .ok lo from el] at e1; cases e1
    · rw [show a.axis.axis.low = .ok lo from el] at e1; rw [show a'.axis.axis.low = .ok lo' from el'] at e2; cases e1; cases e2; exact e3
  have sh : hi.Scaled k hi' := by
    rcases q2 with ⟨e1, -⟩ | ⟨x, y, e1, e2, e3⟩
    · rw [show a.axis.axis.high = .ok hi from eh] at e1; cases e1
    · rw [show a.axis.axis.high = .ok hi from eh] at e1; rw [show a'.axis.axis.high = .ok hi' from eh'] at e2; cases e1; cases e2; exact e3
  obtain ⟨x, x', e1, e2, e3⟩ := wrapAround_scaled sl sh hl hh hle hb hc hd
  show a'.index c' = a.index c
  unfold VariableCyclic.index
  rw [show a.axis.high = .ok hi from eh, show a.axis.low = .ok lo from el, show a'.axis.high = .ok hi' from eh', show a'.axis.low = .ok lo' from el']
  simp only [bind, Except.bind]
  rw [e1, e2]
  exact g.index x x' e3 trivial
end

/-! ## The theorems -/
section
variable {num : ℕ} {low low' high high' step step' : Flt F}

/-- **C85.** `Uniform::new` with bounds in another unit succeeds too and gives the same axis in that unit. -/
theorem C85_uniform {a : Uniform (Flt F)} (hl : low.Scaled k low') (hh : high.Scaled k high') (fl : low.isFin) (fh : high.isFin) (hf : UnitsFit F k num |high.val - low.val|)
    (hnew : Uniform.new num low high = .ok (.ok a)) :
    ∃ a', Uniform.new num low' high' = .ok (.ok a') ∧
      SameInUnits k (fun _ _ => True) (Axis.index a) (Axis.index a') (Axis.numBins a) (Axis.numBins a') (Axis.bin a) (Axis.bin a') := by
  obtain ⟨a', e, h1, h2, h3, h4, h5, h6⟩ := Uniform.new_inUnits hl hh fl fh hf hnew
  exact ⟨a', e, Uniform.sameInUnits h1 h2 h3 h4 h5 h6⟩

/-- **C85.** The same without flow bins. -/
theorem C85_uniform_noflow {a : UniformNoFlow (Flt F)} (hl : low.Scaled k low') (hh : high.Scaled k high') (fl : low.isFin) (fh : high.isFin) (hf : UnitsFit F k num |high.val - low.val|)
    (hnew : UniformNoFlow.new num low high = .ok (.ok a)) :
    ∃ a', UniformNoFlow.new num low' high' = .ok (.ok a') ∧
      SameInUnits k (fun _ _ => True) (Axis.index a) (Axis.index a') (Axis.numBins a) (Axis.numBins a') (Axis.bin a) (Axis.bin a') := by
  obtain ⟨a', e, h1, h2, h3, h4, h5, h6⟩ := Uniform.new_inUnits hl hh fl fh hf (UniformNoFlow.new_inv hnew)
  refine ⟨⟨a'⟩, ?_, UniformNoFlow.sameInUnits (Uniform.sameInUnits h1 h2 h3 h4 h5 h6)⟩
  unfold UniformNoFlow.new
  rw [e]; rfl

/-- **C85.** The same for cyclic axes, for coordinates whose distance to the lower end does not overflow. -/
theorem C85_uniform_cyclic {a : UniformCyclic (Flt F)} (hl : low.Scaled k low') (hh : high.Scaled k high') (fl : low.isFin) (fh : high.isFin) (hf : UnitsFit F k num |high.val - low.val|)
    (hb : CyclicFit F k low.val high.val) (hnew : UniformCyclic.new num low high = .ok (.ok a)) :
    ∃ a', UniformCyclic.new num low' high' = .ok (.ok a') ∧
      SameInUnits k (NoOverflow a.low a'.low) (Axis.index a) (Axis.index a') (Axis.numBins a) (Axis.numBins a') (Axis.bin a) (Axis.bin a') := by
  have hn := UniformCyclic.new_inv hnew
  obtain ⟨a', e, h1, h2, h3, h4, h5, h6⟩ := Uniform.new_inUnits hl hh fl fh hf hn
  refine ⟨⟨⟨a'⟩⟩, ?_, UniformCyclic.sameInUnits h1 h2 h3 h4 h5 h6 ?_⟩
  · unfold UniformCyclic.new UniformNoFlow.new
    rw [e]; rfl
  · rw [Uniform.new_eq] at hn
    split at hn
    · cases hn
    split at hn
    · cases hn
    split at hn
    · injection hn with hn; injection hn with hn; rw [← hn]
      exact ⟨hb.2.1, hb.1, hb.2.2.2, hb.2.2.1⟩
    · injection hn with hn; injection hn with hn; rw [← hn]; exact hb

theorem Uniform.withStepSize_scaled_ok {a : Uniform (Flt F)} (hs : step.Scaled k step') (hnew : Uniform.withStepSize num low step = .ok (.ok a)) :
    ∃ a', Uniform.withStepSize num low' step' = .ok (.ok a') := by
  rw [Uniform.withStepSize_eq] at hnew ⊢
  rw [Uniform.le_scaled hs (Flt.zero_scaled (F := F) (k := k) false)]
  split at hnew
  · cases hnew
  next h0 =>
  rw [if_neg h0]
  split at hnew
  · cases hnew
  next h1 =>
  rw [if_neg h1]
  split <;> exact ⟨_, rfl⟩

/-- **C85.** `Uniform::with_step_size`, if the computed upper end is finite in both units. -/
theorem C85_uniform_step {a : Uniform (Flt F)} (hl : low.Scaled k low') (hs : step.Scaled k step') (fl : low.isFin) (fs : step.isFin) (h1 : pow2 F.emin ≤ step.val) (h1' : pow2 F.emin ≤ step'.val)
    (hnew : Uniform.withStepSize num low step = .ok (.ok a)) (fa : a.low.isFin) (fh : a.high.isFin) (hf : UnitsFit F k num (a.high.val - a.low.val)) :
    ∃ a', Uniform.withStepSize num low' step' = .ok (.ok a') ∧ (a'.low.isFin → a'.high.isFin →
      SameInUnits k (fun _ _ => True) (Axis.index a) (Axis.index a') (Axis.numBins a) (Axis.numBins a') (Axis.bin a) (Axis.bin a')) := by
  have hn := hnew
  obtain ⟨a', e⟩ := Uniform.withStepSize_scaled_ok (low' := low') hs hn
  refine ⟨a', e, fun fa' fh' => ?_⟩
  obtain ⟨g1, g2, g3, g4⟩ := Uniform.withStepSize_inUnits hl hs fl fs h1 h1' hf.count hn e fh fh' fa fa'
  exact Uniform.sameInUnits g1 fa fh g2 (by rw [g3]; exact g4) (by rw [g3]; exact hf)

/-- **C85.** The same without flow bins. -/
theorem C85_uniform_noflow_step {a : UniformNoFlow (Flt F)} (hl : low.Scaled k low') (hs : step.Scaled k step') (fl : low.isFin) (fs : step.isFin) (h1 : pow2 F.emin ≤ step.val) (h1' : pow2 F.emin ≤ step'.val)
    (hnew : UniformNoFlow.withStepSize num low step = .ok (.ok a)) (fa : a.low.isFin) (fh : a.high.isFin) (hf : UnitsFit F k num (a.high.val - a.low.val)) :
    ∃ a', UniformNoFlow.withStepSize num low' step' = .ok (.ok a') ∧ (a'.low.isFin → a'.high.isFin →
      SameInUnits k (fun _ _ => True) (Axis.index a) (Axis.index a') (Axis.numBins a) (Axis.numBins a') (Axis.bin a) (Axis.bin a')) := by
  have hn := UniformNoFlow.withStepSize_inv hnew
  obtain ⟨a', e⟩ := Uniform.withStepSize_scaled_ok (low' := low') hs hn
  refine ⟨⟨a'⟩, by unfold UniformNoFlow.withStepSize; rw [e]; rfl, fun fa' fh' => ?_⟩
  obtain ⟨g1, g2, g3, g4⟩ := Uniform.withStepSize_inUnits hl hs fl fs h1 h1' hf.count hn e fh fh' fa fa'
  exact UniformNoFlow.sameInUnits (Uniform.sameInUnits g1 fa fh g2 (by rw [g3]; exact g4) (by rw [g3]; exact hf))

/-- **C85.** The same for cyclic axes. -/
theorem C85_uniform_cyclic_step {a : UniformCyclic (Flt F)} (hl : low.Scaled k low') (hs : step.Scaled k step') (fl : low.isFin) (fs : step.isFin) (h1 : pow2 F.emin ≤ step.val) (h1' : pow2 F.emin ≤ step'.val)
    (hnew : UniformCyclic.withStepSize num low step = .ok (.ok a)) (fa : a.low.isFin) (fh : a.high.isFin) (hf : UnitsFit F k num (a.high.val - a.low.val)) (hb : CyclicFit F k a.low.val a.high.val) :
    ∃ a', UniformCyclic.withStepSize num low' step' = .ok (.ok a') ∧ (a'.low.isFin → a'.high.isFin →
      SameInUnits k (NoOverflow a.low a'.low) (Axis.index a) (Axis.index a') (Axis.numBins a) (Axis.numBins a') (Axis.bin a) (Axis.bin a')) := by
  have hn := UniformCyclic.withStepSize_inv hnew
  obtain ⟨a', e⟩ := Uniform.withStepSize_scaled_ok (low' := low') hs hn
  refine ⟨⟨⟨a'⟩⟩, by unfold UniformCyclic.withStepSize UniformNoFlow.withStepSize; rw [e]; rfl, fun fa' fh' => ?_⟩
  obtain ⟨g1, g2, g3, g4⟩ := Uniform.withStepSize_inUnits hl hs fl fs h1 h1' hf.count hn e fh fh' fa fa'
  exact UniformCyclic.sameInUnits g1 fa fh g2 (by rw [g3]; exact g4) (by rw [g3]; exact hf) hb

end

section
variable [StdLib] {edges edges' : List (Flt F)}

/-- **C85.** Variable-width axes: no condition at all, also for infinite edges and repeated ones. -/
theorem C85_variable {a : Variable (Flt F)} (h : List.Forall₂ (Flt.Scaled k) edges edges') (hnew : Variable.new edges = .ok (.ok a)) :
    ∃ a', Variable.new edges' = .ok (.ok a') ∧
      SameInUnits k (fun _ _ => True) (@Axis.index _ cfg _ a) (@Axis.index _ cfg _ a') (@Axis.numBins _ cfg _ a) (@Axis.numBins _ cfg _ a') (@Axis.bin _ cfg _ a) (@Axis.bin _ cfg _ a') := by
  obtain ⟨a', e, g⟩ := Variable.new_scaled h hnew
  exact ⟨a', e, Variable.sameInUnits g⟩

/-- **C85.** The same without flow bins. -/
theorem C85_variable_noflow {a : VariableNoFlow (Flt F)} (h : List.Forall₂ (Flt.Scaled k) edges edges') (hnew : VariableNoFlow.new edges = .ok (.ok a)) :
    ∃ a', VariableNoFlow.new edges' = .ok (.ok a') ∧
      SameInUnits k (fun _ _ => True) (@Axis.index _ cfg _ a) (@Axis.index _ cfg _ a') (@Axis.numBins _ cfg _ a) (@Axis.numBins _ cfg _ a') (@Axis.bin _ cfg _ a) (@Axis.bin _ cfg _ a') := by
  obtain ⟨a', e, g⟩ := Variable.new_scaled h (VariableNoFlow.new_ok hnew)
  refine ⟨⟨a'⟩, ?_, VariableNoFlow.sameInUnits (Variable.sameInUnits g)⟩
  unfold VariableNoFlow.new; rw [e]; rfl

/-- **C85.** The same for cyclic axes. -/
theorem C85_variable_cyclic {a : VariableCyclic (Flt F)} (h : List.Forall₂ (Flt.Scaled k) edges edges') (hfin : ∀ e ∈ edges, e.isFin)
    (hb : ∀ e ∈ edges, |e.val| ≤ pow2 (F.emax - 2) ∧ |e.val| * pow2 k ≤ pow2 (F.emax - 2)) (hnew : VariableCyclic.new edges = .ok (.ok a)) :
    ∃ a' lo lo', VariableCyclic.new edges' = .ok (.ok a') ∧ a.low = .ok lo ∧ a'.low = .ok lo' ∧
      SameInUnits k (NoOverflow lo lo') (Axis.index a) (Axis.index a') (Axis.numBins a) (Axis.numBins a') (Axis.bin a) (Axis.bin a') := by
  have hv := VariableNoFlow.new_ok (VariableCyclic.new_ok hnew)
  obtain ⟨a', e, g⟩ := Variable.new_scaled h hv
  obtain ⟨h2, -, hp, ho⟩ := Variable.new_ok hv
  have hlen := hp.length_eq
  have hlen' := g.length_eq
  have e1 : a.axis.axis.binEdges.head? = some (a.axis.axis.binEdges[0]'(by omega)) := by rw [List.head?_eq_getElem?, List.getElem?_eq_getElem (by omega)]
  have e2 : a.axis.axis.binEdges.getLast? = some (a.axis.axis.binEdges[a.axis.axis.binEdges.length - 1]'(by omega)) := by
    rw [List.getLast?_eq_getElem?, List.getElem?_eq_getElem (by omega)]
  have e1' : a'.binEdges.head? = some (a'.binEdges[0]'(by omega)) := by rw [List.head?_eq_getElem?, List.getElem?_eq_getElem (by omega)]
  have e2' : a'.binEdges.getLast? = some (a'.binEdges[a'.binEdges.length - 1]'(by omega)) := by rw [List.getLast?_eq_getElem?, List.getElem?_eq_getElem (by omega)]
  have m1 := hp.mem_iff.mp (List.mem_of_mem_head? (Option.mem_def.mpr e1))
  have m2 := hp.mem_iff.mp (List.mem_of_mem_getLast? (Option.mem_def.mpr e2))
  have hle := ho.mono (Nat.zero_le (a.axis.axis.binEdges.length - 1)) (by omega)
  rw [Flt.le_fin (hfin _ m1) (hfin _ m2), decide_eq_true_eq] at hle
  refine ⟨⟨⟨a'⟩⟩, _, _, ?_, ?_, ?_, VariableCyclic.sameInUnits (a' := ⟨⟨a'⟩⟩) g (lo := a.axis.axis.binEdges[0]'(by omega))
    (hi := a.axis.axis.binEdges[a.axis.axis.binEdges.length - 1]'(by omega)) (lo' := a'.binEdges[0]'(by omega)) (hi' := a'.binEdges[a'.binEdges.length - 1]'(by omega)) ?_ ?_ ?_ ?_
    (hfin _ m1) (hfin _ m2) hle ⟨(hb _ m1).1, (hb _ m2).1, (hb _ m1).2, (hb _ m2).2⟩⟩
  · unfold VariableCyclic.new VariableNoFlow.new; rw [e]; rfl
  all_goals
    first
    | (show a.axis.axis.low = _; unfold Variable.low; rw [e1]; rfl)
    | (show a.axis.axis.high = _; unfold Variable.high; rw [e2]; rfl)
    | (show a'.low = _; unfold Variable.low; rw [e1']; rfl)
    | (show a'.high = _; unfold Variable.high; rw [e2']; rfl)
end
end NdHist
