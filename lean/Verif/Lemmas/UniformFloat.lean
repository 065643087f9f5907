import Verif.Lemmas.Float
import Verif.Model.Uniform
import Verif.Lemmas.UniformInt
/-!
# Uniform axes over floats: lemmas
-/
namespace NdHist
open POrd RNum
variable [cfg : Cfg] {F : FFmt}

theorem Flt.toUsize_def (x : Flt F) : @RNum.toUsize (Flt F) cfg Flt.instRNum x = Flt.toUsize x := rfl

/-- conversion of a non-negative float to `usize`: truncation -/
theorem Flt.toUsize_val {x : Flt F} (h : x.isFin) (h0 : 0 ≤ x.val) (h1 : x.val < usizeSize) :
    Flt.toUsize x = some ⌊x.val⌋.toNat := by
  cases x with
  | nan => exact h.elim
  | inf => exact h.elim
  | fin s m hm =>
    cases s
    · simp only [val, sval] at h1 ⊢
      simp only [Flt.toUsize]
      simp at h1 ⊢
      exact h1
    · have : m = 0 := by
        simp only [val, sval, if_true] at h0
        exact le_antisymm (by linarith) hm.nonneg
      subst this
      simp [Flt.toUsize, val, sval]

theorem Flt.toUsize_inf (s : Bool) : Flt.toUsize (.inf s : Flt F) = none := rfl
theorem Flt.toUsize_nan : Flt.toUsize (.nan : Flt F) = none := rfl

namespace Uniform
variable {a : Uniform (Flt F)} {c : Flt F}

theorem index_low (h : POrd.lt c a.low = true) : a.index c = .ok (some 0) := by
  unfold index; rw [h]; rfl

theorem index_high (hn : a.num + 1 < usizeSize) (h1 : POrd.lt c a.low = false) (h2 : POrd.ge c a.high = true) :
    a.index c = .ok (some (a.num + 1)) := by
  unfold index; rw [h1, h2, uadd_ok hn]; rfl

theorem index_mid (h1 : POrd.lt c a.low = false) (h2 : POrd.ge c a.high = false)
    (hk : (Flt.toUsize (Flt.div (Flt.sub c a.low) a.step)).getD a.num + 1 < usizeSize) :
    a.index c = .ok (some ((Flt.toUsize (Flt.div (Flt.sub c a.low) a.step)).getD a.num + 1)) := by
  unfold index; rw [h1, h2]
  show (uadd ((Flt.toUsize (Flt.div (Flt.sub c a.low) a.step)).getD a.num) 1 >>= fun i => pure (some i)) = _
  rw [uadd_ok hk]; rfl

/-- the order facts about index, once the middle part is known to be bounded and monotone -/
theorem index_bounded_mono (hn : a.num + 2 < usizeSize)
    (hb : ∀ c, POrd.lt c a.low = false → POrd.ge c a.high = false →
      (Flt.toUsize (Flt.div (Flt.sub c a.low) a.step)).getD a.num ≤ a.num)
    (hm : ∀ c d, POrd.lt c a.low = false → POrd.ge c a.high = false → POrd.lt d a.low = false → POrd.ge d a.high = false →
      POrd.le c d = true →
      (Flt.toUsize (Flt.div (Flt.sub c a.low) a.step)).getD a.num ≤ (Flt.toUsize (Flt.div (Flt.sub d a.low) a.step)).getD a.num)
    (hlh : POrd.le a.low a.high = true) (c : Flt F) :
    ∃ i, a.index c = .ok (some i) ∧ i < a.num + 2 ∧ (i = 0 ↔ POrd.lt c a.low = true) ∧
      (POrd.ge c a.high = true → i = a.num + 1) ∧
      ∀ d, POrd.le c d = true → ∃ j, a.index d = .ok (some j) ∧ i ≤ j := by
  obtain ⟨x, y, hx, hy, hxy⟩ := LawfulPOrd.le_iff.1 hlh
  have hj : ∀ d, ∃ j, a.index d = .ok (some j) := by
    intro d
    by_cases h1 : POrd.lt d a.low = true
    · exact ⟨_, index_low h1⟩
    · by_cases h2 : POrd.ge d a.high = true
      · exact ⟨_, index_high (by omega) (by simpa using h1) h2⟩
      · have h3 := hb d (by simpa using h1) (by simpa using h2)
        exact ⟨_, index_mid (by simpa using h1) (by simpa using h2) (by omega)⟩
  by_cases h1 : POrd.lt c a.low = true
  · refine ⟨0, index_low h1, by omega, by simp [h1], ?_, fun d _ => ?_⟩
    · intro h2
      obtain ⟨cl, x', h3, h4, h5⟩ := LawfulPOrd.lt_iff.1 h1
      obtain ⟨cl', y', h6, h7, h8⟩ := LawfulPOrd.ge_iff.1 h2
      rw [h3] at h6; rw [hx] at h4; rw [hy] at h7
      cases h6; cases h4; cases h7
      exact absurd (lt_of_lt_of_le (lt_of_lt_of_le h5 hxy) h8) (lt_irrefl _)
    · obtain ⟨j, hj⟩ := hj d; exact ⟨j, hj, by omega⟩
  have h1' : POrd.lt c a.low = false := by simpa using h1
  -- coordinates above `c` are not below `low`
  have up : ∀ d, POrd.le c d = true → POrd.lt d a.low = false := by
    intro d hcd
    by_contra hd
    have hd : POrd.lt d a.low = true := by simpa using hd
    obtain ⟨c', d', h3, h4, h5⟩ := LawfulPOrd.le_iff.1 hcd
    obtain ⟨d'', x', h6, h7, h8⟩ := LawfulPOrd.lt_iff.1 hd
    rw [h4] at h6; cases h6
    exact h1 (LawfulPOrd.lt_iff.2 ⟨_, _, h3, h7, lt_of_le_of_lt h5 h8⟩)
  by_cases h2 : POrd.ge c a.high = true
  · refine ⟨a.num + 1, index_high (by omega) h1' h2, by omega, by simp [h1'], fun _ => rfl, fun d hcd => ?_⟩
    have hd2 : POrd.ge d a.high = true := by
      obtain ⟨c', d', h3, h4, h5⟩ := LawfulPOrd.le_iff.1 hcd
      obtain ⟨c'', y', h6, h7, h8⟩ := LawfulPOrd.ge_iff.1 h2
      rw [h3] at h6; cases h6
      exact LawfulPOrd.ge_iff.2 ⟨_, _, h4, h7, h8.trans h5⟩
    exact ⟨_, index_high (by omega) (up d hcd) hd2, le_rfl⟩
  have h2' : POrd.ge c a.high = false := by simpa using h2
  have hk := hb c h1' h2'
  refine ⟨_, index_mid h1' h2' (by omega), by omega, by simp [h1'], fun h => absurd h h2, fun d hcd => ?_⟩
  by_cases hd2 : POrd.ge d a.high = true
  · exact ⟨_, index_high (by omega) (up d hcd) hd2, by omega⟩
  · have hd2' : POrd.ge d a.high = false := by simpa using hd2
    have hkd := hb d (up d hcd) hd2'
    refine ⟨_, index_mid (up d hcd) hd2' (by omega), ?_⟩
    have := hm c d h1' h2' (up d hcd) hd2' hcd
    omega

/-- a coordinate that is neither below `low` nor at or above `high` is NaN or finite -/
theorem mid_cases (hl : a.low.isFin) (hh : a.high ≠ .nan) (h1 : POrd.lt c a.low = false) (h2 : POrd.ge c a.high = false) :
    c = .nan ∨ c.isFin ∧ a.low.val ≤ c.val := by
  cases c with
  | nan => exact .inl rfl
  | inf s =>
    exfalso
    cases s
    · rw [Bool.eq_false_iff] at h2
      apply h2
      cases hk : a.high with
      | nan => exact absurd hk hh
      | inf s => cases s <;> rfl
      | fin s m hm => rfl
    · rw [Bool.eq_false_iff] at h1
      exact h1 (LawfulPOrd.lt_iff.2 ⟨_, _, rfl, Flt.key_fin hl, WithBot.bot_lt_coe _⟩)
  | fin s m h =>
    right
    refine ⟨trivial, ?_⟩
    rw [Flt.lt_fin (a := .fin s m h) trivial hl] at h1; simpa using h1

/-- an infinite difference is never turned into a bin number -/
theorem nan_mid : Flt.toUsize (Flt.div (Flt.sub .nan a.low) a.step) = none := by
  simp [Flt.sub, Flt.add, Flt.div, Flt.toUsize]

theorem inf_div_none (s : Bool) (x : Flt F) : Flt.toUsize (Flt.div (.inf s) x) = none := by
  cases x <;> rfl

/-- The heart of the matter: with a positive finite step such that the largest offset `R` from `low` (at least
the offset of every coordinate below `high`) is at most `num * step` up to a relative error `2^-p`, the bin number
is at most `num` and monotone. -/
theorem mid_bounded_mono (hl : a.low.isFin) (hh : a.high ≠ .nan) (hs : a.step.isFin) (hs0 : 0 < a.step.val)
    (hn : a.num + 2 < usizeSize) (hp : a.num < 2 ^ (F.p - 1))
    (hR : ∀ c : Flt F, c.isFin → a.low.val ≤ c.val → POrd.ge c a.high = false → (Flt.sub c a.low).isFin →
      (Flt.sub c a.low).val ≤ a.step.val * a.num * (1 + pow2 (-(F.p : Int)))) :
    (∀ c, POrd.lt c a.low = false → POrd.ge c a.high = false →
      (Flt.toUsize (Flt.div (Flt.sub c a.low) a.step)).getD a.num ≤ a.num) ∧
    (∀ c d, POrd.lt c a.low = false → POrd.ge c a.high = false → POrd.lt d a.low = false → POrd.ge d a.high = false →
      POrd.le c d = true →
      (Flt.toUsize (Flt.div (Flt.sub c a.low) a.step)).getD a.num ≤ (Flt.toUsize (Flt.div (Flt.sub d a.low) a.step)).getD a.num) := by
  have hp2 := F.p_ge
  have hrep := F.rep_half hp
  -- the quotient for one coordinate
  have key : ∀ c : Flt F, c.isFin → a.low.val ≤ c.val → POrd.ge c a.high = false →
      (Flt.toUsize (Flt.div (Flt.sub c a.low) a.step) = none ∧ Flt.sub c a.low = .inf false) ∨
      (Flt.sub c a.low).isFin ∧ (Flt.sub c a.low).val = F.rs (c.val - a.low.val) ∧
        Flt.toUsize (Flt.div (Flt.sub c a.low) a.step) = some ⌊F.rs (F.rs (c.val - a.low.val) / a.step.val)⌋.toNat ∧
        F.rs (F.rs (c.val - a.low.val) / a.step.val) ≤ a.num + 1 / 2 := by
    intro c hc h1 h2
    have hr := Flt.sub_rounds hc hl
    generalize hd : Flt.sub c a.low = d at hr
    cases hr with
    | inf h =>
      left
      rw [decide_eq_false (by linarith)]
      exact ⟨inf_div_none _ _, rfl⟩
    | fin hdf hdv =>
      right
      refine ⟨hdf, hdv, ?_⟩
      have hR' := hR c hc h1 h2 (by rw [hd]; exact hdf)
      rw [hd] at hR'
      have d0 : 0 ≤ d.val := by rw [hdv]; exact F.rs_pos_le (by linarith)
      have q := Flt.div_rounds hdf hs hs0.ne'
      have q0 : 0 ≤ d.val / a.step.val := div_nonneg d0 hs0.le
      have hq1 : d.val / a.step.val ≤ a.num + 1 / 2 := by
        rw [div_le_iff₀ hs0]
        have e : (a.num : ℚ) * pow2 (-(F.p : Int)) ≤ 1 / 2 := by
          have h3 : (a.num : ℚ) ≤ pow2 ((F.p : Int) - 1) := by
            have : ((F.p : Int) - 1) = ((F.p - 1 : Nat) : Int) := by omega
            rw [this, pow2_nat]; exact_mod_cast hp.le
          have h4 : pow2 ((F.p : Int) - 1) * pow2 (-(F.p : Int)) = 1 / 2 := by
            rw [← pow2_add, pow2_eq]
            have : ((F.p : Int) - 1 + -(F.p : Int)) = -1 := by ring
            rw [this]; norm_num
          calc (a.num : ℚ) * pow2 (-(F.p : Int)) ≤ pow2 ((F.p : Int) - 1) * pow2 (-(F.p : Int)) :=
                mul_le_mul_of_nonneg_right h3 (pow2_pos _).le
            _ = 1 / 2 := h4
        nlinarith
      have hq2 : F.rs (d.val / a.step.val) ≤ a.num + 1 / 2 := by
        have := F.rs_mono hq1
        rwa [F.rs_of_rep (x := (a.num : ℚ) + 1 / 2) (by rw [abs_of_nonneg (by positivity)]; exact hrep.repU)] at this
      have hfin := q.fin_of (by rw [abs_of_nonneg q0]; exact hq1.trans hrep.le_maxFin)
      rw [hdv] at hq2 hfin q0
      refine ⟨?_, hq2⟩
      rw [Flt.toUsize_val hfin.1 (by rw [hfin.2]; exact F.rs_pos_le q0), hfin.2]
      rw [hfin.2]
      have : ((a.num + 2 : Nat) : ℚ) < (usizeSize : ℚ) := by exact_mod_cast hn
      push_cast at this
      linarith
  refine ⟨fun c h1 h2 => ?_, fun c d h1 h2 h3 h4 hcd => ?_⟩
  · rcases mid_cases hl hh h1 h2 with rfl | ⟨hc, hc1⟩
    · rw [nan_mid]; exact le_rfl
    · rcases key c hc hc1 h2 with ⟨h, -⟩ | ⟨-, -, h, hb⟩
      · rw [h]; exact le_rfl
      · rw [h, Option.getD_some]
        have : ⌊F.rs (F.rs (c.val - a.low.val) / a.step.val)⌋ < (a.num : ℤ) + 1 := by
          apply Int.floor_lt.2
          push_cast; linarith
        omega
  · rcases mid_cases hl hh h1 h2 with rfl | ⟨hc, hc1⟩
    · obtain ⟨_, _, h, -⟩ := LawfulPOrd.le_iff.1 hcd; cases h
    · rcases mid_cases hl hh h3 h4 with rfl | ⟨hdf, hd1⟩
      · obtain ⟨_, _, -, h, -⟩ := LawfulPOrd.le_iff.1 hcd; cases h
      have hle : c.val ≤ d.val := by rw [Flt.le_fin hc hdf] at hcd; simpa using hcd
      have hsub : F.rs (c.val - a.low.val) ≤ F.rs (d.val - a.low.val) := F.rs_mono (by linarith)
      rcases key c hc hc1 h2 with ⟨h, hinf⟩ | ⟨-, -, h, hb⟩
      · -- the offset of `c` overflows, so that of `d` does
        have hdinf : Flt.sub d a.low = .inf false := by
          have r1 := Flt.sub_rounds hc hl
          rw [hinf] at r1
          have h5 := r1.of_inf.2
          have r2 := Flt.sub_rounds hdf hl
          generalize Flt.sub d a.low = y at r2
          cases r2 with
          | inf _ => rw [decide_eq_false (by linarith)]
          | fin hy hyv =>
            have := y.abs_val_le
            rw [hyv] at this
            rw [abs_of_nonneg (F.rs_pos_le (by linarith))] at h5 this
            linarith
        rw [hinf, hdinf]
      · rcases key d hdf hd1 h4 with ⟨h', -⟩ | ⟨-, -, h', hb'⟩
        · rw [h, h', Option.getD_some, Option.getD_none]
          have : ⌊F.rs (F.rs (c.val - a.low.val) / a.step.val)⌋ < (a.num : ℤ) + 1 := by
            apply Int.floor_lt.2
            push_cast; linarith
          omega
        · rw [h, h', Option.getD_some, Option.getD_some]
          apply Int.toNat_le_toNat
          apply Int.floor_le_floor
          exact F.rs_mono (div_le_div_of_nonneg_right hsub hs0.le)

/-- with an infinite step and a finite lower bound: coordinates are in the first bin, or overflow when their offset does -/
theorem mid_inf (hl : a.low.isFin) (hs : a.step = .inf false) (h : POrd.lt c a.low = false)
    (h2 : POrd.ge c a.high = false) (hh : a.high ≠ .nan) :
    Flt.toUsize (Flt.div (Flt.sub c a.low) a.step) = none ∧ (c = .nan ∨ c.isFin ∧ Flt.sub c a.low = .inf false) ∨
    c.isFin ∧ Flt.toUsize (Flt.div (Flt.sub c a.low) a.step) = some 0 := by
  cases c with
  | nan => left; exact ⟨nan_mid, .inl rfl⟩
  | inf s =>
    exfalso
    cases s
    · rw [Bool.eq_false_iff] at h2
      apply h2
      cases hk : a.high with
      | nan => exact absurd hk hh
      | inf s => cases s <;> rfl
      | fin s m hm => rfl
    · rw [Bool.eq_false_iff] at h
      exact h (LawfulPOrd.lt_iff.2 ⟨_, _, rfl, Flt.key_fin hl, WithBot.bot_lt_coe _⟩)
  | fin s m hm =>
    have hge : a.low.val ≤ (Flt.fin s m hm).val := by
      rw [Flt.lt_fin (a := .fin s m hm) trivial hl] at h; simpa using h
    have r := Flt.sub_rounds (a := .fin s m hm) trivial hl
    generalize hd : Flt.sub (.fin s m hm) a.low = d at r
    cases r with
    | inf h' =>
      left
      rw [decide_eq_false (by linarith)]
      exact ⟨inf_div_none _ _, .inr ⟨trivial, rfl⟩⟩
    | fin hdf hdv =>
      right
      refine ⟨trivial, ?_⟩
      cases d with
      | nan => exact hdf.elim
      | inf => exact hdf.elim
      | fin t n hn' =>
        rw [hs]
        cases t
        · simp [Flt.div, Flt.toUsize, Flt.zero]
          have := two_le_usizeSize; omega
        · simp [Flt.div, Flt.toUsize, Flt.zero]

end Uniform
end NdHist
