import Verif.Props.FloatText
/-!
# C93: printed numbers: the shortest decimal, whole numbers, a given number of decimals, labels
-/
set_option linter.unusedSectionVars false
namespace NdHist

namespace FFmt
variable {F : FFmt} {x : ℚ}

theorem floor_div_le (hx : 0 ≤ x) (e : Int) : ((⌊x / pow10 e⌋.toNat : Nat) : ℚ) * pow10 e ≤ x ∧ x < ((⌊x / pow10 e⌋.toNat + 1 : Nat) : ℚ) * pow10 e := by
  have hp := pow10_pos e
  have h0 : 0 ≤ ⌊x / pow10 e⌋ := Int.floor_nonneg.2 (div_nonneg hx hp.le)
  have hc : ((⌊x / pow10 e⌋.toNat : Nat) : ℚ) = (⌊x / pow10 e⌋ : ℚ) := by exact_mod_cast Int.toNat_of_nonneg h0
  refine ⟨?_, ?_⟩
  · rw [hc, ← le_div_iff₀ hp]; exact Int.floor_le _
  · push_cast; rw [hc, ← div_lt_iff₀ hp]; exact Int.lt_floor_add_one _

/-- if some multiple of `10^e` rounds to `x`, one of the neighbours does; the one that is taken is the nearest of those that do -/
theorem digitsAt_nearest (hx : F.Rep x) {e : Int} {d' : Nat} (h : F.rnd (d' * pow10 e) = x) : ∃ d, F.digitsAt x e = some d ∧ |d * pow10 e - x| ≤ |d' * pow10 e - x| := by
  have hp := pow10_pos e
  obtain ⟨f1, f2⟩ := floor_div_le hx.nonneg e
  have hnn : ∀ n : Nat, (0 : ℚ) ≤ n * pow10 e := fun n => by positivity
  have hxx := F.rnd_repU hx.repU
  unfold digitsAt
  set f := ⌊x / pow10 e⌋.toNat with hf
  have yf : x / pow10 e - f < 1 / 2 ↔ |(f : ℚ) * pow10 e - x| < |((f + 1 : Nat) : ℚ) * pow10 e - x| := by
    rw [abs_of_nonpos (by linarith), abs_of_pos (by linarith)]
    push_cast
    constructor
    · intro h
      have : x / pow10 e * pow10 e - f * pow10 e < 1 / 2 * pow10 e := by rw [← sub_mul]; exact mul_lt_mul_of_pos_right h hp
      rw [div_mul_cancel₀ _ hp.ne'] at this
      linarith
    · intro h
      rw [sub_lt_iff_lt_add, div_lt_iff₀ hp]
      linarith
  by_cases hd : (d' : ℚ) * pow10 e ≤ x
  · have hle : d' ≤ f := by
      have : (d' : ℚ) ≤ x / pow10 e := by rw [le_div_iff₀ hp]; exact hd
      rw [hf]; exact Nat.le_of_lt_succ (by
        have h2 : (d' : ℚ) < (f : ℚ) + 1 := by
          have : (d' : ℚ) * pow10 e < ((f : ℚ) + 1) * pow10 e := by push_cast at f2; linarith
          exact lt_of_mul_lt_mul_right this hp.le
        exact_mod_cast h2)
    have hle' : (d' : ℚ) * pow10 e ≤ f * pow10 e := mul_le_mul_of_nonneg_right (by exact_mod_cast hle) hp.le
    have down : F.rnd (f * pow10 e) = x := le_antisymm (hxx ▸ F.rnd_mono (hnn _) f1) (h ▸ F.rnd_mono (hnn _) hle')
    have cl : |(f : ℚ) * pow10 e - x| ≤ |d' * pow10 e - x| := by
      rw [abs_of_nonpos (by linarith), abs_of_nonpos (by linarith)]; linarith
    by_cases hup : F.rnd ((f + 1 : Nat) * pow10 e) = x
    · by_cases hy : x / pow10 e - f < 1 / 2
      · exact ⟨f, by simp only [← hf, down, hup, hy]; rfl, cl⟩
      · refine ⟨f + 1, by simp only [← hf, down, hup, hy]; rfl, ?_⟩
        rw [yf, not_lt] at hy
        exact hy.trans cl
    · exact ⟨f, by simp only [← hf, down, hup]; rfl, cl⟩
  · push Not at hd
    have hle : f + 1 ≤ d' := by
      by_contra hlt
      push Not at hlt
      have : (d' : ℚ) ≤ f := by exact_mod_cast Nat.le_of_lt_succ hlt
      have := mul_le_mul_of_nonneg_right this hp.le
      linarith
    have hle' : ((f + 1 : Nat) : ℚ) * pow10 e ≤ d' * pow10 e := mul_le_mul_of_nonneg_right (by exact_mod_cast hle) hp.le
    have up : F.rnd ((f + 1 : Nat) * pow10 e) = x := le_antisymm (h ▸ F.rnd_mono (hnn _) hle') (hxx ▸ F.rnd_mono hx.nonneg f2.le)
    have cl : |((f + 1 : Nat) : ℚ) * pow10 e - x| ≤ |d' * pow10 e - x| := by
      rw [abs_of_pos (by linarith), abs_of_pos (by linarith)]; linarith
    by_cases hdn : F.rnd (f * pow10 e) = x
    · by_cases hy : x / pow10 e - f < 1 / 2
      · refine ⟨f, by simp only [← hf, hdn, up, hy]; rfl, ?_⟩
        exact (yf.1 hy).le.trans cl
      · exact ⟨f + 1, by simp only [← hf, hdn, up, hy]; rfl, cl⟩
    · exact ⟨f + 1, by simp only [← hf, hdn, up]; rfl, cl⟩

theorem digitsFrom_shortest (hx : F.Rep x) (n : Nat) : ∀ e : Int, e - n = -(F.maxDecimals : Int) →
    ∀ (d' : Nat) (e' : Int), e' ≤ e → F.rnd (d' * pow10 e') = x →
      e' ≤ (F.digitsFrom x n e).2 ∧ (e' = (F.digitsFrom x n e).2 → |(F.digitsFrom x n e).1 * pow10 e' - x| ≤ |d' * pow10 e' - x|) := by
  induction n with
  | zero =>
    intro e he d' e' hle h
    refine ⟨hle, ?_⟩
    intro hee
    have hee : e' = e := hee
    obtain ⟨d, hd⟩ := exact_decimal hx
    have he : e = -(F.maxDecimals : Int) := by simpa using he
    have hf : (F.digitsFrom x 0 e).1 = d := by
      show ⌊x / pow10 e⌋.toNat = d
      rw [show e = -(F.maxDecimals : Int) from he]
      have : x / pow10 (-(F.maxDecimals : Int)) = d := by rw [div_eq_iff (pow10_pos _).ne']; exact hd
      rw [this]; simp
    rw [hf, hee, he, ← hd, sub_self, abs_zero]
    exact abs_nonneg _
  | succ n ih =>
    intro e he d' e' hle h
    unfold digitsFrom
    cases hd : F.digitsAt x e with
    | some d =>
      refine ⟨hle, ?_⟩
      rintro rfl
      obtain ⟨d2, h1, h2⟩ := digitsAt_nearest hx h
      rw [hd] at h1; cases h1
      exact h2
    | none =>
      have hne : e' ≠ e := by
        rintro rfl
        obtain ⟨d2, h1, -⟩ := digitsAt_nearest hx h
        rw [hd] at h1; cases h1
      exact ih (e - 1) (by push_cast at he; omega) d' e' (by omega) h

theorem pow10_mono {a b : Int} (h : a ≤ b) : pow10 a ≤ pow10 b := by
  rw [pow10_eq, pow10_eq]; exact zpow_le_zpow_right₀ (by norm_num) h

theorem repU_two (hx : F.RepU x) : F.RepU (2 * x) := by
  obtain ⟨m, e, h1, h2, h3⟩ := hx
  exact ⟨m, e + 1, by rw [h1, pow2_succ]; ring, h2, by omega⟩

/-- nothing above the exponent at which the search starts rounds to `x` -/
theorem above_top (hx : F.Rep x) (h0 : 0 < x) {d' : Nat} {e' : Int} (h : F.rnd (d' * pow10 e') = x) : e' ≤ ((Nat.toDigits 10 ⌈2 * x⌉.toNat).length : Int) := by
  by_contra hlt
  push Not at hlt
  have hd : d' ≠ 0 := by
    rintro rfl
    rw [Nat.cast_zero, zero_mul, F.rnd_zero] at h
    exact h0.ne h
  have h1 : pow10 e' ≤ d' * pow10 e' := by
    have : (1 : ℚ) ≤ d' := by exact_mod_cast Nat.one_le_iff_ne_zero.2 hd
    nlinarith [pow10_pos e']
  have htop : ⌈2 * x⌉.toNat < 10 ^ (Nat.toDigits 10 ⌈2 * x⌉.toNat).length :=
    (Nat.length_toDigits_le_iff (by decide) Nat.length_toDigits_pos).1 le_rfl
  have h2 : 2 * x ≤ pow10 e' := by
    refine le_trans ?_ (pow10_mono hlt.le)
    have a : 2 * x ≤ ((⌈2 * x⌉.toNat : Nat) : ℚ) := by
      have b := Int.le_ceil (2 * x)
      have c : 0 ≤ ⌈2 * x⌉ := Int.ceil_nonneg (by linarith)
      have : ((⌈2 * x⌉.toNat : Nat) : ℚ) = (⌈2 * x⌉ : ℚ) := by exact_mod_cast Int.toNat_of_nonneg c
      rw [this]; exact b
    refine a.trans ?_
    rw [pow10_eq, zpow_natCast]
    exact_mod_cast htop.le
  have := F.rnd_mono (x := 2 * x) (by linarith) (h2.trans h1)
  rw [F.rnd_repU (repU_two hx.repU), h] at this
  linarith

theorem shortestDigits_shortest (hx : F.Rep x) (h0 : 0 < x) (d' : Nat) (e' : Int) (h : F.rnd (d' * pow10 e') = x) :
    e' ≤ (F.shortestDigits x).2 ∧ (e' = (F.shortestDigits x).2 → |(F.shortestDigits x).1 * pow10 e' - x| ≤ |d' * pow10 e' - x|) := by
  unfold shortestDigits
  exact digitsFrom_shortest hx _ _ (by push_cast; omega) d' e' (above_top hx h0 h) h

theorem shortestChars_value (h0 : x ≠ 0) : readDecimal (F.shortestChars x) = (F.shortestDigits x).1 * pow10 (F.shortestDigits x).2 := by
  unfold shortestChars
  rw [if_neg h0]
  rcases F.shortestDigits x with ⟨d, e⟩
  simp only
  split
  · rename_i h0
    rw [readDecimal_decimalChars, pow10_eq]
    conv_rhs => rw [← Int.toNat_of_nonneg h0]
    rw [zpow_natCast]; push_cast; ring
  · rename_i h0
    rw [readDecimal_decimalChars, pow10_eq, div_eq_mul_inv, ← zpow_natCast, ← zpow_neg, Int.toNat_of_nonneg (by omega), neg_neg]
end FFmt

/-- **C93 (shortest).** `{}` of a finite float other than zero prints its sign and a decimal `d * 10^e`. It is the shortest: no multiple of a larger power of ten is read as this float; and of the multiples
of `10^e` that are, none is nearer to it. -/
theorem C93_shortest {F : FFmt} (s : Bool) (m : ℚ) (hm : F.Rep m) (h0 : m ≠ 0) :
    ∃ (l : List Char) (d : Nat) (e : Int), Flt.text.fmt none (.fin s m hm) = String.ofList ((if s then ['-'] else []) ++ l) ∧ readDecimal l = d * (10 : ℚ) ^ e ∧
      ∀ (d' : Nat) (e' : Int) (hq : 0 ≤ d' * (10 : ℚ) ^ e'), Flt.round s (d' * (10 : ℚ) ^ e') hq = .fin s m hm →
        e' ≤ e ∧ (e' = e → |d * (10 : ℚ) ^ e - m| ≤ |d' * (10 : ℚ) ^ e - m|) := by
  refine ⟨F.shortestChars m, (F.shortestDigits m).1, (F.shortestDigits m).2, rfl, by rw [FFmt.shortestChars_value h0, pow10_eq], fun d' e' hq h => ?_⟩
  have hr : F.rnd (d' * pow10 e') = m := by
    unfold Flt.round at h
    split at h
    · rw [pow10_eq]; injection h
    · cases h
  obtain ⟨h1, h2⟩ := FFmt.shortestDigits_shortest hm (lt_of_le_of_ne hm.nonneg (Ne.symm h0)) d' e' hr
  refine ⟨h1, ?_⟩
  rintro rfl
  have := h2 rfl
  rwa [pow10_eq] at this

/-! ## Whole numbers -/

namespace FFmt
variable {F : FFmt}

/-- a multiple of ten that rounds to a whole number `n ≤ 2^p` is `n` -/
theorem rnd_ten {n M : Nat} (hn : n ≤ 2 ^ F.p) (hM : 10 ∣ M) (h : F.rnd (M : ℚ) = n) : M = n := by
  have hq : F.qmin ≤ 0 := by unfold qmin; have := F.emin_le; have := F.p_ge; omega
  have rep : ∀ k : Nat, k < 2 ^ F.p → F.rnd (k : ℚ) = k := fun k hk => F.rnd_repU ⟨k, 0, by rw [pow2_zero, mul_one], hk, hq⟩
  have rep2 : F.rnd ((2 ^ F.p : Nat) : ℚ) = (2 ^ F.p : Nat) := F.rnd_repU ⟨1, F.p, by rw [pow2_nat]; push_cast; ring, Nat.one_lt_two_pow (by have := F.p_ge; omega), by omega⟩
  rcases Nat.lt_trichotomy M (2 ^ F.p) with hl | hl | hl
  · rw [rep M hl] at h; exact_mod_cast h
  · rw [hl, rep2] at h; rw [hl]; exact_mod_cast h
  · exfalso
    have h1 := F.rnd_mono (x := ((2 ^ F.p : Nat) : ℚ)) (by positivity) (y := (M : ℚ)) (by exact_mod_cast hl.le)
    rw [rep2, h] at h1
    have h1 : 2 ^ F.p ≤ n := by exact_mod_cast h1
    have hn' : n = 2 ^ F.p := le_antisymm hn h1
    subst hn'
    have hM2 : M < 2 ^ (F.p + 1) := by
      by_contra hge
      push Not at hge
      have r3 : F.rnd ((2 ^ (F.p + 1) : Nat) : ℚ) = (2 ^ (F.p + 1) : Nat) :=
        F.rnd_repU ⟨1, (F.p + 1 : Nat), by rw [pow2_nat]; push_cast; ring, Nat.one_lt_two_pow (by have := F.p_ge; omega), by omega⟩
      have := F.rnd_mono (x := ((2 ^ (F.p + 1) : Nat) : ℚ)) (by positivity) (y := (M : ℚ)) (by exact_mod_cast hge)
      rw [r3, h] at this
      have : 2 ^ (F.p + 1) ≤ 2 ^ F.p := by exact_mod_cast this
      have := Nat.pow_lt_pow_right (a := 2) (by norm_num) (show F.p < F.p + 1 by omega)
      omega
    have hil : ilog2 (M : ℚ) = F.p := ilog2_eq_of (by rw [pow2_nat]; exact_mod_cast hl.le) (by
      rw [show (F.p : Int) + 1 = ((F.p + 1 : Nat) : Int) by push_cast; ring, pow2_nat]; exact_mod_cast hM2)
    have hqe : F.qexp (M : ℚ) = 1 := by
      unfold qexp; rw [hil]; have := F.emin_le; have := F.p_ge; omega
    have he := F.rnd_abs (M : ℚ)
    rw [h, hqe, pow2_one] at he
    have he2 := (abs_le.1 he).1
    have : (M : ℚ) ≤ ((2 ^ F.p + 1 : Nat) : ℚ) := by push_cast at he2 ⊢; linarith
    have : M ≤ 2 ^ F.p + 1 := by exact_mod_cast this
    have hM1 : M = 2 ^ F.p + 1 := by omega
    have ev : 2 ∣ 2 ^ F.p := dvd_pow_self 2 (by have := F.p_ge; omega)
    have : 2 ∣ M := dvd_trans (by norm_num) hM
    omega

theorem digitsFrom_whole {n : Nat} (h0 : 0 < n) (hn : n ≤ 2 ^ F.p) (k : Nat) : ∀ j : Nat, j < k →
    0 ≤ (F.digitsFrom (n : ℚ) k j).2 ∧ (F.digitsFrom (n : ℚ) k j).1 * 10 ^ (F.digitsFrom (n : ℚ) k j).2.toNat = n := by
  have hq : F.qmin ≤ 0 := by unfold qmin; have := F.emin_le; have := F.p_ge; omega
  have rep : F.rnd (n : ℚ) = n := by
    rcases Nat.lt_or_eq_of_le hn with hl | hl
    · exact F.rnd_repU ⟨n, 0, by rw [pow2_zero, mul_one], hl, hq⟩
    · rw [hl]; exact F.rnd_repU ⟨1, F.p, by rw [pow2_nat]; push_cast; ring, Nat.one_lt_two_pow (by have := F.p_ge; omega), by omega⟩
  induction k with
  | zero => intro j hj; omega
  | succ k ih =>
    intro j hj
    unfold digitsFrom
    cases hd : F.digitsAt (n : ℚ) (j : Int) with
    | some d =>
      refine ⟨by simp, ?_⟩
      have h := digitsAt_spec hd
      show d * 10 ^ ((j : Int)).toNat = n
      rw [Int.toNat_natCast]
      rw [pow10_eq, zpow_natCast] at h
      cases j with
      | zero =>
        have e1 : F.digitsAt (n : ℚ) ((0 : Nat) : Int) = some n := by
          unfold digitsAt
          have : (n : ℚ) / pow10 ((0 : Nat) : Int) = n := by simp [pow10_eq]
          rw [this]
          have hp : pow10 0 = 1 := by simp [pow10_eq]
          simp [hp, rep]
        rw [hd] at e1; cases e1; simp
      | succ j =>
        exact rnd_ten hn ⟨d * 10 ^ j, by rw [pow_succ]; ring⟩ (by push_cast at h ⊢; exact h)
    | none =>
      cases j with
      | zero =>
        exfalso
        unfold digitsAt at hd
        have : (n : ℚ) / pow10 ((0 : Nat) : Int) = n := by simp [pow10_eq]
        rw [this] at hd
        have hp : pow10 0 = 1 := by simp [pow10_eq]
        simp [hp, rep] at hd
      | succ j =>
        have := ih j (by omega)
        rwa [show ((j + 1 : Nat) : Int) - 1 = (j : Int) by push_cast; ring]
end FFmt

theorem decimalChars_whole (n : Nat) : decimalChars n 0 = (Nat.repr n).toList := by
  unfold decimalChars; rw [Nat.toList_repr]; simp

/-- **C93 (whole numbers).** A whole number of at most `2^p` (`2^53` for `f64`) is printed in decimal, like an integer. -/
theorem C93_whole {F : FFmt} (z : ℤ) (hz : |z| ≤ 2 ^ F.p) : Flt.text.fmt none (Flt.ofRat (F := F) (z : ℚ)) = toString z := by
  have hq : F.qmin ≤ 0 := by unfold FFmt.qmin; have := F.emin_le; have := F.p_ge; omega
  obtain ⟨n, hn⟩ : ∃ n : Nat, |z| = n := ⟨z.natAbs, by rw [Int.abs_eq_natAbs]⟩
  have hn2 : n ≤ 2 ^ F.p := by rw [hn] at hz; exact_mod_cast hz
  have habs : |(z : ℚ)| = n := by rw [← Int.cast_abs, hn]; simp
  have repU : F.RepU (n : ℚ) := by
    rcases Nat.lt_or_eq_of_le hn2 with hl | hl
    · exact ⟨n, 0, by rw [pow2_zero, mul_one], hl, hq⟩
    · rw [hl]; exact ⟨1, F.p, by rw [pow2_nat]; push_cast; ring, Nat.one_lt_two_pow (by have := F.p_ge; omega), by omega⟩
  have hmax : (n : ℚ) ≤ F.maxFin := by
    unfold FFmt.maxFin
    have h1 := F.emax_ge
    have h2 : pow2 1 ≤ pow2 (F.emax - (F.p - 1)) := pow2_le.2 (by omega)
    rw [pow2_one] at h2
    have h3 : (n : ℚ) ≤ 2 ^ F.p := by exact_mod_cast hn2
    have h4 : (1 : ℚ) ≤ 2 ^ F.p - 1 := by
      have : (2 : ℚ) ^ 1 ≤ 2 ^ F.p := pow_le_pow_right₀ (by norm_num) (by have := F.p_ge; omega)
      linarith
    have h5 : (2 : ℚ) ≤ 2 ^ F.p := by linarith
    push_cast
    nlinarith
  have hrep : F.Rep (n : ℚ) := F.rep_of_repU repU hmax
  have hfl : Flt.ofRat (F := F) (z : ℚ) = .fin (decide (z < 0)) n hrep := by
    unfold Flt.ofRat Flt.round
    have e : F.rnd |(z : ℚ)| = n := by rw [habs]; exact F.rnd_repU repU
    simp only [e, hmax, dif_pos]
    congr 1
    simp
  have hch : F.shortestChars (n : ℚ) = (Nat.repr n).toList := by
    unfold FFmt.shortestChars
    by_cases h0 : n = 0
    · subst h0; simp [decimalChars_whole]
    · rw [if_neg (by exact_mod_cast h0)]
      have hw := FFmt.digitsFrom_whole (F := F) (n := n) (by omega) hn2 ((Nat.toDigits 10 ⌈2 * (n : ℚ)⌉.toNat).length + F.maxDecimals) (Nat.toDigits 10 ⌈2 * (n : ℚ)⌉.toNat).length (by
        unfold FFmt.maxDecimals FFmt.qmin; have := F.emin_le; have := F.p_ge; omega)
      have hsd : F.shortestDigits (n : ℚ) = F.digitsFrom (n : ℚ) ((Nat.toDigits 10 ⌈2 * (n : ℚ)⌉.toNat).length + F.maxDecimals) (Nat.toDigits 10 ⌈2 * (n : ℚ)⌉.toNat).length := rfl
      rw [← hsd] at hw
      rcases hde : F.shortestDigits (n : ℚ) with ⟨d, e⟩
      rw [hde] at hw
      simp only at hw ⊢
      rw [if_pos hw.1, hw.2, decimalChars_whole]
  rw [hfl]
  show String.ofList ((if decide (z < 0) = true then ['-'] else []) ++ F.shortestChars (n : ℚ)) = _
  rw [hch]
  by_cases hneg : z < 0
  · have : z = -(n : ℤ) := by rw [← hn, abs_of_neg hneg]; ring
    have hn0 : n ≠ 0 := by rintro rfl; omega
    obtain ⟨m, rfl⟩ : ∃ m, n = m + 1 := ⟨n - 1, by omega⟩
    have e : z = Int.negSucc m := by rw [this]; rfl
    rw [if_pos (by simpa using hneg), e]
    apply String.toList_inj.1
    rw [String.toList_ofList]
    show _ = ("-" ++ Nat.repr (m + 1)).toList
    rw [String.toList_append]; rfl
  · have : z = (n : ℤ) := by rw [← hn, abs_of_nonneg (by omega)]
    rw [if_neg (by simpa using hneg), this, List.nil_append, String.ofList_toList]
    rfl
end NdHist
