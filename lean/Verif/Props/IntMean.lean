import Verif.Props.Wrap
import Verif.Props.FloatExact
import Verif.Lemmas.FloatSqrt
/-!
# C75: means of integer samples are correctly rounded
-/
namespace NdHist
open RNum

/-! ## Vocabulary -/

/-- no float is nearer to `x` than `q` -/
def Closest {F : FFmt} (x : ℚ) (q : Flt F) : Prop := q.isFin ∧ ∀ z : Flt F, z.isFin → |q.val - x| ≤ |z.val - x|

/-- `n` is a value of the type `τ` -/
def InRange (τ : IntTy) (n : ℤ) : Prop := τ.min ≤ n ∧ n ≤ τ.max

section
variable {τ : IntTy}

/-- the samples of the calls with a coordinate in `b` -/
noncomputable def samplesIn {C B : Type} (covers : B → C → Prop) (b : B) (hist : List (C × MInt τ)) : List ℤ :=
  open Classical in (hist.filter fun cx => covers b cx.1).map fun cx => cx.2.val

/-- the calls `fill_with(c, x)` on a histogram of `Mean`s -/
def meanFills [Cfg] {C O : Type} {κ : IntTy} (hist : List (C × MInt τ)) : List (Call (Mean (MInt τ) O (MInt κ)) C) := hist.map fun cx => .fillWith cx.1 cx.2
end

/-! ## Rounding -/

section
variable {F : FFmt}

theorem FFmt.rs_closest (F : FFmt) (x : ℚ) {z : ℚ} (hz : F.RepU |z|) : |F.rs x - x| ≤ |z - x| := by
  have main : ∀ y w : ℚ, 0 ≤ y → F.RepU |w| → |F.rnd y - y| ≤ |w - y| := by
    intro y w hy hw
    refine (F.rnd_nearest hy hw).trans ?_
    have h := abs_abs_sub_abs_le_abs_sub w y
    rwa [abs_of_nonneg hy] at h
  rcases le_total 0 x with h | h
  · rw [F.rs_nonneg h]; exact main x z h hz
  · have := main (-x) (-z) (by linarith) (by rwa [abs_neg])
    have e : F.rs x = -F.rnd (-x) := by rw [← F.rs_nonneg (by linarith), F.rs_neg, neg_neg]
    rw [e]
    rw [show -F.rnd (-x) - x = -(F.rnd (-x) - -x) by ring, show z - x = -(-z - -x) by ring, abs_neg, abs_neg]
    exact this

theorem Flt.Rounds.closest {x : ℚ} {q : Flt F} (h : Flt.Rounds x q) (hx : |x| ≤ F.maxFin) : Closest x q := by
  obtain ⟨h1, h2⟩ := h.fin_of hx
  refine ⟨h1, fun z _ => ?_⟩
  rw [h2]
  exact F.rs_closest x z.val_rep.repU

theorem Flt.ofInt_spec {k : ℤ} (h : |(k : ℚ)| ≤ 2 ^ F.p) : (Flt.ofRat (k : ℚ) : Flt F).isFin ∧ (Flt.ofRat (k : ℚ) : Flt F).val = k := by
  have rep : F.Rep |(k : ℚ)| := by
    have := F.rep_nat (n := k.natAbs) (by
      have : ((k.natAbs : ℕ) : ℚ) ≤ ((2 ^ F.p : ℕ) : ℚ) := by rw [Nat.cast_natAbs, Int.cast_abs]; push_cast; exact h
      exact_mod_cast this)
    rwa [Nat.cast_natAbs, Int.cast_abs] at this
  obtain ⟨f1, f2⟩ := (Flt.ofRat_rounds (k : ℚ)).fin_of rep.le_maxFin
  exact ⟨f1, by rw [f2, F.rs_of_rep rep.repU]⟩

theorem FFmt.two_pow_le_maxFin (F : FFmt) : (2 : ℚ) ^ F.p ≤ F.maxFin := by
  have := (F.rep_nat (n := 2 ^ F.p) le_rfl).le_maxFin
  push_cast at this; exact this

theorem Flt.div_zero_zero {a b : Flt F} (ha : a.isFin) (ha0 : a.val = 0) (hb : b.isFin) (hb0 : b.val = 0) : Flt.div a b = .nan := by
  have z : ∀ {s : Bool} {m : ℚ}, Flt.sval s m = 0 → m = 0 := by
    intro s m h
    cases s
    · exact h
    · exact neg_eq_zero.1 h
  cases a with
  | fin s m hm =>
    cases b with
    | fin t k hk =>
      have e1 : m = 0 := z ha0
      have e2 : k = 0 := z hb0
      simp only [Flt.div, e1, e2, if_true]
    | _ => exact hb.elim
  | _ => exact ha.elim

/-- rounding of zero and of numbers in the normal range -/
theorem FFmt.rs_rel' (F : FFmt) {x : ℚ} (h : x = 0 ∨ pow2 F.emin ≤ |x|) : |F.rs x - x| ≤ |x| * F.u := by
  rcases h with rfl | h
  · simp [F.rs_zero]
  · rcases le_total 0 x with h0 | h0
    · rw [abs_of_nonneg h0] at h ⊢; exact F.rs_rel_normal h
    · rw [abs_of_nonpos h0] at h ⊢
      have := F.rs_rel_normal h
      rw [F.rs_neg] at this
      rwa [show F.rs x - x = -(-F.rs x - -x) by ring, abs_neg]
end

/-! ## A mean with exact sums -/

section
variable [cfg : Cfg] {F : FFmt} {T C : Type} [RFrom T (Flt F)] [RFrom C (Flt F)]

set_option maxHeartbeats 1000000 in
/-- from exact sums of whole numbers to the mean and the variance -/
theorem mean_exact (m : Mean T (Flt F) C) {S Q N : ℤ} (hN : 0 < N) (hN2 : (N : ℚ) ≤ 2 ^ F.p) (hS2 : |(S : ℚ)| ≤ 2 ^ F.p) (hQ2 : |(Q : ℚ)| ≤ 2 ^ F.p)
    (hp3 : 3 ≤ F.p) (hem : F.emin + 2 * F.p + 2 ≤ 0)
    (h1 : (RFrom.conv m.sumw : Flt F).isFin ∧ (RFrom.conv m.sumw : Flt F).val = S)
    (h2 : (RFrom.conv m.sumw2 : Flt F).isFin ∧ (RFrom.conv m.sumw2 : Flt F).val = Q)
    (h3 : (RFrom.conv m.count : Flt F).isFin ∧ (RFrom.conv m.count : Flt F).val = N)
    (hCS : (S : ℚ) ^ 2 ≤ N * Q) :
    ∃ q v vm, m.get = .ok q ∧ Closest (S / N) q ∧ m.varianceOfSamples = .ok v ∧ v.isFin ∧ 0 ≤ v.val ∧
      |v.val - (Q / N - (S / N) ^ 2)| ≤ ((1 + F.u) ^ 2 - 1) * (Q / N) + ((1 + F.u) ^ 4 - 1) * (S / N) ^ 2 ∧
      (N * Q = S ^ 2 → (∃ c : ℤ, S = N * c) → v.val = 0) ∧
      m.varianceOfMean = .ok vm ∧ Closest (v.val / N) vm := by
  have u0 := F.u_pos
  have u4 := F.u_le
  have hNq : (0 : ℚ) < N := by exact_mod_cast hN
  have hN1 : (1 : ℚ) ≤ N := by exact_mod_cast hN
  have hmax := F.two_pow_le_maxFin
  have hQ0 : (0 : ℚ) ≤ Q := by
    have := (sq_nonneg (S : ℚ)).trans hCS
    exact nonneg_of_mul_nonneg_right this hNq
  -- quotients of such numbers are zero or normal
  have quot : ∀ k : ℤ, (k : ℚ) / N = 0 ∨ pow2 (-(F.p : ℤ)) ≤ |(k : ℚ) / N| := by
    intro k
    rcases eq_or_ne k 0 with rfl | hk
    · left; simp
    · right
      rw [abs_div, abs_of_pos hNq, le_div_iff₀ hNq, pow2_eq, zpow_neg, zpow_natCast]
      have h1 : (1 : ℚ) ≤ |(k : ℚ)| := by
        have : (1 : ℤ) ≤ |k| := Int.one_le_abs hk
        exact_mod_cast this
      have hp : (0 : ℚ) < 2 ^ F.p := by positivity
      calc ((2 : ℚ) ^ F.p)⁻¹ * N ≤ (2 ^ F.p)⁻¹ * 2 ^ F.p := by gcongr
        _ = 1 := inv_mul_cancel₀ hp.ne'
        _ ≤ _ := h1
  have norm1 : ∀ k : ℤ, (k : ℚ) / N = 0 ∨ pow2 F.emin ≤ |(k : ℚ) / N| := fun k =>
    (quot k).imp id fun h => le_trans (pow2_le.2 (by have := F.p_ge; omega)) h
  have small : ∀ k : ℤ, |(k : ℚ)| ≤ 2 ^ F.p → |(k : ℚ) / N| ≤ 2 ^ F.p := by
    intro k hk
    rw [abs_div, abs_of_pos hNq]
    exact (div_le_self (abs_nonneg _) hN1).trans hk
  have hNne : (RFrom.conv m.count : Flt F).val ≠ 0 := by rw [h3.2]; exact hNq.ne'
  -- the mean
  have qr := Flt.div_rounds h1.1 h3.1 hNne
  rw [h1.2, h3.2] at qr
  set q := Flt.div (RFrom.conv m.sumw : Flt F) (RFrom.conv m.count : Flt F) with hq
  have qmax := (small S hS2).trans hmax
  obtain ⟨q1, q2⟩ := qr.fin_of qmax
  have qc := qr.closest qmax
  have qe := F.rs_rel' (norm1 S)
  rw [← q2] at qe
  -- the mean square
  have ar := Flt.div_rounds h2.1 h3.1 hNne
  rw [h2.2, h3.2] at ar
  set a := Flt.div (RFrom.conv m.sumw2 : Flt F) (RFrom.conv m.count : Flt F) with ha
  obtain ⟨a1, a2⟩ := ar.fin_of ((small Q hQ2).trans hmax)
  have ae := F.rs_rel' (norm1 Q)
  rw [← a2] at ae
  set μ : ℚ := S / N with hμ
  set A : ℚ := Q / N with hA
  have A0 : 0 ≤ A := div_nonneg hQ0 hNq.le
  rw [abs_of_nonneg A0] at ae
  have hμA : μ ^ 2 ≤ A := by
    rw [hμ, hA, div_pow, div_le_div_iff₀ (by positivity) hNq]
    nlinarith
  have hAp : A ≤ 2 ^ F.p := by have := small Q hQ2; rwa [abs_of_nonneg A0] at this
  have A'0 : 0 ≤ a.val := by rw [a2]; exact F.rs_pos_le A0
  -- the square of the mean
  have pr := Flt.mul_rounds q1 q1
  have sq' : q.val * q.val ≤ (1 + F.u) ^ 2 * μ ^ 2 := by
    have h : |q.val| ≤ (1 + F.u) * |μ| := by
      have := abs_add_le (q.val - μ) μ
      rw [sub_add_cancel] at this
      linarith
    have := mul_self_le_mul_self (abs_nonneg _) h
    rw [abs_mul_abs_self] at this
    calc _ ≤ _ := this
      _ = _ := by rw [← sq_abs μ]; ring
  have u1 : F.u ≤ 1 / 4 := u4
  have hpmax : |q.val * q.val| ≤ F.maxFin := by
    rw [abs_of_nonneg (mul_self_nonneg _)]
    have h2 : (2 : ℚ) ≤ pow2 (F.emax - (F.p - 1)) := by rw [← pow2_one, pow2_le]; have := F.emax_ge; omega
    have h8 : (2 : ℚ) ^ 3 ≤ 2 ^ F.p := pow_le_pow_right₀ (by norm_num) hp3
    have hm : 2 * (2 : ℚ) ^ F.p - 2 ≤ F.maxFin := by unfold FFmt.maxFin; push_cast; nlinarith
    have hu2 : (1 + F.u) ^ 2 ≤ 25 / 16 := by nlinarith
    have : (1 + F.u) ^ 2 * μ ^ 2 ≤ 25 / 16 * 2 ^ F.p := mul_le_mul hu2 (hμA.trans hAp) (sq_nonneg _) (by norm_num)
    linarith
  obtain ⟨p1, p2⟩ := pr.fin_of hpmax
  have qlow : (1 - F.u) * |μ| ≤ |q.val| := by
    have := abs_add_le (μ - q.val) q.val
    rw [sub_add_cancel, abs_sub_comm] at this
    linarith
  have pnorm : q.val * q.val = 0 ∨ pow2 F.emin ≤ |q.val * q.val| := by
    rcases quot S with h | h
    · left
      have h' : μ = 0 := h
      have : q.val = 0 := by rw [q2, h', F.rs_zero]
      rw [this]; ring
    · right
      rw [abs_mul_self]
      have hb : pow2 (-(F.p : ℤ) - 1) ≤ |q.val| := by
        refine le_trans ?_ qlow
        have e1 : pow2 (-(F.p : ℤ)) = 2 * pow2 (-(F.p : ℤ) - 1) := by rw [← pow2_succ]; ring_nf
        have h0 := pow2_pos (-(F.p : ℤ) - 1)
        have : pow2 (-(F.p : ℤ)) ≤ |μ| := h
        nlinarith
      have := mul_self_le_mul_self (pow2_pos _).le hb
      rw [abs_mul_abs_self, ← pow2_add] at this
      exact le_trans (pow2_le.2 (by omega)) this
  have pe := F.rs_rel' pnorm
  rw [← p2, abs_mul_self] at pe
  set P := Flt.mul q q with hP
  -- the difference
  have dr := Flt.sub_rounds a1 p1
  have P0 : 0 ≤ P.val := by rw [p2]; exact F.rs_pos_le (mul_self_nonneg _)
  have dmax : |a.val - P.val| ≤ F.maxFin := by
    have m1 : a.val ≤ F.maxFin := (le_abs_self _).trans a.val_rep.le_maxFin
    have m2 : P.val ≤ F.maxFin := (le_abs_self _).trans P.val_rep.le_maxFin
    exact abs_le.2 ⟨by linarith, by linarith⟩
  obtain ⟨d1, d2⟩ := dr.fin_of dmax
  have de := F.rs_rel_mult (x := a.val - P.val) (a.val_mult.sub P.val_mult)
  rw [← d2] at de
  set d := Flt.sub a P with hd
  have vr := Flt.div_rounds (Flt.abs_isFin d1) h3.1 hNne
  rw [h3.2] at vr
  have vmax : |(Flt.abs d).val / N| ≤ F.maxFin := by
    rw [abs_div, abs_of_pos hNq]
    exact (div_le_self (abs_nonneg _) hN1).trans (Flt.abs d).val_rep.le_maxFin
  have hv : m.varianceOfSamples = .ok (Flt.abs d) := rfl
  have hvm : m.varianceOfMean = .ok (Flt.div (Flt.abs d) (RFrom.conv m.count)) := rfl
  refine ⟨q, Flt.abs d, _, rfl, qc, hv, Flt.abs_isFin d1, ?_, ?_, ?_, hvm, vr.closest vmax⟩
  · rw [Flt.abs_val']; exact abs_nonneg _
  · rw [Flt.abs_val']
    have V0 : 0 ≤ A - μ ^ 2 := by linarith
    have hsq2 : (1 - F.u) ^ 2 * μ ^ 2 ≤ q.val * q.val := by
      have := mul_self_le_mul_self (mul_nonneg (by linarith) (abs_nonneg μ)) qlow
      rw [abs_mul_abs_self] at this
      calc _ = (1 - F.u) * |μ| * ((1 - F.u) * |μ|) := by rw [← sq_abs μ]; ring
        _ ≤ _ := this
    have M0 := sq_nonneg μ
    have e1 : |q.val * q.val - μ ^ 2| ≤ ((1 + F.u) ^ 2 - 1) * μ ^ 2 := by
      have t : (2 - (1 + F.u) ^ 2) * μ ^ 2 ≤ (1 - F.u) ^ 2 * μ ^ 2 := mul_le_mul_of_nonneg_right (by nlinarith [sq_nonneg F.u]) M0
      exact abs_le.2 ⟨by linarith, by linarith⟩
    have e2 : |P.val - μ ^ 2| ≤ ((1 + F.u) ^ 3 - 1) * μ ^ 2 := by
      have t := abs_add_le (P.val - q.val * q.val) (q.val * q.val - μ ^ 2)
      rw [sub_add_sub_cancel] at t
      have : q.val * q.val * F.u ≤ (1 + F.u) ^ 2 * μ ^ 2 * F.u := mul_le_mul_of_nonneg_right sq' u0.le
      calc _ ≤ _ := t
        _ ≤ (1 + F.u) ^ 2 * μ ^ 2 * F.u + ((1 + F.u) ^ 2 - 1) * μ ^ 2 := by linarith
        _ = _ := by ring
    have ba : a.val ≤ (1 + F.u) * A := by have := (abs_le.1 ae).2; linarith
    have bP : P.val ≤ (1 + F.u) ^ 3 * μ ^ 2 := by have := (abs_le.1 e2).2; linarith
    have e3 : |a.val - P.val| ≤ (1 + F.u) * A + (1 + F.u) ^ 3 * μ ^ 2 := by
      have z1 : 0 ≤ (1 + F.u) * A := by positivity
      have z2 : 0 ≤ (1 + F.u) ^ 3 * μ ^ 2 := by positivity
      exact abs_le.2 ⟨by linarith, by linarith⟩
    have e4 : |d.val - (A - μ ^ 2)| ≤ ((1 + F.u) ^ 2 - 1) * A + ((1 + F.u) ^ 4 - 1) * μ ^ 2 := by
      have t := abs_add_le (d.val - (a.val - P.val)) (a.val - P.val - (A - μ ^ 2))
      rw [sub_add_sub_cancel] at t
      have t2 : |a.val - P.val - (A - μ ^ 2)| ≤ |a.val - A| + |P.val - μ ^ 2| := by
        rw [show a.val - P.val - (A - μ ^ 2) = (a.val - A) - (P.val - μ ^ 2) by ring]; exact abs_sub _ _
      have t3 : |a.val - P.val| * F.u ≤ ((1 + F.u) * A + (1 + F.u) ^ 3 * μ ^ 2) * F.u := mul_le_mul_of_nonneg_right e3 u0.le
      calc _ ≤ _ := t
        _ ≤ ((1 + F.u) * A + (1 + F.u) ^ 3 * μ ^ 2) * F.u + (A * F.u + ((1 + F.u) ^ 3 - 1) * μ ^ 2) := by linarith
        _ = _ := by ring
    have t := abs_abs_sub_abs_le_abs_sub d.val (A - μ ^ 2)
    rw [abs_of_nonneg V0] at t
    exact t.trans e4
  · rintro hNQ ⟨c, hc⟩
    have hc' : μ = c := by rw [hμ, hc]; push_cast; field_simp
    have hA' : A = ((c ^ 2 : ℤ) : ℚ) := by
      rw [hA, div_eq_iff hNq.ne']
      have : N * Q = N * (c ^ 2 * N) := by rw [hNQ, hc]; ring
      have := mul_left_cancel₀ hN.ne' this
      rw [this]; push_cast; ring
    have ex : ∀ k : ℤ, |(k : ℚ)| ≤ 2 ^ F.p → F.rs (k : ℚ) = k := by
      intro k hk
      obtain ⟨f1, f2⟩ := (Flt.ofRat_rounds (F := F) (k : ℚ)).fin_of (hk.trans hmax)
      rw [← f2]; exact (Flt.ofInt_spec hk).2
    have hcp : |((c : ℤ) : ℚ)| ≤ 2 ^ F.p := by rw [← hc']; exact small S hS2
    have hqv : q.val = c := by rw [q2, hc']; exact ex c hcp
    have hav : a.val = ((c ^ 2 : ℤ) : ℚ) := by
      rw [a2, hA']; exact ex _ (by rw [← hA', abs_of_nonneg A0]; exact hAp)
    have hPv : P.val = ((c ^ 2 : ℤ) : ℚ) := by
      have e : q.val * q.val = ((c ^ 2 : ℤ) : ℚ) := by rw [hqv]; push_cast; ring
      rw [p2, e]; exact ex _ (by rw [← hA', abs_of_nonneg A0]; exact hAp)
    rw [Flt.abs_val', d2, hav, hPv, sub_self, F.rs_zero, abs_zero]
end

/-! ## Fills of integer samples -/

section
variable [cfg : Cfg] {A V : Type} [RDefault V] [Axis A] {axes : A} {n : Nat} {covers : Axis.Interval A → Axis.Coordinate A → Prop} {dom : Axis.Coordinate A → Prop}

/-- calls on a new histogram panic exactly if the calls of some bin do -/
theorem callAll_none_iff (hf : FaithfulAxis axes n covers dom) {h : VecHistogram A V} (hnew : VecHistogram.new axes = .ok h)
    {calls : List (Call V (Axis.Coordinate A))} (hd : ∀ call ∈ calls, dom call.coord) :
    (h.callAll calls).2 = none ↔ ∀ i, i < n → (fillSeq (callsIn axes i calls) (RDefault.dflt : V)).2 = none := by
  obtain ⟨h₀, b1, b2, b3, b4⟩ := C26_new (V := V) hf.lawful
  obtain rfl : h = h₀ := by rw [hnew] at b1; exact Except.ok.inj b1
  constructor
  · intro hn i hi
    obtain ⟨v, -, hv⟩ := VecHistogram.callAll_seq (Prod.ext rfl hn : h.callAll calls = (_, none)) i (by rw [b4, if_pos hi])
    rw [b3] at hv
    rw [hv]
  · intro hall
    cases hp : (h.callAll calls).2 with
    | none => rfl
    | some p =>
      exfalso
      obtain ⟨pre, c, post, rfl, hpre, hpan, -⟩ := VecHistogram.callAll_panic hp
      obtain ⟨ok, hax, -⟩ := C28_dense hf.lawful hnew pre
      rw [← VecHistogram.callAll_ok hpre] at ok hax
      obtain ⟨-, -, g1, g2, -⟩ := C27_dense ok c
      rw [hax] at g1 g2
      obtain ⟨o, ho⟩ := hf.total c.coord (hd c (by simp))
      cases o with
      | none => rw [g2 ho] at hpan; cases hpan
      | some i =>
        obtain ⟨⟨v, hv, -, hp2⟩, -⟩ := g1 i ho
        rw [hp2] at hpan
        have hi : i < n := hf.lawful.index_lt _ _ ho
        obtain ⟨v', v1, v2⟩ := VecHistogram.callAll_seq (Prod.ext rfl hpre : h.callAll pre = (_, none)) i (by rw [b4, if_pos hi])
        rw [hv] at v1
        obtain rfl := Option.some.inj v1
        rw [b3] at v2
        have := hall i hi
        have e : callsIn axes i (pre ++ c :: post) = callsIn axes i pre ++ c :: callsIn axes i post := by
          unfold callsIn; rw [List.filter_append, List.filter_cons_of_pos (by simpa using ho)]
        rw [e] at this
        have app : ∀ (l r : List (Call V (Axis.Coordinate A))) (v v' : V), fillSeq l v = (v', none) → fillSeq (l ++ r) v = fillSeq r v' := by
          intro l r
          induction l with
          | nil => intro v v' h; cases h; rfl
          | cons a l ih =>
            intro v v' h
            rw [List.cons_append, fillSeq]
            rw [fillSeq] at h
            split at h
            · cases h
            · next heq => exact ih _ _ h
        rw [app _ _ _ _ v2, fillSeq] at this
        split at this
        · cases this
        · next heq => rw [heq] at hpan; cases hpan
end

section
variable [cfg : Cfg] {τ κ : IntTy} {O C : Type}

theorem MInt.inRange (x : MInt τ) : InRange τ x.val := ⟨x.min_le, x.le_max⟩

theorem MInt.arith_none (hc : Cfg.checked = true) {k : ℤ} (h : ¬ InRange τ k) : (MInt.arith k : Res (MInt τ)) = .error .overflow := by
  unfold InRange at h; unfold MInt.arith; rw [dif_neg h, if_pos hc]

/-- one `fill_with` of a `Mean` -/
theorem mean_on (hc : Cfg.checked = true) (c : C) (x : MInt τ) (m : Mean (MInt τ) O (MInt κ)) (hq : 0 ≤ m.sumw2.val) :
    (∃ m', (Call.fillWith c x : Call (Mean (MInt τ) O (MInt κ)) C).on m = (m', none) ∧ m'.sumw.val = m.sumw.val + x.val ∧
        m'.sumw2.val = m.sumw2.val + x.val ^ 2 ∧ m'.count.val = m.count.val + 1) ∨
    (∃ m', (Call.fillWith c x : Call (Mean (MInt τ) O (MInt κ)) C).on m = (m', some .overflow)) ∧
      ¬ (InRange τ (m.sumw.val + x.val) ∧ InRange τ (m.sumw2.val + x.val ^ 2) ∧ InRange κ (m.count.val + 1)) := by
  have e1 : (@RNum.one (MInt κ) cfg _).val = 1 := MInt.one_val
  by_cases h1 : InRange τ (m.sumw.val + x.val)
  · have a1 : @RNum.add (MInt τ) cfg _ m.sumw x = .ok ⟨_, h1.1, h1.2⟩ := by rw [MInt.add_def, MInt.arith_ok h1.1 h1.2]
    by_cases h2 : InRange τ (x.val * x.val)
    · have a2 : @RNum.mul (MInt τ) cfg _ x x = .ok ⟨_, h2.1, h2.2⟩ := by rw [MInt.mul_def, MInt.arith_ok h2.1 h2.2]
      by_cases h3 : InRange τ (m.sumw2.val + x.val * x.val)
      · have a3 : @RNum.add (MInt τ) cfg _ m.sumw2 ⟨_, h2.1, h2.2⟩ = .ok ⟨_, h3.1, h3.2⟩ := by rw [MInt.add_def, MInt.arith_ok h3.1 h3.2]
        by_cases h4 : InRange κ (m.count.val + 1)
        · have a4 : @RNum.add (MInt κ) cfg _ m.count (@RNum.one (MInt κ) cfg _) = .ok ⟨_, h4.1, h4.2⟩ := by rw [MInt.add_def, e1, MInt.arith_ok h4.1 h4.2]
          refine .inl ⟨⟨⟨_, h1.1, h1.2⟩, ⟨_, h3.1, h3.2⟩, ⟨_, h4.1, h4.2⟩⟩, ?_, rfl, by rw [pow_two], rfl⟩
          simp only [Call.on, FillWith.fillWith, Upd.andThen, Upd.onField, Upd.withVal, addAssign, Upd.store, a1, a2, a3, a4]
        · have a4 : @RNum.add (MInt κ) cfg _ m.count (@RNum.one (MInt κ) cfg _) = .error .overflow := by rw [MInt.add_def, e1, MInt.arith_none hc h4]
          refine .inr ⟨⟨⟨⟨_, h1.1, h1.2⟩, ⟨_, h3.1, h3.2⟩, m.count⟩, ?_⟩, fun h => h4 h.2.2⟩
          simp only [Call.on, FillWith.fillWith, Upd.andThen, Upd.onField, Upd.withVal, addAssign, Upd.store, a1, a2, a3, a4]
      · have a3 : @RNum.add (MInt τ) cfg _ m.sumw2 ⟨_, h2.1, h2.2⟩ = .error .overflow := by rw [MInt.add_def]; exact MInt.arith_none hc h3
        refine .inr ⟨⟨⟨⟨_, h1.1, h1.2⟩, m.sumw2, m.count⟩, ?_⟩, fun h => h3 (by rw [← pow_two]; exact h.2.1)⟩
        simp only [Call.on, FillWith.fillWith, Upd.andThen, Upd.onField, Upd.withVal, addAssign, Upd.store, a1, a2, a3]
    · have a2 : @RNum.mul (MInt τ) cfg _ x x = .error .overflow := by rw [MInt.mul_def]; exact MInt.arith_none hc h2
      refine .inr ⟨⟨⟨⟨_, h1.1, h1.2⟩, m.sumw2, m.count⟩, ?_⟩, fun h => h2 ?_⟩
      · simp only [Call.on, FillWith.fillWith, Upd.andThen, Upd.onField, Upd.withVal, addAssign, Upd.store, a1, a2]
      · have := h.2.1
        have hm := x.min_le
        unfold InRange at this ⊢
        have := τ.min_le_zero
        exact ⟨by nlinarith, by nlinarith⟩
  · have a1 : @RNum.add (MInt τ) cfg _ m.sumw x = .error .overflow := by rw [MInt.add_def]; exact MInt.arith_none hc h1
    refine .inr ⟨⟨m, ?_⟩, fun h => h1 h.1⟩
    simp only [Call.on, FillWith.fillWith, Upd.andThen, Upd.onField, addAssign, Upd.store, a1]

omit cfg in
theorem sum_sq_nonneg (l : List ℤ) : 0 ≤ (l.map fun x => x ^ 2).sum := by
  induction l with
  | nil => simp
  | cons a l ih => rw [List.map_cons, List.sum_cons]; positivity

theorem mean_seq (hc : Cfg.checked = true) (l : List (C × MInt τ)) (m : Mean (MInt τ) O (MInt κ)) (hq : 0 ≤ m.sumw2.val) (h0 : 0 ≤ m.count.val) :
    let xs := l.map fun cx => cx.2.val
    ((fillSeq (meanFills l) m).2 = none ↔ (∀ q, q <+: xs → InRange τ (m.sumw.val + q.sum)) ∧ InRange τ (m.sumw2.val + (xs.map fun x => x ^ 2).sum) ∧
      InRange κ (m.count.val + xs.length)) ∧
    ∀ m', fillSeq (meanFills l) m = (m', none) → m'.sumw.val = m.sumw.val + xs.sum ∧ m'.sumw2.val = m.sumw2.val + (xs.map fun x => x ^ 2).sum ∧
      m'.count.val = m.count.val + xs.length := by
  induction l generalizing m with
  | nil =>
    refine ⟨⟨fun _ => ⟨?_, ?_, ?_⟩, fun _ => rfl⟩, ?_⟩
    · intro q hq
      rw [List.map_nil, List.prefix_nil] at hq
      subst hq
      simpa using MInt.inRange m.sumw
    · simpa using MInt.inRange m.sumw2
    · simpa using MInt.inRange m.count
    · intro m' h
      cases h
      simp
  | cons cx l ih =>
    obtain ⟨c, x⟩ := cx
    intro xs
    have hx : xs = x.val :: l.map fun cx => cx.2.val := rfl
    set ys := l.map fun cx => cx.2.val with hys
    have hcons : meanFills ((c, x) :: l) = (.fillWith c x : Call (Mean (MInt τ) O (MInt κ)) C) :: meanFills l := rfl
    have s0 := sum_sq_nonneg ys
    have n0 : (0 : ℤ) ≤ ys.length := by positivity
    have kmin := κ.min_le_zero
    have tmin := τ.min_le_zero
    have x0 := sq_nonneg x.val
    rcases mean_on hc c x m hq with ⟨m1, e, v1, v2, v3⟩ | ⟨⟨m1, e⟩, hout⟩
    · obtain ⟨i1, i2⟩ := ih m1 (by rw [v2]; positivity) (by omega)
      rw [v1, v2, v3] at i1 i2
      rw [hcons, fillSeq, e]
      simp only
      constructor
      · rw [i1, hx, List.map_cons, List.sum_cons, List.length_cons]
        constructor
        · rintro ⟨j1, j2, j3⟩
          refine ⟨?_, by rwa [← add_assoc], by push_cast; rwa [add_comm (ys.length : ℤ), ← add_assoc]⟩
          intro q hq
          cases q with
          | nil => simpa using MInt.inRange m.sumw
          | cons a q =>
            rw [List.cons_prefix_cons] at hq
            obtain ⟨rfl, hq⟩ := hq
            rw [List.sum_cons, ← add_assoc]
            exact j1 q hq
        · rintro ⟨j1, j2, j3⟩
          refine ⟨fun q hq => ?_, by rwa [add_assoc], by push_cast at j3; rwa [add_assoc, add_comm (1 : ℤ)]⟩
          have := j1 (x.val :: q) (by rw [List.cons_prefix_cons]; exact ⟨rfl, hq⟩)
          rwa [List.sum_cons, ← add_assoc] at this
      · intro m' hm
        obtain ⟨k1, k2, k3⟩ := i2 m' hm
        rw [hx, List.map_cons, List.sum_cons, List.sum_cons, List.length_cons]
        exact ⟨by rw [k1]; ring, by rw [k2]; ring, by rw [k3]; push_cast; ring⟩
    · rw [hcons, fillSeq, e]
      simp only
      constructor
      · constructor
        · intro h; cases h
        · rintro ⟨j1, j2, j3⟩
          exfalso
          apply hout
          rw [hx, List.map_cons, List.sum_cons] at j2
          rw [hx, List.length_cons] at j3
          push_cast at j3
          refine ⟨?_, ?_, ?_⟩
          · have := j1 [x.val] (by rw [hx, List.cons_prefix_cons]; exact ⟨rfl, List.nil_prefix⟩)
            simpa using this
          · unfold InRange at j2 ⊢; constructor <;> omega
          · unfold InRange at j3 ⊢; constructor <;> omega
      · intro m' h; cases h
end

/-! ## Histograms -/

theorem sq_sum_le (l : List ℤ) : l.sum ^ 2 ≤ l.length * (l.map fun x => x ^ 2).sum := by
  induction l with
  | nil => simp
  | cons a l ih =>
    simp only [List.sum_cons, List.map_cons, List.length_cons]
    push_cast
    have key : 2 * a * l.sum ≤ l.length * a ^ 2 + (l.map fun x => x ^ 2).sum := by
      clear ih
      induction l with
      | nil => simp
      | cons b l ih =>
        simp only [List.sum_cons, List.map_cons, List.length_cons]
        push_cast
        nlinarith [sq_nonneg (a - b)]
    nlinarith [sum_sq_nonneg l]

theorem sq_sum_le_rat (l : List ℚ) : l.sum ^ 2 ≤ l.length * (l.map fun x => x ^ 2).sum := by
  induction l with
  | nil => simp
  | cons a l ih =>
    simp only [List.sum_cons, List.map_cons, List.length_cons]
    push_cast
    have key : 2 * a * l.sum ≤ l.length * a ^ 2 + (l.map fun x => x ^ 2).sum := by
      clear ih
      induction l with
      | nil => simp
      | cons b l ih =>
        simp only [List.sum_cons, List.map_cons, List.length_cons]
        push_cast
        nlinarith [sq_nonneg (a - b)]
    nlinarith

section
variable [cfg : Cfg] {τ κ : IntTy} {F : FFmt} {A : Type} [Axis A] {axes : A} {n : Nat} {covers : Axis.Interval A → Axis.Coordinate A → Prop} {dom : Axis.Coordinate A → Prop}

theorem meanFills_dom {O C : Type} {p : C → Prop} {hist : List (C × MInt τ)} (h : ∀ cx ∈ hist, p cx.1) :
    ∀ call ∈ (meanFills hist : List (Call (Mean (MInt τ) O (MInt κ)) C)), p call.coord := by
  intro call hm
  obtain ⟨cx, h1, rfl⟩ := List.mem_map.1 hm
  exact h cx h1

theorem callsIn_meanFills {O : Type} (hf : FaithfulAxis axes n covers dom) {hist : List (Axis.Coordinate A × MInt τ)} (hd : ∀ cx ∈ hist, dom cx.1)
    {i : Nat} {b : Axis.Interval A} (hi : i < n) (hb : Axis.bin axes i = .ok (some b)) :
    ∃ l : List (Axis.Coordinate A × MInt τ), callsIn axes i (meanFills hist : List (Call (Mean (MInt τ) O (MInt κ)) _)) = meanFills l ∧
      (l.map fun cx => cx.2.val) = samplesIn covers b hist := by
  classical
  refine ⟨hist.filter fun cx => covers b cx.1, ?_, rfl⟩
  rw [callsIn_eq_covers hf (meanFills_dom hd) hi hb]
  unfold meanFills
  rw [List.filter_map]; rfl

/-- **C75 (panics).** In a build with overflow checks, a program of `fill_with(x)` calls on a new histogram of `Mean`s of integers panics exactly if, for some bin, the sum of the samples so far leaves the
range of their type at some point, or the sum of all their squares does, or their number that of the count type. -/
theorem C75_panics {O : Type} (hc : Cfg.checked = true) (hf : FaithfulAxis axes n covers dom) {h : VecHistogram A (Mean (MInt τ) O (MInt κ))} (hnew : VecHistogram.new axes = .ok h)
    (hist : List (Axis.Coordinate A × MInt τ)) (hd : ∀ cx ∈ hist, dom cx.1) :
    (h.callAll (meanFills hist)).2 = none ↔ ∀ i b, i < n → Axis.bin axes i = .ok (some b) →
      (∀ q, q <+: samplesIn covers b hist → InRange τ q.sum) ∧ InRange τ ((samplesIn covers b hist).map fun x => x ^ 2).sum ∧
        InRange κ (samplesIn covers b hist).length := by
  rw [callAll_none_iff hf hnew (meanFills_dom hd)]
  have z1 : (RDefault.dflt : Mean (MInt τ) O (MInt κ)).sumw.val = 0 := rfl
  have z2 : (RDefault.dflt : Mean (MInt τ) O (MInt κ)).sumw2.val = 0 := rfl
  have z3 : (RDefault.dflt : Mean (MInt τ) O (MInt κ)).count.val = 0 := rfl
  constructor
  · intro hall i b hi hb
    obtain ⟨l, e1, e2⟩ := callsIn_meanFills (κ := κ) (O := O) hf hd hi hb
    have := (mean_seq hc l RDefault.dflt z2.ge z3.ge).1
    rw [e2, z1, z2, z3] at this
    have := this.1 (by rw [← e1]; exact hall i hi)
    simpa using this
  · intro hall i hi
    obtain ⟨b, hb⟩ := hf.lawful.bin_some i hi
    obtain ⟨l, e1, e2⟩ := callsIn_meanFills (κ := κ) (O := O) hf hd hi hb
    have := (mean_seq hc l RDefault.dflt z2.ge z3.ge).1
    rw [e2, z1, z2, z3] at this
    rw [e1]
    exact this.2 (by simpa using hall i b hi hb)

/-- what a `Mean` with exact sums has as mean and variance -/
theorem mean_of_totals (hp3 : 3 ≤ F.p) (hem : F.emin + 2 * F.p + 2 ≤ 0) (hτ : -2 ^ F.p ≤ τ.min ∧ τ.max ≤ 2 ^ F.p) (hκ : κ.max ≤ 2 ^ F.p)
    (m : Mean (MInt τ) (Flt F) (MInt κ)) (xs : List ℤ) (k1 : m.sumw.val = xs.sum) (k2 : m.sumw2.val = (xs.map fun x => x ^ 2).sum) (k3 : m.count.val = xs.length) :
    let N : ℚ := xs.length
    let mean : ℚ := (xs.sum : ℤ) / N
    let meanSquare : ℚ := ((xs.map fun x => x ^ 2).sum : ℤ) / N
    m.numSamples.val = xs.length ∧
    (xs = [] → m.get = .ok .nan) ∧
    (xs ≠ [] → ∃ q v vm, m.get = .ok q ∧ Closest mean q ∧
      m.varianceOfSamples = .ok v ∧ v.isFin ∧ 0 ≤ v.val ∧
      |v.val - (meanSquare - mean ^ 2)| ≤ ((1 + F.u) ^ 2 - 1) * meanSquare + ((1 + F.u) ^ 4 - 1) * mean ^ 2 ∧
      ((∃ c, ∀ x ∈ xs, x = c) → v.val = 0) ∧
      m.varianceOfMean = .ok vm ∧ Closest (v.val / N) vm) := by
  simp only
  have ex : ∀ {t : IntTy} (x : MInt t), -2 ^ F.p ≤ x.val → x.val ≤ 2 ^ F.p → |((x.val : ℤ) : ℚ)| ≤ 2 ^ F.p := by
    intro t x h1 h2
    rw [abs_le]; exact ⟨by exact_mod_cast h1, by exact_mod_cast h2⟩
  have c1 := ex m.sumw (hτ.1.trans m.sumw.min_le) (m.sumw.le_max.trans hτ.2)
  have c2 := ex m.sumw2 (hτ.1.trans m.sumw2.min_le) (m.sumw2.le_max.trans hτ.2)
  have hpos : (0 : ℤ) < 2 ^ F.p := by positivity
  have c3 := ex m.count (by rw [k3]; have : (0 : ℤ) ≤ xs.length := by positivity
                            omega) (m.count.le_max.trans hκ)
  have s1 : (RFrom.conv m.sumw : Flt F).isFin ∧ (RFrom.conv m.sumw : Flt F).val = m.sumw.val := Flt.ofInt_spec c1
  have s2 : (RFrom.conv m.sumw2 : Flt F).isFin ∧ (RFrom.conv m.sumw2 : Flt F).val = m.sumw2.val := Flt.ofInt_spec c2
  have s3 : (RFrom.conv m.count : Flt F).isFin ∧ (RFrom.conv m.count : Flt F).val = m.count.val := Flt.ofInt_spec c3
  refine ⟨k3, ?_, ?_⟩
  · intro h0
    rw [k1, h0] at s1
    rw [k3, h0] at s3
    exact congrArg Except.ok (Flt.div_zero_zero s1.1 (by rw [s1.2]; rfl) s3.1 (by rw [s3.2]; rfl))
  · intro hne
    have hN : (0 : ℤ) < xs.length := by have := List.length_pos_iff.2 hne; exact_mod_cast this
    rw [k1] at c1 s1
    rw [k2] at c2 s2
    rw [k3] at c3 s3
    have hCS := sq_sum_le xs
    obtain ⟨q, v, vm, r1, r2, r3, r4, r5, r6, r7, r8, r9⟩ := mean_exact m (S := xs.sum) (Q := (xs.map fun x => x ^ 2).sum) (N := xs.length) hN (le_of_abs_le c3) c1 c2 hp3 hem s1 s2 s3
      (by exact_mod_cast hCS)
    refine ⟨q, v, vm, r1, by simpa using r2, r3, r4, r5, by simpa using r6, ?_, r8, by simpa using r9⟩
    rintro ⟨c, hc⟩
    have hrep : xs = List.replicate xs.length c := List.eq_replicate_iff.2 ⟨rfl, hc⟩
    apply r7
    · rw [hrep]; simp; ring
    · exact ⟨c, by conv_lhs => rw [hrep]
                   simp⟩

/-- **C75 (means).** Take a histogram of `Mean`s of integers whose type, like that of the counts, converts to the float type exactly (the pairs for which Rust has `From`), in a build with overflow checks.
If no `fill_with` call panics then every bin with samples has as its mean the float nearest to their exact mean; the variance of the samples `v` is not negative and differs from the exact one by at
most about `2u` times the mean square and `4u` times the square of the mean; if all samples are equal it is zero; the variance of the mean is the float nearest to `v / n`. A bin without samples has the mean NaN. -/
theorem C75_means (hc : Cfg.checked = true) (hp3 : 3 ≤ F.p) (hem : F.emin + 2 * F.p + 2 ≤ 0) (hτ : -2 ^ F.p ≤ τ.min ∧ τ.max ≤ 2 ^ F.p) (hκ : κ.max ≤ 2 ^ F.p)
    (hf : FaithfulAxis axes n covers dom) {h : VecHistogram A (Mean (MInt τ) (Flt F) (MInt κ))} (hnew : VecHistogram.new axes = .ok h)
    (hist : List (Axis.Coordinate A × MInt τ)) (hd : ∀ cx ∈ hist, dom cx.1) {h'} (hr : h.callAll (meanFills hist) = (h', none)) :
    ∃ items, h'.iter = .ok items ∧ items.length = n ∧
      ∀ i it, items[i]? = some it → it.index = i ∧ Axis.bin axes i = .ok (some it.bin) ∧
        let xs : List ℤ := samplesIn covers it.bin hist
        let N : ℚ := xs.length
        let mean : ℚ := (xs.sum : ℤ) / N
        let meanSquare : ℚ := ((xs.map fun x => x ^ 2).sum : ℤ) / N
        it.value.numSamples.val = xs.length ∧
        (xs = [] → it.value.get = .ok .nan) ∧
        (xs ≠ [] → ∃ q v vm, it.value.get = .ok q ∧ Closest mean q ∧
          it.value.varianceOfSamples = .ok v ∧ v.isFin ∧ 0 ≤ v.val ∧
          |v.val - (meanSquare - mean ^ 2)| ≤ ((1 + F.u) ^ 2 - 1) * meanSquare + ((1 + F.u) ^ 4 - 1) * mean ^ 2 ∧
          ((∃ c, ∀ x ∈ xs, x = c) → v.val = 0) ∧
          it.value.varianceOfMean = .ok vm ∧ Closest (v.val / N) vm) := by
  have e : h' = h.callAllCaught (meanFills hist) := by
    have := VecHistogram.callAll_ok (h := h) (calls := meanFills hist) (by rw [hr])
    rwa [hr] at this
  obtain ⟨ok, hax, -⟩ := C28_dense hf.lawful hnew (meanFills hist)
  rw [← e] at ok hax
  obtain ⟨items, hit, hlen, hall, -⟩ := C38_iter ok
  refine ⟨items, hit, hlen, ?_⟩
  intro i it hi
  have hin : i < n := by rw [← hlen]; exact (List.getElem?_eq_some_iff.1 hi).1
  obtain ⟨b, m, g1, g2, g3⟩ := hall i hin
  rw [hi] at g1
  cases g1
  rw [hax] at g2
  refine ⟨rfl, g2, ?_⟩
  obtain ⟨h₀, b1, b2, b3, b4⟩ := C26_new (V := Mean (MInt τ) (Flt F) (MInt κ)) hf.lawful
  obtain rfl : h = h₀ := by rw [hnew] at b1; exact Except.ok.inj b1
  obtain ⟨v', w1, w2⟩ := VecHistogram.callAll_seq hr i (by rw [b4, if_pos hin])
  rw [g3] at w1
  obtain rfl := Option.some.inj w1
  rw [b3] at w2
  obtain ⟨l, e1, e2⟩ := callsIn_meanFills (κ := κ) (O := Flt F) hf hd hin g2
  rw [e1] at w2
  have key := (mean_seq hc l RDefault.dflt le_rfl le_rfl).2 m w2
  rw [e2] at key
  obtain ⟨k1, k2, k3⟩ := key
  simp only
  set xs : List ℤ := samplesIn covers b hist with hxs
  replace k1 : m.sumw.val = xs.sum := by rw [k1]; exact zero_add _
  replace k2 : m.sumw2.val = (xs.map fun x => x ^ 2).sum := by rw [k2]; exact zero_add _
  replace k3 : m.count.val = xs.length := by rw [k3]; exact zero_add _
  exact mean_of_totals hp3 hem hτ hκ m xs k1 k2 k3

/-- the calls `fill_with_weighted(c, x, w)` -/
def weightedMeanFills {O : Type} {C : Type} (hist : List (C × MInt τ × MInt τ)) : List (Call (WeightedMean (MInt τ) (MInt τ) O (MInt κ)) C) :=
  hist.map fun cx => .fillWithWeighted cx.1 cx.2.1 cx.2.2

open Classical in
/-- **C75 (weighted means).** The same for histograms of `WeightedMean`s with integer samples and weights: if no call panics then every bin whose total weight is not zero has as its mean the float nearest to the
exact weighted mean, and every bin counts its samples. -/
theorem C75_weighted_means (hc : Cfg.checked = true) (hτ : -2 ^ F.p ≤ τ.min ∧ τ.max ≤ 2 ^ F.p)
    (hf : FaithfulAxis axes n covers dom) {h : VecHistogram A (WeightedMean (MInt τ) (MInt τ) (Flt F) (MInt κ))} (hnew : VecHistogram.new axes = .ok h)
    (hist : List (Axis.Coordinate A × MInt τ × MInt τ)) (hd : ∀ cx ∈ hist, dom cx.1) {h'} (hr : h.callAll (weightedMeanFills hist) = (h', none)) :
    ∃ items, h'.iter = .ok items ∧ items.length = n ∧
      ∀ i it, items[i]? = some it → it.index = i ∧ Axis.bin axes i = .ok (some it.bin) ∧
        let mine := hist.filter fun cx => covers it.bin cx.1
        let weight : ℤ := (mine.map fun cx => cx.2.2.val).sum
        let weighted : ℤ := (mine.map fun cx => cx.2.2.val * cx.2.1.val).sum
        it.value.numSamples.val = mine.length ∧
        (weight ≠ 0 → ∃ q, it.value.get = .ok q ∧ Closest ((weighted : ℚ) / weight) q) := by
  letI := intFrom τ ℚ
  letI := intFrom κ ℚ
  haveI := int_faithful τ ℚ hc
  haveI := int_faithful κ ℚ hc
  have e : h' = h.callAllCaught (weightedMeanFills hist) := by
    have := VecHistogram.callAll_ok (h := h) (calls := weightedMeanFills hist) (by rw [hr])
    rwa [hr] at this
  obtain ⟨ok, hax, -⟩ := C28_dense hf.lawful hnew (weightedMeanFills hist)
  rw [← e] at ok hax
  obtain ⟨items, hit, hlen, hall, -⟩ := C38_iter ok
  refine ⟨items, hit, hlen, ?_⟩
  intro i it hi
  have hin : i < n := by rw [← hlen]; exact (List.getElem?_eq_some_iff.1 hi).1
  obtain ⟨b, m, g1, g2, g3⟩ := hall i hin
  rw [hi] at g1
  cases g1
  rw [hax] at g2
  refine ⟨rfl, g2, ?_⟩
  obtain ⟨h₀, b1, b2, b3, b4⟩ := C26_new (V := WeightedMean (MInt τ) (MInt τ) (Flt F) (MInt κ)) hf.lawful
  obtain rfl : h = h₀ := by rw [hnew] at b1; exact Except.ok.inj b1
  obtain ⟨v', w1, w2⟩ := VecHistogram.callAll_seq hr i (by rw [b4, if_pos hin])
  rw [g3] at w1
  obtain rfl := Option.some.inj w1
  have hd' : ∀ call ∈ (weightedMeanFills hist : List (Call (WeightedMean (MInt τ) (MInt τ) (Flt F) (MInt κ)) _)), dom call.coord := by
    intro call hm
    obtain ⟨cx, h1, rfl⟩ := List.mem_map.1 hm
    exact hd cx h1
  rw [b3, callsIn_eq_covers hf hd' hin g2] at w2
  unfold weightedMeanFills at w2
  rw [List.filter_map] at w2
  have key := fillSeq_adds (μ := wmMeasure (T := MInt τ) (W := MInt τ) (O := Flt F) (C := MInt κ) ℚ) _
    (fun cx : Axis.Coordinate A × MInt τ × MInt τ => ((RFrom.conv cx.2.2 * RFrom.conv cx.2.1 : ℚ), (RFrom.conv cx.2.2 * RFrom.conv cx.2.1 ^ 2 : ℚ),
      (RFrom.conv cx.2.2 : ℚ), (RFrom.conv cx.2.2 ^ 2 : ℚ), (1 : ℚ)))
    (fun cx _ => weightedMean_adds (K := ℚ) cx.2.1 cx.2.2) w2
  rw [sum_pair, sum_pair, sum_pair, sum_pair, sum_map_one] at key
  have h0 : wmMeasure ℚ (RDefault.dflt : WeightedMean (MInt τ) (MInt τ) (Flt F) (MInt κ)) = 0 :=
    Prod.ext Faithful.zero (Prod.ext Faithful.zero (Prod.ext Faithful.zero (Prod.ext Faithful.zero Faithful.zero)))
  rw [h0, zero_add] at key
  intro mine weight weighted
  have k1 : ((m.sumwt.val : ℤ) : ℚ) = weighted := by
    have := congrArg Prod.fst key
    refine (this : ((m.sumwt.val : ℤ) : ℚ) = _).trans ?_
    rw [Int.cast_list_sum, List.map_map]
    exact congrArg List.sum (List.map_congr_left fun cx _ => (Int.cast_mul cx.2.2.val cx.2.1.val).symm)
  have k3 : ((m.sumw.val : ℤ) : ℚ) = weight := by
    have := congrArg (fun x => x.2.2.1) key
    refine (this : ((m.sumw.val : ℤ) : ℚ) = _).trans ?_
    rw [Int.cast_list_sum, List.map_map]
    rfl
  have k5 : ((m.count.val : ℤ) : ℚ) = mine.length := congrArg (fun x => x.2.2.2.2) key
  refine ⟨by exact_mod_cast k5, fun hw => ?_⟩
  have ex : ∀ x : MInt τ, |((x.val : ℤ) : ℚ)| ≤ 2 ^ F.p := by
    intro x
    rw [abs_le]; exact ⟨by exact_mod_cast hτ.1.trans x.min_le, by exact_mod_cast x.le_max.trans hτ.2⟩
  have s1 : (RFrom.conv m.sumwt : Flt F).isFin ∧ (RFrom.conv m.sumwt : Flt F).val = m.sumwt.val := Flt.ofInt_spec (ex _)
  have s3 : (RFrom.conv m.sumw : Flt F).isFin ∧ (RFrom.conv m.sumw : Flt F).val = m.sumw.val := Flt.ofInt_spec (ex _)
  have hw' : (weight : ℚ) ≠ 0 := by exact_mod_cast hw
  have qr := Flt.div_rounds s1.1 s3.1 (by rw [s3.2, k3]; exact hw')
  rw [s1.2, s3.2, k1, k3] at qr
  refine ⟨_, rfl, qr.closest ?_⟩
  rw [← k1, abs_div]
  have h1 : (1 : ℚ) ≤ |(weight : ℚ)| := by
    have : (1 : ℤ) ≤ |weight| := Int.one_le_abs hw
    exact_mod_cast this
  exact ((div_le_self (abs_nonneg _) h1).trans (ex _)).trans F.two_pow_le_maxFin

/-- **C75 (whole-number float samples).** `Mean<f64>` of whole-number samples whose absolute values and squares each add up to at most `2^p`: the same. -/
theorem C75_float_samples (hp3 : 3 ≤ F.p) (hem : F.emin + 2 * F.p + 2 ≤ 0) (xs : List (Flt F)) (hne : xs ≠ []) (hfin : ∀ x ∈ xs, x.isFin) (hint : ∀ x ∈ xs, OnGrid 0 x.val)
    (hc : (xs.length : ℤ) ≤ κ.max) (hp : xs.length ≤ 2 ^ F.p) (hS : (xs.map fun x => |x.val|).sum ≤ 2 ^ F.p) (hQ : (xs.map fun x => x.val ^ 2).sum ≤ 2 ^ F.p) :
    let N : ℚ := xs.length
    let mean : ℚ := (xs.map Flt.val).sum / N
    let meanSquare : ℚ := (xs.map fun x => x.val ^ 2).sum / N
    ∃ (m : Mean (Flt F) (Flt F) (MInt κ)) (q v vm : Flt F), fillSeq (meanCalls xs) RDefault.dflt = (m, none) ∧ m.numSamples.val = xs.length ∧
      m.get = .ok q ∧ Closest mean q ∧ m.varianceOfSamples = .ok v ∧ v.isFin ∧ 0 ≤ v.val ∧
      |v.val - (meanSquare - mean ^ 2)| ≤ ((1 + F.u) ^ 2 - 1) * meanSquare + ((1 + F.u) ^ 4 - 1) * mean ^ 2 ∧
      ((∃ c, ∀ x ∈ xs, x.val = c) → v.val = 0) ∧ m.varianceOfMean = .ok vm ∧ Closest (v.val / N) vm := by
  obtain ⟨c, hc', hs⟩ := fillSeq_mean (τ := κ) xs RDefault.dflt (by show (0 : ℤ) + _ ≤ _; omega)
  have hcn : c.val = (xs.length : ℕ) := by rw [hc']; show (0 : ℤ) + _ = _; simp
  have hN : (0 : ℤ) < xs.length := by have := List.length_pos_iff.2 hne; exact_mod_cast this
  have hmi := F.emin_le
  have hma := F.emax_ge
  have hpg := F.p_ge
  have q0 : F.qmin ≤ 0 := by unfold FFmt.qmin; omega
  have e0 : (0 : ℤ) + F.p ≤ F.emax := by omega
  have two : (2 : ℚ) ^ ((0 : ℤ) + F.p) = 2 ^ F.p := by rw [zero_add, zpow_natCast]
  have z : (Flt.zero false : Flt F).val = 0 := rfl
  obtain ⟨S, hSz⟩ : OnGrid 0 (xs.map Flt.val).sum := OnGrid.sum hint
  obtain ⟨Q, hQz⟩ : OnGrid 0 (xs.map fun x => x.val ^ 2).sum := OnGrid.sum fun x hx => by have := (hint x hx).sq; rwa [mul_zero] at this
  rw [zpow_zero, mul_one] at hSz hQz
  have s1 := foldl_grid (F := F) (e := 0) (fun x => x) q0 e0 xs hfin hint (v := Flt.zero false) trivial (by rw [z]; exact OnGrid.zero)
    (by rw [z, abs_zero, zero_add, two]; exact hS)
  have hsq : ∀ x ∈ xs, (Flt.mul x x).isFin ∧ (Flt.mul x x).val = x.val ^ 2 := by
    intro x hx
    have hle : x.val ^ 2 ≤ (xs.map fun x => x.val ^ 2).sum := le_sum_of_mem (f := fun x : Flt F => x.val ^ 2) (fun _ _ => sq_nonneg _) hx
    have hgr := (hint x hx).sq
    rw [mul_zero, pow_two] at hgr
    rw [pow_two] at hle ⊢
    have rep := FFmt.rep_grid (F := F) q0 e0 hgr (by rw [abs_of_nonneg (mul_self_nonneg _), two]; exact hle.trans hQ)
    obtain ⟨f1, f2⟩ := (Flt.mul_rounds (hfin x hx) (hfin x hx)).fin_of rep.le_maxFin
    exact ⟨f1, f2.trans (F.rs_of_rep rep.repU)⟩
  have m1 : (xs.map fun x => |(Flt.mul x x).val|) = xs.map fun x => x.val ^ 2 :=
    List.map_congr_left fun x h => by rw [(hsq x h).2, abs_of_nonneg (sq_nonneg _)]
  have m2 : (xs.map fun x => (Flt.mul x x).val) = xs.map fun x => x.val ^ 2 := List.map_congr_left fun x h => (hsq x h).2
  have s2 := foldl_grid (F := F) (e := 0) (fun x => Flt.mul x x) q0 e0 xs (fun x h => (hsq x h).1)
    (fun x h => by rw [(hsq x h).2]; have := (hint x h).sq; rwa [mul_zero] at this)
    (v := Flt.zero false) trivial (by rw [z]; exact OnGrid.zero) (by rw [z, abs_zero, zero_add, two, m1]; exact hQ)
  rw [z, zero_add, m2, hQz] at s2
  rw [z, zero_add] at s1
  have s1' := s1.2.trans hSz
  have hCS : (xs.map Flt.val).sum ^ 2 ≤ xs.length * (xs.map fun x => x.val ^ 2).sum := by
    have := sq_sum_le_rat (xs.map Flt.val)
    rwa [List.length_map, List.map_map] at this
  have h3 := conv_count (F := F) c hcn hp
  obtain ⟨q, v, vm, r1, r2, r3, r4, r5, r6, r7, r8, r9⟩ := mean_exact (F := F)
    (⟨xs.foldl (fun v x => Flt.add v x) (Flt.zero false), xs.foldl (fun v x => Flt.add v (Flt.mul x x)) (Flt.zero false), c⟩ : Mean (Flt F) (Flt F) (MInt κ))
    (S := S) (Q := Q) (N := xs.length) hN (by exact_mod_cast hp)
    (by rw [← hSz]; exact (abs_sum_le_sum_abs' _ _).trans hS) (by rw [← hQz, abs_of_nonneg (sum_nonneg' xs _ fun _ _ => sq_nonneg _)]; exact hQ) hp3 hem ⟨s1.1, s1'⟩ s2 (by push_cast; exact h3)
    (by rw [← hSz, ← hQz]; push_cast; exact hCS)
  intro N mean meanSquare
  have eN : ((xs.length : ℤ) : ℚ) = N := by push_cast; rfl
  rw [← hSz, eN] at r2
  rw [← hSz, ← hQz, eN] at r6
  rw [eN] at r9
  refine ⟨_, q, v, vm, hs, hcn, r1, r2, r3, r4, r5, r6, ?_, r8, r9⟩
  rintro ⟨k, hk⟩
  have hrep : xs.map Flt.val = List.replicate xs.length k := List.eq_replicate_iff.2 ⟨by simp, by simpa using hk⟩
  have hrep2 : (xs.map fun x => x.val ^ 2) = List.replicate xs.length (k ^ 2) := List.eq_replicate_iff.2 ⟨by simp, by
    intro b hb
    obtain ⟨x, hx, rfl⟩ := List.mem_map.1 hb
    rw [hk x hx]⟩
  obtain ⟨x, hx⟩ := List.exists_mem_of_ne_nil xs hne
  obtain ⟨kz, hkz⟩ := hint x hx
  rw [zpow_zero, mul_one, hk x hx] at hkz
  rw [hrep, List.sum_replicate, nsmul_eq_mul, hkz] at hSz
  rw [hrep2, List.sum_replicate, nsmul_eq_mul, hkz] at hQz
  have hS' : S = xs.length * kz := by exact_mod_cast hSz.symm
  have hQ' : Q = xs.length * kz ^ 2 := by exact_mod_cast hQz.symm
  apply r7
  · rw [hS', hQ']; ring
  · exact ⟨kz, hS'⟩
end
end NdHist
