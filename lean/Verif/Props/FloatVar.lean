import Verif.Props.FloatValue
/-!
# C58: rounding error of the variances of `WeightedMean`

`variance_of_samples` of a `WeightedMean` computes `mu² + (sumwt2 - 2*sumwt*mu)/sumw`. The result may be negative (C42), but it is always close to the exact
weighted variance: the distance is bounded by a multiple of the accumulated rounding error, relative to the square of the largest sample.
-/
namespace NdHist
open RNum

section
variable {F : FFmt}

/-- One rounded operation on a scale `M`: an error of `c*e` becomes an error of `(c+1)*e`. -/
theorem Flt.Rounds.step {r : ℚ} {x : Flt F} (h : Flt.Rounds r x) {t M e c k : ℚ} (hM : 0 ≤ M) (he : 6 * F.u ≤ e) (he1 : e ≤ 1 / 16)
    (heta : F.eta ≤ F.u * M) (hc : 0 ≤ c) (hr : |r - t| ≤ c * e * M) (ht : |t| ≤ k * M) (hck : k + c / 16 + 1 ≤ 6) (hrange : 6 * M ≤ F.maxFin) :
    x.isFin ∧ |x.val - t| ≤ (c + 1) * e * M := by
  have u0 := F.u_pos
  have hab : |r| ≤ (k + c / 16) * M := by
    have h1 := abs_add_le (r - t) t
    rw [sub_add_cancel] at h1
    have h2 : c * e * M ≤ c * (1 / 16) * M := mul_le_mul_of_nonneg_right (mul_le_mul_of_nonneg_left he1 hc) hM
    linarith
  have hab5 : |r| ≤ 5 * M := hab.trans (mul_le_mul_of_nonneg_right (by linarith) hM)
  obtain ⟨f1, f2⟩ := h.fin_of (by linarith)
  refine ⟨f1, ?_⟩
  have e1 := F.rs_err r
  rw [← f2] at e1
  have e2 := abs_add_le (x.val - r) (r - t)
  rw [sub_add_sub_cancel] at e2
  have e3 : |r| * F.u ≤ 5 * M * F.u := mul_le_mul_of_nonneg_right hab5 u0.le
  have e4 : 6 * F.u * M ≤ e * M := mul_le_mul_of_nonneg_right he hM
  linarith

/-- the error of a product -/
theorem mul_err {x y t s a b X S : ℚ} (hx : |x - t| ≤ a) (hy : |y - s| ≤ b) (hX : |x| ≤ X) (hS : |s| ≤ S) :
    |x * y - t * s| ≤ X * b + a * S := by
  have e : x * y - t * s = x * (y - s) + (x - t) * s := by ring
  rw [e]
  refine (abs_add_le _ _).trans ?_
  rw [abs_mul, abs_mul]
  exact add_le_add (mul_le_mul hX hy (abs_nonneg _) ((abs_nonneg _).trans hX)) (mul_le_mul hx hS (abs_nonneg _) ((abs_nonneg _).trans hx))

/-- the error of a quotient -/
theorem div_err {x y t s a b q c : ℚ} (hs : 0 < s) (hy0 : 0 < y) (hx : |x - t| ≤ a) (hy : |y - s| ≤ b) (hq : |t / s| ≤ q) (hc : a + q * b ≤ c * y) :
    |x / y - t / s| ≤ c := by
  have e : x / y - t / s = ((x - t) + -(t / s * (y - s))) / y := by field_simp; ring
  rw [e, abs_div, abs_of_pos hy0, div_le_iff₀ hy0]
  refine (abs_add_le _ _).trans (le_trans (add_le_add hx ?_) hc)
  rw [abs_neg, abs_mul]
  exact mul_le_mul hq hy (abs_nonneg _) ((abs_nonneg _).trans hq)

theorem abs_of_err {x t a k : ℚ} (h : |x - t| ≤ a) (ht : |t| ≤ k) : |x| ≤ k + a := by
  have := abs_add_le (x - t) t
  rw [sub_add_cancel] at this
  linarith

theorem abs_sum_le {α : Type} (l : List α) (f : α → ℚ) : |(l.map f).sum| ≤ (l.map fun a => |f a|).sum := by
  induction l with
  | nil => simp
  | cons a l ih =>
    simp only [List.map_cons, List.sum_cons]
    exact (abs_add_le _ _).trans (by linarith)

theorem six_u_le (F : FFmt) (n : Nat) : 6 * F.u ≤ (1 + F.u) ^ (n + 6) - 1 := by
  have u0 := F.u_pos
  have h := one_add_mul_le_pow (show (-2 : ℚ) ≤ F.u by linarith) (n + 6)
  push_cast at h
  have : 0 ≤ (n : ℚ) * F.u := by positivity
  linarith

/-- one plus one is two, also in floating point -/
theorem two_spec (F : FFmt) : (Flt.add (Flt.ofRat 1 : Flt F) (Flt.ofRat 1)).isFin ∧ (Flt.add (Flt.ofRat 1 : Flt F) (Flt.ofRat 1)).val = 2 := by
  have hp : 2 ≤ 2 ^ F.p := by
    calc 2 = 2 ^ 1 := rfl
      _ ≤ 2 ^ F.p := Nat.pow_le_pow_right (by norm_num) (by have := F.p_ge; omega)
  have h1 := Flt.ofNat_spec (F := F) (n := 1) (by omega)
  rw [Nat.cast_one] at h1
  have hr := F.rep_nat hp
  have h := Flt.add_rounds h1.1 h1.1
  rw [h1.2] at h
  have e : (1 + 1 : ℚ) = (2 : ℕ) := by norm_num
  rw [e] at h
  have h2 := h.fin_of (by rw [abs_of_nonneg (by positivity)]; exact hr.le_maxFin)
  refine ⟨h2.1, ?_⟩
  rw [h2.2, F.rs_of_rep (by rw [abs_of_nonneg (by positivity)]; exact hr.repU)]
  norm_num

/-- The rounding error of `mu*mu + (sumwt2 - 2*sumwt*mu)/sumw`, given that of the three sums. -/
theorem wm_var_core {sw st st2 : Flt F} {W S Q B e : ℚ} (he6 : 6 * F.u ≤ e) (he16 : e ≤ 1 / 16) (hB0 : 0 < B) (hW0 : 0 < W)
    (w1 : sw.isFin) (w2 : |sw.val - W| ≤ e * W) (s1 : st.isFin) (s2 : |st.val - S| ≤ e * (B * W))
    (q1 : st2.isFin) (q2 : |st2.val - Q| ≤ e * (B ^ 2 * W)) (hSB : |S| ≤ B * W) (hQ0 : 0 ≤ Q) (hQB : Q ≤ B ^ 2 * W)
    (hvarB : |S / W * (S / W) + (Q - 2 * S * (S / W)) / W| ≤ 1 * B ^ 2)
    (hBn : F.eta ≤ F.u * B) (hB2 : F.eta ≤ F.u * B ^ 2) (hBW : F.eta ≤ F.u * (B * W)) (hBW2 : F.eta ≤ F.u * (B ^ 2 * W))
    (hr : 6 * (B + B ^ 2 + B * W + B ^ 2 * W) ≤ F.maxFin) :
    (Flt.add (Flt.mul (Flt.div st sw) (Flt.div st sw))
      (Flt.div (Flt.sub st2 (Flt.mul (Flt.mul (Flt.add (Flt.ofRat 1) (Flt.ofRat 1)) st) (Flt.div st sw))) sw)).isFin ∧
    |(Flt.add (Flt.mul (Flt.div st sw) (Flt.div st sw))
      (Flt.div (Flt.sub st2 (Flt.mul (Flt.mul (Flt.add (Flt.ofRat 1) (Flt.ofRat 1)) st) (Flt.div st sw))) sw)).val -
        (S / W * (S / W) + (Q - 2 * S * (S / W)) / W)| ≤ 31 * e * B ^ 2 := by
  have u0 := F.u_pos
  have he0 : 0 < e := by linarith
  have B20 : 0 < B ^ 2 := by positivity
  have pBW : 0 < B * W := by positivity
  have pB2W : 0 < B ^ 2 * W := by positivity
  set μ := S / W with hμ
  have hSμ : S = μ * W := by rw [hμ, div_mul_cancel₀ _ hW0.ne']
  have hμB : |μ| ≤ B := by rw [hμ, abs_div, abs_of_pos hW0, div_le_iff₀ hW0]; exact hSB
  have hQW : Q / W ≤ B ^ 2 := by rw [div_le_iff₀ hW0]; exact hQB
  -- bounds of the sums
  have eB : ∀ {M c : ℚ}, 0 ≤ M → 0 ≤ c → c * e * M ≤ c / 16 * M := by
    intro M c hM hc
    have := mul_le_mul_of_nonneg_left he16 hc
    exact mul_le_mul_of_nonneg_right (by linarith) hM
  have Wlow : 15 / 16 * W ≤ sw.val := by
    have h1 := (abs_le.1 w2).1
    have := eB (c := 1) hW0.le (by norm_num)
    linarith
  have Wup : |sw.val| ≤ 17 / 16 * W := by
    have h1 := abs_of_err w2 (abs_of_pos hW0).le
    have := eB (c := 1) hW0.le (by norm_num)
    linarith
  have Wpos : 0 < sw.val := by linarith
  -- the mean
  obtain ⟨m1, m2⟩ : (Flt.div st sw).isFin ∧ |(Flt.div st sw).val - μ| ≤ (3 + 1) * e * B := by
    refine (Flt.div_rounds s1 w1 Wpos.ne').step (k := 1) hB0.le he6 he16 hBn (by norm_num) ?_ (by linarith) (by norm_num) (by linarith)
    refine div_err hW0 Wpos s2 w2 hμB ?_
    have : 3 * e * B * (15 / 16 * W) ≤ 3 * e * B * sw.val := mul_le_mul_of_nonneg_left Wlow (by positivity)
    have : 0 ≤ e * (B * W) := by positivity
    linarith
  set q := Flt.div st sw with hq
  norm_num at m2
  have qB : |q.val| ≤ 5 / 4 * B := by
    have h1 := abs_of_err m2 hμB
    have := eB (c := 4) hB0.le (by norm_num)
    linarith
  -- its square
  obtain ⟨a1, a2⟩ : (Flt.mul q q).isFin ∧ |(Flt.mul q q).val - μ * μ| ≤ (9 + 1) * e * B ^ 2 := by
    refine (Flt.mul_rounds m1 m1).step (k := 1) B20.le he6 he16 hB2 (by norm_num) ?_ ?_ (by norm_num) (by linarith)
    · refine (mul_err m2 m2 qB hμB).trans (le_of_eq (by ring))
    · rw [abs_mul]; have := mul_le_mul hμB hμB (abs_nonneg _) hB0.le; linarith
  set q2 := Flt.mul q q with hq2
  norm_num at a2
  -- twice the weighted sum
  have two_fin : (Flt.add (Flt.ofRat 1 : Flt F) (Flt.ofRat 1)).isFin ∧ (Flt.add (Flt.ofRat 1 : Flt F) (Flt.ofRat 1)).val = 2 := two_spec F
  set two := Flt.add (Flt.ofRat 1 : Flt F) (Flt.ofRat 1) with htwo
  obtain ⟨b1, b2⟩ : (Flt.mul two st).isFin ∧ |(Flt.mul two st).val - 2 * S| ≤ (2 + 1) * e * (B * W) := by
    have hrd := Flt.mul_rounds two_fin.1 s1
    rw [two_fin.2] at hrd
    refine hrd.step (k := 2) pBW.le he6 he16 hBW (by norm_num) ?_ ?_ (by norm_num) (by linarith)
    · rw [← mul_sub, abs_mul, abs_of_pos (by norm_num : (0 : ℚ) < 2)]; linarith
    · rw [abs_mul, abs_of_pos (by norm_num : (0 : ℚ) < 2)]; linarith
  set d := Flt.mul two st with hd
  norm_num at b2
  have h2S : |2 * S| ≤ 2 * (B * W) := by rw [abs_mul, abs_of_pos (by norm_num : (0 : ℚ) < 2)]; linarith
  have dB : |d.val| ≤ 9 / 4 * (B * W) := by
    have h1 := abs_of_err b2 h2S
    have := eB (c := 3) pBW.le (by norm_num)
    linarith
  -- times the mean
  obtain ⟨c1, c2⟩ : (Flt.mul d q).isFin ∧ |(Flt.mul d q).val - 2 * S * μ| ≤ (12 + 1) * e * (B ^ 2 * W) := by
    refine (Flt.mul_rounds b1 m1).step (k := 2) pB2W.le he6 he16 hBW2 (by norm_num) ?_ ?_ (by norm_num) (by linarith)
    · refine (mul_err b2 m2 dB hμB).trans (le_of_eq (by ring))
    · rw [abs_mul]
      have := mul_le_mul h2S hμB (abs_nonneg _) (by positivity)
      linarith
  set d2 := Flt.mul d q with hd2
  norm_num at c2
  -- the difference
  have hT : |Q - 2 * S * μ| ≤ 2 * (B ^ 2 * W) := by
    have e1 : Q - 2 * S * μ = (Q / W - 2 * μ ^ 2) * W := by rw [hSμ]; field_simp
    have h1 : 0 ≤ Q / W := by positivity
    have h2 : μ ^ 2 ≤ B ^ 2 := by rw [← sq_abs]; exact pow_le_pow_left₀ (abs_nonneg _) hμB 2
    have h3 := sq_nonneg μ
    rw [e1, abs_mul, abs_of_pos hW0, ← mul_assoc]
    apply mul_le_mul_of_nonneg_right _ hW0.le
    rw [abs_le]; constructor <;> linarith
  obtain ⟨f1, f2⟩ : (Flt.sub st2 d2).isFin ∧ |(Flt.sub st2 d2).val - (Q - 2 * S * μ)| ≤ (14 + 1) * e * (B ^ 2 * W) := by
    refine (Flt.sub_rounds q1 c1).step (k := 2) pB2W.le he6 he16 hBW2 (by norm_num) ?_ hT (by norm_num) (by linarith)
    have e1 : st2.val - d2.val - (Q - 2 * S * μ) = (st2.val - Q) + -(d2.val - 2 * S * μ) := by ring
    rw [e1]
    refine (abs_add_le _ _).trans ?_
    rw [abs_neg]
    linarith
  set d3 := Flt.sub st2 d2 with hd3
  norm_num at f2
  have hTW : |(Q - 2 * S * μ) / W| ≤ 2 * B ^ 2 := by
    rw [abs_div, abs_of_pos hW0, div_le_iff₀ hW0]; linarith
  obtain ⟨g1, g2⟩ : (Flt.div d3 sw).isFin ∧ |(Flt.div d3 sw).val - (Q - 2 * S * μ) / W| ≤ (19 + 1) * e * B ^ 2 := by
    refine (Flt.div_rounds f1 w1 Wpos.ne').step (k := 2) B20.le he6 he16 hB2 (by norm_num) ?_ hTW (by norm_num) (by linarith)
    refine div_err hW0 Wpos f2 w2 hTW ?_
    have : 19 * e * B ^ 2 * (15 / 16 * W) ≤ 19 * e * B ^ 2 * sw.val := mul_le_mul_of_nonneg_left Wlow (by positivity)
    have : 0 ≤ e * (B ^ 2 * W) := by positivity
    linarith
  set d4 := Flt.div d3 sw with hd4
  norm_num at g2
  obtain ⟨v1, v2⟩ : (Flt.add q2 d4).isFin ∧ |(Flt.add q2 d4).val - (μ * μ + (Q - 2 * S * μ) / W)| ≤ (30 + 1) * e * B ^ 2 := by
    refine (Flt.add_rounds a1 g1).step (k := 1) B20.le he6 he16 hB2 (by norm_num) ?_ hvarB (by norm_num) (by linarith)
    have e1 : q2.val + d4.val - (μ * μ + (Q - 2 * S * μ) / W) = (q2.val - μ * μ) + (d4.val - (Q - 2 * S * μ) / W) := by ring
    rw [e1]
    refine (abs_add_le _ _).trans ?_
    linarith
  norm_num at v2
  exact ⟨v1, v2⟩

/-- The rounding error of `variance * sumw2 / (sumw*sumw)`. -/
theorem wm_varmean_core {sw sw2 v : Flt F} {W V P B e : ℚ} (he6 : 6 * F.u ≤ e) (he16 : e ≤ 1 / 16) (hB0 : 0 < B) (hW0 : 0 < W) (hP0 : 0 < P)
    (hPW : P ≤ W ^ 2) (w1 : sw.isFin) (w2 : |sw.val - W| ≤ e * W) (p1 : sw2.isFin) (p2 : |sw2.val - P| ≤ e * P)
    (v1 : v.isFin) (v2 : |v.val - V| ≤ 31 * e * B ^ 2) (hV : |V| ≤ B ^ 2)
    (hBP : F.eta ≤ F.u * (B ^ 2 * P)) (hWW : F.eta ≤ F.u * W ^ 2) (hr : 6 * (B ^ 2 + W ^ 2 + B ^ 2 * W ^ 2) ≤ F.maxFin) :
    (Flt.div (Flt.mul v sw2) (Flt.mul sw sw)).isFin ∧
      |(Flt.div (Flt.mul v sw2) (Flt.mul sw sw)).val - V * P / W ^ 2| ≤ 54 * e * (B ^ 2 * P / W ^ 2) + F.eta := by
  have u0 := F.u_pos
  have he0 : 0 < e := by linarith
  have B20 : 0 < B ^ 2 := by positivity
  have W20 : 0 < W ^ 2 := by positivity
  have BP0 : 0 < B ^ 2 * P := by positivity
  have hB2P : B ^ 2 * P ≤ B ^ 2 * W ^ 2 := mul_le_mul_of_nonneg_left hPW B20.le
  have eB : ∀ {M c : ℚ}, 0 ≤ M → 0 ≤ c → c * e * M ≤ c / 16 * M := by
    intro M c hM hc
    have := mul_le_mul_of_nonneg_left he16 hc
    exact mul_le_mul_of_nonneg_right (by linarith) hM
  have Wup : |sw.val| ≤ 17 / 16 * W := by
    have h1 := abs_of_err w2 (abs_of_pos hW0).le
    have := eB (c := 1) hW0.le (by norm_num)
    linarith
  have Pup : |sw2.val| ≤ 17 / 16 * P := by
    have h1 := abs_of_err p2 (abs_of_pos hP0).le
    have := eB (c := 1) hP0.le (by norm_num)
    linarith
  have Vup : |v.val| ≤ 47 / 16 * B ^ 2 := by
    have h1 := abs_of_err v2 hV
    have := eB (c := 31) B20.le (by norm_num)
    linarith
  obtain ⟨x1, x2⟩ : (Flt.mul v sw2).isFin ∧ |(Flt.mul v sw2).val - V * P| ≤ (34 + 1) * e * (B ^ 2 * P) := by
    refine (Flt.mul_rounds v1 p1).step (k := 1) BP0.le he6 he16 hBP (by norm_num) ?_ ?_ (by norm_num) (by linarith)
    · refine (mul_err v2 p2 Vup (abs_of_pos hP0).le).trans ?_
      have : 0 ≤ e * (B ^ 2 * P) := by positivity
      linarith
    · rw [abs_mul, abs_of_pos hP0, one_mul]; exact mul_le_mul_of_nonneg_right hV hP0.le
  obtain ⟨y1, y2⟩ : (Flt.mul sw sw).isFin ∧ |(Flt.mul sw sw).val - W * W| ≤ (3 + 1) * e * W ^ 2 := by
    refine (Flt.mul_rounds w1 w1).step (k := 1) W20.le he6 he16 hWW (by norm_num) ?_ ?_ (by norm_num) (by linarith)
    · refine (mul_err w2 w2 Wup (abs_of_pos hW0).le).trans ?_
      have : 0 ≤ e * W ^ 2 := by positivity
      linarith
    · rw [abs_mul, abs_of_pos hW0]; linarith
  norm_num at x2 y2
  rw [← pow_two] at y2
  set x := Flt.mul v sw2 with hx
  set y := Flt.mul sw sw with hy
  have ylow : 3 / 4 * W ^ 2 ≤ y.val := by
    have h1 := (abs_le.1 y2).1
    have := eB (c := 4) W20.le (by norm_num)
    linarith
  have ypos : 0 < y.val := by linarith
  set M := B ^ 2 * P / W ^ 2 with hM
  have M0 : 0 < M := by positivity
  have hMW : M * W ^ 2 = B ^ 2 * P := by rw [hM, div_mul_cancel₀ _ W20.ne']
  have hMB : M ≤ B ^ 2 := by rw [hM, div_le_iff₀ W20]; exact hB2P
  have ht : |V * P / W ^ 2| ≤ M := by
    rw [abs_div, abs_of_pos W20, hM, abs_mul, abs_of_pos hP0]
    exact div_le_div_of_nonneg_right (mul_le_mul_of_nonneg_right hV hP0.le) W20.le
  have hd : |x.val / y.val - V * P / W ^ 2| ≤ 52 * e * M := by
    refine div_err W20 ypos x2 y2 ht ?_
    have h1 : 52 * e * M * (3 / 4 * W ^ 2) ≤ 52 * e * M * y.val := mul_le_mul_of_nonneg_left ylow (by positivity)
    have h2 : 52 * e * M * (3 / 4 * W ^ 2) = 39 * e * (B ^ 2 * P) := by rw [← hMW]; ring
    have h3 : M * (4 * e * W ^ 2) = 4 * e * (B ^ 2 * P) := by rw [← hMW]; ring
    linarith
  have hab := abs_of_err hd ht
  have h52 := eB (c := 52) M0.le (by norm_num)
  obtain ⟨z1, z2⟩ := (Flt.div_rounds x1 y1 ypos.ne').fin_of (hab.trans (by linarith))
  refine ⟨z1, ?_⟩
  have e1 := F.rs_err (x.val / y.val)
  rw [← z2] at e1
  have e2 := abs_add_le ((Flt.div x y).val - x.val / y.val) (x.val / y.val - V * P / W ^ 2)
  rw [sub_add_sub_cancel] at e2
  have e3 : |x.val / y.val| * F.u ≤ (5 * M) * F.u := mul_le_mul_of_nonneg_right (by linarith) u0.le
  have e4 : 6 * F.u * M ≤ e * M := mul_le_mul_of_nonneg_right he6 M0.le
  have e5 : 0 < e * M := by positivity
  linarith

/-- Summing rounded terms whose errors are together at most `5u` of the scale. -/
theorem sum_close {α : Type} (x : α → Flt F) (t A E : α → ℚ) (l : List α) (hfin : ∀ a ∈ l, (x a).isFin) (herr : ∀ a ∈ l, |(x a).val - t a| ≤ E a)
    (ht : ∀ a ∈ l, |t a| ≤ A a) {M : ℚ} (hM : (l.map A).sum = M) (hE : (l.map E).sum ≤ 5 * F.u * M) (h17 : (1 + F.u) ^ (l.length + 6) ≤ 17 / 16)
    (hr : 6 * M ≤ F.maxFin) {z : Flt F} (hz : z.isFin) (hz0 : z.val = 0) :
    (l.foldl (fun v a => Flt.add v (x a)) z).isFin ∧
      |(l.foldl (fun v a => Flt.add v (x a)) z).val - (l.map t).sum| ≤ ((1 + F.u) ^ (l.length + 6) - 1) * M := by
  have u0 := F.u_pos
  have M0 : 0 ≤ M := by rw [← hM]; exact sum_nonneg' l A fun a ha => (abs_nonneg _).trans (ht a ha)
  have g1 := one_le_growth (F := F) (l.length - 1)
  set g := (1 + F.u) ^ (l.length - 1) with hg
  have hgg : g * (1 + 6 * F.u) ≤ (1 + F.u) ^ (l.length + 6) := by
    have h6 := one_add_mul_le_pow (show (-2 : ℚ) ≤ F.u by linarith) 6
    push_cast at h6
    calc g * (1 + 6 * F.u) ≤ g * (1 + F.u) ^ 6 := mul_le_mul_of_nonneg_left h6 (by linarith)
      _ = (1 + F.u) ^ (l.length - 1 + 6) := by rw [hg, ← pow_add]
      _ ≤ _ := growth_mono (by omega)
  have hgu : 0 ≤ g * F.u := mul_nonneg (by linarith) u0.le
  have key := near_sum (F := F) x t A E l (fun a ha => ⟨hfin a ha, by simpa using herr a ha, ht a ha, (abs_nonneg _).trans (herr a ha)⟩) (by
    rw [hM, ← hg]
    refine le_trans ?_ hr
    have h1 : g * (M + (l.map E).sum) ≤ g * (M + 5 * F.u * M) := mul_le_mul_of_nonneg_left (by linarith) (by linarith)
    have h2 : g * (1 + 6 * F.u) * M ≤ 17 / 16 * M := mul_le_mul_of_nonneg_right (hgg.trans h17) M0
    have h3 : 0 ≤ g * F.u * M := mul_nonneg hgu M0
    linarith) hz hz0
  refine ⟨key.fin, key.err.trans ?_⟩
  rw [hM, ← hg]
  have h1 : g * (l.map E).sum ≤ g * (5 * F.u * M) := mul_le_mul_of_nonneg_left hE (by linarith)
  have h2 : g * (1 + 6 * F.u) * M ≤ (1 + F.u) ^ (l.length + 6) * M := mul_le_mul_of_nonneg_right hgg M0
  have h3 : 0 ≤ g * F.u * M := mul_nonneg hgu M0
  linarith

end

section
variable [cfg : Cfg] {F : FFmt} {τ : IntTy}

/-- what `fill_with_weighted` accumulates, all five fields -/
theorem fillSeq_wm_all (xs : List (Flt F × Flt F)) (m : WeightedMean (Flt F) (Flt F) (Flt F) (MInt τ)) (h : m.count.val + xs.length ≤ τ.max) :
    ∃ m' : WeightedMean (Flt F) (Flt F) (Flt F) (MInt τ), fillSeq (wmCalls xs) m = (m', none) ∧ m'.count.val = m.count.val + xs.length ∧
      m'.sumwt = xs.foldl (fun v x => Flt.add v (Flt.mul x.1 x.2)) m.sumwt ∧ m'.sumw = xs.foldl (fun v x => Flt.add v x.2) m.sumw ∧
      m'.sumwt2 = xs.foldl (fun v x => Flt.add v (Flt.mul (Flt.mul x.1 x.1) x.2)) m.sumwt2 ∧
      m'.sumw2 = xs.foldl (fun v x => Flt.add v (Flt.mul x.2 x.2)) m.sumw2 := by
  induction xs generalizing m with
  | nil => exact ⟨m, rfl, by simp, rfl, rfl, rfl, rfl⟩
  | cons x xs ih =>
    push_cast [List.length_cons] at h
    have hlo := m.count.min_le
    have hadd : @RNum.add (MInt τ) cfg _ m.count (@RNum.one (MInt τ) cfg _) = .ok ⟨m.count.val + 1, by omega, by omega⟩ := by
      rw [MInt.add_def, MInt.one_val, MInt.arith_ok (by omega) (by omega)]
    have hfa : ∀ a b : Flt F, @RNum.add (Flt F) cfg _ a b = .ok (Flt.add a b) := fun _ _ => rfl
    have hfm : ∀ a b : Flt F, @RNum.mul (Flt F) cfg _ a b = .ok (Flt.mul a b) := fun _ _ => rfl
    have hon : (Call.fillWithWeighted () x.1 x.2 : Call (WeightedMean (Flt F) (Flt F) (Flt F) (MInt τ)) Unit).on m =
        (⟨Flt.add m.sumwt (Flt.mul x.1 x.2), Flt.add m.sumwt2 (Flt.mul (Flt.mul x.1 x.1) x.2), Flt.add m.sumw x.2,
          Flt.add m.sumw2 (Flt.mul x.2 x.2), ⟨m.count.val + 1, by omega, by omega⟩⟩, none) := by
      simp only [Call.on, FillWithWeighted.fillWithWeighted, Upd.andThen, Upd.onField, Upd.withVal, addAssign, Upd.store, RMulBy.mulBy, hadd, hfa, hfm,
        Res.ok_bind]
    obtain ⟨m', h1, h2, h3, h4, h5, h6⟩ := ih ⟨Flt.add m.sumwt (Flt.mul x.1 x.2), Flt.add m.sumwt2 (Flt.mul (Flt.mul x.1 x.1) x.2), Flt.add m.sumw x.2,
      Flt.add m.sumw2 (Flt.mul x.2 x.2), ⟨m.count.val + 1, by omega, by omega⟩⟩ (by simp only; omega)
    refine ⟨m', ?_, by push_cast [List.length_cons]; simp only at h2; omega, h3, h4, h5, h6⟩
    have : wmCalls (τ := τ) (x :: xs) = .fillWithWeighted () x.1 x.2 :: wmCalls xs := rfl
    rw [this, fillSeq, hon]
    exact h1

/-- **C58 (variances of weighted means).** `n` finite samples of absolute value at most `B` with finite, non-negative weights of total `W > 0` and total
square `P`. If the count type holds `n`, `(1 + u)^(n+6) ≤ 17/16` (for `f64`: up to about 2^48 samples), everything is in range and the products are not all below the
normal range, then with `e = (1 + u)^(n+6) - 1` the variance of the samples is finite and within `31 e B²` of the exact weighted variance, and the variance of
the mean is finite and within `54 e B² P/W² + η` of its exact value. -/
theorem C58_weighted_mean_variance (xs : List (Flt F × Flt F)) (hfin : ∀ x ∈ xs, x.1.isFin ∧ x.2.isFin) (hc : (xs.length : ℤ) ≤ τ.max)
    (hn : (1 + F.u) ^ (xs.length + 6) ≤ 17 / 16) {B W P : ℚ} (hB0 : 0 < B) (hB : ∀ x ∈ xs, |x.1.val| ≤ B) (hw : ∀ x ∈ xs, 0 ≤ x.2.val)
    (hW : W = (xs.map fun x => x.2.val).sum) (hW0 : 0 < W) (hP : P = (xs.map fun x => x.2.val ^ 2).sum)
    (hB2 : pow2 F.emin ≤ B ^ 2) (hBW : xs.length * pow2 F.emin ≤ B * W) (hBW2 : xs.length * pow2 F.emin ≤ B ^ 2 * W)
    (hnP : xs.length * pow2 F.emin ≤ P) (hnBP : pow2 F.emin ≤ B ^ 2 * P)
    (hr : 6 * ((1 + B + B ^ 2) * (1 + W + W ^ 2)) ≤ F.maxFin) :
    let ys := xs.map fun x => (x.1.val, x.2.val)
    let e := (1 + F.u) ^ (xs.length + 6) - 1
    ∃ (m : WeightedMean (Flt F) (Flt F) (Flt F) (MInt τ)) (v vm : Flt F), fillSeq (wmCalls xs) RDefault.dflt = (m, none) ∧
      m.varianceOfSamples = .ok v ∧ v.isFin ∧ |v.val - wvar ys| ≤ 31 * e * B ^ 2 ∧
      m.varianceOfMean = .ok vm ∧ vm.isFin ∧ |vm.val - wvar ys * P / W ^ 2| ≤ 54 * e * (B ^ 2 * P / W ^ 2) + F.eta := by
  intro ys e
  obtain ⟨m, hs, hc', hst, hsw, hst2, hsw2⟩ := fillSeq_wm_all (τ := τ) xs RDefault.dflt (by show (0 : ℤ) + _ ≤ _; omega)
  have hne : xs ≠ [] := by rintro rfl; rw [hW] at hW0; simp at hW0
  have hlen : 0 < xs.length := List.length_pos_iff.2 hne
  have hN1 : (1 : ℚ) ≤ xs.length := by exact_mod_cast hlen
  have u0 := F.u_pos; have eta0 := F.eta_pos; have u4 := F.u_le
  have em0 := pow2_pos F.emin
  have he6 : 6 * F.u ≤ e := six_u_le F _
  have he16 : e ≤ 1 / 16 := by show _ - (1 : ℚ) ≤ _; linarith
  have he0 : 0 < e := by linarith
  -- scales
  have B20 : 0 < B ^ 2 := by positivity
  have W20 : 0 < W ^ 2 := by positivity
  have hP0 : 0 ≤ P := by rw [hP]; exact sum_nonneg' xs _ fun _ _ => sq_nonneg _
  have hPW : P ≤ W ^ 2 := by
    have : ∀ x ∈ xs, x.2.val ^ 2 ≤ W * x.2.val := by
      intro x hx
      have h1 : x.2.val ≤ W := by rw [hW]; exact le_sum_of_mem (f := fun x : Flt F × Flt F => x.2.val) hw hx
      rw [pow_two]; exact mul_le_mul_of_nonneg_right h1 (hw x hx)
    rw [hP, pow_two]
    calc (xs.map fun x => x.2.val ^ 2).sum ≤ (xs.map fun x => W * x.2.val).sum := List.sum_le_sum this
      _ = W * W := by rw [List.sum_map_mul_left, ← hW]
  have hPpos : 0 < P := by
    refine lt_of_lt_of_le ?_ hnP
    exact mul_pos (by linarith) em0
  have etaOf : ∀ {M : ℚ}, pow2 F.emin ≤ M → F.eta ≤ F.u * M := by
    intro M h; rw [F.eta_eq]; nlinarith
  have netaOf : ∀ {M : ℚ}, xs.length * pow2 F.emin ≤ M → xs.length * F.eta ≤ F.u * M := by
    intro M h; rw [F.eta_eq]
    calc (xs.length : ℚ) * (pow2 F.emin * F.u) = (xs.length * pow2 F.emin) * F.u := by ring
      _ ≤ M * F.u := mul_le_mul_of_nonneg_right h u0.le
      _ = _ := by ring
  have oneOf : ∀ {M : ℚ}, xs.length * pow2 F.emin ≤ M → pow2 F.emin ≤ M := by
    intro M h; nlinarith
  have hemin1 : pow2 F.emin ≤ 1 := by
    have := pow2_le.mpr (show F.emin ≤ 0 by have := F.emin_le; omega)
    have h0 : pow2 0 = 1 := by rw [pow2_eq]; norm_num
    rwa [h0] at this
  have hBn : pow2 F.emin ≤ B := by
    rcases le_total B 1 with h | h
    · exact hB2.trans (by nlinarith)
    · exact hemin1.trans h
  have expand : (1 + B + B ^ 2) * (1 + W + W ^ 2) = 1 + W + W ^ 2 + B + B * W + B * W ^ 2 + B ^ 2 + B ^ 2 * W + B ^ 2 * W ^ 2 := by ring
  have pBW : 0 < B * W := by positivity
  have pBW2 : 0 < B * W ^ 2 := by positivity
  have pB2W : 0 < B ^ 2 * W := by positivity
  have pB2W2 : 0 < B ^ 2 * W ^ 2 := by positivity
  have pB2P : 0 < B ^ 2 * P := by positivity
  have hB2P : B ^ 2 * P ≤ B ^ 2 * W ^ 2 := mul_le_mul_of_nonneg_left hPW B20.le
  rw [expand] at hr
  have wW : ∀ x ∈ xs, x.2.val ≤ W := fun x hx => by
    rw [hW]; exact le_sum_of_mem (f := fun x : Flt F × Flt F => x.2.val) hw hx
  -- the four sums
  have hz : (Flt.zero false : Flt F).isFin := trivial
  obtain ⟨w1, w2⟩ := sum_close (F := F) (fun x : Flt F × Flt F => x.2) (fun x => x.2.val) (fun x => x.2.val) (fun _ => 0) xs
    (fun x hx => (hfin x hx).2) (fun x _ => by simp) (fun x hx => (abs_of_nonneg (hw x hx)).le) hW.symm (by simp; positivity) hn (by linarith) hz rfl
  obtain ⟨s1, s2⟩ := sum_close (F := F) (fun x : Flt F × Flt F => Flt.mul x.1 x.2) (fun x => x.1.val * x.2.val) (fun x => B * x.2.val)
    (fun x => (B * x.2.val) * F.u + F.eta) xs
    (fun x hx => by
      have h1 : |x.1.val * x.2.val| ≤ B * W := by
        rw [abs_mul, abs_of_nonneg (hw x hx)]; exact mul_le_mul (hB x hx) (wW x hx) (hw x hx) hB0.le
      exact ((Flt.mul_rounds (hfin x hx).1 (hfin x hx).2).fin_of (h1.trans (by linarith))).1)
    (fun x hx => by
      have h0 : |x.1.val * x.2.val| ≤ B * x.2.val := by
        rw [abs_mul, abs_of_nonneg (hw x hx)]; exact mul_le_mul_of_nonneg_right (hB x hx) (hw x hx)
      have h1 : |x.1.val * x.2.val| ≤ B * W := h0.trans (mul_le_mul_of_nonneg_left (wW x hx) hB0.le)
      have f2 := ((Flt.mul_rounds (hfin x hx).1 (hfin x hx).2).fin_of (h1.trans (by linarith))).2
      have e1 := F.rs_err (x.1.val * x.2.val)
      rw [← f2] at e1
      have := mul_le_mul_of_nonneg_right h0 u0.le
      linarith)
    (fun x hx => by rw [abs_mul, abs_of_nonneg (hw x hx)]; exact mul_le_mul_of_nonneg_right (hB x hx) (hw x hx))
    (M := B * W) (by rw [hW, List.sum_map_mul_left]) (by
      rw [sum_map_mul_add xs (fun x => B * x.2.val) F.u F.eta, List.sum_map_mul_left, ← hW]
      have := netaOf hBW
      have : 0 ≤ F.u * (B * W) := by positivity
      linarith) hn (by linarith) hz rfl
  have sqr : ∀ x ∈ xs, (Flt.mul x.1 x.1).isFin ∧ |(Flt.mul x.1 x.1).val - x.1.val ^ 2| ≤ 2 * F.u * B ^ 2 ∧ x.1.val ^ 2 ≤ B ^ 2 := by
    intro x hx
    have h0 : x.1.val ^ 2 ≤ B ^ 2 := by rw [← sq_abs]; exact pow_le_pow_left₀ (abs_nonneg _) (hB x hx) 2
    have h1 : |x.1.val * x.1.val| ≤ B ^ 2 := by rw [← pow_two, abs_of_nonneg (sq_nonneg _)]; exact h0
    obtain ⟨f1, f2⟩ := (Flt.mul_rounds (hfin x hx).1 (hfin x hx).1).fin_of (h1.trans (by linarith))
    refine ⟨f1, ?_, h0⟩
    have e1 := F.rs_err (x.1.val * x.1.val)
    rw [← f2] at e1
    have := mul_le_mul_of_nonneg_right h1 u0.le
    have := etaOf hB2
    rw [pow_two x.1.val]
    linarith
  have cub : ∀ x ∈ xs, (Flt.mul (Flt.mul x.1 x.1) x.2).isFin ∧
      |(Flt.mul (Flt.mul x.1 x.1) x.2).val - x.1.val ^ 2 * x.2.val| ≤ (B ^ 2 * x.2.val) * (4 * F.u) + F.eta := by
    intro x hx
    obtain ⟨f1, f2, f3⟩ := sqr x hx
    have hw' := hw x hx
    have h1 : |(Flt.mul x.1 x.1).val| ≤ (1 + 2 * F.u) * B ^ 2 := by
      have := abs_of_err f2 (k := B ^ 2) (by rw [abs_of_nonneg (sq_nonneg _)]; exact f3)
      linarith
    have h2 : |(Flt.mul x.1 x.1).val * x.2.val| ≤ (1 + 2 * F.u) * B ^ 2 * x.2.val := by
      rw [abs_mul, abs_of_nonneg hw']; exact mul_le_mul_of_nonneg_right h1 hw'
    have h2' : |(Flt.mul x.1 x.1).val * x.2.val| ≤ 2 * (B ^ 2 * x.2.val) := by
      refine h2.trans ?_
      have : 0 ≤ B ^ 2 * x.2.val := mul_nonneg B20.le hw'
      nlinarith
    have hBw : B ^ 2 * x.2.val ≤ B ^ 2 * W := mul_le_mul_of_nonneg_left (wW x hx) B20.le
    obtain ⟨g1, g2⟩ := (Flt.mul_rounds f1 (hfin x hx).2).fin_of (h2'.trans (by linarith))
    refine ⟨g1, ?_⟩
    have e1 := F.rs_err ((Flt.mul x.1 x.1).val * x.2.val)
    rw [← g2] at e1
    have e2 : |(Flt.mul x.1 x.1).val * x.2.val - x.1.val ^ 2 * x.2.val| ≤ 2 * F.u * B ^ 2 * x.2.val := by
      rw [← sub_mul, abs_mul, abs_of_nonneg hw']; exact mul_le_mul_of_nonneg_right f2 hw'
    have e3 := abs_add_le ((Flt.mul (Flt.mul x.1 x.1) x.2).val - (Flt.mul x.1 x.1).val * x.2.val) ((Flt.mul x.1 x.1).val * x.2.val - x.1.val ^ 2 * x.2.val)
    rw [sub_add_sub_cancel] at e3
    have e4 := mul_le_mul_of_nonneg_right h2' u0.le
    linarith
  obtain ⟨q1, q2⟩ := sum_close (F := F) (fun x : Flt F × Flt F => Flt.mul (Flt.mul x.1 x.1) x.2) (fun x => x.1.val ^ 2 * x.2.val) (fun x => B ^ 2 * x.2.val)
    (fun x => (B ^ 2 * x.2.val) * (4 * F.u) + F.eta) xs (fun x hx => (cub x hx).1) (fun x hx => (cub x hx).2)
    (fun x hx => by
      rw [abs_mul, abs_of_nonneg (hw x hx), abs_of_nonneg (sq_nonneg _)]; exact mul_le_mul_of_nonneg_right (sqr x hx).2.2 (hw x hx))
    (M := B ^ 2 * W) (by rw [hW, List.sum_map_mul_left]) (by
      rw [sum_map_mul_add xs (fun x => B ^ 2 * x.2.val) (4 * F.u) F.eta, List.sum_map_mul_left, ← hW]
      have := netaOf hBW2
      linarith) hn (by linarith) hz rfl
  have w2W : ∀ x ∈ xs, x.2.val ^ 2 ≤ W ^ 2 := fun x hx => pow_le_pow_left₀ (hw x hx) (wW x hx) 2
  obtain ⟨p1, p2⟩ := sum_close (F := F) (fun x : Flt F × Flt F => Flt.mul x.2 x.2) (fun x => x.2.val ^ 2) (fun x => x.2.val ^ 2)
    (fun x => x.2.val ^ 2 * F.u + F.eta) xs
    (fun x hx => (Flt.sq_near (hfin x hx).2 ((w2W x hx).trans (by linarith))).fin)
    (fun x hx => by simpa using (Flt.sq_near (hfin x hx).2 ((w2W x hx).trans (by linarith))).err)
    (fun x hx => (abs_of_nonneg (sq_nonneg _)).le) hP.symm (by
      rw [sum_map_mul_add xs (fun x => x.2.val ^ 2) F.u F.eta, ← hP]
      have := netaOf hnP
      have : 0 ≤ F.u * P := by positivity
      linarith) hn (by linarith) hz rfl
  -- names
  have hsw' : m.sumw = xs.foldl (fun v x => Flt.add v x.2) (Flt.zero false) := hsw
  have hst' : m.sumwt = xs.foldl (fun v x => Flt.add v (Flt.mul x.1 x.2)) (Flt.zero false) := hst
  have hst2' : m.sumwt2 = xs.foldl (fun v x => Flt.add v (Flt.mul (Flt.mul x.1 x.1) x.2)) (Flt.zero false) := hst2
  have hsw2' : m.sumw2 = xs.foldl (fun v x => Flt.add v (Flt.mul x.2 x.2)) (Flt.zero false) := hsw2
  rw [← hsw', ← hW] at w2
  rw [← hst'] at s2
  rw [← hst2'] at q2
  rw [← hsw2', ← hP] at p2
  rw [← hsw'] at w1
  rw [← hst'] at s1
  rw [← hst2'] at q1
  rw [← hsw2'] at p1
  change _ ≤ e * W at w2
  change _ ≤ e * (B * W) at s2
  change _ ≤ e * (B ^ 2 * W) at q2
  change _ ≤ e * P at p2
  set S := (xs.map fun x => x.1.val * x.2.val).sum with hS
  set Q := (xs.map fun x => x.1.val ^ 2 * x.2.val).sum with hQ
  have htot : totalWeight ys = W := by
    show (List.map _ (List.map _ xs)).sum = W
    rw [List.map_map, hW]; rfl
  have hav : wavg ys = S / W := by
    unfold wavg
    rw [htot, hS]
    show (List.map _ (List.map _ xs)).sum / W = _
    rw [List.map_map]
    congr 2
    apply List.map_congr_left
    intro x _
    simp only [Function.comp]
    ring
  have hSB : |S| ≤ B * W := by
    have : |S| ≤ (xs.map fun x => |x.1.val * x.2.val|).sum := abs_sum_le xs _
    refine this.trans ?_
    calc (xs.map fun x => |x.1.val * x.2.val|).sum ≤ (xs.map fun x => B * x.2.val).sum := List.sum_le_sum (by
          intro x hx; rw [abs_mul, abs_of_nonneg (hw x hx)]; exact mul_le_mul_of_nonneg_right (hB x hx) (hw x hx))
      _ = B * W := by rw [List.sum_map_mul_left, ← hW]
  have hQ0 : 0 ≤ Q := sum_nonneg' xs _ fun x hx => mul_nonneg (sq_nonneg _) (hw x hx)
  have hQB : Q ≤ B ^ 2 * W := by
    calc Q ≤ (xs.map fun x => B ^ 2 * x.2.val).sum := List.sum_le_sum (by
          intro x hx; exact mul_le_mul_of_nonneg_right (sqr x hx).2.2 (hw x hx))
      _ = B ^ 2 * W := by rw [List.sum_map_mul_left, ← hW]
  set μ := S / W with hμ
  have hSμ : S = μ * W := by rw [hμ, div_mul_cancel₀ _ hW0.ne']
  have hμB : |μ| ≤ B := by rw [hμ, abs_div, abs_of_pos hW0, div_le_iff₀ hW0]; exact hSB
  have hvar : wvar ys = μ ^ 2 + (Q - 2 * S * μ) / W := by
    have h := wvar_eq ys (by rw [htot]; exact hW0.ne')
    have h2 : (ys.map fun y => y.2 * y.1 ^ 2).sum = Q := by
      show (List.map _ (List.map _ xs)).sum = _
      rw [List.map_map, hQ]
      congr 1
      apply List.map_congr_left
      intro x _
      simp only [Function.comp]
      ring
    have h3 : (ys.map fun y => y.2 * y.1).sum = S := by
      show (List.map _ (List.map _ xs)).sum = _
      rw [List.map_map, hS]
      congr 1
      apply List.map_congr_left
      intro x _
      simp only [Function.comp]
      ring
    rw [h, h2, h3, hav, htot]; ring
  have hvar2 : wvar ys = Q / W - μ ^ 2 := by rw [hvar, hSμ]; field_simp; ring
  have hvar0 : 0 ≤ wvar ys := by
    apply wvar_nonneg
    intro y hy
    obtain ⟨x, hx, rfl⟩ := List.mem_map.1 hy
    exact hw x hx
  have hQW : Q / W ≤ B ^ 2 := by rw [div_le_iff₀ hW0]; exact hQB
  have hvarB : |wvar ys| ≤ 1 * B ^ 2 := by
    rw [abs_of_nonneg hvar0, hvar2]; have := sq_nonneg μ; linarith
  have hV : wvar ys = μ * μ + (Q - 2 * S * μ) / W := by rw [hvar]; ring
  obtain ⟨v1, v2⟩ := wm_var_core he6 he16 hB0 hW0 w1 w2 s1 s2 q1 q2 hSB hQ0 hQB (by rw [← hμ, ← hV]; exact hvarB)
    (etaOf hBn) (etaOf hB2) (etaOf (oneOf hBW)) (etaOf (oneOf hBW2)) (by linarith)
  rw [← hμ, ← hV] at v2
  obtain ⟨z1, z2⟩ := wm_varmean_core he6 he16 hB0 hW0 hPpos hPW w1 w2 p1 p2 v1 v2 (by linarith) (etaOf hnBP) (etaOf ((oneOf hnP).trans hPW)) (by linarith)
  exact ⟨m, _, _, hs, rfl, v1, v2, rfl, z1, z2⟩
end

section
attribute [local instance] dbg64

/-- samples with weights: a computed variance that is negative -/
def exWeighted : List (F64 × F64) := [(f64 1.7, f64 3), (f64 1.7, f64 0.7), (f64 1.7, f64 2.3)]

/-- the hypotheses of the variance bound -/
example : let xs := exWeighted
    let W := (xs.map fun x => x.2.val).sum
    let P := (xs.map fun x => x.2.val ^ 2).sum
    let B : ℚ := 2
    (∀ x ∈ xs, x.1.isFin ∧ x.2.isFin ∧ |x.1.val| ≤ B ∧ 0 ≤ x.2.val) ∧ (1 + FFmt.f64.u) ^ (xs.length + 6) ≤ 17 / 16 ∧ 0 < W ∧
    pow2 FFmt.f64.emin ≤ B ^ 2 ∧ xs.length * pow2 FFmt.f64.emin ≤ B * W ∧ xs.length * pow2 FFmt.f64.emin ≤ B ^ 2 * W ∧
    xs.length * pow2 FFmt.f64.emin ≤ P ∧ pow2 FFmt.f64.emin ≤ B ^ 2 * P ∧
    6 * ((1 + B + B ^ 2) * (1 + W + W ^ 2)) ≤ FFmt.f64.maxFin := by
  refine ⟨?_, ?_, ?_, ?_, ?_, ?_, ?_, ?_, ?_⟩
  · intro x hx
    simp only [exWeighted, List.mem_cons, List.not_mem_nil, or_false] at hx
    rcases hx with rfl | rfl | rfl <;> refine ⟨?_, ?_, ?_, ?_⟩ <;> decide +kernel
  all_goals decide +kernel

/-- the computed variance of these samples, all 1.7, is `-2^-50` -/
example : ∃ (m : WeightedMean F64 F64 F64 (MInt .u32)) (v : F64), fillSeq (wmCalls exWeighted) RDefault.dflt = (m, none) ∧
    m.varianceOfSamples = .ok v ∧ v.val = -(1 / 2 ^ 50) ∧ wvar (exWeighted.map fun x => (x.1.val, x.2.val)) = 0 := by
  refine ⟨_, _, rfl, rfl, ?_, ?_⟩ <;> decide +kernel

end
end NdHist
