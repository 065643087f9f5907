import Verif.Props.FloatGrid
/-!
# C77: float cyclic axes count every coordinate within rounding of its place, and lose one only at the seam
-/
namespace NdHist
open POrd RNum

/-! ## Vocabulary -/

/-- `n` rounding errors of the size of the bounds plus three of the size of the distance of the coordinate from the lower bound. `2^-p` is the relative error
of one rounding, about `1.1e-16` for `f64`. -/
def seamError (F : FFmt) (n : ℚ) (low high c : ℚ) : ℚ := pow2 (-(F.p : ℤ)) * (3 * |c - low| + n * (|low| + |high|))

/-! ## The wrap-around, rounded -/

section
variable [cfg : Cfg] {F : FFmt}

omit cfg in
theorem FFmt.Mult.int_mul {x : ℚ} (hx : F.Mult x) (n : ℤ) : F.Mult (n * x) := by
  obtain ⟨a, rfl⟩ := hx; exact ⟨n * a, by push_cast; ring⟩

omit cfg in
theorem FFmt.rs_mult {x : ℚ} (h : |F.rs x| ≤ F.maxFin) : F.Mult (F.rs x) := by
  have h1 : (Flt.ofRat x : Flt F).isFin ∧ (Flt.ofRat x : Flt F).val = F.rs x := by
    have hr := Flt.ofRat_rounds (F := F) x
    generalize (Flt.ofRat x : Flt F) = y at hr
    cases hr with
    | fin h hv => exact ⟨h, hv⟩
    | inf h' => exact absurd h (not_le.2 h')
  rw [← h1.2]; exact Flt.val_mult _

omit cfg in
theorem FFmt.rs_le_maxFin {x : ℚ} (h : |x| ≤ F.maxFin) : |F.rs x| ≤ F.maxFin := by
  rw [F.abs_rs]; exact F.rnd_le_maxFin (abs_nonneg _) h

omit cfg in
/-- the error of the four rounded operations of the wrap-around, in real numbers -/
theorem wrap_error {u L H C Dr Rr M rM X : ℚ} {k : ℤ} (hu : 0 < u) (hu4 : u ≤ 1 / 4) (hR : 0 < H - L)
    (eR : |Rr - (H - L)| ≤ (H - L) * u) (eD : |Dr - (C - L)| ≤ |C - L| * u) (k1 : k * Rr ≤ Dr) (k2 : Dr < (k + 1) * Rr) (hM : M = Dr - k * Rr)
    (eM : |rM - M| ≤ M * u) (rM0 : 0 ≤ rM) (rM1 : rM ≤ Rr) (eX : |X - (rM + L)| ≤ |rM + L| * u) :
    |rM + L| ≤ 5 / 4 * (|L| + |H|) ∧ X ≤ H + 3 * u * (|L| + |H|) ∧ |X - (C - k * (H - L))| ≤ u * (3 * |C - L| + 5 * (|L| + |H|)) := by
  obtain ⟨B, hBdef⟩ : ∃ B, B = |L| + |H| := ⟨_, rfl⟩
  rw [← hBdef]
  have hL0 := abs_nonneg L
  have hH0 := abs_nonneg H
  have hL1 := neg_abs_le L
  have hH1 := le_abs_self H
  have hB0 : 0 ≤ B := by linarith
  have hRB : H - L ≤ B := by linarith
  have aR := abs_le.1 eR
  have p1 : (H - L) * u ≤ 1 / 4 * (H - L) := by linarith [mul_le_mul_of_nonneg_left hu4 hR.le]
  have p2 : (H - L) * u ≤ B * u := mul_le_mul_of_nonneg_right hRB hu.le
  have p3 : B * u ≤ 1 / 4 * B := by linarith [mul_le_mul_of_nonneg_left hu4 hB0]
  have hRr0 : 0 < Rr := by linarith [aR.1]
  have hRr1 : Rr ≤ 5 / 4 * (H - L) := by linarith [aR.2]
  have hRr2 : H - L ≤ 4 / 3 * Rr := by linarith [aR.1]
  have hM0 : 0 ≤ M := by linarith
  have hM1 : M ≤ Rr := by linarith
  have hS1 : rM + L ≤ H + B * u := by linarith [aR.2]
  have hS2 : |rM + L| ≤ B + B * u := by
    rw [abs_le]; constructor
    · have : 0 ≤ B * u := by positivity
      linarith
    · linarith
  have hS : |rM + L| ≤ 5 / 4 * B := by linarith
  have tX : |X - (rM + L)| ≤ 5 / 4 * B * u := eX.trans (mul_le_mul_of_nonneg_right hS hu.le)
  refine ⟨hS, ?_, ?_⟩
  · have := (abs_le.1 tX).2
    have : 0 ≤ B * u := by positivity
    linarith
  · have hC0 := abs_nonneg (C - L)
    have p4 : |C - L| * u ≤ 1 / 4 * |C - L| := by linarith [mul_le_mul_of_nonneg_left hu4 hC0]
    have hDr2 : |Dr| ≤ 5 / 4 * |C - L| := by linarith [abs_sub_abs_le_abs_sub Dr (C - L)]
    have hkr : |(k : ℚ)| * Rr ≤ |Dr| + Rr := by
      have e : |(k : ℚ)| * Rr = |k * Rr| := by rw [abs_mul, abs_of_pos hRr0]
      rw [e, abs_le]
      have h1 := neg_abs_le Dr
      have h2 := le_abs_self Dr
      constructor <;> linarith
    have hkR : |(k : ℚ)| * (H - L) ≤ 5 / 3 * (|C - L| + B) := by
      have := mul_le_mul_of_nonneg_left hRr2 (abs_nonneg (k : ℚ))
      linarith
    have t2 : |rM - M| ≤ 5 / 4 * B * u := eM.trans (mul_le_mul_of_nonneg_right (by linarith) hu.le)
    have t3 : |(k : ℚ) * (Rr - (H - L))| ≤ 5 / 3 * (|C - L| + B) * u := by
      rw [abs_mul]
      calc |(k : ℚ)| * |Rr - (H - L)| ≤ |(k : ℚ)| * ((H - L) * u) := mul_le_mul_of_nonneg_left eR (abs_nonneg _)
        _ = (|(k : ℚ)| * (H - L)) * u := by ring
        _ ≤ (5 / 3 * (|C - L| + B)) * u := mul_le_mul_of_nonneg_right hkR hu.le
    have e1 : X - (C - k * (H - L)) = (X - (rM + L)) + (rM - M) + (Dr - (C - L)) - k * (Rr - (H - L)) := by rw [hM]; ring
    have b1 := abs_le.1 tX
    have b2 := abs_le.1 t2
    have b3 := abs_le.1 eD
    have b4 := abs_le.1 t3
    have q1 : 0 ≤ |C - L| * u := by positivity
    have q2 : 0 ≤ B * u := by positivity
    have e2 : u * (3 * |C - L| + 5 * B) = 3 * (|C - L| * u) + 5 * (B * u) := by ring
    have e3 : 5 / 3 * (|C - L| + B) * u = 5 / 3 * (|C - L| * u) + 5 / 3 * (B * u) := by ring
    rw [e3] at b4
    rw [e1, e2, abs_le]
    constructor <;> linarith [b1.1, b1.2, b2.1, b2.2, b3.1, b3.2, b4.1, b4.2]

/-- The wrapped coordinate is near the exact one, never below the lower bound and hardly above the upper one. -/
theorem wrapAround_near {lo hi c : Flt F} (hlo : lo.isFin) (hhi : hi.isFin) (hc : c.isFin) (hlt : lo.val < hi.val)
    (hB : 2 * (|lo.val| + |hi.val|) ≤ F.maxFin) (hD : |c.val - lo.val| ≤ F.maxFin) :
    ∃ (x : Flt F) (k : ℤ), wrapAround lo hi c = .ok x ∧ x.isFin ∧ lo.val ≤ x.val ∧ x.val ≤ hi.val + 3 * F.u * (|lo.val| + |hi.val|) ∧
      |x.val - (c.val - k * (hi.val - lo.val))| ≤ seamError F 5 lo.val hi.val c.val := by
  have hR : 0 < hi.val - lo.val := by linarith
  have hRB : hi.val - lo.val ≤ |lo.val| + |hi.val| := by linarith [neg_abs_le lo.val, le_abs_self hi.val]
  have hB0 : 0 ≤ |lo.val| + |hi.val| := by positivity
  have hmL : F.Mult lo.val := Flt.val_mult lo
  have hmH : F.Mult hi.val := Flt.val_mult hi
  have hmC : F.Mult c.val := Flt.val_mult c
  have rR := F.rs_rel_mult (hmH.sub hmL)
  have rD := F.rs_rel_mult (hmC.sub hmL)
  rw [abs_of_pos hR] at rR
  have hRmax : |hi.val - lo.val| ≤ F.maxFin := by rw [abs_of_pos hR]; linarith
  have fR := (Flt.sub_rounds hhi hlo).fin_of hRmax
  have fD := (Flt.sub_rounds hc hlo).fin_of hD
  have mR : F.Mult (F.rs (hi.val - lo.val)) := F.rs_mult (F.rs_le_maxFin hRmax)
  have mD : F.Mult (F.rs (c.val - lo.val)) := F.rs_mult (F.rs_le_maxFin hD)
  have eRr : F.rs (F.rs (hi.val - lo.val)) = F.rs (hi.val - lo.val) := by rw [← fR.2]; exact Flt.rs_val _
  have hRr' : F.rs (hi.val - lo.val) ≤ F.maxFin := (le_abs_self _).trans (F.rs_le_maxFin hRmax)
  have hRr0 : 0 < F.rs (hi.val - lo.val) := by
    have := (abs_le.1 rR).1
    have := mul_le_mul_of_nonneg_left F.u_le hR.le
    linarith
  obtain ⟨x, w1, w2⟩ := wrapAround_float hlo fR.1 fD.1 (by rw [fR.2]; exact hRr0)
  rw [fR.2, fD.2] at w2
  obtain ⟨k, hk⟩ : ∃ k, k = ⌊F.rs (c.val - lo.val) / F.rs (hi.val - lo.val)⌋ := ⟨_, rfl⟩
  have k1 := Int.floor_le (F.rs (c.val - lo.val) / F.rs (hi.val - lo.val))
  have k2 := Int.lt_floor_add_one (F.rs (c.val - lo.val) / F.rs (hi.val - lo.val))
  rw [← hk] at k1 k2 w2
  rw [le_div_iff₀ hRr0] at k1
  rw [div_lt_iff₀ hRr0] at k2
  obtain ⟨M, hM⟩ : ∃ M, M = F.rs (c.val - lo.val) - k * F.rs (hi.val - lo.val) := ⟨_, rfl⟩
  rw [← hM] at w2
  have hM0 : 0 ≤ M := by linarith
  have hM1 : M ≤ F.rs (hi.val - lo.val) := by linarith
  have mM : F.Mult M := by rw [hM]; exact mD.sub (mR.int_mul k)
  have rM := F.rs_rel_mult mM
  rw [abs_of_nonneg hM0] at rM
  have rM0 : 0 ≤ F.rs M := F.rs_pos_le hM0
  have rM1 : F.rs M ≤ F.rs (hi.val - lo.val) := by
    have := F.rs_mono hM1
    rwa [eRr] at this
  have mrM : F.Mult (F.rs M) := F.rs_mult (F.rs_le_maxFin (by rw [abs_of_nonneg hM0]; linarith))
  have rS := F.rs_rel_mult (mrM.add hmL)
  obtain ⟨s1, s2, s3⟩ := wrap_error F.u_pos F.u_le hR rR rD k1 k2 hM rM rM0 rM1 rS
  obtain ⟨x1, x2⟩ := w2.fin_of (by linarith)
  refine ⟨x, k, w1, x1, ?_, by rw [x2]; exact s2, by rw [x2]; exact s3⟩
  rw [x2]
  have := F.rs_mono (by linarith : lo.val ≤ F.rs M + lo.val)
  rwa [Flt.rs_val] at this

omit cfg in
/-- which bin a value near one of them is in: edges `E 0 ≤ … ≤ E num`, whose distance is one turn `R` up to `ρ` -/
theorem locate_near {num : ℕ} {E : ℕ → ℚ} (mono : ∀ i, i < num → E i ≤ E (i + 1)) {R ρ δ δ' q : ℚ} (hR : E num - E 0 ≤ R + ρ) (hρ : 0 ≤ ρ) (hδ' : 0 ≤ δ')
    (hδ : δ' + ρ ≤ δ) (hRp : 0 < R) {m : ℤ} {i : ℕ} (hi : i < num) (h1 : E i + δ < q) (h2 : q < E (i + 1) - δ) :
    (∀ j, j < num → E j - δ' ≤ q + m * R → q + m * R ≤ E (j + 1) + δ' → j = i) ∧ ¬ |q + m * R - E num| ≤ δ' := by
  have mono' : ∀ i j, i ≤ j → j ≤ num → E i ≤ E j := by
    intro i j hij hj
    induction j, hij using Nat.le_induction with
    | base => exact le_rfl
    | succ j _ ih => exact (ih (by omega)).trans (mono j (by omega))
  have m1 := mono' 0 i (by omega) (by omega)
  have m2 := mono' (i + 1) num (by omega) le_rfl
  have turn : E 0 - δ' ≤ q + m * R → q + m * R ≤ E num + δ' → m = 0 := by
    intro a b
    have d1 : (m : ℚ) * R < (1 : ℤ) * R := by push_cast; linarith
    have d2 : ((-m : ℤ) : ℚ) * R < (1 : ℤ) * R := by push_cast; linarith
    have d1 := lt_of_mul_lt_mul_right d1 hRp.le
    have d2 := lt_of_mul_lt_mul_right d2 hRp.le
    have d1 : m < 1 := by exact_mod_cast d1
    have d2 : -m < 1 := by exact_mod_cast d2
    omega
  constructor
  · intro j hj a b
    have m3 := mono' 0 j (by omega) (by omega)
    have m4 := mono' (j + 1) num (by omega) le_rfl
    have hm := turn (by linarith) (by linarith)
    subst hm
    simp only [Int.cast_zero, zero_mul, add_zero] at a b
    rcases lt_trichotomy j i with h | h | h
    · have := mono' (j + 1) i h (by omega)
      linarith
    · exact h
    · have := mono' (i + 1) j h (by omega)
      linarith
  · intro h
    rw [abs_le] at h
    have m5 := mono' 0 num (by omega) le_rfl
    have hm := turn (by linarith [h.1]) (by linarith [h.2])
    subst hm
    simp only [Int.cast_zero, zero_mul, add_zero] at h
    linarith [h.1]

/-! ## The theorems -/

/-- **C77 (`UniformCyclic`).** On any float axis `UniformCyclic::new(num, low, high)` with finite bounds (no overflow, bins not narrower than the smallest normal
number, fewer than `2^(p-1)` bins) and for every finite coordinate `c`, near or far, positive or negative:

1. moving `c` by some whole number of turns brings it, up to `seamError 16`, into the bin it is counted in; or it is not counted, and then some whole number of turns
brings it, up to `seamError 16`, to the upper bound: coordinates are lost only at the seam;
2. if some whole number of turns brings `c` into the bin `i`, further than `seamError 22` from its edges, it is counted in the bin `i`. -/
theorem C77_uniform_cyclic {num : Nat} {low high : Flt F} {a : UniformCyclic (Flt F)} (hnew : UniformCyclic.new num low high = .ok (.ok a))
    (hl : low.isFin) (hh : high.isFin) (hn : num + 2 < usizeSize) (hp : num < 2 ^ (F.p - 1))
    (hw : num * pow2 F.emin ≤ |high.val - low.val|) (hs : 4 * (num * (|low.val| + |high.val|)) ≤ F.maxFin)
    (c : Flt F) (hc : c.isFin) (hD : |c.val - a.low.val| ≤ F.maxFin) :
    ((∃ (k : ℤ) (i : ℕ) (s t : Flt F), i < num ∧ a.index c = .ok (some i) ∧ a.bin i = .ok (some (.Bin s t)) ∧
        s.val - seamError F 16 a.low.val a.high.val c.val ≤ c.val - k * (a.high.val - a.low.val) ∧
        c.val - k * (a.high.val - a.low.val) ≤ t.val + seamError F 16 a.low.val a.high.val c.val) ∨
     (∃ k : ℤ, a.index c = .ok none ∧ |c.val - k * (a.high.val - a.low.val) - a.high.val| ≤ seamError F 16 a.low.val a.high.val c.val)) ∧
    (∀ (k : ℤ) (i : ℕ) (s t : Flt F), i < num → a.bin i = .ok (some (.Bin s t)) →
      s.val + seamError F 22 a.low.val a.high.val c.val < c.val - k * (a.high.val - a.low.val) →
      c.val - k * (a.high.val - a.low.val) < t.val - seamError F 22 a.low.val a.high.val c.val → a.index c = .ok (some i)) := by
  have hu := UniformCyclic.new_inv hnew
  obtain ⟨sane, hnum, hM⟩ := Uniform.new_sane hu hl hh hp hw hs
  obtain ⟨-, -, -, ed, eb, ev, em, e0⟩ := C47_float_bins hu hl hh hn hp hw hs
  have hlow : a.low = a.axis.axis.low := rfl
  have hhigh : a.high = a.axis.axis.high := rfl
  rw [hlow, hhigh] at *
  set lo := a.axis.axis.low with hlo
  set hi := a.axis.axis.high with hhi
  have hnQ : (1 : ℚ) ≤ num := by rw [← hnum]; exact sane.numQ
  have hB0 : 0 ≤ |lo.val| + |hi.val| := by positivity
  have hB : 2 * (|lo.val| + |hi.val|) ≤ F.maxFin := by
    have := sane.M_le
    unfold Uniform.M at this
    linarith
  have hlt := sane.lt
  obtain ⟨x, k, w1, x1, x2, x3, x4⟩ := wrapAround_near sane.low_fin sane.high_fin hc hlt hB hD
  have hidx : a.index c = a.axis.index x := by
    unfold UniformCyclic.index
    change (wrapAround lo hi c >>= _) = _
    rw [w1]; rfl
  have hup : 0 ≤ F.u * (|lo.val| + |hi.val|) := mul_nonneg F.u_pos.le hB0
  have hC0 := abs_nonneg (c.val - lo.val)
  have hCu : 0 ≤ F.u * |c.val - lo.val| := mul_nonneg F.u_pos.le hC0
  have se : ∀ n, seamError F n lo.val hi.val c.val = 3 * (F.u * |c.val - lo.val|) + n * (F.u * (|lo.val| + |hi.val|)) := by
    intro n; unfold seamError FFmt.u; ring
  have se' : ∀ n : ℚ, n * pow2 (-(F.p : ℤ)) * (|low.val| + |high.val|) = n * (F.u * (|lo.val| + |hi.val|)) := by
    intro n; rw [← hM]; unfold FFmt.u; ring
  have d := abs_le.1 x4
  rw [se] at d
  -- the first claim, also needed for the second
  have first : (∃ (i : ℕ) (s t : Flt F), i < num ∧ a.index c = .ok (some i) ∧ a.bin i = .ok (some (.Bin s t)) ∧
        s.val - seamError F 16 lo.val hi.val c.val ≤ c.val - k * (hi.val - lo.val) ∧
        c.val - k * (hi.val - lo.val) ≤ t.val + seamError F 16 lo.val hi.val c.val) ∨
     (a.index c = .ok none ∧ |c.val - k * (hi.val - lo.val) - hi.val| ≤ 3 * (F.u * |c.val - lo.val|) + 10 * (F.u * (|lo.val| + |hi.val|))) := by
    have none_of : a.axis.axis.index x = .ok (some (num + 1)) → hi.val - 5 * (F.u * (|lo.val| + |hi.val|)) ≤ x.val →
        a.index c = .ok none ∧ |c.val - k * (hi.val - lo.val) - hi.val| ≤ 3 * (F.u * |c.val - lo.val|) + 10 * (F.u * (|lo.val| + |hi.val|)) := by
      intro hx hxv
      constructor
      · rw [hidx]
        rw [UniformNoFlow.index_of (by omega) hx (by omega), if_pos (Or.inr (by omega))]
      · rw [abs_le]; constructor <;> linarith [d.1, d.2]
    by_cases hx : x.val < hi.val
    · obtain ⟨i, i1, i2, i3⟩ := C06_within_rounding_partial hu hl hh hn hp hw hs x (by rw [Flt.le_fin sane.low_fin x1]; exact decide_eq_true x2)
        (by rw [Flt.lt_fin x1 sane.high_fin]; exact decide_eq_true hx)
      rcases i3 with ⟨s, t, j1, j2, -, -, j3, j4⟩ | ⟨rfl, -, j3⟩
      · left
        rw [se'] at j3 j4
        refine ⟨i - 1, s, t, by omega, ?_, ?_, ?_, ?_⟩
        · rw [hidx, UniformNoFlow.index_of (by omega) i1 (by omega), if_neg (by omega)]
        · show a.axis.bin (i - 1) = _
          rw [(C07_noflow_bin a.axis.axis (i - 1) (by omega) (by omega)).1 (by omega), show i - 1 + 1 = i by omega, j2]
        · rw [se]; linarith [d.1, d.2]
        · rw [se]; linarith [d.1, d.2]
      · rw [se'] at j3
        exact .inr (none_of i1 j3)
    · refine .inr (none_of ?_ (by linarith))
      have := Uniform.index_high (a := a.axis.axis) (c := x) (by omega) (by rw [Flt.lt_fin x1 sane.low_fin]; exact decide_eq_false (by linarith))
        (by rw [Flt.ge_fin x1 sane.high_fin]; exact decide_eq_true (not_lt.1 hx))
      rw [this, hnum]
  constructor
  · rcases first with ⟨i, s, t, h⟩ | ⟨h1, h2⟩
    · exact .inl ⟨k, i, s, t, h⟩
    · exact .inr ⟨k, h1, by rw [se]; linarith⟩
  · intro k' i s t hi' hb h1 h2
    have fin : ∀ j, j ≤ num → (ed j).isFin := fun j hj => (ev j hj).1
    have hbin : ∀ j, j < num → a.bin j = .ok (some (.Bin (ed j) (ed (j + 1)))) := by
      intro j hj
      show a.axis.bin j = _
      rw [(C07_noflow_bin a.axis.axis j (by omega) (by omega)).1 (by omega), eb j hj]
    rw [hbin i hi'] at hb
    cases hb
    have hmono : ∀ j, j < num → (ed j).val ≤ (ed (j + 1)).val := by
      intro j hj
      have := em j hj
      rw [Flt.le_fin (fin j hj.le) (fin (j + 1) hj)] at this
      exact of_decide_eq_true this
    have z0 : (ed 0).val = lo.val := by
      rw [Flt.eq_fin (fin 0 (by omega)) sane.low_fin] at e0
      exact of_decide_eq_true e0
    have zN := abs_le.1 (ev num le_rfl).2
    rw [se', mul_div_cancel₀ _ (by linarith : (num : ℚ) ≠ 0)] at zN
    have key := locate_near (E := fun j => (ed j).val) (num := num) hmono (R := hi.val - lo.val) (ρ := 6 * (F.u * (|lo.val| + |hi.val|)))
      (δ := seamError F 22 lo.val hi.val c.val) (δ' := seamError F 16 lo.val hi.val c.val) (q := c.val - k' * (hi.val - lo.val)) (m := k' - k)
      (by show (ed num).val - (ed 0).val ≤ _; rw [z0]; linarith [zN.2]) (by linarith) (by rw [se]; linarith) (by rw [se, se]; linarith) (by linarith) hi' h1 h2
    have e : c.val - k' * (hi.val - lo.val) + ((k' - k : ℤ) : ℚ) * (hi.val - lo.val) = c.val - k * (hi.val - lo.val) := by push_cast; ring
    rw [e] at key
    rcases first with ⟨j, s, t, j1, j2, j3, j4, j5⟩ | ⟨-, j2⟩
    · rw [hbin j j1] at j3
      cases j3
      have := key.1 j j1 j4 j5
      rw [← this]; exact j2
    · exfalso
      apply key.2
      rw [se]
      have := abs_le.1 j2
      show |c.val - k * (hi.val - lo.val) - (ed num).val| ≤ _
      rw [abs_le]
      constructor <;> linarith [zN.1, zN.2, this.1, this.2]

/-- **C77 (`VariableCyclic`).** The same for a cyclic float axis with distinct finite edges, with `seamError 8` in both claims. -/
theorem C77_variable_cyclic [StdLib] {edges : List (Flt F)} {a : VariableCyclic (Flt F)} (hnew : VariableCyclic.new edges = .ok (.ok a))
    (hmem : edges.length + 1 < usizeSize) (hfin : ∀ x ∈ edges, x.isFin) (hd : edges.Pairwise (fun x y => x.val ≠ y.val))
    (lo hi : Flt F) (hl : a.low = .ok lo) (hh : a.high = .ok hi) (hB : 2 * (|lo.val| + |hi.val|) ≤ F.maxFin)
    (c : Flt F) (hc : c.isFin) (hD : |c.val - lo.val| ≤ F.maxFin) :
    ((∃ (k : ℤ) (i : ℕ) (s t : Flt F), i + 1 < edges.length ∧ a.index c = .ok (some i) ∧ a.bin i = .ok (some (.Bin s t)) ∧
        s.val - seamError F 8 lo.val hi.val c.val ≤ c.val - k * (hi.val - lo.val) ∧
        c.val - k * (hi.val - lo.val) ≤ t.val + seamError F 8 lo.val hi.val c.val) ∨
     (∃ k : ℤ, a.index c = .ok none ∧ |c.val - k * (hi.val - lo.val) - hi.val| ≤ seamError F 8 lo.val hi.val c.val)) ∧
    (∀ (k : ℤ) (i : ℕ) (s t : Flt F), i + 1 < edges.length → a.bin i = .ok (some (.Bin s t)) →
      s.val + seamError F 8 lo.val hi.val c.val < c.val - k * (hi.val - lo.val) →
      c.val - k * (hi.val - lo.val) < t.val - seamError F 8 lo.val hi.val c.val → a.index c = .ok (some i)) := by
  have hnf := VariableCyclic.new_ok hnew
  have hv := VariableNoFlow.new_ok hnf
  have hd' : edges.Pairwise (fun x y => POrd.eq x y = false) := by
    have h1 : edges.Pairwise (fun x y => x ∈ edges ∧ y ∈ edges) := List.pairwise_of_forall_mem_list fun x hx y hy => ⟨hx, hy⟩
    refine (hd.and h1).imp ?_
    rintro x y ⟨hxy, hx, hy⟩
    rw [Flt.eq_fin (hfin x hx) (hfin y hy)]
    exact decide_eq_false hxy
  obtain ⟨h2, _, p1, ok1⟩ := Variable.new_ok hv
  have hlen := p1.length_eq
  obtain ⟨b1, ⟨lo', l1, l2, _⟩, ⟨hi', g1, g2, _⟩, _, _⟩ := C13_variable_bins hv hmem
  have el : lo' = lo := by
    have : a.axis.axis.low = .ok lo := hl
    rw [l2] at this; injection this
  have eh : hi' = hi := by
    have : a.axis.axis.high = .ok hi := hh
    rw [g2] at this; injection this
  subst el eh
  have hfin' : ∀ x ∈ a.axis.axis.binEdges, x.isFin := fun x hx => hfin x (p1.mem_iff.1 hx)
  have hlo : lo'.isFin := hfin' _ (List.mem_of_getElem? l1)
  have hhi : hi'.isFin := hfin' _ (List.mem_of_getElem? g1)
  have hsort := ((C10_variable_new_sorts edges).2 _ hv).2
  have hlt : lo'.val < hi'.val := by
    have := strict_of_distinct hv hd' (i := 0) (j := edges.length - 1) (by omega) (by omega)
    rw [List.getElem?_eq_getElem (by omega)] at l1 g1
    simp at l1 g1
    rw [l1, g1, Flt.lt_fin hlo hhi] at this
    exact of_decide_eq_true this
  obtain ⟨x, k, w1, x1, x2, x3, x4⟩ := wrapAround_near hlo hhi hc hlt hB hD
  have hidx : a.index c = a.axis.index x := by
    have hl' : a.axis.low = .ok lo' := hl
    have hh' : a.axis.high = .ok hi' := hh
    unfold VariableCyclic.index
    simp only [hl', hh', w1, Res.ok_bind]
  have hB0 : 0 ≤ |lo'.val| + |hi'.val| := by positivity
  have hup : 0 ≤ F.u * (|lo'.val| + |hi'.val|) := mul_nonneg F.u_pos.le hB0
  have hCu : 0 ≤ F.u * |c.val - lo'.val| := mul_nonneg F.u_pos.le (abs_nonneg _)
  have se : ∀ n, seamError F n lo'.val hi'.val c.val = 3 * (F.u * |c.val - lo'.val|) + n * (F.u * (|lo'.val| + |hi'.val|)) := by
    intro n; unfold seamError FFmt.u; ring
  have d := abs_le.1 x4
  rw [se] at d
  obtain ⟨_, bb, _⟩ := C14_variable_noflow_bins hnf hmem
  have first : (∃ (i : ℕ) (s t : Flt F), i + 1 < edges.length ∧ a.index c = .ok (some i) ∧ a.bin i = .ok (some (.Bin s t)) ∧
        s.val - seamError F 8 lo'.val hi'.val c.val ≤ c.val - k * (hi'.val - lo'.val) ∧
        c.val - k * (hi'.val - lo'.val) ≤ t.val + seamError F 8 lo'.val hi'.val c.val) ∨
     (a.index c = .ok none ∧ |c.val - k * (hi'.val - lo'.val) - hi'.val| ≤ seamError F 8 lo'.val hi'.val c.val) := by
    obtain ⟨⟨o, ho⟩, cs, cn⟩ := C14_variable_noflow_covers hnf hmem hd' x
    cases o with
    | some i =>
      left
      obtain ⟨hk, s, e, hs, he, hse1, hse2⟩ := (cs i).mp ho
      obtain ⟨s', e', hs', he', hbin⟩ := bb i hk
      rw [hs] at hs'; rw [he] at he'
      cases hs'; cases he'
      rw [Flt.le_fin (hfin' _ (List.mem_of_getElem? hs)) x1] at hse1
      rw [Flt.lt_fin x1 (hfin' _ (List.mem_of_getElem? he))] at hse2
      have hse1 := of_decide_eq_true hse1
      have hse2 := of_decide_eq_true hse2
      refine ⟨i, s, e, hk, hidx.trans ho, hbin, ?_, ?_⟩ <;> rw [se] <;> linarith [d.1, d.2]
    | none =>
      right
      refine ⟨hidx.trans ho, ?_⟩
      have hx : hi'.val ≤ x.val := by
        rcases cn.mp ho with h | ⟨e, he, hlt'⟩ | ⟨e, he, hge⟩
        · rw [Flt.eq_fin x1 x1] at h; simp at h
        · rw [l1] at he; cases he
          rw [Flt.lt_fin x1 hlo] at hlt'
          have := of_decide_eq_true hlt'
          linarith
        · rw [g1] at he; cases he
          rw [Flt.le_fin hhi x1] at hge
          exact of_decide_eq_true hge
      rw [se, abs_le]
      constructor <;> linarith [d.1, d.2]
  constructor
  · rcases first with ⟨i, s, t, h⟩ | h
    · exact .inl ⟨k, i, s, t, h⟩
    · exact .inr ⟨k, h⟩
  · intro k' i s t hin hb h1 h2
    have hbin : ∀ j s t, a.axis.axis.binEdges[j]? = some s → a.axis.axis.binEdges[j + 1]? = some t → j + 1 < edges.length → a.bin j = .ok (some (.Bin s t)) := by
      intro j s t hs ht hj
      obtain ⟨s', t', hs', ht', hb'⟩ := bb j hj
      rw [hs] at hs'; rw [ht] at ht'
      cases hs'; cases ht'; exact hb'
    have hE : ∀ j, j < edges.length → ∃ v, a.axis.axis.binEdges[j]? = some v := fun j hj => ⟨_, List.getElem?_eq_getElem (by omega)⟩
    obtain ⟨E, hEd⟩ : ∃ E : ℕ → ℚ, ∀ j v, a.axis.axis.binEdges[j]? = some v → E j = v.val :=
      ⟨fun j => ((a.axis.axis.binEdges[j]?).map Flt.val).getD 0, by intro j v hv; simp [hv]⟩
    have hmono : ∀ j, j < edges.length - 1 → E j ≤ E (j + 1) := by
      intro j hj
      obtain ⟨v, hv⟩ := hE j (by omega)
      obtain ⟨v', hv'⟩ := hE (j + 1) (by omega)
      rw [hEd _ _ hv, hEd _ _ hv']
      have fx := hfin' _ (List.mem_of_getElem? hv)
      have fy := hfin' _ (List.mem_of_getElem? hv')
      obtain ⟨hp, rfl⟩ := List.getElem?_eq_some_iff.1 hv
      obtain ⟨hq, rfl⟩ := List.getElem?_eq_some_iff.1 hv'
      have := List.pairwise_iff_getElem.1 hsort j (j + 1) hp hq (by omega)
      rw [Flt.le_fin fx fy] at this
      simpa using this
    have eL : E 0 = lo'.val := hEd _ _ l1
    have eH : E (edges.length - 1) = hi'.val := hEd _ _ g1
    obtain ⟨s0, hs0⟩ := hE i (by omega)
    obtain ⟨t0, ht0⟩ := hE (i + 1) (by omega)
    rw [hbin i s0 t0 hs0 ht0 hin] at hb
    cases hb
    rw [← hEd _ _ hs0] at h1
    rw [← hEd _ _ ht0] at h2
    have key := locate_near (E := E) (num := edges.length - 1) hmono (R := hi'.val - lo'.val) (ρ := 0)
      (δ := seamError F 8 lo'.val hi'.val c.val) (δ' := seamError F 8 lo'.val hi'.val c.val) (q := c.val - k' * (hi'.val - lo'.val)) (m := k' - k)
      (by rw [eL, eH]; linarith) le_rfl (by rw [se]; linarith) (by linarith) (by linarith) (i := i) (by omega) h1 h2
    have e : c.val - k' * (hi'.val - lo'.val) + ((k' - k : ℤ) : ℚ) * (hi'.val - lo'.val) = c.val - k * (hi'.val - lo'.val) := by push_cast; ring
    rw [e, eH] at key
    rcases first with ⟨j, s, t, j1, j2, j3, j4, j5⟩ | ⟨-, j2⟩
    · obtain ⟨s1, hs1⟩ := hE j (by omega)
      obtain ⟨t1, ht1⟩ := hE (j + 1) (by omega)
      rw [hbin j s1 t1 hs1 ht1 j1] at j3
      cases j3
      have := key.1 j (by omega) (by rw [hEd _ _ hs1]; exact j4) (by rw [hEd _ _ ht1]; exact j5)
      rw [← this]; exact j2
    · exact absurd j2 key.2

end
end NdHist
