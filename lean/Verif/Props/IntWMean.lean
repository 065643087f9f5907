import Verif.Lemmas.IntWMean
import Verif.Props.FloatSqrt
import Verif.Props.SparseFill
import Verif.Props.WrapOps
/-!
# C99: variances of weighted integer samples are not negative, and zero exactly for equal samples
-/
namespace NdHist
open RNum

/-! ## Weighted samples -/

section
variable [cfg : Cfg] {τ κ : IntTy} {F : FFmt}

/-- `m` reports the statistics of the weighted samples `xs` (pairs of a sample and its weight): it counts them; its mean is the float nearest to `Σ w x / Σ w`; its variance is finite, not negative, within `13 u Σ w x² / Σ w`
of the weighted mean square deviation, and zero exactly if all samples of non-zero weight are equal; the variance of its mean is finite, not negative, and within `4 u` (relatively) of the variance times `Σ w² / (Σ w)²`; and
the standard deviation and standard error are numbers. -/
def ReportsWeighted (m : WeightedMean (MInt τ) (MInt τ) (Flt F) (MInt κ)) (xs : List (ℤ × ℤ)) : Prop :=
  let W : ℚ := ((xs.map fun x => x.2).sum : ℤ)
  let mean : ℚ := ((xs.map fun x => x.2 * x.1).sum : ℤ) / W
  let var : ℚ := (xs.map fun x => (x.2 : ℚ) * ((x.1 : ℚ) - mean) ^ 2).sum / W
  m.numSamples.val = xs.length ∧
  ∃ q v vm sd se, m.get = .ok q ∧ Closest mean q ∧
    m.varianceOfSamples = .ok v ∧ v.isFin ∧ 0 ≤ v.val ∧ |v.val - var| ≤ 13 * F.u * (((xs.map fun x => x.2 * x.1 ^ 2).sum : ℤ) / W) ∧
    (v.val = 0 ↔ ∃ c, ∀ x ∈ xs, x.2 ≠ 0 → x.1 = c) ∧
    m.varianceOfMean = .ok vm ∧ vm.isFin ∧ 0 ≤ vm.val ∧ |vm.val - v.val * ((xs.map fun x => x.2 ^ 2).sum : ℤ) / W ^ 2| ≤ 4 * F.u * (v.val * ((xs.map fun x => x.2 ^ 2).sum : ℤ) / W ^ 2) ∧
    m.standardDeviationOfSamples = .ok sd ∧ sd ≠ .nan ∧ m.standardErrorOfMean = .ok se ∧ se ≠ .nan

theorem reports_of_totals (hp8 : 8 ≤ F.p) (hem : F.emin + 3 * F.p + 2 ≤ 0) (hex : 2 * F.p ≤ F.emax) (hτ : -2 ^ F.p ≤ 32 * τ.min ∧ 32 * τ.max ≤ 2 ^ F.p)
    (m : WeightedMean (MInt τ) (MInt τ) (Flt F) (MInt κ)) (xs : List (ℤ × ℤ)) (hw : ∀ x ∈ xs, 0 ≤ x.2) (hW : (xs.map fun x => x.2).sum ≠ 0)
    (k1 : m.sumwt.val = (xs.map fun x => x.2 * x.1).sum) (k2 : m.sumwt2.val = (xs.map fun x => x.2 * x.1 ^ 2).sum) (k3 : m.sumw.val = (xs.map fun x => x.2).sum)
    (k4 : m.sumw2.val = (xs.map fun x => x.2 ^ 2).sum) (k5 : m.count.val = xs.length) : ReportsWeighted m xs := by
  have hW0 : 0 < (xs.map fun x => x.2).sum := by
    refine lt_of_le_of_ne (List.sum_nonneg ?_) (Ne.symm hW)
    intro y hy
    obtain ⟨x, hx, rfl⟩ := List.mem_map.1 hy
    exact hw x hx
  have hP0 : 0 < (xs.map fun x => x.2 ^ 2).sum := by
    refine lt_of_lt_of_le hW0 (List.sum_le_sum ?_)
    intro x hx
    have := hw x hx
    show x.2 ≤ x.2 ^ 2
    rcases this.eq_or_lt with h | h
    · rw [← h]; norm_num
    · nlinarith
  have b1 : ∀ x : MInt τ, 32 * |((x.val : ℤ) : ℚ)| ≤ 2 ^ F.p := by
    intro x
    have h1 : 32 * x.val ≤ 2 ^ F.p := le_trans (by have := x.le_max; omega) hτ.2
    have h2 : -2 ^ F.p ≤ 32 * x.val := le_trans hτ.1 (by have := x.min_le; omega)
    have h1' : 32 * (x.val : ℚ) ≤ 2 ^ F.p := by exact_mod_cast h1
    have h2' : -2 ^ F.p ≤ 32 * (x.val : ℚ) := by exact_mod_cast h2
    rcases abs_choice ((x.val : ℤ) : ℚ) with h | h <;> rw [h] <;> linarith
  have b2 : ∀ x : MInt τ, 32 * ((x.val : ℤ) : ℚ) ≤ 2 ^ F.p := fun x => le_trans (by have := le_abs_self ((x.val : ℤ) : ℚ); linarith) (b1 x)
  have b3 : ∀ x : MInt τ, (RFrom.conv x : Flt F).isFin ∧ (RFrom.conv x : Flt F).val = x.val := by
    intro x
    refine Flt.ofInt_spec ?_
    have := b1 x
    have := abs_nonneg ((x.val : ℤ) : ℚ)
    linarith
  have hg := int_var_gap xs hw rfl rfl rfl hW0
  set W := (xs.map fun x => x.2).sum with hWd
  set S := (xs.map fun x => x.2 * x.1).sum with hSd
  set Q := (xs.map fun x => x.2 * x.1 ^ 2).sum with hQd
  set P := (xs.map fun x => x.2 ^ 2).sum with hPd
  have hWq : (0 : ℚ) < W := by exact_mod_cast hW0
  have hCSi : S ^ 2 ≤ W * Q := by
    rcases hg with ⟨c, c1, c2, -⟩ | h
    · rw [c1, c2]; exact le_of_eq (by ring)
    · omega
  have hz : W * Q = S ^ 2 ↔ ∃ c, ∀ x ∈ xs, x.2 ≠ 0 → x.1 = c := by
    constructor
    · intro he
      rcases hg with ⟨c, -, -, c3⟩ | h
      · exact ⟨c, c3⟩
      · rw [he] at h; omega
    · rintro ⟨c, hc⟩
      have e1 : S = W * c := by
        rw [hSd, hWd, mul_comm, ← List.sum_map_mul_left]
        congr 1
        apply List.map_congr_left
        intro x hx
        rcases eq_or_ne x.2 0 with h | h
        · rw [h]; ring
        · rw [hc x hx h]; ring
      have e2 : Q = W * c ^ 2 := by
        rw [hQd, hWd, mul_comm, ← List.sum_map_mul_left]
        congr 1
        apply List.map_congr_left
        intro x hx
        rcases eq_or_ne x.2 0 with h | h
        · rw [h]; ring
        · rw [hc x hx h]; ring
      rw [e1, e2]; ring
  have s1 := b3 m.sumwt
  have s2 := b3 m.sumwt2
  have s3 := b3 m.sumw
  have s4 := b3 m.sumw2
  rw [k1] at s1; rw [k2] at s2; rw [k3] at s3; rw [k4] at s4
  obtain ⟨q, v, vm, r1, r2, r3, r4, r5, r6, r7, r8, r9, r10, r11⟩ := wmean_exact m hW0 hP0 (k3 ▸ b2 m.sumw) (k1 ▸ b1 m.sumwt) (k2 ▸ b2 m.sumwt2) (k4 ▸ b2 m.sumw2)
    hp8 hem hex s1 s2 s3 s4 (by exact_mod_cast hCSi) (hg.imp (fun ⟨c, c1, c2, _⟩ => ⟨c, c1, c2⟩) id)
  have hvar : (xs.map fun x => (x.2 : ℚ) * ((x.1 : ℚ) - (S : ℚ) / W) ^ 2).sum / W = (Q : ℚ) / W - ((S : ℚ) / W) ^ 2 := by
    have key : ∀ t : ℚ, (xs.map fun x => (x.2 : ℚ) * ((x.1 : ℚ) - t) ^ 2).sum = Q - 2 * t * S + t ^ 2 * W := by
      intro t
      rw [hQd, hSd, hWd]
      clear_value W S Q P
      clear * -
      induction xs with
      | nil => simp
      | cons x l ih => simp only [List.map_cons, List.sum_cons]; rw [ih]; push_cast; ring
    rw [key]
    field_simp
    ring
  have sd : ∀ x : Flt F, x.isFin → 0 ≤ x.val → Flt.sqrt x ≠ .nan := by
    intro x h1 h2 h3
    rcases (Flt.sqrt_nan_iff x).1 h3 with h | h | h
    · rw [h] at h1; exact h1
    · rw [h] at h1; exact h1
    · linarith [h.2]
  unfold ReportsWeighted
  refine ⟨k5, q, v, vm, Flt.sqrt v, Flt.sqrt vm, r1, r2, r3, r4, r5, ?_, r7.trans hz, r8, r9, r10, r11, ?_, sd v r4 r5, ?_, sd vm r9 r10⟩
  · rw [hvar]; exact r6
  · unfold WeightedMean.standardDeviationOfSamples; rw [r3]; rfl
  · unfold WeightedMean.standardErrorOfMean; rw [r8]; rfl
end

/-- the computed variance of whole numbers is zero only if they are all equal -/
theorem zero_variance {F : FFmt} (hp8 : 8 ≤ F.p) {xs : List ℤ} (hne : xs ≠ []) (hQ : 32 * (xs.map fun x => x ^ 2).sum ≤ 2 ^ F.p)
    (r6 : |0 - (((xs.map fun x => x ^ 2).sum : ℤ) / (xs.length : ℚ) - ((xs.sum : ℤ) / (xs.length : ℚ)) ^ 2)| ≤
      ((1 + F.u) ^ 2 - 1) * (((xs.map fun x => x ^ 2).sum : ℤ) / (xs.length : ℚ)) + ((1 + F.u) ^ 4 - 1) * ((xs.sum : ℤ) / (xs.length : ℚ)) ^ 2) :
    ∃ c, ∀ x ∈ xs, x = c := by
  have hN : 0 < (xs.length : ℤ) := by exact_mod_cast List.length_pos_iff.2 hne
  have hg := int_var_gap (xs.map fun x => (x, (1 : ℤ))) (by intro x hx; obtain ⟨y, -, rfl⟩ := List.mem_map.1 hx; simp) (W := xs.length) (S := xs.sum) (Q := (xs.map fun x => x ^ 2).sum)
    (by rw [List.map_map]; simp [Function.comp_def]) (by rw [List.map_map]; simp [Function.comp_def]) (by rw [List.map_map]; simp [Function.comp_def]) hN
  rcases hg with ⟨c, -, -, h⟩ | hg
  · exact ⟨c, fun x hx => h (x, 1) (List.mem_map.2 ⟨x, hx, rfl⟩) one_ne_zero⟩
  · exfalso
    have u0 := F.u_pos
    have u1 : F.u ≤ 1 / 256 := by
      have : pow2 (-(F.p : Int)) ≤ pow2 (-8) := pow2_le.mpr (by omega)
      have h2 : pow2 (-8) = 1 / 256 := by rw [pow2_eq]; norm_num
      unfold FFmt.u; linarith
    have hup : F.u * 2 ^ F.p = 1 := by
      unfold FFmt.u
      rw [pow2_eq, zpow_neg, zpow_natCast]
      exact inv_mul_cancel₀ (by positivity)
    have hQq : 32 * (((xs.map fun x => x ^ 2).sum : ℤ) : ℚ) ≤ 2 ^ F.p := by exact_mod_cast hQ
    have hgq : (xs.length : ℚ) ≤ 2 * ((xs.length : ℚ) * ((xs.map fun x => x ^ 2).sum : ℤ) - ((xs.sum : ℤ) : ℚ) ^ 2) := by exact_mod_cast hg
    have hNq : (0 : ℚ) < xs.length := by exact_mod_cast hN
    set N : ℚ := (xs.length : ℚ)
    set Q : ℚ := (((xs.map fun x => x ^ 2).sum : ℤ) : ℚ)
    set S : ℚ := ((xs.sum : ℤ) : ℚ)
    have hS : (S / N) ^ 2 ≤ Q / N := by
      rw [div_pow, div_le_div_iff₀ (by positivity) hNq]; nlinarith
    have hlow : 1 / (2 * N) ≤ Q / N - (S / N) ^ 2 := by
      have e : Q / N - (S / N) ^ 2 = (N * Q - S ^ 2) / N ^ 2 := by field_simp
      rw [e, div_le_div_iff₀ (by positivity) (by positivity)]
      nlinarith
    have Q0 : 0 ≤ Q / N := (sq_nonneg _).trans hS
    have c1 : (1 + F.u) ^ 2 - 1 ≤ 3 * F.u := by nlinarith
    have c2 : (1 + F.u) ^ 4 - 1 ≤ 5 * F.u := by
      have e : (1 + F.u) ^ 4 = ((1 + F.u) ^ 2) ^ 2 := by ring
      have h1 : (1 + F.u) ^ 2 ≤ 1 + 9 / 4 * F.u := by nlinarith
      have h2 : ((1 + F.u) ^ 2) ^ 2 ≤ (1 + 9 / 4 * F.u) ^ 2 := pow_le_pow_left₀ (by positivity) h1 2
      nlinarith
    have hup2 : ((1 + F.u) ^ 2 - 1) * (Q / N) + ((1 + F.u) ^ 4 - 1) * (S / N) ^ 2 ≤ 8 * F.u * (Q / N) := by
      have h1 := mul_le_mul_of_nonneg_right c1 Q0
      have h2 := mul_le_mul_of_nonneg_right c2 (sq_nonneg (S / N))
      have h3 : 5 * F.u * (S / N) ^ 2 ≤ 5 * F.u * (Q / N) := mul_le_mul_of_nonneg_left hS (by positivity)
      linarith
    have hfin : 8 * F.u * (Q / N) ≤ 1 / 4 * (1 / N) := by
      have h5 : F.u * (32 * Q) ≤ F.u * 2 ^ F.p := mul_le_mul_of_nonneg_left hQq u0.le
      have : 8 * F.u * Q ≤ 1 / 4 := by linarith
      calc 8 * F.u * (Q / N) = 8 * F.u * Q / N := by ring
        _ ≤ 1 / 4 / N := div_le_div_of_nonneg_right this hNq.le
        _ = _ := by ring
    have hpos : 0 < 1 / N := by positivity
    have e2 : 1 / (2 * N) = 1 / 2 * (1 / N) := by field_simp
    rw [zero_sub, abs_neg] at r6
    have := le_abs_self (Q / N - (S / N) ^ 2)
    linarith

/-! ## Histograms -/

section
variable [cfg : Cfg] {τ κ : IntTy} {F : FFmt} {A : Type} [Axis A] {axes : A} {n : Nat} {covers : Axis.Interval A → Axis.Coordinate A → Prop} {dom : Axis.Coordinate A → Prop}

/-- the samples (with their weights) of the calls with a coordinate in `b` -/
noncomputable def weightedIn {C B : Type} (covers : B → C → Prop) (b : B) (hist : List (C × MInt τ × MInt τ)) : List (ℤ × ℤ) :=
  open Classical in (hist.filter fun cx => covers b cx.1).map fun cx => (cx.2.1.val, cx.2.2.val)

/-- **C99 (weighted means, overflow checks).** Take a histogram of `WeightedMean`s with integer samples and weights, of a type with some bits to spare in the float type (8 and 16 bits with `f32`, up to 32 bits with `f64`), and
fill it with non-negative weights, in a build with overflow checks, without a panic. Every bin with a non-zero total weight reports the statistics of the weighted samples whose coordinates its interval contains. -/
theorem C99_weighted (hc : Cfg.checked = true) (hp8 : 8 ≤ F.p) (hem : F.emin + 3 * F.p + 2 ≤ 0) (hex : 2 * F.p ≤ F.emax) (hτ : -2 ^ F.p ≤ 32 * τ.min ∧ 32 * τ.max ≤ 2 ^ F.p)
    (hf : FaithfulAxis axes n covers dom) {h : VecHistogram A (WeightedMean (MInt τ) (MInt τ) (Flt F) (MInt κ))} (hnew : VecHistogram.new axes = .ok h)
    (hist : List (Axis.Coordinate A × MInt τ × MInt τ)) (hd : ∀ cx ∈ hist, dom cx.1) (hw : ∀ cx ∈ hist, 0 ≤ cx.2.2.val) {h'} (hr : h.callAll (weightedMeanFills hist) = (h', none)) :
    ∃ items, h'.iter = .ok items ∧ items.length = n ∧
      ∀ i it, items[i]? = some it → it.index = i ∧ Axis.bin axes i = .ok (some it.bin) ∧
        let mine : List (ℤ × ℤ) := weightedIn covers it.bin hist
        it.value.numSamples.val = (mine.length : ℤ) ∧ ((mine.map fun x => x.2).sum ≠ 0 → ReportsWeighted it.value mine) := by
  classical
  letI := intFrom τ ℚ
  letI := intFrom κ ℚ
  haveI := int_faithful τ ℚ hc
  haveI := int_faithful κ ℚ hc
  have e : h' = h.callAllCaught (weightedMeanFills hist) := by
    have := VecHistogram.callAll_ok (h := h) (calls := weightedMeanFills hist) (by rw [hr])
    rwa [hr] at this
  obtain ⟨ok, hax, -⟩ := C28_dense hf.lawful hnew (weightedMeanFills hist)
  rw [← e] at ok hax
  obtain ⟨items, hit, hlen, hall, -⟩ := C38_iter ok
  refine ⟨items, hit, hlen, ?_⟩
  intro i it hi
  have hin : i < n := by rw [← hlen]; exact (List.getElem?_eq_some_iff.1 hi).1
  obtain ⟨b, m, g1, g2, g3⟩ := hall i hin
  rw [hi] at g1
  cases g1
  rw [hax] at g2
  refine ⟨rfl, g2, ?_⟩
  obtain ⟨h₀, b1, b2, b3, b4⟩ := C26_new (V := WeightedMean (MInt τ) (MInt τ) (Flt F) (MInt κ)) hf.lawful
  obtain rfl : h = h₀ := by rw [hnew] at b1; exact Except.ok.inj b1
  obtain ⟨v', w1, w2⟩ := VecHistogram.callAll_seq hr i (by rw [b4, if_pos hin])
  rw [g3] at w1
  obtain rfl := Option.some.inj w1
  have hd' : ∀ call ∈ (weightedMeanFills hist : List (Call (WeightedMean (MInt τ) (MInt τ) (Flt F) (MInt κ)) _)), dom call.coord := by
    intro call hm
    obtain ⟨cx, h1, rfl⟩ := List.mem_map.1 hm
    exact hd cx h1
  rw [b3, callsIn_eq_covers hf hd' hin g2] at w2
  unfold weightedMeanFills at w2
  rw [List.filter_map] at w2
  have key := fillSeq_adds (μ := wmMeasure (T := MInt τ) (W := MInt τ) (O := Flt F) (C := MInt κ) ℚ) _
    (fun cx : Axis.Coordinate A × MInt τ × MInt τ => ((RFrom.conv cx.2.2 * RFrom.conv cx.2.1 : ℚ), (RFrom.conv cx.2.2 * RFrom.conv cx.2.1 ^ 2 : ℚ),
      (RFrom.conv cx.2.2 : ℚ), (RFrom.conv cx.2.2 ^ 2 : ℚ), (1 : ℚ)))
    (fun cx _ => weightedMean_adds (K := ℚ) cx.2.1 cx.2.2) w2
  rw [sum_pair, sum_pair, sum_pair, sum_pair, sum_map_one] at key
  have h0 : wmMeasure ℚ (RDefault.dflt : WeightedMean (MInt τ) (MInt τ) (Flt F) (MInt κ)) = 0 :=
    Prod.ext Faithful.zero (Prod.ext Faithful.zero (Prod.ext Faithful.zero (Prod.ext Faithful.zero Faithful.zero)))
  rw [h0, zero_add] at key
  intro mine
  have hm : mine = (hist.filter fun cx => decide (covers b cx.1)).map fun cx => (cx.2.1.val, cx.2.2.val) := rfl
  have k1 : m.sumwt.val = (mine.map fun x => x.2 * x.1).sum := by
    have := congrArg Prod.fst key
    have h2 : ((m.sumwt.val : ℤ) : ℚ) = (((mine.map fun x => x.2 * x.1).sum : ℤ) : ℚ) := by
      refine (this : ((m.sumwt.val : ℤ) : ℚ) = _).trans ?_
      rw [hm, Int.cast_list_sum, List.map_map, List.map_map]
      exact congrArg List.sum (List.map_congr_left fun cx _ => (Int.cast_mul cx.2.2.val cx.2.1.val).symm)
    exact_mod_cast h2
  have k2 : m.sumwt2.val = (mine.map fun x => x.2 * x.1 ^ 2).sum := by
    have := congrArg (fun x => x.2.1) key
    have h2 : ((m.sumwt2.val : ℤ) : ℚ) = (((mine.map fun x => x.2 * x.1 ^ 2).sum : ℤ) : ℚ) := by
      refine (this : ((m.sumwt2.val : ℤ) : ℚ) = _).trans ?_
      rw [hm, Int.cast_list_sum, List.map_map, List.map_map]
      refine congrArg List.sum (List.map_congr_left fun cx _ => ?_)
      show ((cx.2.2.val : ℤ) : ℚ) * ((cx.2.1.val : ℤ) : ℚ) ^ 2 = ((cx.2.2.val * cx.2.1.val ^ 2 : ℤ) : ℚ)
      push_cast; rfl
    exact_mod_cast h2
  have k3 : m.sumw.val = (mine.map fun x => x.2).sum := by
    have := congrArg (fun x => x.2.2.1) key
    have h2 : ((m.sumw.val : ℤ) : ℚ) = (((mine.map fun x => x.2).sum : ℤ) : ℚ) := by
      refine (this : ((m.sumw.val : ℤ) : ℚ) = _).trans ?_
      rw [hm, Int.cast_list_sum, List.map_map, List.map_map]
      rfl
    exact_mod_cast h2
  have k4 : m.sumw2.val = (mine.map fun x => x.2 ^ 2).sum := by
    have := congrArg (fun x => x.2.2.2.1) key
    have h2 : ((m.sumw2.val : ℤ) : ℚ) = (((mine.map fun x => x.2 ^ 2).sum : ℤ) : ℚ) := by
      refine (this : ((m.sumw2.val : ℤ) : ℚ) = _).trans ?_
      rw [hm, Int.cast_list_sum, List.map_map, List.map_map]
      refine congrArg List.sum (List.map_congr_left fun cx _ => ?_)
      show ((cx.2.2.val : ℤ) : ℚ) ^ 2 = ((cx.2.2.val ^ 2 : ℤ) : ℚ)
      push_cast; rfl
    exact_mod_cast h2
  have k5 : m.count.val = mine.length := by
    have h2 : ((m.count.val : ℤ) : ℚ) = (hist.filter fun cx => decide (covers b cx.1)).length := congrArg (fun x => x.2.2.2.2) key
    rw [hm, List.length_map]
    exact_mod_cast h2
  refine ⟨k5, fun hne => reports_of_totals hp8 hem hex hτ m mine ?_ hne k1 k2 k3 k4 k5⟩
  intro x hx
  obtain ⟨cx, hcx, rfl⟩ := List.mem_map.1 (hm ▸ hx)
  exact hw cx (List.mem_filter.1 hcx).1

/-- **C99 (weighted means, sparse).** The same for sparse histograms, whatever the order of the hash map. -/
theorem C99_weighted_sparse (hc : Cfg.checked = true) (hp8 : 8 ≤ F.p) (hem : F.emin + 3 * F.p + 2 ≤ 0) (hex : 2 * F.p ≤ F.emax) (hτ : -2 ^ F.p ≤ 32 * τ.min ∧ 32 * τ.max ≤ 2 ^ F.p)
    (hf : FaithfulAxis axes n covers dom) (hist : List (Axis.Coordinate A × MInt τ × MInt τ)) (hd : ∀ cx ∈ hist, dom cx.1) (hw : ∀ cx ∈ hist, 0 ≤ cx.2.2.val) {s'}
    (hr : (HashHistogram.new axes : HashHistogram A (WeightedMean (MInt τ) (MInt τ) (Flt F) (MInt κ))).callAll (weightedMeanFills hist) = (s', none)) (o : s'.values.Order) :
    ∃ items, s'.iter o = .ok items ∧ (items.map (·.index)).Nodup ∧
      (∀ it ∈ items, Axis.bin axes it.index = .ok (some it.bin) ∧
        let mine : List (ℤ × ℤ) := weightedIn covers it.bin hist
        it.value.numSamples.val = (mine.length : ℤ) ∧ ((mine.map fun x => x.2).sum ≠ 0 → ReportsWeighted it.value mine)) ∧
      ∀ i b, i < n → Axis.bin axes i = .ok (some b) → (∃ cx ∈ hist, covers b cx.1) → ∃ it ∈ items, it.index = i ∧ it.bin = b := by
  classical
  obtain ⟨d, hnew, -⟩ := C26_new (V := WeightedMean (MInt τ) (MInt τ) (Flt F) (MInt κ)) hf.lawful
  obtain ⟨u1, u2⟩ := C31_until_panic hf.lawful hnew (weightedMeanFills hist)
  have e1 := congrArg Prod.fst hr
  have e2 := congrArg Prod.snd hr
  dsimp only at e1 e2
  subst e1
  rw [e2] at u1
  obtain ⟨sparse, dense, s1, s2, s3, s4, s5⟩ := u2 o
  obtain ⟨dense', m1, m2, m3⟩ := C99_weighted hc hp8 hem hex hτ hf hnew hist hd hw (Prod.ext rfl u1.symm : d.callAll (weightedMeanFills hist) = (_, none))
  obtain rfl : dense' = dense := by rw [m1] at s2; exact Except.ok.inj s2
  refine ⟨sparse, s1, s3, ?_, ?_⟩
  · intro it hit
    obtain ⟨i, hi, rfl⟩ := List.getElem_of_mem (s4 it hit)
    obtain ⟨a, b⟩ := m3 i _ (List.getElem?_eq_getElem hi)
    rw [a]; exact b
  · rintro i b hi hb ⟨cx, hcx, hcov⟩
    have hi' : i < dense'.length := m2 ▸ hi
    obtain ⟨a, c, e, -⟩ := m3 i _ (List.getElem?_eq_getElem hi')
    have hbb : dense'[i].bin = b := by rw [hb] at c; simp at c; exact c.symm
    rcases s5 _ (List.getElem_mem hi') with h | h
    · exact ⟨_, h, a, hbb⟩
    · rw [h, hbb] at e
      have : 0 < (weightedIn covers b hist).length := by
        unfold weightedIn
        rw [List.length_map]
        exact List.length_pos_of_mem (List.mem_filter.2 ⟨hcx, by simpa using hcov⟩)
      change (0 : ℤ) = _ at e
      omega

theorem wmean_release_on {C O : Type} (hc : Cfg.checked = false) (c : C) (x w : MInt τ) (m : WeightedMean (MInt τ) (MInt τ) O (MInt κ)) :
    ((Call.fillWithWeighted c x w : Call (WeightedMean (MInt τ) (MInt τ) O (MInt κ)) C).on m).2 = none ∧
    ((Call.fillWithWeighted c x w : Call (WeightedMean (MInt τ) (MInt τ) O (MInt κ)) C).on m).1.sumwt.val ≡ m.sumwt.val + w.val * x.val [ZMOD 2 ^ τ.bits] ∧
    ((Call.fillWithWeighted c x w : Call (WeightedMean (MInt τ) (MInt τ) O (MInt κ)) C).on m).1.sumwt2.val ≡ m.sumwt2.val + w.val * x.val ^ 2 [ZMOD 2 ^ τ.bits] ∧
    ((Call.fillWithWeighted c x w : Call (WeightedMean (MInt τ) (MInt τ) O (MInt κ)) C).on m).1.sumw.val ≡ m.sumw.val + w.val [ZMOD 2 ^ τ.bits] ∧
    ((Call.fillWithWeighted c x w : Call (WeightedMean (MInt τ) (MInt τ) O (MInt κ)) C).on m).1.sumw2.val ≡ m.sumw2.val + w.val ^ 2 [ZMOD 2 ^ τ.bits] ∧
    ((Call.fillWithWeighted c x w : Call (WeightedMean (MInt τ) (MInt τ) O (MInt κ)) C).on m).1.count.val ≡ m.count.val + 1 [ZMOD 2 ^ κ.bits] := by
  have hT := C73_release_ops (τ := τ) hc
  have hK := C73_release_ops (τ := κ) hc
  obtain ⟨a, a1, a2⟩ := hT.mul x w
  obtain ⟨a', a1', a2'⟩ := hT.add m.sumwt a
  obtain ⟨b, b1, b2⟩ := hT.mul x x
  obtain ⟨b', b1', b2'⟩ := hT.mul b w
  obtain ⟨b'', b1'', b2''⟩ := hT.add m.sumwt2 b'
  obtain ⟨d, d1, d2⟩ := hT.add m.sumw w
  obtain ⟨e, e1, e2⟩ := hT.mul w w
  obtain ⟨e', e1', e2'⟩ := hT.add m.sumw2 e
  obtain ⟨k, k1, k2⟩ := hK.add m.count (@RNum.one (MInt κ) cfg _)
  have : (Call.fillWithWeighted c x w : Call (WeightedMean (MInt τ) (MInt τ) O (MInt κ)) C).on m = (⟨a', b'', d, e', k⟩, none) := by
    simp only [Call.on, FillWithWeighted.fillWithWeighted, Upd.andThen, Upd.onField, Upd.withVal, addAssign, Upd.store, RMulBy.mulBy, Res.ok_bind,
      a1, a1', b1, b1', b1'', d1, e1, e1', k1]
  rw [this]
  refine ⟨rfl, a2'.trans ?_, b2''.trans ?_, d2, e2'.trans ?_, k2⟩
  · rw [mul_comm]; exact a2.add_left _
  · rw [mul_comm, sq]; exact (b2'.trans (b2.mul_right _)).add_left _
  · rw [sq]; exact e2.add_left _

theorem wmean_release_filled {C O : Type} (hc : Cfg.checked = false) (hist : List (C × MInt τ × MInt τ)) (m : WeightedMean (MInt τ) (MInt τ) O (MInt κ)) :
    (filledWith (weightedMeanFills hist) m).sumwt.val ≡ m.sumwt.val + (hist.map fun cx => cx.2.2.val * cx.2.1.val).sum [ZMOD 2 ^ τ.bits] ∧
    (filledWith (weightedMeanFills hist) m).sumwt2.val ≡ m.sumwt2.val + (hist.map fun cx => cx.2.2.val * cx.2.1.val ^ 2).sum [ZMOD 2 ^ τ.bits] ∧
    (filledWith (weightedMeanFills hist) m).sumw.val ≡ m.sumw.val + (hist.map fun cx => cx.2.2.val).sum [ZMOD 2 ^ τ.bits] ∧
    (filledWith (weightedMeanFills hist) m).sumw2.val ≡ m.sumw2.val + (hist.map fun cx => cx.2.2.val ^ 2).sum [ZMOD 2 ^ τ.bits] ∧
    (filledWith (weightedMeanFills hist) m).count.val ≡ m.count.val + hist.length [ZMOD 2 ^ κ.bits] := by
  induction hist generalizing m with
  | nil => refine ⟨?_, ?_, ?_, ?_, ?_⟩ <;> simpa [weightedMeanFills, filledWith] using Int.ModEq.refl _
  | cons cx hist ih =>
    have e : filledWith (weightedMeanFills (cx :: hist)) m = filledWith (weightedMeanFills hist) ((Call.fillWithWeighted cx.1 cx.2.1 cx.2.2 : Call (WeightedMean (MInt τ) (MInt τ) O (MInt κ)) C).on m).1 := rfl
    rw [e]
    obtain ⟨-, i1, i2, i3, i4, i5⟩ := wmean_release_on (O := O) (κ := κ) hc cx.1 cx.2.1 cx.2.2 m
    obtain ⟨j1, j2, j3, j4, j5⟩ := ih ((Call.fillWithWeighted cx.1 cx.2.1 cx.2.2 : Call (WeightedMean (MInt τ) (MInt τ) O (MInt κ)) C).on m).1
    simp only [List.map_cons, List.sum_cons, List.length_cons, Nat.cast_add, Nat.cast_one]
    refine ⟨?_, ?_, ?_, ?_, ?_⟩
    · rw [← add_assoc]; exact j1.trans (i1.add_right _)
    · rw [← add_assoc]; exact j2.trans (i2.add_right _)
    · rw [← add_assoc]; exact j3.trans (i3.add_right _)
    · rw [← add_assoc]; exact j4.trans (i4.add_right _)
    · rw [add_comm (hist.length : ℤ) 1, ← add_assoc]; exact j5.trans (i5.add_right _)

/-- **C99 (weighted means, unchecked builds).** In a build without overflow checks no filling of a histogram of `WeightedMean`s of integers panics, the count is right modulo the size of its type, and every bin of non-negative weights, not all
zero, whose totals fit reports the statistics of its weighted samples, even if the totals on the way did not fit. -/
theorem C99_weighted_release (hc : Cfg.checked = false) (hp8 : 8 ≤ F.p) (hem : F.emin + 3 * F.p + 2 ≤ 0) (hex : 2 * F.p ≤ F.emax) (hτ : -2 ^ F.p ≤ 32 * τ.min ∧ 32 * τ.max ≤ 2 ^ F.p)
    (hf : FaithfulAxis axes n covers dom) {h : VecHistogram A (WeightedMean (MInt τ) (MInt τ) (Flt F) (MInt κ))} (hnew : VecHistogram.new axes = .ok h)
    (hist : List (Axis.Coordinate A × MInt τ × MInt τ)) (hd : ∀ cx ∈ hist, dom cx.1) :
    ∃ h' items, h.callAll (weightedMeanFills hist) = (h', none) ∧ h'.iter = .ok items ∧ items.length = n ∧
      ∀ i it, items[i]? = some it → it.index = i ∧ Axis.bin axes i = .ok (some it.bin) ∧
        let mine : List (ℤ × ℤ) := weightedIn covers it.bin hist
        it.value.numSamples.val ≡ (mine.length : ℤ) [ZMOD 2 ^ κ.bits] ∧
        ((∀ x ∈ mine, 0 ≤ x.2) → (mine.map fun x => x.2).sum ≠ 0 →
          InRange τ (mine.map fun x => x.2 * x.1).sum → InRange τ (mine.map fun x => x.2 * x.1 ^ 2).sum → InRange τ (mine.map fun x => x.2).sum → InRange τ (mine.map fun x => x.2 ^ 2).sum →
          InRange κ mine.length → ReportsWeighted it.value mine) := by
  classical
  have hd' : ∀ call ∈ (weightedMeanFills hist : List (Call (WeightedMean (MInt τ) (MInt τ) (Flt F) (MInt κ)) _)), dom call.coord := by
    intro call hm
    obtain ⟨cx, h1, rfl⟩ := List.mem_map.1 hm
    exact hd cx h1
  obtain ⟨items, hit, hlen, hall⟩ := C51_dense hf hnew _ hd'
  refine ⟨_, items, callAll_total hf hnew hd' ?_, hit, hlen, ?_⟩
  · intro call hm v
    obtain ⟨cx, -, rfl⟩ := List.mem_map.1 hm
    exact (wmean_release_on hc cx.1 cx.2.1 cx.2.2 v).1
  intro i it hi
  obtain ⟨h1, h2, h3⟩ := hall i it hi
  refine ⟨h1, h2, ?_⟩
  set l := hist.filter fun cx => decide (covers it.bin cx.1) with hl
  have hcall : (weightedMeanFills hist : List (Call (WeightedMean (MInt τ) (MInt τ) (Flt F) (MInt κ)) _)).filter (fun call => decide (covers it.bin call.coord)) = weightedMeanFills l := by
    unfold weightedMeanFills
    rw [List.filter_map]
    rfl
  rw [hcall] at h3
  obtain ⟨j1, j2, j3, j4, j5⟩ := wmean_release_filled (κ := κ) (O := Flt F) hc l RDefault.dflt
  rw [← h3] at j1 j2 j3 j4 j5
  have z : (RDefault.dflt : MInt τ).val = 0 := rfl
  have zk : (RDefault.dflt : MInt κ).val = 0 := rfl
  change _ ≡ (RDefault.dflt : MInt τ).val + _ [ZMOD _] at j1
  change _ ≡ (RDefault.dflt : MInt τ).val + _ [ZMOD _] at j2
  change _ ≡ (RDefault.dflt : MInt τ).val + _ [ZMOD _] at j3
  change _ ≡ (RDefault.dflt : MInt τ).val + _ [ZMOD _] at j4
  change _ ≡ (RDefault.dflt : MInt κ).val + _ [ZMOD _] at j5
  rw [z, zero_add] at j1 j2 j3 j4
  rw [zk, zero_add] at j5
  intro mine
  have hm : mine = l.map fun cx => (cx.2.1.val, cx.2.2.val) := rfl
  have e1 : (l.map fun cx => cx.2.2.val * cx.2.1.val) = mine.map fun x => x.2 * x.1 := by rw [hm, List.map_map]; rfl
  have e2 : (l.map fun cx => cx.2.2.val * cx.2.1.val ^ 2) = mine.map fun x => x.2 * x.1 ^ 2 := by rw [hm, List.map_map]; rfl
  have e3 : (l.map fun cx => cx.2.2.val) = mine.map fun x => x.2 := by rw [hm, List.map_map]; rfl
  have e4 : (l.map fun cx => cx.2.2.val ^ 2) = mine.map fun x => x.2 ^ 2 := by rw [hm, List.map_map]; rfl
  have e5 : (l.length : ℤ) = mine.length := by rw [hm, List.length_map]
  rw [e1] at j1; rw [e2] at j2; rw [e3] at j3; rw [e4] at j4; rw [e5] at j5
  refine ⟨j5, fun hw hne r1 r2 r3 r4 r5 => ?_⟩
  exact reports_of_totals hp8 hem hex hτ it.value mine hw hne (MInt.eq_of_modEq j1 r1) (MInt.eq_of_modEq j2 r2) (MInt.eq_of_modEq j3 r3) (MInt.eq_of_modEq j4 r4) (MInt.eq_of_modEq j5 r5)

/-- **C99 (means).** The variance of a `Mean` of integers, of a type with some bits to spare in the float type, is zero exactly in the bins whose samples are all equal. -/
theorem C99_mean (hc : Cfg.checked = true) (hp8 : 8 ≤ F.p) (hem : F.emin + 2 * F.p + 2 ≤ 0) (hτ : -2 ^ F.p ≤ 32 * τ.min ∧ 32 * τ.max ≤ 2 ^ F.p) (hκ : κ.max ≤ 2 ^ F.p)
    (hf : FaithfulAxis axes n covers dom) {h : VecHistogram A (Mean (MInt τ) (Flt F) (MInt κ))} (hnew : VecHistogram.new axes = .ok h)
    (hist : List (Axis.Coordinate A × MInt τ)) (hd : ∀ cx ∈ hist, dom cx.1) {h'} (hr : h.callAll (meanFills hist) = (h', none)) :
    ∃ items, h'.iter = .ok items ∧ items.length = n ∧
      ∀ i it, items[i]? = some it → it.index = i ∧ Axis.bin axes i = .ok (some it.bin) ∧
        let xs : List ℤ := samplesIn covers it.bin hist
        (xs ≠ [] → ∃ v, it.value.varianceOfSamples = .ok v ∧ v.isFin ∧ 0 ≤ v.val ∧ (v.val = 0 ↔ ∃ c, ∀ x ∈ xs, x = c)) := by
  have hpp : (0 : ℤ) < 2 ^ F.p := by positivity
  have e : h' = h.callAllCaught (meanFills hist) := by
    have := VecHistogram.callAll_ok (h := h) (calls := meanFills hist) (by rw [hr])
    rwa [hr] at this
  obtain ⟨ok, hax, -⟩ := C28_dense hf.lawful hnew (meanFills hist)
  rw [← e] at ok hax
  obtain ⟨items, hit, hlen, hall, -⟩ := C38_iter ok
  refine ⟨items, hit, hlen, ?_⟩
  intro i it hi
  have hin : i < n := by rw [← hlen]; exact (List.getElem?_eq_some_iff.1 hi).1
  obtain ⟨b, m, g1, g2, g3⟩ := hall i hin
  rw [hi] at g1
  cases g1
  rw [hax] at g2
  refine ⟨rfl, g2, ?_⟩
  obtain ⟨h₀, b1, b2, b3, b4⟩ := C26_new (V := Mean (MInt τ) (Flt F) (MInt κ)) hf.lawful
  obtain rfl : h = h₀ := by rw [hnew] at b1; exact Except.ok.inj b1
  obtain ⟨v', w1, w2⟩ := VecHistogram.callAll_seq hr i (by rw [b4, if_pos hin])
  rw [g3] at w1
  obtain rfl := Option.some.inj w1
  rw [b3] at w2
  obtain ⟨l, e1, e2⟩ := callsIn_meanFills (κ := κ) (O := Flt F) hf hd hin g2
  rw [e1] at w2
  have key := (mean_seq hc l RDefault.dflt le_rfl le_rfl).2 m w2
  rw [e2] at key
  obtain ⟨k1, k2, k3⟩ := key
  intro xs hne
  have hxs : xs = samplesIn covers b hist := rfl
  rw [← hxs] at k1 k2 k3
  replace k1 : m.sumw.val = xs.sum := by rw [k1]; exact zero_add _
  replace k2 : m.sumw2.val = (xs.map fun x => x ^ 2).sum := by rw [k2]; exact zero_add _
  replace k3 : m.count.val = xs.length := by rw [k3]; exact zero_add _
  obtain ⟨-, -, a3⟩ := mean_of_totals (F := F) (by omega) hem ⟨by omega, by omega⟩ hκ m xs k1 k2 k3
  obtain ⟨q, v, vm, -, -, r3, r4, r5, r6, r7, -⟩ := a3 hne
  have hQ : 32 * ((xs.map fun x => x ^ 2).sum : ℤ) ≤ 2 ^ F.p := by rw [← k2]; have := m.sumw2.le_max; omega
  exact ⟨v, r3, r4, r5, fun hz => zero_variance hp8 hne hQ (by rw [hz] at r6; exact r6), r7⟩
end

section
attribute [local instance] dbg64
/-- **C99 (negative weights).** With negative weights the variance can be negative, even for integers (here -2: the weights 2 and -1 of the samples 1 and 2), and the standard deviation NaN. -/
theorem C99_counterexample_negative_weights :
    ∃ m : WeightedMean (MInt .i32) (MInt .i32) F64 (MInt .u32), fillSeq ((weightedMeanFills [((), .lit 1, .lit 2), ((), .lit 2, .lit (-1))]) : List (Call _ Unit)) RDefault.dflt = (m, none) ∧
      m.varianceOfSamples = .ok (f64 (-2)) ∧ m.standardDeviationOfSamples = .ok .nan :=
  ⟨(fillSeq ((weightedMeanFills [((), .lit 1, .lit 2), ((), .lit 2, .lit (-1))]) : List (Call _ Unit)) RDefault.dflt).1, by decide +kernel, by decide +kernel, by decide +kernel⟩
end
end NdHist
