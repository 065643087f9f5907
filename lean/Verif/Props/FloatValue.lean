import Verif.Props.FloatSum
import Verif.Props.Value
import Verif.Model.FloatConv
/-!
# C58: rounding errors of weighted sums and means
-/
namespace NdHist
open RNum

section
variable {F : FFmt}

/-- half the smallest positive float: the largest error of rounding a number below the normal range -/
def FFmt.eta (F : FFmt) : ℚ := pow2 F.qmin / 2

theorem FFmt.eta_pos (F : FFmt) : 0 < F.eta := half_pos (pow2_pos _)

theorem FFmt.eta_eq (F : FFmt) : F.eta = pow2 F.emin * F.u := by
  unfold FFmt.eta FFmt.u
  have : F.qmin = (F.emin + -(F.p : Int)) + 1 := by unfold FFmt.qmin; ring
  rw [this, pow2_succ, pow2_add]; ring

/-- the error of one rounding -/
theorem FFmt.rs_err (F : FFmt) (x : ℚ) : |F.rs x - x| ≤ |x| * F.u + F.eta := by
  have main : ∀ y : ℚ, 0 ≤ y → |F.rnd y - y| ≤ y * F.u + F.eta := by
    intro y hy
    have he := F.eta_pos
    rcases le_total (pow2 F.emin) y with h | h
    · have := F.rnd_rel' h; unfold FFmt.u; linarith
    · rcases hy.eq_or_lt with rfl | hy0
      · rw [F.rnd_zero]; simp; linarith
      rcases h.eq_or_lt with rfl | hlt
      · have := F.rnd_rel' (le_refl (pow2 F.emin)); unfold FFmt.u; linarith
      have h1 := F.rnd_abs y
      have hl : ilog2 y < F.emin := pow2_lt.mp (lt_of_le_of_lt (ilog2_spec hy0).1 hlt)
      have hq : F.qexp y = F.qmin := by unfold FFmt.qexp FFmt.qmin; rw [max_eq_right hl.le]
      rw [hq] at h1
      have := mul_nonneg hy F.u_pos.le
      unfold FFmt.eta; linarith
  rcases le_total 0 x with h | h
  · rw [F.rs_nonneg h, abs_of_nonneg h]; exact main x h
  · have h1 := main (-x) (by linarith)
    have h2 : F.rs x = -F.rnd (-x) := by rw [← F.rs_nonneg (x := -x) (by linarith), F.rs_neg]; ring
    rw [h2, abs_of_nonpos h, show -F.rnd (-x) - x = -(F.rnd (-x) - -x) by ring, abs_neg]; exact h1

/-- one rounded operation, relative to a bound `B` of everything that is above the underflow range -/
theorem Flt.Rounds.near {r : ℚ} {x : Flt F} (h : Flt.Rounds r x) (hr : |r| ≤ F.maxFin) {t B g : ℚ} (hB : F.eta ≤ F.u * B) (hg : 1 ≤ g)
    (he : |r - t| ≤ (g - 1) * B) (ht : |t| ≤ B) : x.isFin ∧ |x.val - t| ≤ (g * (1 + F.u) ^ 2 - 1) * B := by
  obtain ⟨h1, h2⟩ := h.fin_of hr
  refine ⟨h1, ?_⟩
  have e1 := F.rs_err r
  rw [← h2] at e1
  have e2 : |r| ≤ g * B := by
    have := abs_add_le (r - t) t
    rw [sub_add_cancel] at this
    linarith
  have e3 := abs_add_le (x.val - r) (r - t)
  rw [sub_add_sub_cancel] at e3
  have u0 := F.u_pos
  have B0 : 0 ≤ B := (abs_nonneg _).trans ht
  have e4 : |r| * F.u ≤ g * B * F.u := mul_le_mul_of_nonneg_right e2 u0.le
  have e5 : 0 ≤ (g - 1) * (F.u * B) := mul_nonneg (by linarith) (mul_nonneg u0.le B0)
  have e6 : 0 ≤ g * F.u * F.u * B := by positivity
  nlinarith

theorem Flt.sq_near {w : Flt F} (hw : w.isFin) (hr : w.val ^ 2 ≤ F.maxFin) :
    Near 0 (Flt.mul w w) (w.val ^ 2) (w.val ^ 2) (w.val ^ 2 * F.u + F.eta) := by
  have h := Flt.mul_rounds hw hw
  rw [← pow_two] at h
  obtain ⟨h1, h2⟩ := h.fin_of (by rw [abs_of_nonneg (sq_nonneg _)]; exact hr)
  have e := F.rs_err (w.val ^ 2)
  rw [abs_of_nonneg (sq_nonneg w.val), ← h2] at e
  refine ⟨h1, by simpa using e, by rw [abs_of_nonneg (sq_nonneg _)], ?_⟩
  have := F.eta_pos; have := F.u_pos
  positivity

theorem le_sum_of_mem {α : Type} {l : List α} {f : α → ℚ} (h : ∀ a ∈ l, 0 ≤ f a) {a : α} (ha : a ∈ l) : f a ≤ (l.map f).sum := by
  induction l with
  | nil => cases ha
  | cons b l ih =>
    have h2 := sum_nonneg' l f fun a h' => h a (List.mem_cons_of_mem _ h')
    have h3 := h b (List.mem_cons_self ..)
    rw [List.map_cons, List.sum_cons]
    rcases List.mem_cons.1 ha with rfl | ha
    · linarith
    · have := ih (fun a h' => h a (List.mem_cons_of_mem _ h')) ha; linarith

theorem sum_map_mul_add {α : Type} (l : List α) (f : α → ℚ) (u e : ℚ) : (l.map fun a => f a * u + e).sum = (l.map f).sum * u + l.length * e := by
  induction l with
  | nil => simp
  | cons a l ih => simp only [List.map_cons, List.sum_cons, ih, List.length_cons]; push_cast; ring
end

/-! ## WeightedSum -/

section
variable [cfg : Cfg] {F : FFmt} {A : Type} [Axis A] {axes : A} {n : Nat} {covers : Axis.Interval A → Axis.Coordinate A → Prop}
  {dom : Axis.Coordinate A → Prop}

/-- the calls of `fill` and `fill_with` on a histogram of weighted sums -/
def wsCalls {C : Type} (hist : List (C × Option (Flt F))) : List (Call (WeightedSum (Flt F)) C) :=
  hist.map fun cw => match cw.2 with
    | none => .fill cw.1
    | some w => .fillWith cw.1 w

/-- what such a call adds to the second sum -/
def fltSq {C : Type} (cw : C × Option (Flt F)) : Flt F :=
  match cw.2 with
  | none => Flt.ofRat 1
  | some w => Flt.mul w w

theorem filledWith_ws {C : Type} (hist : List (C × Option (Flt F))) (s : WeightedSum (Flt F)) :
    filledWith (wsCalls hist) s =
      ⟨hist.foldl (fun v cw => Flt.add v (fltAdd cw)) s.sumw, hist.foldl (fun v cw => Flt.add v (fltSq cw)) s.sumw2⟩ := by
  induction hist generalizing s with
  | nil => rfl
  | cons cw hist ih =>
    have : filledWith (wsCalls (cw :: hist)) s = filledWith (wsCalls hist) ⟨Flt.add s.sumw (fltAdd cw), Flt.add s.sumw2 (fltSq cw)⟩ := by
      obtain ⟨c, _ | w⟩ := cw <;> rfl
    rw [this, ih]; rfl

theorem wsCalls_coord {C : Type} (hist : List (C × Option (Flt F))) (p : C → Bool) :
    (wsCalls hist).filter (fun call => p call.coord) = wsCalls (hist.filter fun cw => p cw.1) := by
  unfold wsCalls
  rw [List.filter_map]
  congr 1
  apply List.filter_congr
  rintro ⟨c, _ | w⟩ _ <;> rfl

theorem wsCalls_total {C : Type} {hist : List (C × Option (Flt F))} : ∀ call ∈ wsCalls hist, ∀ v, (call.on v).2 = none := by
  intro call hc v
  obtain ⟨⟨c, _ | w⟩, -, rfl⟩ := List.mem_map.1 hc <;> rfl

theorem wsCalls_dom {C : Type} {hist : List (C × Option (Flt F))} {p : C → Prop} (h : ∀ cw ∈ hist, p cw.1) :
    ∀ call ∈ wsCalls hist, p call.coord := by
  intro call hc
  obtain ⟨⟨c, _ | w⟩, hm, rfl⟩ := List.mem_map.1 hc <;> exact h _ hm

/-- the sum of squares -/
theorem near_sq {C : Type} (l : List (C × Option (Flt F))) (hfin : ∀ cw ∈ l, ∀ w, cw.2 = some w → w.isFin)
    (hr : (1 + F.u) ^ l.length * ((l.map fun cw => fltWeight cw ^ 2).sum + l.length * F.eta) ≤ F.maxFin) :
    (l.foldl (fun v cw => Flt.add v (fltSq cw)) (Flt.zero false)).isFin ∧
    |(l.foldl (fun v cw => Flt.add v (fltSq cw)) (Flt.zero false)).val - (l.map fun cw => fltWeight cw ^ 2).sum| ≤
      ((1 + F.u) ^ l.length - 1) * (l.map fun cw => fltWeight cw ^ 2).sum + (1 + F.u) ^ (l.length - 1) * (l.length * F.eta) := by
  have u0 := F.u_pos; have eta0 := F.eta_pos
  set Q := (l.map fun cw => fltWeight cw ^ 2).sum with hQ
  have Q0 : 0 ≤ Q := sum_nonneg' l _ (fun _ _ => sq_nonneg _)
  rcases Nat.eq_zero_or_pos l.length with h0 | hpos
  · have : l = [] := List.length_eq_zero_iff.1 h0
    subst this
    exact ⟨trivial, by simp [hQ, Flt.zero, Flt.val, Flt.sval]⟩
  have g0 : ∀ k, (1 : ℚ) ≤ (1 + F.u) ^ k := fun k => one_le_growth k
  have hmax : ∀ cw ∈ l, fltWeight cw ^ 2 ≤ F.maxFin := by
    intro cw hcw
    have h1 := le_sum_of_mem (f := fun cw => fltWeight cw ^ 2) (fun _ _ => sq_nonneg _) hcw
    have h2 : (0 : ℚ) ≤ l.length * F.eta := by positivity
    have h3 : Q + l.length * F.eta ≤ (1 + F.u) ^ l.length * (Q + l.length * F.eta) := le_mul_of_one_le_left (by linarith) (g0 _)
    linarith
  have hone : ∀ cw ∈ l, Near 0 (fltSq cw) (fltWeight cw ^ 2) (fltWeight cw ^ 2) (fltWeight cw ^ 2 * F.u + F.eta) := by
    rintro ⟨c, _ | w⟩ hcw
    · obtain ⟨o1, o2⟩ := Flt.ofNat_spec (F := F) (n := 1) (Nat.one_le_two_pow)
      rw [Nat.cast_one] at o1 o2
      refine ⟨o1, ?_, by simp [fltWeight], by simp [fltWeight]; positivity⟩
      show |(Flt.ofRat 1 : Flt F).val - _| ≤ _
      rw [o2]; simp [fltWeight]; positivity
    · exact Flt.sq_near (hfin _ hcw w rfl) (hmax _ hcw)
  have hE : (l.map fun cw => fltWeight cw ^ 2 * F.u + F.eta).sum = Q * F.u + l.length * F.eta :=
    sum_map_mul_add l (fun cw => fltWeight cw ^ 2) F.u F.eta
  have hpow : (1 + F.u) ^ l.length = (1 + F.u) ^ (l.length - 1) * (1 + F.u) := by rw [← pow_succ]; congr 1; omega
  have key := near_sum (F := F) fltSq (fun cw => fltWeight cw ^ 2) (fun cw => fltWeight cw ^ 2) (fun cw => fltWeight cw ^ 2 * F.u + F.eta) l hone (by
      rw [hE, ← hQ]
      refine le_trans ?_ hr
      rw [hpow, mul_assoc]
      apply mul_le_mul_of_nonneg_left _ (zero_le_one.trans (g0 _))
      have : 0 ≤ F.u * (l.length * F.eta) := by positivity
      nlinarith) (z := Flt.zero false) trivial rfl
  refine ⟨key.fin, key.err.trans (le_of_eq ?_)⟩
  rw [hE, ← hQ, hpow]; ring

open Classical in
/-- **C58 (weighted sums).** A histogram of `WeightedSum<f64>` filled with finite weights `w` (1 for `fill`), if the sums of `|w|` and of `w²` are in range: no
panic, and in each bin `get` differs from the exact sum of the weights by at most `((1 + u)^(k-1) - 1) Σ|w|`, and `variance` from the exact sum of the squares by at
most `((1 + u)^k - 1) Σw²` plus, for squares below the normal range, `(1 + u)^(k-1) k η`; `k` is the number of entries, `η` half the smallest positive float. -/
theorem C58_weighted_sum (hf : FaithfulAxis axes n covers dom) {h : VecHistogram A (WeightedSum (Flt F))} (hnew : VecHistogram.new axes = .ok h)
    (hist : List (Axis.Coordinate A × Option (Flt F))) (hd : ∀ cw ∈ hist, dom cw.1) (hfin : ∀ cw ∈ hist, ∀ w, cw.2 = some w → w.isFin)
    (hr : (1 + F.u) ^ hist.length * (hist.map fun cw => |fltWeight cw|).sum ≤ F.maxFin)
    (hr2 : (1 + F.u) ^ hist.length * ((hist.map fun cw => fltWeight cw ^ 2).sum + hist.length * F.eta) ≤ F.maxFin) :
    ∃ h' items, h.callAll (wsCalls hist) = (h', none) ∧ h'.iter = .ok items ∧ items.length = n ∧
      ∀ i it, items[i]? = some it → it.index = i ∧ Axis.bin axes i = .ok (some it.bin) ∧
        let mine := hist.filter fun cw => covers it.bin cw.1
        it.value.get.isFin ∧ |it.value.get.val - (mine.map fltWeight).sum| ≤ ((1 + F.u) ^ (mine.length - 1) - 1) * (mine.map fun cw => |fltWeight cw|).sum ∧
        it.value.variance.isFin ∧ |it.value.variance.val - (mine.map fun cw => fltWeight cw ^ 2).sum| ≤
          ((1 + F.u) ^ mine.length - 1) * (mine.map fun cw => fltWeight cw ^ 2).sum + (1 + F.u) ^ (mine.length - 1) * (mine.length * F.eta) := by
  obtain ⟨items, hit, hlen, hall⟩ := C51_dense hf hnew _ (wsCalls_dom hd)
  refine ⟨_, items, callAll_total hf hnew (wsCalls_dom hd) wsCalls_total, hit, hlen, ?_⟩
  intro i it hi
  obtain ⟨h1, h2, h3⟩ := hall i it hi
  refine ⟨h1, h2, ?_⟩
  rw [wsCalls_coord hist (fun c => decide (covers it.bin c)), filledWith_ws] at h3
  intro mine
  have h4 := near_bin hist (fun cw => decide (covers it.bin cw.1)) hfin hr
  rw [List.countP_eq_length_filter] at h4
  have hsub : mine.length ≤ hist.length := List.length_filter_le _ _
  have h5 := near_sq mine (fun cw hcw => hfin cw (List.mem_of_mem_filter hcw)) (by
    refine le_trans ?_ hr2
    have a1 : (mine.map fun cw => fltWeight cw ^ 2).sum ≤ (hist.map fun cw => fltWeight cw ^ 2).sum := sum_filter_le _ _ _ (fun _ _ => sq_nonneg _)
    have a2 := sum_nonneg' mine (fun cw => fltWeight cw ^ 2) (fun _ _ => sq_nonneg _)
    have a3 : (mine.length : ℚ) * F.eta ≤ hist.length * F.eta := mul_le_mul_of_nonneg_right (by exact_mod_cast hsub) F.eta_pos.le
    have a4 : (0 : ℚ) ≤ mine.length * F.eta := by have := F.eta_pos; positivity
    exact mul_le_mul (growth_mono hsub) (by linarith) (by linarith) (zero_le_one.trans (one_le_growth _)))
  rw [h3]
  exact ⟨h4.1, h4.2, h5.1, h5.2⟩
end
/-! ## Mean -/

section
variable [cfg : Cfg] {F : FFmt} {τ : IntTy}

/-- the calls of `fill_with` on a `Mean` -/
def meanCalls (xs : List (Flt F)) : List (Call (Mean (Flt F) (Flt F) (MInt τ)) Unit) := xs.map fun x => .fillWith () x

theorem fillSeq_mean (xs : List (Flt F)) (m : Mean (Flt F) (Flt F) (MInt τ)) (h : m.count.val + xs.length ≤ τ.max) :
    ∃ c : MInt τ, c.val = m.count.val + xs.length ∧ fillSeq (meanCalls xs) m =
      (⟨xs.foldl (fun v x => Flt.add v x) m.sumw, xs.foldl (fun v x => Flt.add v (Flt.mul x x)) m.sumw2, c⟩, none) := by
  induction xs generalizing m with
  | nil => exact ⟨m.count, by simp, rfl⟩
  | cons x xs ih =>
    push_cast [List.length_cons] at h
    have hlo := m.count.min_le
    have hadd : @RNum.add (MInt τ) cfg _ m.count (@RNum.one (MInt τ) cfg _) = .ok ⟨m.count.val + 1, by omega, by omega⟩ := by
      rw [MInt.add_def, MInt.one_val, MInt.arith_ok (by omega) (by omega)]
    have hon : (Call.fillWith () x : Call (Mean (Flt F) (Flt F) (MInt τ)) Unit).on m =
        (⟨Flt.add m.sumw x, Flt.add m.sumw2 (Flt.mul x x), ⟨m.count.val + 1, by omega, by omega⟩⟩, none) := by
      have hfa : ∀ a b : Flt F, @RNum.add (Flt F) cfg _ a b = .ok (Flt.add a b) := fun _ _ => rfl
      have hfm : ∀ a b : Flt F, @RNum.mul (Flt F) cfg _ a b = .ok (Flt.mul a b) := fun _ _ => rfl
      simp only [Call.on, FillWith.fillWith, Upd.andThen, Upd.onField, Upd.withVal, addAssign, Upd.store, hadd, hfa, hfm]
    obtain ⟨c, hc, hs⟩ := ih ⟨Flt.add m.sumw x, Flt.add m.sumw2 (Flt.mul x x), ⟨m.count.val + 1, by omega, by omega⟩⟩ (by simp only; omega)
    refine ⟨c, by push_cast [List.length_cons]; simp only at hc; omega, ?_⟩
    have : meanCalls (τ := τ) (x :: xs) = .fillWith () x :: meanCalls xs := rfl
    rw [this, fillSeq, hon]
    exact hs

theorem meanNear (xs : List (Flt F)) (hfin : ∀ x ∈ xs, x.isFin) (hr : (1 + F.u) ^ xs.length * (xs.map fun x => |x.val|).sum ≤ F.maxFin) :
    Near (xs.length - 1) (xs.foldl (fun v x => Flt.add v x) (Flt.zero false)) (xs.map Flt.val).sum (xs.map fun x => |x.val|).sum 0 := by
  have key := near_sum (F := F) (fun x => x) Flt.val (fun x => |x.val|) (fun _ => 0) xs (fun x hx => Near.exact (hfin x hx)) (by
    refine le_trans ?_ hr
    simp only [List.map_const', List.sum_replicate, smul_zero, add_zero]
    exact mul_le_mul_of_nonneg_right (growth_mono (by omega)) (sum_nonneg' xs _ (fun _ _ => abs_nonneg _))) (z := Flt.zero false) trivial rfl
  simpa only [List.map_const', List.sum_replicate, smul_zero] using key

theorem conv_count (c : MInt τ) {n : Nat} (hc : c.val = n) (hn : n ≤ 2 ^ F.p) :
    (RFrom.conv c : Flt F).isFin ∧ (RFrom.conv c : Flt F).val = n := by
  have h := Flt.ofNat_spec (F := F) hn
  have e : (RFrom.conv c : Flt F) = Flt.ofRat (n : ℚ) := by
    show Flt.ofRat (c.val : ℚ) = _
    rw [hc]; rfl
  rw [e]; exact h

/-- **C58 (means).** `Mean<f64>` of `n` finite samples (`n` at most what the count type and the float's mantissa hold), if the sum of their absolute values is in
range: no panic, and `mean` is finite and within `((1 + u)^n - 1)` times the mean absolute value of the exact mean (plus `η` if the mean is below the normal range). -/
theorem C58_mean (xs : List (Flt F)) (hne : xs ≠ []) (hfin : ∀ x ∈ xs, x.isFin) (hc : (xs.length : ℤ) ≤ τ.max) (hp : xs.length ≤ 2 ^ F.p)
    (hr : (1 + F.u) ^ xs.length * (xs.map fun x => |x.val|).sum ≤ F.maxFin) :
    ∃ (m : Mean (Flt F) (Flt F) (MInt τ)) (q : Flt F), fillSeq (meanCalls xs) RDefault.dflt = (m, none) ∧ m.numSamples.val = xs.length ∧
      m.get = .ok q ∧ q.isFin ∧ |q.val - avg (xs.map Flt.val)| ≤ ((1 + F.u) ^ xs.length - 1) * avg (xs.map fun x => |x.val|) + F.eta := by
  obtain ⟨c, hc', hs⟩ := fillSeq_mean (τ := τ) xs RDefault.dflt (by show (0 : ℤ) + _ ≤ _; omega)
  have hcn : c.val = (xs.length : ℕ) := by rw [hc']; show (0 : ℤ) + _ = _; simp
  have hlen : 0 < xs.length := List.length_pos_iff.2 hne
  have hN : (0 : ℚ) < xs.length := by exact_mod_cast hlen
  have u0 := F.u_pos
  have near := meanNear xs hfin hr
  set s := xs.foldl (fun v x => Flt.add v x) (Flt.zero false) with hsdef
  set S := (xs.map Flt.val).sum with hS
  set A := (xs.map fun x => |x.val|).sum with hA
  have A0 : 0 ≤ A := sum_nonneg' xs _ (fun _ _ => abs_nonneg _)
  obtain ⟨d1, d2⟩ := conv_count (F := F) c hcn hp
  have hdiv := Flt.div_rounds near.fin d1 (by rw [d2]; exact hN.ne')
  rw [d2] at hdiv
  have hpow : (1 + F.u) ^ xs.length = (1 + F.u) ^ (xs.length - 1) * (1 + F.u) := by rw [← pow_succ]; congr 1; omega
  have g1 := one_le_growth (F := F) (xs.length - 1)
  set g := (1 + F.u) ^ (xs.length - 1) with hg
  have habs : |s.val| ≤ g * A := by have := near.abs_val; rwa [add_zero] at this
  have hq : |s.val / xs.length| ≤ g * A / xs.length := by
    rw [abs_div, abs_of_pos hN]; exact div_le_div_of_nonneg_right habs hN.le
  obtain ⟨f1, f2⟩ := hdiv.fin_of (by
    refine hq.trans (le_trans ?_ hr)
    have h1 : g * A / xs.length ≤ g * A := div_le_self (by positivity) (by exact_mod_cast hlen)
    have h2 : g * A ≤ g * (1 + F.u) * A := by
      have : 0 ≤ g * A * F.u := by positivity
      nlinarith
    rw [hpow]; exact h1.trans h2)
  refine ⟨_, _, hs, by exact_mod_cast hcn, rfl, f1, ?_⟩
  have e1 := F.rs_err (s.val / xs.length)
  have e2 : |s.val / xs.length - S / xs.length| ≤ (g - 1) * A / xs.length := by
    rw [← sub_div, abs_div, abs_of_pos hN]
    apply div_le_div_of_nonneg_right _ hN.le
    have := near.err; rwa [mul_zero, add_zero] at this
  rw [← f2] at e1
  have e3 := abs_add_le ((Flt.div s (RFrom.conv c : Flt F)).val - s.val / xs.length) (s.val / xs.length - S / xs.length)
  rw [sub_add_sub_cancel] at e3
  have hav : avg (xs.map Flt.val) = S / xs.length := by unfold avg; rw [List.length_map]
  have hav2 : avg (xs.map fun x => |x.val|) = A / xs.length := by unfold avg; rw [List.length_map]
  rw [hav, hav2]
  show |(Flt.div s (RFrom.conv c : Flt F)).val - _| ≤ _
  have e4 : |s.val / xs.length| * F.u ≤ g * A / xs.length * F.u := mul_le_mul_of_nonneg_right hq u0.le
  refine e3.trans ?_
  calc _ ≤ (g * A / xs.length * F.u + F.eta) + (g - 1) * A / xs.length := by linarith
    _ = _ := by rw [hpow]; ring
theorem Flt.abs_val' (x : Flt F) : (Flt.abs x).val = |x.val| := by
  cases x with
  | nan => simp [Flt.abs, Flt.val]
  | inf => simp [Flt.abs, Flt.val]
  | fin s m h => simp only [Flt.abs, Flt.val, Flt.abs_sval s h.nonneg]; rfl

theorem Flt.abs_isFin {x : Flt F} (h : x.isFin) : (Flt.abs x).isFin := by
  cases x with
  | nan => exact h.elim
  | inf => exact h.elim
  | fin s m h => trivial

theorem avg_abs_le (ys : List ℚ) (hne : ys ≠ []) {B : ℚ} (hB : ∀ y ∈ ys, |y| ≤ B) : |avg ys| ≤ B ∧ |ys.sum| ≤ ys.length * B := by
  have hlen : (0 : ℚ) < ys.length := by exact_mod_cast List.length_pos_iff.2 hne
  have h : ∀ l : List ℚ, (∀ y ∈ l, |y| ≤ B) → |l.sum| ≤ l.length * B := by
    intro l
    induction l with
    | nil => intro _; simp
    | cons a l ih =>
      intro h
      have h1 := ih fun y hy => h y (List.mem_cons_of_mem _ hy)
      have h2 := h a (List.mem_cons_self ..)
      have h3 := abs_add_le a l.sum
      rw [List.sum_cons, List.length_cons]; push_cast; linarith
  refine ⟨?_, h ys hB⟩
  unfold avg
  rw [abs_div, abs_of_pos hlen, div_le_iff₀ hlen]
  have := h ys hB; linarith

theorem avg_var (ys : List ℚ) (hne : ys ≠ []) : avg (ys.map fun y => (y - avg ys) ^ 2) = (ys.map fun y => y ^ 2).sum / ys.length - avg ys ^ 2 := by
  have hlen : (0 : ℚ) < ys.length := by exact_mod_cast List.length_pos_iff.2 hne
  set μ := avg ys with hμ
  have hs : ys.sum = μ * ys.length := by rw [hμ]; unfold avg; field_simp
  have h : ∀ l : List ℚ, (l.map fun y => (y - μ) ^ 2).sum = (l.map fun y => y ^ 2).sum - 2 * μ * l.sum + l.length * μ ^ 2 := by
    intro l
    induction l with
    | nil => simp
    | cons a l ih => simp only [List.map_cons, List.sum_cons, List.length_cons, ih]; push_cast; ring
  unfold avg
  rw [List.length_map, h ys, hs]
  field_simp
  ring

set_option maxHeartbeats 1000000 in
/-- **C58 (variances).** `Mean<f64>` of `n` finite samples of absolute value at most `B` (`B²` not below the normal range, everything in range): the sample variance
is finite, not negative, and within `2((1 + u)^(2n+5) - 1) B²` of the exact one; the variance of the mean is within `2((1 + u)^(2n+6) - 1) B²/n + η`. The errors are
relative to `B²`, not to the variance: for samples far from zero compared to their spread the result can be all error. -/
theorem C58_mean_variance (xs : List (Flt F)) (hne : xs ≠ []) (hfin : ∀ x ∈ xs, x.isFin) (hc : (xs.length : ℤ) ≤ τ.max) (hp : xs.length ≤ 2 ^ F.p)
    {B : ℚ} (hB0 : 0 ≤ B) (hB : ∀ x ∈ xs, |x.val| ≤ B) (hnorm : pow2 F.emin ≤ B ^ 2)
    (hr : 2 * (1 + F.u) ^ (2 * xs.length + 6) * (xs.length * (B + B ^ 2)) ≤ F.maxFin) :
    ∃ (m : Mean (Flt F) (Flt F) (MInt τ)) (v vm : Flt F), fillSeq (meanCalls xs) RDefault.dflt = (m, none) ∧
      m.varianceOfSamples = .ok v ∧ v.isFin ∧ 0 ≤ v.val ∧
      |v.val - avg ((xs.map Flt.val).map fun y => (y - avg (xs.map Flt.val)) ^ 2)| ≤ 2 * ((1 + F.u) ^ (2 * xs.length + 5) - 1) * B ^ 2 ∧
      m.varianceOfMean = .ok vm ∧ vm.isFin ∧
      |vm.val - avg ((xs.map Flt.val).map fun y => (y - avg (xs.map Flt.val)) ^ 2) / xs.length| ≤
        2 * ((1 + F.u) ^ (2 * xs.length + 6) - 1) * B ^ 2 / xs.length + F.eta := by
  obtain ⟨c, hc', hs⟩ := fillSeq_mean (τ := τ) xs RDefault.dflt (by show (0 : ℤ) + _ ≤ _; omega)
  have hcn : c.val = (xs.length : ℕ) := by rw [hc']; show (0 : ℤ) + _ = _; simp
  have hlen : 0 < xs.length := List.length_pos_iff.2 hne
  have hN : (0 : ℚ) < xs.length := by exact_mod_cast hlen
  have hN1 : (1 : ℚ) ≤ xs.length := by exact_mod_cast hlen
  have u0 := F.u_pos; have eta0 := F.eta_pos; have u4 := F.u_le
  obtain ⟨d1, d2⟩ := conv_count (F := F) c hcn hp
  set N : ℚ := ((xs.length : ℕ) : ℚ) with hNdef
  set ys := xs.map Flt.val with hys
  have hyl : ys.length = xs.length := List.length_map ..
  have hyne : ys ≠ [] := by intro h; apply hne; exact List.map_eq_nil_iff.1 h
  have hyB : ∀ y ∈ ys, |y| ≤ B := by
    intro y hy; obtain ⟨x, hx, rfl⟩ := List.mem_map.1 hy; exact hB x hx
  -- underflow is negligible relative to `B`
  have hemin1 : pow2 F.emin ≤ 1 := by
    have := pow2_le.mpr (show F.emin ≤ 0 by have := F.emin_le; omega)
    have h0 : pow2 0 = 1 := by rw [pow2_eq]; norm_num
    rwa [h0] at this
  have hBn : pow2 F.emin ≤ B := by
    rcases le_total B 1 with h | h
    · exact hnorm.trans (by nlinarith)
    · exact hemin1.trans h
  have etaB : F.eta ≤ F.u * B := by rw [F.eta_eq]; nlinarith
  have etaB2 : F.eta ≤ F.u * B ^ 2 := by rw [F.eta_eq]; nlinarith
  -- growth factors
  have g1 : ∀ k, (1 : ℚ) ≤ (1 + F.u) ^ k := fun k => one_le_growth k
  have gm : ∀ {k l : ℕ}, k ≤ l → (1 + F.u) ^ k ≤ (1 + F.u) ^ l := fun h => growth_mono h
  have hBB : 0 ≤ B ^ 2 := sq_nonneg B
  have range : ∀ {k : ℕ} {x : ℚ}, k ≤ 2 * xs.length + 6 → x ≤ 2 * ((1 + F.u) ^ k * (N * (B + B ^ 2))) → x ≤ F.maxFin := by
    intro k x hk hx
    refine hx.trans (le_trans ?_ hr)
    rw [mul_assoc]
    apply mul_le_mul_of_nonneg_left _ (by norm_num)
    exact mul_le_mul_of_nonneg_right (gm hk) (by positivity)
  have lb1 : B ≤ N * (B + B ^ 2) := by nlinarith
  have lb2 : B ^ 2 ≤ N * (B + B ^ 2) := by nlinarith
  have lb3 : N * B ≤ N * (B + B ^ 2) := by nlinarith
  have lb4 : N * B ^ 2 ≤ N * (B + B ^ 2) := by nlinarith
  have range' : ∀ {k : ℕ} {x y : ℚ}, k ≤ 2 * xs.length + 6 → x ≤ 2 * ((1 + F.u) ^ k * y) → y ≤ N * (B + B ^ 2) → x ≤ F.maxFin := by
    intro k x y hk hx hy
    apply range hk (hx.trans _)
    apply mul_le_mul_of_nonneg_left _ (by norm_num)
    exact mul_le_mul_of_nonneg_left hy (zero_le_one.trans (g1 k))
  -- the sum
  have hA : (xs.map fun x => |x.val|).sum ≤ N * B := by
    have := (avg_abs_le (xs.map fun x => |x.val|) (by simpa using hne) (B := B) (by
      intro y hy; obtain ⟨x, hx, rfl⟩ := List.mem_map.1 hy; rw [abs_abs]; exact hB x hx)).2
    rw [List.length_map] at this
    exact (le_abs_self _).trans this
  have hA0 : 0 ≤ (xs.map fun x => |x.val|).sum := sum_nonneg' xs _ (fun _ _ => abs_nonneg _)
  have near := meanNear xs hfin (by
    refine range' (k := xs.length) (by omega) ?_ lb3
    have := mul_le_mul_of_nonneg_left hA (zero_le_one.trans (g1 xs.length))
    have h0 := mul_nonneg (zero_le_one.trans (g1 xs.length)) hA0
    linarith)
  set s := xs.foldl (fun v x => Flt.add v x) (Flt.zero false) with hsdef
  -- the mean
  have hmu : |avg ys| ≤ B := (avg_abs_le ys hyne hyB).1
  have hse : |s.val / N - avg ys| ≤ ((1 + F.u) ^ (xs.length - 1) - 1) * B := by
    have : s.val / N - avg ys = (s.val - ys.sum) / N := by unfold avg; rw [hyl, sub_div]
    rw [this, abs_div, abs_of_pos hN, div_le_iff₀ hN]
    have e := near.err
    rw [mul_zero, add_zero] at e
    refine e.trans ?_
    have := mul_le_mul_of_nonneg_left hA (sub_nonneg.2 (g1 (xs.length - 1)))
    linarith
  have habs : ∀ {r t g M : ℚ}, |r - t| ≤ (g - 1) * M → |t| ≤ M → |r| ≤ g * M := by
    intro r t g M h1 h2
    have := abs_add_le (r - t) t
    rw [sub_add_cancel] at this
    linarith
  have hdiv := Flt.div_rounds near.fin d1 (by rw [d2]; exact hN.ne')
  rw [d2] at hdiv
  obtain ⟨m1, m2⟩ := hdiv.near (range' (k := xs.length - 1) (by omega) (by
    have := habs hse hmu
    have h0 := (abs_nonneg _).trans this
    linarith) lb1) etaB (g1 _) hse hmu
  rw [← pow_add, show xs.length - 1 + 2 = xs.length + 1 by omega] at m2
  set μ' := Flt.div s (RFrom.conv c : Flt F) with hμ'
  -- its square
  have hsq : |μ'.val * μ'.val - avg ys ^ 2| ≤ ((1 + F.u) ^ (2 * xs.length + 2) - 1) * B ^ 2 := by
    have e1 : μ'.val * μ'.val - avg ys ^ 2 = (μ'.val - avg ys) * (μ'.val + avg ys) := by ring
    have e2 : |μ'.val + avg ys| ≤ ((1 + F.u) ^ (xs.length + 1) + 1) * B := by
      have := abs_add_le μ'.val (avg ys)
      have := habs m2 hmu
      linarith
    rw [e1, abs_mul]
    calc _ ≤ (((1 + F.u) ^ (xs.length + 1) - 1) * B) * (((1 + F.u) ^ (xs.length + 1) + 1) * B) :=
          mul_le_mul m2 e2 (abs_nonneg _) (mul_nonneg (sub_nonneg.2 (g1 _)) hB0)
      _ = _ := by rw [show 2 * xs.length + 2 = (xs.length + 1) + (xs.length + 1) by omega, pow_add]; ring
  have hmu2 : |avg ys ^ 2| ≤ B ^ 2 := by rw [abs_of_nonneg (sq_nonneg _), ← sq_abs]; exact pow_le_pow_left₀ (abs_nonneg _) hmu 2
  obtain ⟨q1, q2⟩ := (Flt.mul_rounds m1 m1).near (range' (k := 2 * xs.length + 2) (by omega) (by
    have := habs hsq hmu2
    have h0 := (abs_nonneg _).trans this
    linarith) lb2) etaB2 (g1 _) hsq hmu2
  rw [← pow_add, show 2 * xs.length + 2 + 2 = 2 * xs.length + 4 by omega] at q2
  set sq := Flt.mul μ' μ' with hsqdef
  -- the sum of squares
  have hQ : (xs.map fun x => x.val ^ 2).sum = (ys.map fun y => y ^ 2).sum := by rw [hys, List.map_map]; rfl
  set Q := (ys.map fun y => y ^ 2).sum with hQdef
  have hQ0 : 0 ≤ Q := by rw [← hQ]; exact sum_nonneg' xs _ (fun _ _ => sq_nonneg _)
  have hQB : Q ≤ N * B ^ 2 := by
    have := (avg_abs_le (ys.map fun y => y ^ 2) (by simpa using hyne) (B := B ^ 2) (by
      intro y hy; obtain ⟨x, hx, rfl⟩ := List.mem_map.1 hy
      rw [abs_of_nonneg (sq_nonneg _), ← sq_abs]; exact pow_le_pow_left₀ (abs_nonneg _) (hyB x hx) 2)).2
    rw [List.length_map, hyl] at this
    exact (le_abs_self _).trans this
  have hNe : N * F.eta ≤ F.u * (N * B ^ 2) := by nlinarith
  have near2 := near_sq (F := F) (xs.map fun x => ((), some x)) (by
    intro cw hcw w hw
    obtain ⟨x, hx, rfl⟩ := List.mem_map.1 hcw
    exact (Option.some.inj hw) ▸ hfin x hx) (by
    rw [List.length_map, List.map_map]
    have e : (xs.map ((fun cw => fltWeight cw ^ 2) ∘ fun x => ((), some x))).sum = Q := hQ
    rw [e]
    refine range' (k := xs.length + 1) (by omega) ?_ lb4
    have h1 : Q + N * F.eta ≤ (1 + F.u) * (N * B ^ 2) := by linarith
    have h2 := mul_le_mul_of_nonneg_left h1 (zero_le_one.trans (g1 xs.length))
    rw [← mul_assoc, ← pow_succ] at h2
    have h3 : 0 ≤ (1 + F.u) ^ (xs.length + 1) * (N * B ^ 2) := by have := g1 (xs.length + 1); positivity
    linarith)
  rw [List.length_map, List.map_map, List.foldl_map] at near2
  have e : (xs.map ((fun cw => fltWeight cw ^ 2) ∘ fun x => ((), some x))).sum = Q := hQ
  rw [e] at near2
  obtain ⟨s1, s2⟩ := near2
  change |(xs.foldl (fun v x => Flt.add v (Flt.mul x x)) (Flt.zero false)).val - Q| ≤ _ at s2
  change (xs.foldl (fun v x => Flt.add v (Flt.mul x x)) (Flt.zero false)).isFin at s1
  set s' := xs.foldl (fun v x => Flt.add v (Flt.mul x x)) (Flt.zero false) with hs'
  have hQN : |Q / N| ≤ B ^ 2 := by
    rw [abs_of_nonneg (by positivity), div_le_iff₀ hN]; linarith
  have hse2 : |s'.val / N - Q / N| ≤ ((1 + F.u) ^ (xs.length + 1) - 1) * B ^ 2 := by
    rw [← sub_div, abs_div, abs_of_pos hN, div_le_iff₀ hN]
    refine s2.trans ?_
    have h1 := mul_le_mul_of_nonneg_left hQB (sub_nonneg.2 (g1 xs.length))
    have h2 : (1 + F.u) ^ (xs.length - 1) * (N * F.eta) ≤ (1 + F.u) ^ xs.length * (F.u * (N * B ^ 2)) :=
      mul_le_mul (gm (by omega)) hNe (by positivity) (zero_le_one.trans (g1 _))
    rw [pow_succ]
    linarith
  have hdiv2 := Flt.div_rounds s1 d1 (by rw [d2]; exact hN.ne')
  rw [d2] at hdiv2
  obtain ⟨a1, a2⟩ := hdiv2.near (range' (k := xs.length + 1) (by omega) (by
    have := habs hse2 hQN
    have h0 := (abs_nonneg _).trans this
    linarith) lb2) etaB2 (g1 _) hse2 hQN
  rw [← pow_add] at a2
  set av := Flt.div s' (RFrom.conv c : Flt F) with hav
  -- the difference
  set G := (1 + F.u) ^ (2 * xs.length + 4) with hG
  have hG1 : 1 ≤ G := g1 _
  have a3 : |av.val - Q / N| ≤ (G - 1) * B ^ 2 := a2.trans (mul_le_mul_of_nonneg_right (by have := gm (show xs.length + 1 + 2 ≤ 2 * xs.length + 4 by omega); linarith) hBB)
  have hV : avg (ys.map fun y => (y - avg ys) ^ 2) = Q / N - avg ys ^ 2 := by rw [avg_var ys hyne, hyl]
  have hV0 : 0 ≤ Q / N - avg ys ^ 2 := by
    rw [← hV]; unfold avg
    apply div_nonneg _ (by positivity)
    exact sum_nonneg' ys _ (fun _ _ => sq_nonneg _)
  have hVB : Q / N - avg ys ^ 2 ≤ B ^ 2 := by
    have := le_abs_self (Q / N); have := sq_nonneg (avg ys); linarith
  have dd : |(av.val - sq.val) - (Q / N - avg ys ^ 2)| ≤ 2 * ((G - 1) * B ^ 2) := by
    have e1 : (av.val - sq.val) - (Q / N - avg ys ^ 2) = (av.val - Q / N) + -(sq.val - avg ys ^ 2) := by ring
    rw [e1]
    have := abs_add_le (av.val - Q / N) (-(sq.val - avg ys ^ 2))
    rw [abs_neg] at this
    linarith
  have dabs : |av.val - sq.val| ≤ B ^ 2 + 2 * ((G - 1) * B ^ 2) := by
    have := abs_add_le ((av.val - sq.val) - (Q / N - avg ys ^ 2)) (Q / N - avg ys ^ 2)
    rw [sub_add_cancel, abs_of_nonneg hV0] at this
    linarith
  have hGB : 0 ≤ (G - 1) * B ^ 2 := mul_nonneg (by linarith) hBB
  obtain ⟨r1, r2⟩ := (Flt.sub_rounds a1 q1).fin_of (range' (k := 2 * xs.length + 4) (y := B ^ 2) (by omega) (by
    rw [← hG]; linarith) lb2)
  have r3 := F.rs_rel_mult (av.val_mult.sub sq.val_mult)
  rw [← r2] at r3
  have r4 : |(Flt.sub av sq).val - (Q / N - avg ys ^ 2)| ≤ 2 * ((1 + F.u) ^ (2 * xs.length + 5) - 1) * B ^ 2 := by
    have e1 := abs_add_le ((Flt.sub av sq).val - (av.val - sq.val)) ((av.val - sq.val) - (Q / N - avg ys ^ 2))
    rw [sub_add_sub_cancel] at e1
    have e2 : |av.val - sq.val| * F.u ≤ (B ^ 2 + 2 * ((G - 1) * B ^ 2)) * F.u := mul_le_mul_of_nonneg_right dabs u0.le
    have e3 : (1 + F.u) ^ (2 * xs.length + 5) = G * (1 + F.u) := by rw [hG, ← pow_succ]
    rw [e3]
    have e4 : 0 ≤ F.u * B ^ 2 := by positivity
    nlinarith
  have r5 : |(Flt.abs (Flt.sub av sq)).val - (Q / N - avg ys ^ 2)| ≤ 2 * ((1 + F.u) ^ (2 * xs.length + 5) - 1) * B ^ 2 := by
    rw [Flt.abs_val']
    refine le_trans ?_ r4
    have := abs_abs_sub_abs_le (Flt.sub av sq).val (Q / N - avg ys ^ 2)
    rwa [abs_of_nonneg hV0] at this
  set v := Flt.abs (Flt.sub av sq) with hv
  have vfin : v.isFin := Flt.abs_isFin r1
  -- the variance of the mean
  have hdiv3 := Flt.div_rounds vfin d1 (by rw [d2]; exact hN.ne')
  rw [d2] at hdiv3
  set G5 := (1 + F.u) ^ (2 * xs.length + 5) with hG5
  have hG51 : 1 ≤ G5 := g1 _
  have vabs : |v.val| ≤ B ^ 2 + 2 * (G5 - 1) * B ^ 2 := by
    have := abs_add_le (v.val - (Q / N - avg ys ^ 2)) (Q / N - avg ys ^ 2)
    rw [sub_add_cancel, abs_of_nonneg hV0] at this
    linarith
  have vabsN : |v.val / N| ≤ (B ^ 2 + 2 * (G5 - 1) * B ^ 2) / N := by
    rw [abs_div, abs_of_pos hN]; exact div_le_div_of_nonneg_right vabs hN.le
  have hG5B : 0 ≤ (G5 - 1) * B ^ 2 := mul_nonneg (by linarith) hBB
  obtain ⟨w1, w2⟩ := hdiv3.fin_of (range' (k := 2 * xs.length + 5) (y := B ^ 2) (by omega) (by
    refine vabsN.trans ((div_le_self (by linarith) hN1).trans ?_)
    rw [← hG5]; linarith) lb2)
  refine ⟨_, v, _, hs, ?_, vfin, by rw [hv, Flt.abs_val']; exact abs_nonneg _, by rw [hV]; exact r5, rfl, w1, ?_⟩
  · rfl
  · rw [hV]
    have e1 := F.rs_err (v.val / N)
    rw [← w2] at e1
    change |(Flt.div v (RFrom.conv c : Flt F)).val - v.val / N| ≤ _ at e1
    show |(Flt.div v (RFrom.conv c : Flt F)).val - _| ≤ _
    have e2 := abs_add_le ((Flt.div v (RFrom.conv c : Flt F)).val - v.val / N) (v.val / N - (Q / N - avg ys ^ 2) / N)
    rw [sub_add_sub_cancel] at e2
    have e3 : |v.val / N - (Q / N - avg ys ^ 2) / N| ≤ 2 * (G5 - 1) * B ^ 2 / N := by
      rw [← sub_div, abs_div, abs_of_pos hN]; exact div_le_div_of_nonneg_right r5 hN.le
    have e4 : |v.val / N| * F.u ≤ (B ^ 2 + 2 * (G5 - 1) * B ^ 2) / N * F.u := mul_le_mul_of_nonneg_right vabsN u0.le
    have e5 : (1 + F.u) ^ (2 * xs.length + 6) = G5 * (1 + F.u) := by rw [hG5, ← pow_succ]
    rw [e5]
    have e6 : (B ^ 2 + 2 * (G5 - 1) * B ^ 2) / N * F.u + 2 * (G5 - 1) * B ^ 2 / N ≤ 2 * (G5 * (1 + F.u) - 1) * B ^ 2 / N := by
      rw [div_mul_eq_mul_div, ← add_div]
      apply div_le_div_of_nonneg_right _ hN.le
      have : 0 ≤ F.u * B ^ 2 := by positivity
      nlinarith
    linarith
end
/-! ## Concrete cases -/

section
attribute [local instance] dbg64

/-- samples far from zero: the bound is what it says, and the computed variance is wrong by more than its value -/
def exSamples : List F64 := [f64 100000000, f64 100000001, f64 100000002]

example : (∀ x ∈ exSamples, x.isFin ∧ |x.val| ≤ 100000002) ∧ pow2 FFmt.f64.emin ≤ (100000002 : ℚ) ^ 2 ∧ exSamples.length ≤ 2 ^ FFmt.f64.p ∧
    2 * (1 + FFmt.f64.u) ^ (2 * exSamples.length + 6) * (exSamples.length * (100000002 + 100000002 ^ 2)) ≤ FFmt.f64.maxFin := by
  refine ⟨?_, by decide +kernel, by decide, by decide +kernel⟩
  intro x hx
  simp only [exSamples, List.mem_cons, List.not_mem_nil, or_false] at hx
  rcases hx with rfl | rfl | rfl <;> constructor <;> decide +kernel

/-- the variance of 100000000, 100000001 and 100000002 is 2/3; the library computes 2 -/
example : ∃ (m : Mean F64 F64 (MInt .u32)) (v : F64), fillSeq (meanCalls exSamples) RDefault.dflt = (m, none) ∧ m.varianceOfSamples = .ok v ∧
    v.val = 2 ∧ avg ((exSamples.map Flt.val).map fun y => (y - avg (exSamples.map Flt.val)) ^ 2) = 2 / 3 := by
  refine ⟨_, _, rfl, rfl, ?_, ?_⟩ <;> decide +kernel

/-- the hypotheses of the weighted sum: a history with a rounding error -/
example : (1 + FFmt.f64.u) ^ exFltHist.length * ((exFltHist.map fun cw => fltWeight cw ^ 2).sum + exFltHist.length * FFmt.f64.eta) ≤ FFmt.f64.maxFin ∧
    (filledWith (wsCalls exFltHist) RDefault.dflt : WeightedSum F64).variance.val ≠ (exFltHist.map fun cw => fltWeight cw ^ 2).sum := by
  constructor <;> decide +kernel
end
/-! ## WeightedMean -/

section
variable [cfg : Cfg] {F : FFmt} {τ : IntTy}

/-- the calls of `fill_with_weighted` on a `WeightedMean` -/
def wmCalls (xs : List (Flt F × Flt F)) : List (Call (WeightedMean (Flt F) (Flt F) (Flt F) (MInt τ)) Unit) :=
  xs.map fun x => .fillWithWeighted () x.1 x.2

theorem fillSeq_wm (xs : List (Flt F × Flt F)) (m : WeightedMean (Flt F) (Flt F) (Flt F) (MInt τ)) (h : m.count.val + xs.length ≤ τ.max) :
    ∃ m' : WeightedMean (Flt F) (Flt F) (Flt F) (MInt τ), fillSeq (wmCalls xs) m = (m', none) ∧ m'.count.val = m.count.val + xs.length ∧
      m'.sumwt = xs.foldl (fun v x => Flt.add v (Flt.mul x.1 x.2)) m.sumwt ∧ m'.sumw = xs.foldl (fun v x => Flt.add v x.2) m.sumw := by
  induction xs generalizing m with
  | nil => exact ⟨m, rfl, by simp, rfl, rfl⟩
  | cons x xs ih =>
    push_cast [List.length_cons] at h
    have hlo := m.count.min_le
    have hadd : @RNum.add (MInt τ) cfg _ m.count (@RNum.one (MInt τ) cfg _) = .ok ⟨m.count.val + 1, by omega, by omega⟩ := by
      rw [MInt.add_def, MInt.one_val, MInt.arith_ok (by omega) (by omega)]
    have hfa : ∀ a b : Flt F, @RNum.add (Flt F) cfg _ a b = .ok (Flt.add a b) := fun _ _ => rfl
    have hfm : ∀ a b : Flt F, @RNum.mul (Flt F) cfg _ a b = .ok (Flt.mul a b) := fun _ _ => rfl
    have hon : (Call.fillWithWeighted () x.1 x.2 : Call (WeightedMean (Flt F) (Flt F) (Flt F) (MInt τ)) Unit).on m =
        (⟨Flt.add m.sumwt (Flt.mul x.1 x.2), Flt.add m.sumwt2 (Flt.mul (Flt.mul x.1 x.1) x.2), Flt.add m.sumw x.2,
          Flt.add m.sumw2 (Flt.mul x.2 x.2), ⟨m.count.val + 1, by omega, by omega⟩⟩, none) := by
      simp only [Call.on, FillWithWeighted.fillWithWeighted, Upd.andThen, Upd.onField, Upd.withVal, addAssign, Upd.store, RMulBy.mulBy, hadd, hfa, hfm,
        Res.ok_bind]
    obtain ⟨m', h1, h2, h3, h4⟩ := ih ⟨Flt.add m.sumwt (Flt.mul x.1 x.2), Flt.add m.sumwt2 (Flt.mul (Flt.mul x.1 x.1) x.2), Flt.add m.sumw x.2,
      Flt.add m.sumw2 (Flt.mul x.2 x.2), ⟨m.count.val + 1, by omega, by omega⟩⟩ (by simp only; omega)
    refine ⟨m', ?_, by push_cast [List.length_cons]; simp only at h2; omega, h3, h4⟩
    have : wmCalls (τ := τ) (x :: xs) = .fillWithWeighted () x.1 x.2 :: wmCalls xs := rfl
    rw [this, fillSeq, hon]
    exact h1

/-- **C58 (weighted means).** `WeightedMean<f64>` of `n` finite samples of absolute value at most `B` with finite, non-negative weights of total `W` (not all zero):
if `n` is at most what the count type holds and such that `(1 + u)^n ≤ 3/2`, everything is in range and the products are not all below the normal range, then the
mean is finite and within `4((1 + u)^(n+1) - 1) B` of the exact weighted mean. -/
theorem C58_weighted_mean (xs : List (Flt F × Flt F)) (hfin : ∀ x ∈ xs, x.1.isFin ∧ x.2.isFin) (hc : (xs.length : ℤ) ≤ τ.max)
    (hn : (1 + F.u) ^ xs.length ≤ 3 / 2) {B W : ℚ} (hB : ∀ x ∈ xs, |x.1.val| ≤ B) (hw : ∀ x ∈ xs, 0 ≤ x.2.val)
    (hW : W = (xs.map fun x => x.2.val).sum) (hW0 : 0 < W) (hB1 : pow2 F.emin ≤ B) (hnorm : xs.length * pow2 F.emin ≤ B * W)
    (hr : 3 * (B * W + W + B) ≤ F.maxFin) :
    ∃ (m : WeightedMean (Flt F) (Flt F) (Flt F) (MInt τ)) (q : Flt F), fillSeq (wmCalls xs) RDefault.dflt = (m, none) ∧
      m.numSamples.val = xs.length ∧ m.get = .ok q ∧ q.isFin ∧
      |q.val - wavg (xs.map fun x => (x.1.val, x.2.val))| ≤ 4 * ((1 + F.u) ^ (xs.length + 1) - 1) * B := by
  obtain ⟨m, hs, hc', hst, hsw⟩ := fillSeq_wm (τ := τ) xs RDefault.dflt (by show (0 : ℤ) + _ ≤ _; omega)
  have hne : xs ≠ [] := by rintro rfl; rw [hW] at hW0; simp at hW0
  have hlen : 0 < xs.length := List.length_pos_iff.2 hne
  have u0 := F.u_pos; have eta0 := F.eta_pos
  have B0 : 0 < B := (pow2_pos _).trans_le hB1
  have BW0 : 0 < B * W := mul_pos B0 hW0
  have etaB : F.eta ≤ F.u * B := by rw [F.eta_eq]; nlinarith
  have netaW : xs.length * F.eta ≤ F.u * (B * W) := by
    rw [F.eta_eq]
    calc (xs.length : ℚ) * (pow2 F.emin * F.u) = (xs.length * pow2 F.emin) * F.u := by ring
      _ ≤ B * W * F.u := mul_le_mul_of_nonneg_right hnorm u0.le
      _ = _ := by ring
  have hpow : (1 + F.u) ^ xs.length = (1 + F.u) ^ (xs.length - 1) * (1 + F.u) := by rw [← pow_succ]; congr 1; omega
  have g1 := one_le_growth (F := F) (xs.length - 1)
  set g := (1 + F.u) ^ (xs.length - 1) with hg
  have gu : g * F.u ≤ 1 / 2 := by rw [hpow] at hn; nlinarith
  -- the sum of weights
  have nw : Near (xs.length - 1) m.sumw W W 0 := by
    have key := near_sum (F := F) (fun x : Flt F × Flt F => x.2) (fun x => x.2.val) (fun x => x.2.val) (fun _ => 0) xs (fun x hx => by
      have := Near.exact (hfin x hx).2
      rwa [abs_of_nonneg (hw x hx)] at this) (by
        simp only [List.map_const', List.sum_replicate, smul_zero, add_zero]
        rw [← hW, ← hg]
        refine le_trans ?_ hr
        nlinarith) (z := Flt.zero false) trivial rfl
    simp only [List.map_const', List.sum_replicate, smul_zero] at key
    rw [hsw, hW]; exact key
  -- the sum of products
  have htw : ∀ x ∈ xs, |x.1.val * x.2.val| ≤ B * x.2.val := by
    intro x hx
    rw [abs_mul, abs_of_nonneg (hw x hx)]
    exact mul_le_mul_of_nonneg_right (hB x hx) (hw x hx)
  have hAsum : (xs.map fun x => B * x.2.val).sum = B * W := by rw [hW, List.sum_map_mul_left]
  have hEsum : (xs.map fun x => (B * x.2.val) * F.u + F.eta).sum = B * W * F.u + xs.length * F.eta := by
    rw [sum_map_mul_add xs (fun x => B * x.2.val) F.u F.eta, hAsum]
  have nt : Near (xs.length - 1) m.sumwt (xs.map fun x => x.1.val * x.2.val).sum (B * W) (B * W * F.u + xs.length * F.eta) := by
    have key := near_sum (F := F) (fun x : Flt F × Flt F => Flt.mul x.1 x.2) (fun x => x.1.val * x.2.val) (fun x => B * x.2.val)
      (fun x => (B * x.2.val) * F.u + F.eta) xs (fun x hx => by
        have hle : B * x.2.val ≤ B * W := by
          apply mul_le_mul_of_nonneg_left _ B0.le
          rw [hW]; exact le_sum_of_mem (f := fun x : Flt F × Flt F => x.2.val) hw hx
        obtain ⟨f1, f2⟩ := (Flt.mul_rounds (hfin x hx).1 (hfin x hx).2).fin_of ((htw x hx).trans (hle.trans (by linarith)))
        have e := F.rs_err (x.1.val * x.2.val)
        rw [← f2] at e
        have := mul_le_mul_of_nonneg_right (htw x hx) u0.le
        have := mul_nonneg (mul_nonneg B0.le (hw x hx)) u0.le
        exact ⟨f1, by simp only [pow_zero, sub_self, zero_mul, zero_add, one_mul]; linarith, htw x hx, by linarith⟩) (by
        rw [hAsum, hEsum, ← hg]
        refine le_trans ?_ hr
        have h1 : g * (B * W + (B * W * F.u + xs.length * F.eta)) ≤ g * (B * W + (B * W * F.u + F.u * (B * W))) :=
          mul_le_mul_of_nonneg_left (by linarith) (by linarith)
        have h2 : g * F.u * (B * W) ≤ 1 / 2 * (B * W) := mul_le_mul_of_nonneg_right gu BW0.le
        have h3 : g * (1 + F.u) * (B * W) ≤ 3 / 2 * (B * W) := mul_le_mul_of_nonneg_right (by rw [← hpow]; exact hn) BW0.le
        linarith) (z := Flt.zero false) trivial rfl
    rw [hAsum, hEsum] at key
    rw [hst]; exact key
  set S := (xs.map fun x => x.1.val * x.2.val).sum with hS
  set G := (1 + F.u) ^ xs.length with hG
  have G1 : 1 ≤ G := one_le_growth _
  -- errors
  have eW : |m.sumw.val - W| ≤ (g - 1) * W := by have := nw.err; rwa [mul_zero, add_zero] at this
  have gG : g ≤ G := growth_mono (by omega)
  have eS : |m.sumwt.val - S| ≤ (G - 1) * (B * W) + g * F.u * (B * W) := by
    refine nt.err.trans ?_
    have : g * (xs.length * F.eta) ≤ g * (F.u * (B * W)) := mul_le_mul_of_nonneg_left netaW (by linarith)
    rw [← hg, hpow]
    linarith
  have Wlow : W / 2 ≤ m.sumw.val := by
    have := (abs_le.1 eW).1
    have : (g - 1) * W ≤ 1 / 2 * W := mul_le_mul_of_nonneg_right (by linarith) hW0.le
    linarith
  have Wpos : 0 < m.sumw.val := by linarith
  have hSB : |S| ≤ B * W := nt.abs
  have hav : wavg (xs.map fun x => (x.1.val, x.2.val)) = S / W := by
    unfold wavg totalWeight
    rw [List.map_map, List.map_map, hW, hS]
    congr 1
    congr 1
    apply List.map_congr_left
    intro x _
    simp only [Function.comp]
    ring
  have havB : |S / W| ≤ B := by rw [abs_div, abs_of_pos hW0, div_le_iff₀ hW0]; exact hSB
  -- the exact quotient of the rounded sums
  have hquot : |m.sumwt.val / m.sumw.val - S / W| ≤ 4 * (G - 1) * B := by
    have e1 : m.sumwt.val / m.sumw.val - S / W = ((m.sumwt.val - S) + -(S / W * (m.sumw.val - W))) / m.sumw.val := by
      field_simp; ring
    have e2 : |S / W * (m.sumw.val - W)| ≤ B * ((g - 1) * W) := by
      rw [abs_mul]; exact mul_le_mul havB eW (abs_nonneg _) B0.le
    have e3 := abs_add_le (m.sumwt.val - S) (-(S / W * (m.sumw.val - W)))
    rw [abs_neg] at e3
    rw [e1, abs_div, abs_of_pos Wpos, div_le_iff₀ Wpos]
    have e4 : (G - 1) * (B * W) + g * F.u * (B * W) + B * ((g - 1) * W) = 2 * (G - 1) * (B * W) := by rw [hpow]; ring
    have e5 : 4 * (G - 1) * B * (W / 2) ≤ 4 * (G - 1) * B * m.sumw.val :=
      mul_le_mul_of_nonneg_left Wlow (mul_nonneg (by linarith) B0.le)
    linarith
  have hqabs : |m.sumwt.val / m.sumw.val| ≤ B + 4 * (G - 1) * B := by
    have := abs_add_le (m.sumwt.val / m.sumw.val - S / W) (S / W)
    rw [sub_add_cancel] at this
    linarith
  have hG3 : 4 * (G - 1) * B ≤ 2 * B := mul_le_mul_of_nonneg_right (by linarith) B0.le
  obtain ⟨f1, f2⟩ := (Flt.div_rounds nt.fin nw.fin Wpos.ne').fin_of (hqabs.trans (by nlinarith))
  refine ⟨m, Flt.div m.sumwt m.sumw, hs, ?_, rfl, f1, ?_⟩
  · show m.count.val = _
    rw [hc']; show (0 : ℤ) + _ = _; simp
  · rw [hav]
    have e1 := F.rs_err (m.sumwt.val / m.sumw.val)
    rw [← f2] at e1
    have e2 := abs_add_le ((Flt.div m.sumwt m.sumw).val - m.sumwt.val / m.sumw.val) (m.sumwt.val / m.sumw.val - S / W)
    rw [sub_add_sub_cancel] at e2
    have e3 : |m.sumwt.val / m.sumw.val| * F.u ≤ (3 * B) * F.u := mul_le_mul_of_nonneg_right (by linarith) u0.le
    have e4 : 0 ≤ (G - 1) * (F.u * B) := mul_nonneg (by linarith) (mul_nonneg u0.le B0.le)
    rw [pow_succ, ← hG]
    linarith
end

section
attribute [local instance] dbg64

/-- the hypotheses of the weighted mean -/
example : let xs : List (F64 × F64) := [(f64 1.5, f64 0.1), (f64 (-2.5), f64 3), (f64 0.3, f64 0)]
    (∀ x ∈ xs, x.1.isFin ∧ x.2.isFin ∧ |x.1.val| ≤ 3 ∧ 0 ≤ x.2.val) ∧ (1 + FFmt.f64.u) ^ xs.length ≤ 3 / 2 ∧ 0 < (xs.map fun x => x.2.val).sum ∧
    pow2 FFmt.f64.emin ≤ 3 ∧ xs.length * pow2 FFmt.f64.emin ≤ 3 * (xs.map fun x => x.2.val).sum ∧
    3 * (3 * (xs.map fun x => x.2.val).sum + (xs.map fun x => x.2.val).sum + 3) ≤ FFmt.f64.maxFin := by
  refine ⟨?_, by decide +kernel, by decide +kernel, by decide +kernel, by decide +kernel, by decide +kernel⟩
  intro x hx
  simp only [List.mem_cons, List.not_mem_nil, or_false] at hx
  rcases hx with rfl | rfl | rfl <;> refine ⟨?_, ?_, ?_, ?_⟩ <;> decide +kernel
end
end NdHist
