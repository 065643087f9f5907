import Verif.Props.NearStep
import Verif.Props.FloatSum
/-!
# C77 and C78 for cyclic axes with a given step size, and weighted contents
-/
namespace NdHist
open POrd RNum

section
variable [cfg : Cfg] {F : FFmt}

/-- what is used about a float axis built with a step size: its edges, and where `index` puts the coordinates between the bounds -/
theorem Uniform.step_edges {num : Nat} {low step : Flt F} {a : Uniform (Flt F)} (hnew : Uniform.withStepSize num low step = .ok (.ok a))
    (hl : low.isFin) (hs : step.isFin) (hh : a.high.isFin) (hn : num + 2 < usizeSize) (hp : num < 2 ^ (F.p - 1))
    (hw : num * pow2 F.emin ≤ a.high.val - low.val) (hsm : 4 * (num * (|low.val| + |a.high.val|)) ≤ F.maxFin)
    (hd : num * (12 * pow2 (-(F.p : ℤ)) * (|low.val| + |a.high.val|)) < a.high.val - low.val) :
    a.num = num ∧ a.low = low ∧ 0 < num ∧ ∃ ed : ℕ → Flt F, (∀ k, k < num → a.bin (k + 1) = .ok (some (.Bin (ed k) (ed (k + 1))))) ∧ (∀ k, k ≤ num → (ed k).isFin) ∧
      (∀ k, k < num → (ed k).val < (ed (k + 1)).val) ∧ (ed 0).val = low.val ∧
      |(ed num).val - a.high.val| ≤ 6 * (F.u * (|a.low.val| + |a.high.val|)) ∧
      ∀ c : Flt F, c.isFin → a.low.val ≤ c.val → c.val < a.high.val → ∃ i, a.index c = .ok (some i) ∧ 1 ≤ i ∧
        ((i ≤ num ∧ (ed (i - 1)).val - 13 * (F.u * (|a.low.val| + |a.high.val|)) ≤ c.val ∧ c.val ≤ (ed i).val + 13 * (F.u * (|a.low.val| + |a.high.val|))) ∨
         (i = num + 1 ∧ a.high.val - 7 * (F.u * (|a.low.val| + |a.high.val|)) ≤ c.val)) := by
  obtain ⟨hnum, elow, estep, num_pos, hs0, herr⟩ := Uniform.step_facts hnew hl hs hh hp
  have hn1 : (1 : ℚ) ≤ num := by exact_mod_cast num_pos
  have hn0 : (0 : ℚ) < num := by linarith
  have hR0 : 0 < a.high.val - low.val := lt_of_lt_of_le (mul_pos hn0 (pow2_pos _)) hw
  obtain ⟨b, hb, b1, b2, b3⟩ : ∃ b, Uniform.new num low a.high = .ok (.ok b) ∧ b.num = a.num ∧ b.low = a.low ∧ b.high = a.high := by
    refine ⟨⟨num, low, a.high, Flt.div (Flt.sub a.high low) (Flt.ofRat num)⟩, ?_, hnum.symm, elow.symm, rfl⟩
    rw [Uniform.new_flt, if_neg (by omega), if_neg, if_neg]
    · rw [Flt.gt_fin hl hh, decide_eq_true_iff]; linarith
    · rw [Flt.eq_fin hl hh, decide_eq_true_iff]; linarith
  have hw' : num * pow2 F.emin ≤ |a.high.val - low.val| := by rwa [abs_of_pos hR0]
  obtain ⟨e0, eN, -, ed, eb, ev, em, ez⟩ := C47_float_bins hb hl hh hn hp hw' hsm
  rw [Uniform.bin_new b1 b2 b3] at e0 eN eb
  rw [b2, b3] at *
  obtain ⟨-, h5⟩ := C05_with_step_size hnew hl hs hn hp
  obtain ⟨E, hE⟩ : ∃ E, E = F.u * (|a.low.val| + |a.high.val|) := ⟨_, rfl⟩
  have hE0 : 0 ≤ E := by rw [hE]; exact mul_nonneg F.u_pos.le (by positivity)
  have se : ∀ n : ℚ, n * pow2 (-(F.p : ℤ)) * (|low.val| + |a.high.val|) = n * E := by intro n; rw [hE, elow]; unfold FFmt.u; ring
  have zN := (ev num le_rfl).2
  rw [se, mul_div_cancel₀ _ (by linarith : (num : ℚ) ≠ 0)] at zN
  rw [se] at hd
  rw [← elow] at hd hsm hR0
  have hlf : a.low.isFin := by rw [elow]; exact hl
  rw [← hE]
  have hwid : 12 * E < (a.high.val - a.low.val) / num := by
    rw [lt_div_iff₀ hn0]; linarith
  refine ⟨hnum, elow, num_pos, ed, eb, fun k hk => (ev k hk).1, ?_, ?_, ?_, ?_⟩
  · intro i hi
    have y1 := abs_le.1 (ev i hi.le).2
    have y2 := abs_le.1 (ev (i + 1) hi).2
    rw [se] at y1 y2
    push_cast at y2
    linarith [y1.2, y2.1]
  · rw [Flt.eq_fin (ev 0 (by omega)).1 hlf] at ez
    rw [← elow]; exact of_decide_eq_true ez
  · convert zN using 2
    ring
  · intro c hcf h1 h2
    obtain ⟨i, i1, i2, -⟩ := h5 c
    obtain ⟨p1, p2, p3⟩ := Uniform.step_pos hnew hl hs hh hn hp (by
      have : 0 ≤ |a.low.val| + |a.high.val| := by positivity
      nlinarith) (by rw [← hE]; linarith) hcf h1 h2 i1
    rw [← hE] at p2 p3
    refine ⟨i, i1, p1, ?_⟩
    by_cases hin : i ≤ num
    · have y1 := abs_le.1 (ev (i - 1) (by omega)).2
      have y2 := abs_le.1 (ev i hin).2
      rw [se] at y1 y2
      exact .inl ⟨hin, by linarith [y1.2], by linarith [y2.1, p3 hin]⟩
    · have : i = num + 1 := by omega
      subst this
      rw [Nat.add_sub_cancel, mul_div_cancel₀ _ (by linarith : (num : ℚ) ≠ 0)] at p2
      exact .inr ⟨rfl, by linarith⟩

/-- **C77 (`UniformCyclic::with_step_size`).** The same as `C77_uniform_cyclic` for a cyclic axis built with a step size whose upper bound is finite (hypotheses in terms of
`high()`, and bins wider than twelve rounding errors of the bounds), with `seamError 18` in the first claim and `seamError 24` in the second. -/
theorem C77_uniform_cyclic_step {num : Nat} {low step : Flt F} {a : UniformCyclic (Flt F)} (hnew : UniformCyclic.withStepSize num low step = .ok (.ok a))
    (hl : low.isFin) (hs : step.isFin) (hh : a.high.isFin) (hn : num + 2 < usizeSize) (hp : num < 2 ^ (F.p - 1))
    (hw : num * pow2 F.emin ≤ a.high.val - low.val) (hsm : 4 * (num * (|low.val| + |a.high.val|)) ≤ F.maxFin)
    (hd : num * (12 * pow2 (-(F.p : ℤ)) * (|low.val| + |a.high.val|)) < a.high.val - low.val)
    (c : Flt F) (hc : c.isFin) (hD : |c.val - low.val| ≤ F.maxFin) :
    ((∃ (k : ℤ) (i : ℕ) (s t : Flt F), i < num ∧ a.index c = .ok (some i) ∧ a.bin i = .ok (some (.Bin s t)) ∧
        s.val - seamError F 18 low.val a.high.val c.val ≤ c.val - k * (a.high.val - low.val) ∧
        c.val - k * (a.high.val - low.val) ≤ t.val + seamError F 18 low.val a.high.val c.val) ∨
     (∃ k : ℤ, a.index c = .ok none ∧ |c.val - k * (a.high.val - low.val) - a.high.val| ≤ seamError F 18 low.val a.high.val c.val)) ∧
    (∀ (k : ℤ) (i : ℕ) (s t : Flt F), i < num → a.bin i = .ok (some (.Bin s t)) →
      s.val + seamError F 24 low.val a.high.val c.val < c.val - k * (a.high.val - low.val) →
      c.val - k * (a.high.val - low.val) < t.val - seamError F 24 low.val a.high.val c.val → a.index c = .ok (some i)) := by
  have hu := UniformCyclic.withStepSize_inv hnew
  have hhigh : a.high = a.axis.axis.high := rfl
  rw [hhigh] at hh hw hsm hd ⊢
  obtain ⟨hnum, elow, num_pos, ed, eb, fin, emono, z0, zN, loc⟩ := Uniform.step_edges hu hl hs hh hn hp hw hsm hd
  subst elow
  set lo := a.axis.axis.low with hlo
  set hi := a.axis.axis.high with hhi
  have hn1 : (1 : ℚ) ≤ num := by exact_mod_cast num_pos
  have hB0 : 0 ≤ |lo.val| + |hi.val| := by positivity
  have hB : 2 * (|lo.val| + |hi.val|) ≤ F.maxFin := by nlinarith
  have hlt : lo.val < hi.val := by
    have : (0 : ℚ) < num * pow2 F.emin := mul_pos (by linarith) (pow2_pos _)
    linarith
  obtain ⟨x, k, w1, x1, x2, x3, x4⟩ := wrapAround_near hl hh hc hlt hB hD
  have hidx : a.index c = a.axis.index x := by
    unfold UniformCyclic.index
    change (wrapAround lo hi c >>= _) = _
    rw [w1]; rfl
  have hup : 0 ≤ F.u * (|lo.val| + |hi.val|) := mul_nonneg F.u_pos.le hB0
  have hC0 := abs_nonneg (c.val - lo.val)
  have hCu : 0 ≤ F.u * |c.val - lo.val| := mul_nonneg F.u_pos.le hC0
  have se : ∀ n, seamError F n lo.val hi.val c.val = 3 * (F.u * |c.val - lo.val|) + n * (F.u * (|lo.val| + |hi.val|)) := by
    intro n; unfold seamError FFmt.u; ring
  have d := abs_le.1 x4
  rw [se] at d
  have hbin : ∀ j, j < num → a.bin j = .ok (some (.Bin (ed j) (ed (j + 1)))) := by
    intro j hj
    show a.axis.bin j = _
    rw [(C07_noflow_bin a.axis.axis j (by omega) (by omega)).1 (by omega), eb j hj]
  have first : (∃ (i : ℕ), i < num ∧ a.index c = .ok (some i) ∧
        (ed i).val - seamError F 18 lo.val hi.val c.val ≤ c.val - k * (hi.val - lo.val) ∧
        c.val - k * (hi.val - lo.val) ≤ (ed (i + 1)).val + seamError F 18 lo.val hi.val c.val) ∨
     (a.index c = .ok none ∧ |c.val - k * (hi.val - lo.val) - hi.val| ≤ 3 * (F.u * |c.val - lo.val|) + 12 * (F.u * (|lo.val| + |hi.val|))) := by
    have none_of : a.axis.axis.index x = .ok (some (num + 1)) → hi.val - 7 * (F.u * (|lo.val| + |hi.val|)) ≤ x.val →
        a.index c = .ok none ∧ |c.val - k * (hi.val - lo.val) - hi.val| ≤ 3 * (F.u * |c.val - lo.val|) + 12 * (F.u * (|lo.val| + |hi.val|)) := by
      intro hx hxv
      constructor
      · rw [hidx]
        rw [UniformNoFlow.index_of (by omega) hx (by omega), if_pos (Or.inr (by omega))]
      · rw [abs_le]; constructor <;> linarith [d.1, d.2]
    by_cases hx : x.val < hi.val
    · obtain ⟨i, i1, i2, i3⟩ := loc x x1 x2 hx
      rcases i3 with ⟨j1, j3, j4⟩ | ⟨rfl, j3⟩
      · left
        refine ⟨i - 1, by omega, ?_, ?_, ?_⟩
        · rw [hidx, UniformNoFlow.index_of (by omega) i1 (by omega), if_neg (by omega)]
        · rw [se]; linarith [d.1, d.2]
        · rw [se, show i - 1 + 1 = i by omega]; linarith [d.1, d.2]
      · exact .inr (none_of i1 j3)
    · refine .inr (none_of ?_ (by linarith))
      have := Uniform.index_high (a := a.axis.axis) (c := x) (by omega) (by rw [Flt.lt_fin x1 hl]; exact decide_eq_false (by linarith))
        (by rw [Flt.ge_fin x1 hh]; exact decide_eq_true (not_lt.1 hx))
      rw [this, hnum]
  constructor
  · rcases first with ⟨i, h1, h2, h3⟩ | ⟨h1, h2⟩
    · exact .inl ⟨k, i, _, _, h1, h2, hbin i h1, h3⟩
    · exact .inr ⟨k, h1, by rw [se]; linarith⟩
  · intro k' i s t hi' hb h1 h2
    rw [hbin i hi'] at hb
    cases hb
    have zN := abs_le.1 zN
    have key := locate_near (E := fun j => (ed j).val) (num := num) (fun j hj => (emono j hj).le) (R := hi.val - lo.val) (ρ := 6 * (F.u * (|lo.val| + |hi.val|)))
      (δ := seamError F 24 lo.val hi.val c.val) (δ' := seamError F 18 lo.val hi.val c.val) (q := c.val - k' * (hi.val - lo.val)) (m := k' - k)
      (by show (ed num).val - (ed 0).val ≤ _; rw [z0]; linarith [zN.2]) (by linarith) (by rw [se]; linarith) (by rw [se, se]; linarith) (by linarith) hi' h1 h2
    have e : c.val - k' * (hi.val - lo.val) + ((k' - k : ℤ) : ℚ) * (hi.val - lo.val) = c.val - k * (hi.val - lo.val) := by push_cast; ring
    rw [e] at key
    rcases first with ⟨j, j1, j2, j4, j5⟩ | ⟨-, j2⟩
    · have := key.1 j j1 j4 j5
      rw [← this]; exact j2
    · exfalso
      apply key.2
      rw [se]
      have := abs_le.1 j2
      show |c.val - k * (hi.val - lo.val) - (ed num).val| ≤ _
      rw [abs_le]
      constructor <;> linarith [zN.1, zN.2, this.1, this.2]

/-- **C78 (`UniformCyclic::with_step_size`).** Under the same hypotheses: every finite coordinate whose distance to the lower bound does not overflow is counted according to
the reported intervals after a whole number of turns, up to `seamError 24`. -/
theorem C78_uniform_cyclic_step {num : Nat} {low step : Flt F} {a : UniformCyclic (Flt F)} (hnew : UniformCyclic.withStepSize num low step = .ok (.ok a))
    (hl : low.isFin) (hs : step.isFin) (hh : a.high.isFin) (hn : num + 2 < usizeSize) (hp : num < 2 ^ (F.p - 1))
    (hw : num * pow2 F.emin ≤ a.high.val - low.val) (hsm : 4 * (num * (|low.val| + |a.high.val|)) ≤ F.maxFin)
    (hd : num * (12 * pow2 (-(F.p : ℤ)) * (|low.val| + |a.high.val|)) < a.high.val - low.val) :
    RoughAxis a num (BinInterval.InsideTurns (F := F) (a.high.val - low.val) (seamError F 24 low.val a.high.val))
      (BinInterval.NearTurns (a.high.val - low.val) (seamError F 24 low.val a.high.val)) (fun c : Flt F => c.isFin ∧ |c.val - low.val| ≤ F.maxFin) := by
  have hu := UniformCyclic.withStepSize_inv hnew
  obtain ⟨hnum, elow, num_pos, ed, eb, fin, strict, z0, zN, loc⟩ := Uniform.step_edges hu hl hs hh hn hp hw hsm hd
  have hlaw := C25_lawful_uniform_float_step hu hl hs hn hp
  rw [← hnum] at hlaw
  have hlaw' : LawfulAxis a num := by
    have := C25_lawful_uniform_cyclic hlaw
    rwa [hnum] at this
  have hbin : ∀ j, j < num → a.bin j = .ok (some (.Bin (ed j) (ed (j + 1)))) := by
    intro j hj
    show a.axis.bin j = _
    rw [(C07_noflow_bin a.axis.axis j (by omega) (by omega)).1 (by omega), eb j hj]
  have hB0 : 0 ≤ |low.val| + |a.high.val| := by positivity
  have hsm' : ∀ c, seamError F 18 low.val a.high.val c ≤ seamError F 24 low.val a.high.val c := by
    intro c
    unfold seamError
    exact mul_le_mul_of_nonneg_left (by linarith) (pow2_pos _).le
  refine RoughAxis.of_index hlaw' ?_ ?_ ?_ ?_
  · rintro c ⟨hc, hD⟩
    rcases (C77_uniform_cyclic_step hnew hl hs hh hn hp hw hsm hd c hc hD).1 with ⟨k, i, s, t, -, h, -⟩ | ⟨k, h, -⟩
    · exact ⟨_, h⟩
    · exact ⟨_, h⟩
  · intro i j b hi hj h1 h2
    have h1 : a.bin i = .ok (some b) := h1
    have h2 : a.bin j = .ok (some b) := h2
    rw [hbin i hi] at h1
    rw [hbin j hj] at h2
    cases h1
    injection h2 with h2; injection h2 with h2; injection h2 with h2 h3
    have mono' : ∀ i j, i ≤ j → j ≤ num → (ed i).val ≤ (ed j).val := by
      intro i j hij hj
      induction j, hij using Nat.le_induction with
      | base => exact le_rfl
      | succ j _ ih => exact (ih (by omega)).trans (strict j (by omega)).le
    rcases lt_trichotomy i j with h | h | h
    · have := mono' (i + 1) j h (by omega)
      have := strict i hi
      rw [h2] at *; linarith
    · exact h
    · have := mono' (j + 1) i h (by omega)
      have := strict j hj
      rw [h2] at *; linarith
  · rintro i b c hi hb ⟨hc, hD⟩ hin
    have hb' : a.bin i = .ok (some b) := hb
    rw [hbin i hi] at hb'
    cases hb'
    obtain ⟨k, k1, k2⟩ := hin
    exact (C77_uniform_cyclic_step hnew hl hs hh hn hp hw hsm hd c hc hD).2 k i _ _ hi (hbin i hi) k1 k2
  · rintro i b c hi hb ⟨hc, hD⟩ hix
    have hix : a.index c = .ok (some i) := hix
    have hb' : a.bin i = .ok (some b) := hb
    rcases (C77_uniform_cyclic_step hnew hl hs hh hn hp hw hsm hd c hc hD).1 with ⟨k, j, s, t, -, h, g, g1, g2⟩ | ⟨k, h, -⟩
    · rw [hix] at h
      cases h
      rw [hb'] at g
      cases g
      have := hsm' c.val
      exact ⟨k, by linarith, by linarith⟩
    · rw [hix] at h; cases h
end

/-! ## Weighted contents -/
section
variable [Cfg] {F : FFmt} {A : Type} [Axis A] {axes : A} {n : Nat} {inside near : Axis.Interval A → Axis.Coordinate A → Prop} {dom : Axis.Coordinate A → Prop}

omit [Cfg] in
theorem sum_filter_mono {α : Type} (l : List α) (f : α → ℚ) (h0 : ∀ x ∈ l, 0 ≤ f x) (p q : α → Bool) (hpq : ∀ x ∈ l, p x = true → q x = true) :
    ((l.filter p).map f).sum ≤ ((l.filter q).map f).sum := by
  induction l with
  | nil => simp
  | cons x l ih =>
    have ih := ih (fun y hy => h0 y (List.mem_cons_of_mem _ hy)) (fun y hy => hpq y (List.mem_cons_of_mem _ hy))
    have hx := h0 x List.mem_cons_self
    have hx' := hpq x List.mem_cons_self
    by_cases hp : p x = true
    · rw [List.filter_cons_of_pos hp, List.filter_cons_of_pos (hx' hp), List.map_cons, List.map_cons, List.sum_cons, List.sum_cons]
      linarith
    · rw [List.filter_cons_of_neg hp]
      by_cases hq : q x = true
      · rw [List.filter_cons_of_pos hq, List.map_cons, List.sum_cons]; linarith
      · rw [List.filter_cons_of_neg hq]; exact ih

open Classical in
/-- **C78 (weighted contents).** Filled with finite non-negative weights in range, no call panics and every bin holds, up to the rounding of the additions, at least the total
weight of the coordinates inside its interval and at most that of the coordinates near it. -/
theorem C78_weights_float (hf : RoughAxis axes n inside near dom) {h : VecHistogram A (Flt F)} (hnew : VecHistogram.new axes = .ok h)
    (hist : List (Axis.Coordinate A × Option (Flt F))) (hd : ∀ cw ∈ hist, dom cw.1) (hfin : ∀ cw ∈ hist, ∀ w, cw.2 = some w → w.isFin)
    (h0 : ∀ cw ∈ hist, 0 ≤ fltWeight cw) (hr : (1 + F.u) ^ hist.length * (hist.map fltWeight).sum ≤ F.maxFin) (hk : (1 + F.u) ^ hist.length ≤ 2) :
    ∃ h' items, h.callAll (numCalls hist) = (h', none) ∧ h'.iter = .ok items ∧ items.length = n ∧
      ∀ i it, items[i]? = some it → it.index = i ∧ Axis.bin axes i = .ok (some it.bin) ∧ it.value.isFin ∧
        (2 - (1 + F.u) ^ hist.length) * ((hist.filter fun cw => inside it.bin cw.1).map fltWeight).sum ≤ it.value.val ∧
        it.value.val ≤ (1 + F.u) ^ hist.length * ((hist.filter fun cw => near it.bin cw.1).map fltWeight).sum := by
  obtain ⟨cov, c1, c2, c3⟩ := hf
  have habs : (hist.map fun cw => |fltWeight cw|) = hist.map fltWeight := List.map_congr_left fun cw hcw => abs_of_nonneg (h0 cw hcw)
  obtain ⟨h', items, h1, h2, h3, h4⟩ := C57_dense c1 hnew hist hd hfin (by rw [habs]; exact hr)
  refine ⟨h', items, h1, h2, h3, fun i it hi => ?_⟩
  obtain ⟨k1, k2, k3, k4⟩ := h4 i it hi
  have hin : i < n := by rw [← h3]; exact (List.getElem?_eq_some_iff.1 hi).1
  have habs' : ((hist.filter fun cw => cov it.bin cw.1).map fun cw => |fltWeight cw|) = (hist.filter fun cw => cov it.bin cw.1).map fltWeight :=
    List.map_congr_left fun cw hcw => abs_of_nonneg (h0 cw (List.mem_filter.1 hcw).1)
  rw [habs'] at k4
  have s1 := sum_filter_mono hist fltWeight h0 (fun cw => inside it.bin cw.1) (fun cw => cov it.bin cw.1)
    (fun cw hcw hh => decide_eq_true (c2 i _ _ hin k2 (hd cw hcw) (of_decide_eq_true hh)))
  have s2 := sum_filter_mono hist fltWeight h0 (fun cw => cov it.bin cw.1) (fun cw => near it.bin cw.1)
    (fun cw _ hh => decide_eq_true (c3 _ _ (of_decide_eq_true hh)))
  have s0 := sum_filter_mono hist fltWeight h0 (fun _ => false) (fun cw => inside it.bin cw.1) (by simp)
  simp only [List.filter_false, List.map_nil, List.sum_nil] at s0
  have hu1 : (1 : ℚ) ≤ 1 + F.u := by linarith [F.u_pos]
  have hpow : (1 + F.u) ^ (hist.countP (fun cw => cov it.bin cw.1) - 1) ≤ (1 + F.u) ^ hist.length :=
    pow_le_pow_right₀ hu1 ((Nat.sub_le _ _).trans List.countP_le_length)
  have hpow1 : 1 ≤ (1 + F.u) ^ hist.length := one_le_pow₀ hu1
  have k5 := abs_le.1 (k4.trans (mul_le_mul_of_nonneg_right (sub_le_sub_right hpow 1) (by linarith)))
  generalize (1 + F.u) ^ hist.length = P at *
  refine ⟨k1, k2, k3, ?_, ?_⟩
  · have := mul_le_mul_of_nonneg_left s1 (show 0 ≤ 2 - P by linarith)
    linarith [k5.1]
  · have := mul_le_mul_of_nonneg_left s2 (show 0 ≤ P by linarith)
    linarith [k5.2]
end
end NdHist
